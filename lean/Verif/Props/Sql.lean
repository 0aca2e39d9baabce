import Verif.Lemmas.Sql
import Verif.Props.ProviderOpen
/-
C74 and C75: the texts of the queries.
-/
namespace Verif.Props
open Verif Verif.Spec Verif.SqlLemmas Verif.Props.DemoFiles

/-! ### C74 -/

/-- `LIKE` of the model is `LIKE`. -/
theorem C74_like (p s : Str) : like p s = true ↔ Likes p s := like_iff p s

/-- **C74 for strings.** -/
theorem C74_pattern (onlyOne exact : Bool) (db : Database) (identifier tag component : Str) :
    sqlRun (patternText onlyOne exact) (sqlDb db) [identifier, tag, component] =
      db.pattern.map fun rows => (selectPattern rows onlyOne exact identifier tag component).map
        fun r => [.text r.1, .text r.2] := by
  rw [run_of (read_pattern onlyOne exact)]
  have hdb : sqlDb db "pattern".toList = some (db.pattern.map patternTable) := rfl
  cases hp : db.pattern with
  | error e => simp only [SqlQuery.run, hdb, hp, Except.map]
  | ok rows =>
    simp only [SqlQuery.run, hdb, hp, Except.map]
    refine (if_pos ?_).trans ?_
    · rfl
    simp only [patternTable, List.filter_map, List.map_map, Bool.false_eq_true, if_false, selectPattern, Except.ok.injEq]
    have hf : ∀ r : PatternRow, (decide (r.identifier = identifier) && ((if !exact then like tag r.tag else
        decide (r.tag = tag)) && (decide (r.component = component) && true))) =
        decide (r.identifier = identifier ∧ (if exact then r.tag = tag else like tag r.tag = true) ∧
          r.component = component) := by
      intro r
      cases exact <;> simp [Bool.decide_and]
    have hfil := List.filter_congr (l := rows) fun r _ => hf r
    cases onlyOne with
    | false =>
      rw [limit, if_neg (by decide), ← hfil]
      rfl
    | true =>
      rw [← hfil]
      exact List.map_take.symm

/-- **C74 for languages.** -/
theorem C74_languages (db : Database) (component : Str) :
    sqlRun languagesText (sqlDb db) [component] =
      db.contributor.map fun rows => (selectLanguages rows component).map fun s => [.text s] := by
  rw [run_of read_languages]
  have hdb : sqlDb db "contributor".toList = some (db.contributor.map contributorTable) := rfl
  cases hp : db.contributor with
  | error e => simp only [SqlQuery.run, hdb, hp, Except.map]
  | ok rows =>
    simp only [SqlQuery.run, hdb, hp, Except.map]
    refine (if_pos ?_).trans ?_
    · rfl
    simp only [contributorTable, List.filter_map, List.map_map, if_true, selectLanguages, Except.ok.injEq]
    rw [← eraseDups_distinct, List.map_map,
      ← List.filter_congr (l := rows) fun r _ => (Bool.and_true (decide (r.component = component)))]
    rfl

/-- **C74 for the languages of an identifier.** -/
theorem C74_identifier_languages (db : Database) (identifier component : Str) :
    sqlRun identifierText (sqlDb db) [identifier, component] =
      db.pattern.map fun rows => (selectIdentifierLanguages rows identifier component).map fun s => [.text s] := by
  rw [run_of read_identifier]
  have hdb : sqlDb db "pattern".toList = some (db.pattern.map patternTable) := rfl
  cases hp : db.pattern with
  | error e => simp only [SqlQuery.run, hdb, hp, Except.map]
  | ok rows =>
    simp only [SqlQuery.run, hdb, hp, Except.map]
    refine (if_pos ?_).trans ?_
    · rfl
    simp only [patternTable, List.filter_map, List.map_map, Bool.false_eq_true, if_false, selectIdentifierLanguages,
      Except.ok.injEq]
    have hf : ∀ r : PatternRow, (decide (r.identifier = identifier) && (decide (r.component = component) && true)) =
        decide (r.identifier = identifier ∧ r.component = component) := by
      intro r; simp [Bool.decide_and]
    rw [← List.filter_congr (l := rows) fun r _ => hf r]
    rfl

/-- **C74 for contributors.** -/
theorem C74_contributors (db : Database) (tag component : Str) :
    sqlRun contributorsText (sqlDb db) [tag, component] =
      db.contributor.map fun rows => (selectContributors rows tag component).map fun s => [.text s] := by
  rw [run_of read_contributors]
  have hdb : sqlDb db "contributor".toList = some (db.contributor.map contributorTable) := rfl
  cases hp : db.contributor with
  | error e => simp only [SqlQuery.run, hdb, hp, Except.map]
  | ok rows =>
    simp only [SqlQuery.run, hdb, hp, Except.map]
    refine (if_pos ?_).trans ?_
    · rfl
    simp only [contributorTable, List.filter_map, List.map_map, if_true, selectContributors, Except.ok.injEq]
    have hf : ∀ r : ContributorRow, (decide (r.tag = tag) && (decide (r.component = component) && true)) =
        decide (r.tag = tag ∧ r.component = component) := by
      intro r; simp [Bool.decide_and]
    rw [← eraseDups_distinct, List.map_map, ← List.filter_congr (l := rows) fun r _ => hf r]
    rfl

/-- **C74 for counts.** -/
theorem C74_count (db : Database) (tag component : Str) :
    sqlRun countText (sqlDb db) [tag, component] =
      db.pattern.map fun rows => [[.number (selectCount rows tag component)]] := by
  rw [run_of read_count]
  have hdb : sqlDb db "pattern".toList = some (db.pattern.map patternTable) := rfl
  cases hp : db.pattern with
  | error e => simp only [SqlQuery.run, hdb, hp, Except.map]
  | ok rows =>
    simp only [SqlQuery.run, hdb, hp, Except.map]
    refine (if_pos ?_).trans ?_
    · rfl
    simp only [patternTable, List.filter_map, List.length_map, Bool.false_eq_true, if_false, selectCount,
      Except.ok.injEq]
    have hf : ∀ r : PatternRow, (decide (r.tag = tag) && (decide (r.component = component) && true)) =
        decide (r.tag = tag ∧ r.component = component) := by
      intro r; simp [Bool.decide_and]
    rw [← List.filter_congr (l := rows) fun r _ => hf r]
    rfl

/-- **C74 for default languages.** -/
theorem C74_default (db : Database) (component : Str) :
    sqlRun defaultText (sqlDb db) [component] =
      db.component.map fun rows => (selectDefault rows component).map fun s => [.text s] := by
  rw [run_of read_default]
  have hdb : sqlDb db "component".toList = some (db.component.map componentTable) := rfl
  cases hp : db.component with
  | error e => simp only [SqlQuery.run, hdb, hp, Except.map]
  | ok rows =>
    simp only [SqlQuery.run, hdb, hp, Except.map]
    refine (if_pos ?_).trans ?_
    · rfl
    simp only [componentTable, List.filter_map, List.map_map, Bool.false_eq_true, if_false, selectDefault,
      Except.ok.injEq]
    rw [← List.filter_congr (l := rows) fun r _ => (Bool.and_true (decide (r.identifier = component)))]
    rfl

def greetings : Database :=
  ⟨.ok [⟨"app".toList, "hi".toList, "en-ZA".toList, "Howzit".toList⟩, ⟨"app".toList, "hi".toList, "en".toList, "Hi".toList⟩],
    .ok [], .ok []⟩

/-- A database in which the queries find something: `LIKE` finds the longer tag too, `=` only the shorter. -/
example :
    sqlRun (patternText false false) (sqlDb greetings) ["hi".toList, "en%".toList, "app".toList] =
      .ok [[.text "Howzit".toList, .text "en-ZA".toList], [.text "Hi".toList, .text "en".toList]] ∧
    sqlRun (patternText false true) (sqlDb greetings) ["hi".toList, "en".toList, "app".toList] =
      .ok [[.text "Hi".toList, .text "en".toList]] := by
  rw [C74_pattern, C74_pattern]
  exact ⟨congrArg Except.ok (by decide +kernel), congrArg Except.ok (by decide +kernel)⟩

/-! ### C75 -/

/-- **C75 is violated.** The file is accepted, but SQLite cannot prepare the query for a string. -/
theorem C75_violated : verifySchema stringless = .ok "1.0".toList ∧ ¬ Prepares stringless (patternText true false) := by
  refine ⟨C42_violated.1, ?_⟩
  rintro ⟨q, tables, columns, h1, h2, h3, h4, h5⟩
  rw [read_pattern] at h1
  cases h1
  obtain ⟨rows, hr, hn⟩ := C42_violated.2
  rw [hr] at h4
  cases h4
  obtain ⟨row, hm, he⟩ := List.mem_map.1 (h5 "string".toList (by simp [SqlQuery.mentions]))
  exact hn row hm he

/-- **C75, what holds.** For every file that was accepted, SQLite can prepare all queries if and only if the tables have as
many columns as the queries need. Missing: files with fewer columns, for which the claim is false. -/
theorem C75_accepted_prepares_partial {db : DbFile} {version : Str} (h : verifySchema db = .ok version) :
    (∀ text ∈ queryTexts, Prepares db text) ↔
      (∀ cs, db.columns "contributor".toList = .ok cs → 4 ≤ cs.length) ∧
      (∀ cs, db.columns "pattern".toList = .ok cs → 5 ≤ cs.length) ∧
      (∀ cs, db.columns "component".toList = .ok cs → 3 ≤ cs.length) := by
  obtain ⟨_, tables, ht, _, _, h3⟩ := (C42_accepted_iff db version).1 h
  obtain ⟨ct, crows, hc, ha⟩ := h3 _ (List.mem_cons_of_mem _ (List.mem_cons_self ..))
  obtain ⟨pt, prows, hp, hb⟩ := h3 _ (List.mem_cons_of_mem _ (List.mem_cons_of_mem _ (List.mem_cons_of_mem _
    (List.mem_cons_of_mem _ (List.mem_cons_self ..)))))
  obtain ⟨ot, orows, ho, hd⟩ := h3 _ (List.mem_cons_self ..)
  replace ha := fun k hk => column_mem ha (k := k) hk
  replace hb := fun k hk => column_mem hb (k := k) hk
  replace hd := fun k hk => column_mem hd (k := k) hk
  constructor
  · intro hall
    have h1 := prepares_of read_contributors (hall contributorsText (by simp [queryTexts]))
    have h2 := prepares_of (read_pattern false false) (hall (patternText false false) (by simp [queryTexts]))
    have h3 := prepares_of read_default (hall defaultText (by simp [queryTexts]))
    refine ⟨fun cs e => ?_, fun cs e => ?_, fun cs e => ?_⟩
    · rw [hc] at e
      cases e
      exact (ha 3 (by decide)).1 (h1 _ hc "contributor".toList (by simp [SqlQuery.mentions]))
    · rw [hp] at e
      cases e
      exact (hb 4 (by decide)).1 (h2 _ hp "string".toList (by simp [SqlQuery.mentions]))
    · rw [ho] at e
      cases e
      exact (hd 2 (by decide)).1 (h3 _ ho "languageTag".toList (by simp [SqlQuery.mentions]))
  · rintro ⟨l1, l2, l3⟩
    replace l1 := l1 _ hc
    replace l2 := l2 _ hp
    replace l3 := l3 _ ho
    have c1 := (ha 1 (by decide)).2 (by omega)
    have c2 := (ha 2 (by decide)).2 (by omega)
    have c3 := (ha 3 (by decide)).2 (by omega)
    have p1 := (hb 1 (by decide)).2 (by omega)
    have p2 := (hb 2 (by decide)).2 (by omega)
    have p3 := (hb 3 (by decide)).2 (by omega)
    have p4 := (hb 4 (by decide)).2 (by omega)
    have o1 := (hd 1 (by decide)).2 (by omega)
    have o2 := (hd 2 (by decide)).2 (by omega)
    intro text hm
    have pat : ∀ a b, Prepares db (patternText a b) := fun a b =>
      ⟨_, tables, prows, read_pattern a b, ht, pt, hp, by
        simpa only [SqlQuery.mentions, Option.getD_some, List.map_cons, List.map_nil, List.cons_append, List.nil_append,
          List.forall_mem_cons, List.not_mem_nil, false_imp_iff, implies_true, and_true] using ⟨p4, p3, p2, p3, p1⟩⟩
    simp only [queryTexts, List.mem_cons, List.not_mem_nil, or_false] at hm
    rcases hm with rfl | rfl | rfl | rfl | rfl | rfl | rfl | rfl | rfl
    · exact pat _ _
    · exact pat _ _
    · exact pat _ _
    · exact pat _ _
    · exact ⟨_, tables, crows, read_languages, ht, ct, hc, by
        simpa only [SqlQuery.mentions, Option.getD_some, List.map_cons, List.map_nil, List.cons_append, List.nil_append,
          List.forall_mem_cons, List.not_mem_nil, false_imp_iff, implies_true, and_true] using ⟨c2, c1⟩⟩
    · exact ⟨_, tables, prows, read_identifier, ht, pt, hp, by
        simpa only [SqlQuery.mentions, Option.getD_some, List.map_cons, List.map_nil, List.cons_append, List.nil_append,
          List.forall_mem_cons, List.not_mem_nil, false_imp_iff, implies_true, and_true] using ⟨p3, p2, p1⟩⟩
    · exact ⟨_, tables, crows, read_contributors, ht, ct, hc, by
        simpa only [SqlQuery.mentions, Option.getD_some, List.map_cons, List.map_nil, List.cons_append, List.nil_append,
          List.forall_mem_cons, List.not_mem_nil, false_imp_iff, implies_true, and_true] using ⟨c3, c2, c1⟩⟩
    · exact ⟨_, tables, prows, read_count, ht, pt, hp, by
        simpa only [SqlQuery.mentions, Option.getD_none, List.map_cons, List.map_nil, List.cons_append, List.nil_append,
          List.forall_mem_cons, List.not_mem_nil, false_imp_iff, implies_true, and_true] using ⟨p3, p1⟩⟩
    · exact ⟨_, tables, orows, read_default, ht, ot, ho, by
        simpa only [SqlQuery.mentions, Option.getD_some, List.map_cons, List.map_nil, List.cons_append, List.nil_append,
          List.forall_mem_cons, List.not_mem_nil, false_imp_iff, implies_true, and_true] using ⟨o2, o1⟩⟩

/-- The shipped schema has the columns. -/
example : ∀ text ∈ queryTexts, Prepares shipped text :=
  (C75_accepted_prepares_partial (version := "1.0".toList) (by decide +kernel)).2
    ⟨fun _ e => by cases e; decide +kernel, fun _ e => by cases e; decide +kernel, fun _ e => by cases e; decide +kernel⟩

end Verif.Props
