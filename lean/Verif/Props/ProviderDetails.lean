import Verif.Lemmas.ProviderTotals
import Verif.Props.Provider
/-
Properties of the details that the SQLite provider reports.
-/
namespace Verif.Props
open Verif Verif.Spec Verif.ProviderLemmas DemoStore

variable {E : Type}

/-! ### Stores for the examples -/

namespace DemoStore

/-- The registry puts `en-za` into its canonical form. -/
def canonCase : Str → Except Unit Str := fun t => if t = "en-za".toList then .ok enZA else .ok t

def writer (tag name : Str) : ContributorRow := { component := app, tag := tag, contributor := name }

def tables (pattern : List PatternRow) (contributor : List ContributorRow) : Database :=
  { pattern := .ok pattern, contributor := .ok contributor, component := .ok [{ identifier := app, tag := en }] }

/-- `shared` in the database of all components, `own` elsewhere. -/
def twoFiles (shared own : Database) : Store := fun name => if name = allInOne then shared else own

def languagesOf (r : ProvM Unit (AMap Str ComponentDetails × RepositoryDetails)) : List (List (Str × Nat) × Nat) × Nat :=
  match r with
  | .ok (d, repo) => (d.map fun x => (x.2.languages.map fun l => (l.1, l.2.count), x.2.total), repo.total)
  | _ => ([], 0)

end DemoStore

/-! ### C40 -/

/-- The tags of two contributors become one in the registry: the language is counted twice in the totals. -/
theorem C40_violated :
    let st := twoFiles (tables [row en hello, row enZA howzit]
      [writer en "Ann".toList, writer "en-za".toList "Bob".toList, writer enZA "Cas".toList]) (tables [] [])
    ∃ details repo d, (provider (true, false)).buildCache canonCase st = .ok (details, repo) ∧
      details.get app = some d ∧ d.total = 3 ∧ sumCounts d.languages = 2 := by
  refine ⟨_, _, _, rfl, rfl, ?_, ?_⟩
  · decide +kernel
  · decide +kernel

/-- The total of a component is the sum of the counts of its languages, the total of the repository is the sum of the
totals of the components, and the repository's count of each language is the sum of the counts in the components. What is
missing: tags of contributors that the registry does not tell apart, in the database of all components
(`C40_violated`). -/
theorem C40_totals_consistent_partial {canon : Str → Except E Str} {p : Sqlite} (hc : Connected p)
    (hk : p.components.keys.Nodup) {st : Store} (hd : TagsDiffer canon st) {details : AMap Str ComponentDetails}
    {repo : RepositoryDetails} (h : p.buildCache canon st = .ok (details, repo)) :
    details.keys = p.components.keys ∧
    (∀ c d, details.get c = some d → d.languages.keys.Nodup ∧ d.total = sumCounts d.languages) ∧
    repo.total = (details.map fun x => x.2.total).sum ∧
    repo.languages.keys.Nodup ∧
    ∀ t, languageCount repo.languages t = (details.map fun x => languageCount x.2.languages t).sum := by
  obtain ⟨h1, h2, h3⟩ := buildCache_ok hk h
  have h3 := h3 hc hd
  refine ⟨h2, fun c d hg => ?_, h3.total, h1.nodup, h3.each⟩
  obtain ⟨_, _, hb⟩ := h1.built _ (AMap.mem_of_get hg)
  exact ⟨hb.nodup, h3.own _ (AMap.mem_of_get hg)⟩

example :
    let st := twoFiles (tables [row en hello] [writer en "Ann".toList])
      (tables [row en hello, row enZA howzit] [writer en "Bob".toList, writer enZA "Bob".toList])
    TagsDiffer canonCase st ∧
    languagesOf ((provider (true, true)).buildCache canonCase st) = ([([(en, 2), (enZA, 1)], 3)], 3) := by
  refine ⟨?_, by decide +kernel⟩
  intro rows hr r hr1 r' hr2 t _ _
  have : rows = [writer en "Ann".toList] := by
    have : (twoFiles (tables [row en hello] [writer en "Ann".toList])
      (tables [row en hello, row enZA howzit] [writer en "Bob".toList, writer enZA "Bob".toList]) allInOne).contributor =
        .ok [writer en "Ann".toList] := rfl
    rw [this] at hr
    exact (Except.ok.inj hr).symm
  subst this
  simp at hr1 hr2
  rw [hr1, hr2]

/-- Exactly when the totals are right: they are never too small, the total of the repository is always the sum of the totals
of the components, and a total or the repository's count of a language is too large exactly if the registry makes one tag of
two tags of contributors of a component and that language has strings in that component. -/
theorem C40_exactly_partial {canon : Str → Except E Str} {p : Sqlite} (hc : Connected p)
    (hk : p.components.keys.Nodup) {st : Store} {details : AMap Str ComponentDetails} {repo : RepositoryDetails}
    (h : p.buildCache canon st = .ok (details, repo)) :
    (∀ c d, details.get c = some d → sumCounts d.languages ≤ d.total ∧
      (d.total = sumCounts d.languages ↔ ∀ t, Merged canon p st c t → languageCount d.languages t = 0)) ∧
    repo.total = (details.map fun x => x.2.total).sum ∧
    ∀ t, (details.map fun x => languageCount x.2.languages t).sum ≤ languageCount repo.languages t ∧
      (languageCount repo.languages t = (details.map fun x => languageCount x.2.languages t).sum ↔
        ∀ c d, details.get c = some d → Merged canon p st c t → languageCount d.languages t = 0) := by
  have hT := buildCache_totals hc hk h
  have hn : details.keys.Nodup := (buildCache_ok hk h).2.1 ▸ hk
  refine ⟨fun c d hg => hT.own _ (AMap.mem_of_get hg), hT.total, fun t => ⟨(hT.each t).1, ?_⟩⟩
  rw [(hT.each t).2]
  exact ⟨fun hall c d hg => hall _ (AMap.mem_of_get hg), fun hall x hx => hall x.1 x.2 (AMap.get_of_mem hn hx)⟩

/-- The two tags are made one, but the language has no strings: the totals are right nevertheless. -/
example :
    let st := twoFiles (tables [row en hello]
      [writer en "Ann".toList, writer "en-za".toList "Bob".toList, writer enZA "Cas".toList]) (tables [] [])
    Merged canonCase (provider (true, false)) st app enZA ∧
    languagesOf ((provider (true, false)).buildCache canonCase st) = ([([(en, 1), (enZA, 0)], 1)], 1) := by
  refine ⟨⟨⟨_, rfl, rfl⟩, _, rfl, writer "en-za".toList "Bob".toList, by simp, writer enZA "Cas".toList, by simp, rfl, rfl,
    by decide, rfl, rfl⟩, by decide +kernel⟩

/-! ### C52 -/

theorem mem_languages {canon : Str → Except E Str} {rows : List ContributorRow} {c : Str} {ls : List Str}
    (h : askTags canon (selectLanguages rows c) = .ok ls) (t : Str) :
    t ∈ ls ↔ ∃ r ∈ rows, r.component = c ∧ canon r.tag = .ok t := by
  rw [askTags_ok h]
  unfold selectLanguages
  constructor
  · rintro ⟨t', h1, h2⟩
    rw [mem_distinct, List.mem_map] at h1
    obtain ⟨r, h3, rfl⟩ := h1
    have := List.mem_filter.1 h3
    exact ⟨r, this.1, by simpa using this.2, h2⟩
  · rintro ⟨r, h1, h2, h3⟩
    refine ⟨r.tag, ?_, h3⟩
    rw [mem_distinct, List.mem_map]
    exact ⟨r, List.mem_filter.2 ⟨h1, by simpa using h2⟩, rfl⟩

theorem mem_contributors (rows : List ContributorRow) (tag c x : Str) :
    x ∈ selectContributors rows tag c ↔ ∃ r ∈ rows, r.component = c ∧ r.tag = tag ∧ r.contributor = x := by
  unfold selectContributors
  rw [mem_distinct, List.mem_map]
  constructor
  · rintro ⟨r, h1, h2⟩
    have := List.mem_filter.1 h1
    have h3 : r.tag = tag ∧ r.component = c := by simpa using this.2
    exact ⟨r, this.1, h3.2, h3.1, h2⟩
  · rintro ⟨r, h1, h2, h3, h4⟩
    exact ⟨r, List.mem_filter.2 ⟨h1, by simp [h2, h3]⟩, h4⟩

/-- The details of a component report what its places hold: the languages are those of the contributors, the count of a
language is the number of strings stored with that tag, the contributors are those recorded with that tag, and the default
language is one of the languages. -/
theorem C52_component_details_report_store {canon : Str → Except E Str} {p : Sqlite} (hc : Connected p)
    (hk : p.components.keys.Nodup) {st : Store} {details : AMap Str ComponentDetails} {repo : RepositoryDetails}
    (h : p.buildCache canon st = .ok (details, repo)) {c : Str} {files : Bool × Bool}
    (hcomp : p.components.get c = some files) {pattern : Str → List PatternRow} {contributor : Str → List ContributorRow}
    (hcon : Contents st (places files c) pattern contributor) :
    ∃ d, details.get c = some d ∧ (d.languages.get d.default).isSome = true ∧
      (∀ t, (d.languages.get t).isSome = true ↔
        ∃ name ∈ places files c, ∃ r ∈ contributor name, r.component = c ∧ canon r.tag = .ok t) ∧
      ∀ t data, d.languages.get t = some data →
        data.count = ((places files c).map fun name =>
          ((pattern name).filter fun r => r.component = c ∧ r.tag = t).length).sum ∧
        ∀ x, x ∈ data.contributors ↔
          ∃ name ∈ places files c, ∃ r ∈ contributor name, r.component = c ∧ r.tag = t ∧ r.contributor = x := by
  obtain ⟨h1, h2, _⟩ := buildCache_ok hk h
  have hkey : c ∈ details.keys := by rw [h2]; exact (AMap.mem_keys_iff _ _).2 ⟨files, hcomp⟩
  obtain ⟨d, hd⟩ := (AMap.mem_keys_iff _ _).1 hkey
  obtain ⟨files', hmem, hb⟩ := h1.built _ (AMap.mem_of_get hd)
  have : files' = files := by
    have := AMap.get_of_mem hk hmem
    rw [hcomp] at this
    exact (Option.some.inj this).symm
  subst this
  simp only at hb
  have hsome : ∀ t, (d.languages.get t).isSome = true ↔ t ∈ d.languages.keys := fun t => by
    rw [AMap.mem_keys_iff, Option.isSome_iff_exists]
  refine ⟨d, hd, (hsome _).2 hb.default, fun t => ?_, fun t data hg => ?_⟩
  · rw [hsome]
    obtain ⟨first, second, a1, a2, a3⟩ := hb.languages
    rw [a3]
    have f1 : t ∈ first ↔ files'.1 = true ∧ ∃ r ∈ contributor allInOne, r.component = c ∧ canon r.tag = .ok t := by
      unfold askIf at a1
      split at a1
      · next hf =>
        unfold Sqlite.languages at a1
        rw [connection_shared hc hcomp hf, Outcome.bind_ok, hcon.contributor allInOne (by simp [places, hf]), readTable,
          Outcome.bind_ok] at a1
        rw [mem_languages a1]
        simp [hf]
      · next hf => cases a1; simp [hf]
    have f2 : t ∈ second ↔ files'.2 = true ∧ ∃ r ∈ contributor c, r.component = c ∧ canon r.tag = .ok t := by
      unfold askIf at a2
      split at a2
      · next hf =>
        unfold Sqlite.languages at a2
        rw [connection_own hc hcomp hf rfl, Outcome.bind_ok, hcon.contributor c (by simp [places, hf]), readTable,
          Outcome.bind_ok] at a2
        rw [mem_languages a2]
        simp [hf]
      · next hf => cases a2; simp [hf]
    rw [f1, f2]
    constructor
    · rintro (⟨hf, h⟩ | ⟨hf, h⟩)
      · exact ⟨allInOne, by simp [places, hf], h⟩
      · exact ⟨c, by simp [places, hf], h⟩
    · rintro ⟨name, hn, h⟩
      unfold places at hn
      rcases List.mem_append.1 hn with hn | hn
      · split at hn
        · next hf => simp at hn; subst hn; exact .inl ⟨hf, h⟩
        · cases hn
      · split at hn
        · next hf => simp at hn; subst hn; exact .inr ⟨hf, h⟩
        · cases hn
  · obtain ⟨data', e1, e2⟩ := hb.data t ((hsome t).1 (by simp [hg]))
    rw [hg] at e2
    cases e2
    unfold Sqlite.languageData at e1
    obtain ⟨cs, g1, e1⟩ := bind_eq_ok e1
    obtain ⟨cs', g2, e1⟩ := bind_eq_ok e1
    obtain ⟨n, g3, e1⟩ := bind_eq_ok e1
    obtain ⟨m, g4, e1⟩ := bind_eq_ok e1
    cases e1
    have hfil : ∀ rows : List PatternRow, selectCount rows t c =
        (rows.filter fun r => r.component = c ∧ r.tag = t).length := fun rows => by
      unfold selectCount
      congr 1
      apply List.filter_congr
      intro r _
      simp only [decide_eq_decide]
      exact And.comm
    constructor
    · have k1 : n = ((if files'.1 then [allInOne] else []).map fun name =>
          ((pattern name).filter fun r => r.component = c ∧ r.tag = t).length).sum := by
        unfold askIf at g3
        split at g3
        · next hf =>
          unfold Sqlite.count at g3
          rw [connection_shared hc hcomp hf, Outcome.bind_ok, hcon.pattern allInOne (by simp [places, hf]), readTable,
            Outcome.bind_ok] at g3
          cases g3
          simp [hf, hfil]
        · next hf => cases g3; simp [hf]
      have k2 : m = ((if files'.2 then [c] else []).map fun name =>
          ((pattern name).filter fun r => r.component = c ∧ r.tag = t).length).sum := by
        unfold askIf at g4
        split at g4
        · next hf =>
          unfold Sqlite.count at g4
          rw [connection_own hc hcomp hf rfl, Outcome.bind_ok, hcon.pattern c (by simp [places, hf]), readTable,
            Outcome.bind_ok] at g4
          cases g4
          simp [hf, hfil]
        · next hf => cases g4; simp [hf]
      simp only [places, List.map_append, List.sum_append]
      rw [k1, k2]
    · intro x
      rw [mem_union]
      have k1 : x ∈ cs ↔ files'.1 = true ∧ ∃ r ∈ contributor allInOne, r.component = c ∧ r.tag = t ∧ r.contributor = x := by
        unfold askIf at g1
        split at g1
        · next hf =>
          unfold Sqlite.contributors at g1
          rw [connection_shared hc hcomp hf, Outcome.bind_ok, hcon.contributor allInOne (by simp [places, hf]), readTable,
            Outcome.bind_ok] at g1
          cases g1
          rw [mem_contributors]
          simp [hf]
        · next hf => cases g1; simp [hf]
      have k2 : x ∈ cs' ↔ files'.2 = true ∧ ∃ r ∈ contributor c, r.component = c ∧ r.tag = t ∧ r.contributor = x := by
        unfold askIf at g2
        split at g2
        · next hf =>
          unfold Sqlite.contributors at g2
          rw [connection_own hc hcomp hf rfl, Outcome.bind_ok, hcon.contributor c (by simp [places, hf]), readTable,
            Outcome.bind_ok] at g2
          cases g2
          rw [mem_contributors]
          simp [hf]
        · next hf => cases g2; simp [hf]
      rw [k1, k2]
      constructor
      · rintro (⟨hf, h⟩ | ⟨hf, h⟩)
        · exact ⟨allInOne, by simp [places, hf], h⟩
        · exact ⟨c, by simp [places, hf], h⟩
      · rintro ⟨name, hn, h⟩
        unfold places at hn
        rcases List.mem_append.1 hn with hn | hn
        · split at hn
          · next hf => simp at hn; subst hn; exact .inl ⟨hf, h⟩
          · cases hn
        · split at hn
          · next hf => simp at hn; subst hn; exact .inr ⟨hf, h⟩
          · cases hn

/-- Building succeeds for such a store, and gives the data of both places. -/
example :
    let st := twoFiles (tables [row en hello] [writer en "Ann".toList])
      (tables [row en hello, row enZA howzit] [writer en "Bob".toList, writer enZA "Bob".toList])
    Contents st (places (true, true) app) (fun n => if n = allInOne then [row en hello] else [row en hello, row enZA howzit])
      (fun n => if n = allInOne then [writer en "Ann".toList] else [writer en "Bob".toList, writer enZA "Bob".toList]) ∧
    ∃ details repo d, (provider (true, true)).buildCache canonCase st = .ok (details, repo) ∧ details.get app = some d ∧
      d.languages.get en = some { count := 2, contributors := ["Ann".toList, "Bob".toList] } ∧ d.default = en := by
  refine ⟨⟨fun n _ => ?_, fun n _ => ?_⟩, _, _, _, rfl, rfl, by decide +kernel, by decide +kernel⟩
  all_goals
    simp only [twoFiles]
    split <;> rfl

theorem askTags_last {canon : Str → Except E Str} : ∀ {tags ts : List Str}, askTags canon tags = .ok ts →
    (ts.getLast? = none ↔ tags = []) ∧ ∀ t, ts.getLast? = some t → ∃ tag, tags.getLast? = some tag ∧ canon tag = .ok t := by
  intro tags
  induction tags with
  | nil => intro ts h; cases h; simp
  | cons tag tags ih =>
    intro ts h
    unfold askTags at h
    obtain ⟨x, h1, h⟩ := bind_eq_ok h
    obtain ⟨xs, h2, h⟩ := bind_eq_ok h
    cases h
    have hx : canon tag = .ok x := by
      unfold askTag at h1
      split at h1
      · next e => cases h1; exact e
      · cases h1
    obtain ⟨i1, i2⟩ := ih h2
    refine ⟨by simp, fun t ht => ?_⟩
    cases hl : xs.getLast? with
    | none =>
      have h3 := i1.1 hl
      have h4 := List.getLast?_eq_none_iff.1 hl
      subst h3 h4
      simp at ht
      subst ht
      exact ⟨tag, rfl, hx⟩
    | some y =>
      rw [List.getLast?_cons, hl] at ht
      simp at ht
      subst ht
      obtain ⟨tag', h5, h6⟩ := i2 y hl
      exact ⟨tag', by rw [List.getLast?_cons, h5]; rfl, h6⟩

/-- The default language of a component is the tag in its last row of the table `component` in the first of its places
that has one. -/
theorem C52_default_language {canon : Str → Except E Str} {p : Sqlite} (hc : Connected p)
    (hk : p.components.keys.Nodup) {st : Store} {details : AMap Str ComponentDetails} {repo : RepositoryDetails}
    (h : p.buildCache canon st = .ok (details, repo)) {c : Str} {files : Bool × Bool}
    (hcomp : p.components.get c = some files) {d : ComponentDetails} (hd : details.get c = some d)
    {component : Str → List ComponentRow} (hr : ∀ name ∈ places files c, (st name).component = .ok (component name)) :
    ∃ before name after r, places files c = before ++ name :: after ∧
      (∀ n ∈ before, ∀ r ∈ component n, r.identifier ≠ c) ∧
      ((component name).filter fun r => r.identifier = c).getLast? = some r ∧ canon r.tag = .ok d.default := by
  obtain ⟨h1, h2, _⟩ := buildCache_ok hk h
  obtain ⟨files', hmem, hb⟩ := h1.built _ (AMap.mem_of_get hd)
  have : files' = files := by
    have := AMap.get_of_mem hk hmem
    rw [hcomp] at this
    exact (Option.some.inj this).symm
  subst this
  simp only at hb
  obtain ⟨first, a1, a2⟩ := hb.defaultFrom
  have key : ∀ {name : Str} {aio : Bool} {x : Option Str}, p.connection (E := E) c aio = .ok name → name ∈ places files' c →
      p.defaultLanguage canon st c aio = .ok x →
      (x = none → ∀ r ∈ component name, r.identifier ≠ c) ∧
      ∀ t, x = some t → ∃ r, ((component name).filter fun r => r.identifier = c).getLast? = some r ∧ canon r.tag = .ok t := by
    intro name aio x hcon hp hx
    unfold Sqlite.defaultLanguage at hx
    rw [hcon, Outcome.bind_ok, hr name hp, readTable, Outcome.bind_ok] at hx
    obtain ⟨ts, e1, e2⟩ := bind_eq_ok hx
    cases e2
    obtain ⟨l1, l2⟩ := askTags_last e1
    unfold selectDefault at l1 l2
    constructor
    · intro hn r hr' hid
      have := l1.1 hn
      rw [List.map_eq_nil_iff, List.filter_eq_nil_iff] at this
      exact this r hr' (by simpa using hid)
    · intro t ht
      obtain ⟨tag, e3, e4⟩ := l2 t ht
      rw [List.getLast?_map] at e3
      obtain ⟨r, e5, e6⟩ := Option.map_eq_some_iff.1 e3
      exact ⟨r, e5, by rw [e6]; exact e4⟩
  have ownPlace : files'.2 = true → askIf (E := E) true (p.defaultLanguage canon st c false) first = .ok (some d.default) →
      ∃ r, ((component c).filter fun r => r.identifier = c).getLast? = some r ∧ canon r.tag = .ok d.default := by
    intro hf hx
    exact (key (connection_own hc hcomp hf rfl) (by simp [places, hf]) (by simpa [askIf] using hx)).2 _ rfl
  unfold places
  cases hf1 : files'.1 with
  | true =>
    rw [hf1] at a1
    obtain ⟨k1, k2⟩ := key (connection_shared hc hcomp hf1) (by simp [places, hf1]) (by simpa [askIf] using a1)
    cases first with
    | some t =>
      simp only [askIf, Option.isNone_some, Bool.false_and, Bool.false_eq_true, if_false] at a2
      have ht : t = d.default := Option.some.inj (Outcome.ok.inj a2)
      obtain ⟨r, r1, r2⟩ := k2 t rfl
      refine ⟨[], allInOne, _, r, rfl, (fun n hn => by cases hn), r1, by rw [← ht]; exact r2⟩
    | none =>
      cases hf2 : files'.2 with
      | false => rw [hf2] at a2; simp [askIf] at a2
      | true =>
        rw [hf2] at a2
        obtain ⟨r, r1, r2⟩ := ownPlace hf2 a2
        refine ⟨[allInOne], c, [], r, rfl, fun n hn => ?_, r1, r2⟩
        have : n = allInOne := by simpa using hn
        rw [this]
        exact k1 rfl
  | false =>
    rw [hf1] at a1
    have : none = first := by simpa [askIf] using a1
    subst this
    cases hf2 : files'.2 with
    | false => rw [hf2] at a2; simp [askIf] at a2
    | true =>
      rw [hf2] at a2
      obtain ⟨r, r1, r2⟩ := ownPlace hf2 a2
      exact ⟨[], c, [], r, rfl, (fun n hn => by cases hn), r1, r2⟩

/-- The own database names another default language than the database of all components, which counts. -/
example : ∃ details repo d before name after r, (provider (true, true)).buildCache DemoStore.canon
    (twoFiles (tables [] [writer en "Ann".toList])
      { tables [] [writer enZA "Bob".toList] with component := .ok [{ identifier := app, tag := enZA }] }) =
        .ok (details, repo) ∧ details.get app = some d ∧ d.default = en ∧
    places (true, true) app = before ++ name :: after ∧ r = { identifier := app, tag := en } ∧
    (([r] : List ComponentRow).filter fun r => r.identifier = app).getLast? = some r :=
  ⟨_, _, _, [], allInOne, [app], _, rfl, rfl, by decide +kernel, rfl, rfl, by decide⟩

/-! ### C53 -/

/-- The repository has the languages and the contributors of the components, lists every component once, and its default
language is that of the component `application`. What is missing: the contributors of each language (`C53_violated`). -/
theorem C53_repository_unites_components_partial {canon : Str → Except E Str} {p : Sqlite} (hk : p.components.keys.Nodup)
    {st : Store} {details : AMap Str ComponentDetails} {repo : RepositoryDetails}
    (h : p.buildCache canon st = .ok (details, repo)) :
    repo.components.Nodup ∧ (∀ c, c ∈ repo.components ↔ ∃ d, details.get c = some d) ∧
    (∀ t, (repo.languages.get t).isSome = true ↔ ∃ c d, details.get c = some d ∧ (d.languages.get t).isSome = true) ∧
    (∀ x, x ∈ repo.contributors ↔
      ∃ c d t data, details.get c = some d ∧ d.languages.get t = some data ∧ x ∈ data.contributors) ∧
    repo.default = (details.get "application".toList).map (·.default) := by
  obtain ⟨h1, h2, _⟩ := buildCache_ok hk h
  have hn : details.keys.Nodup := by rw [h2]; exact hk
  refine ⟨by rw [h1.components]; exact hn, fun c => by rw [h1.components, AMap.mem_keys_iff], fun t => ?_, fun x => ?_,
    h1.default⟩
  · have hsome : ∀ (m : AMap Str LanguageData) t, (m.get t).isSome = true ↔ t ∈ m.keys := fun m t => by
      rw [AMap.mem_keys_iff, Option.isSome_iff_exists]
    rw [hsome, h1.languages]
    constructor
    · rintro ⟨x, hx, h⟩
      exact ⟨x.1, x.2, AMap.get_of_mem hn hx, (hsome _ _).2 h⟩
    · rintro ⟨c, d, hx, h⟩
      exact ⟨(c, d), AMap.mem_of_get hx, (hsome _ _).1 h⟩
  · rw [h1.contributors]
    constructor
    · rintro ⟨x, hx, t, d, h, h'⟩
      exact ⟨x.1, x.2, t, d, AMap.get_of_mem hn hx, h, h'⟩
    · rintro ⟨c, d, t, data, hx, h, h'⟩
      exact ⟨(c, d), AMap.mem_of_get hx, t, data, h, h'⟩

/-- No language of the repository has contributors, whatever the components have: the lists stay empty. -/
theorem C53_languages_without_contributors {canon : Str → Except E Str} {p : Sqlite} (hk : p.components.keys.Nodup)
    {st : Store} {details : AMap Str ComponentDetails} {repo : RepositoryDetails}
    (h : p.buildCache canon st = .ok (details, repo)) {t : Str} {data : LanguageData}
    (hg : repo.languages.get t = some data) : data.contributors = [] :=
  (buildCache_ok hk h).1.empty _ (AMap.mem_of_get hg)

/-- The component has contributors for `en`, the repository has none for it. -/
theorem C53_violated :
    let st := twoFiles (tables [row en hello] [writer en "Ann".toList])
      (tables [row en hello, row enZA howzit] [writer en "Bob".toList, writer enZA "Bob".toList])
    ∃ details repo d, (provider (true, true)).buildCache canonCase st = .ok (details, repo) ∧ details.get app = some d ∧
      d.languages.get en = some { count := 2, contributors := ["Ann".toList, "Bob".toList] } ∧
      repo.contributors = ["Ann".toList, "Bob".toList] ∧ repo.default = some en ∧
      repo.languages.get en = some { count := 2, contributors := [] } := by
  refine ⟨_, _, _, rfl, rfl, by decide +kernel, by decide +kernel, by decide +kernel, by decide +kernel⟩

/-! ### C44 -/

/-- An identifier without strings in a component that is only in the database of all components: an error that says the
component is not there. -/
theorem C44_violated : ∀ d, (provider (true, false)).identifierDetails DemoStore.canon (store [row en hello] []) [(app, d)] app
    "other".toList = .err (.componentNotFound app) := by
  intro d
  rfl

/-- Languages in the own database are not listed if the database of all components has any. -/
theorem C44_violated_shadowed : (match (provider (true, true)).identifierDetails DemoStore.canon
    (store [row en hello] [row enZA howzit]) [(app, { languages := [], default := en, total := 0 })] app greeting with
    | .ok x => x.1
    | _ => []) = [en] := by
  decide +kernel

/-- Details of an identifier of a served component list exactly the languages in which it has strings. What is missing: an
identifier without strings in a component that is only in the database of all components (`C44_violated`), and an
identifier with strings in the database of all components and with other languages in the own one
(`C44_violated_shadowed`). -/
theorem C44_lists_stored_languages_partial {canon : Str → Except E Str} {p : Sqlite} (hc : Connected p) {st : Store} {c i : Str}
    {files : Bool × Bool} (h : p.components.get c = some files) (hf : files.1 = true ∨ files.2 = true)
    {details : AMap Str ComponentDetails} {d : ComponentDetails} (hd : details.get c = some d)
    {rows : Str → List PatternRow} (hr : Holds canon st (places files c) rows)
    (hknown : files.1 = true → files.2 = false → ∃ r ∈ rows allInOne, For c i r)
    (hsame : files.1 = true → files.2 = true → (∃ r ∈ rows allInOne, For c i r) →
      ∀ r ∈ rows c, For c i r → ∃ r' ∈ rows allInOne, For c i r' ∧ canon r'.tag = canon r.tag) :
    ∃ languages, p.identifierDetails canon st details c i = .ok (languages, d.default) ∧
      ∀ t, t ∈ languages ↔ ∃ name ∈ places files c, ∃ r ∈ rows name, For c i r ∧ canon r.tag = .ok t := by
  have hread : ∀ (l : List PatternRow), (∀ r ∈ l, Readable canon r) → ∃ ts,
      askTags canon (selectIdentifierLanguages l i c) = .ok ts ∧
      ∀ t, t ∈ ts ↔ ∃ r ∈ l, For c i r ∧ canon r.tag = .ok t := by
    intro l hl
    have : ∃ ts, askTags canon (selectIdentifierLanguages l i c) = .ok ts := by
      unfold selectIdentifierLanguages
      have : ∀ tags : List Str, (∀ t ∈ tags, ∃ x, canon t = .ok x) → ∃ ts, askTags canon tags = .ok ts := by
        intro tags
        induction tags with
        | nil => intro _; exact ⟨[], rfl⟩
        | cons t tags ih =>
          intro ht
          obtain ⟨x, hx⟩ := ht t (by simp)
          obtain ⟨xs, hxs⟩ := ih fun t h => ht t (by simp [h])
          exact ⟨x :: xs, by simp [askTags, askTag, hx, hxs]⟩
      apply this
      intro t ht
      obtain ⟨r, h1, rfl⟩ := List.mem_map.1 ht
      exact hl r (List.mem_filter.1 h1).1
    obtain ⟨ts, hts⟩ := this
    refine ⟨ts, hts, fun t => ?_⟩
    rw [askTags_ok hts]
    unfold selectIdentifierLanguages
    constructor
    · rintro ⟨t', h1, h2⟩
      obtain ⟨r, h3, rfl⟩ := List.mem_map.1 h1
      have h4 := List.mem_filter.1 h3
      have h5 : r.identifier = i ∧ r.component = c := by simpa using h4.2
      exact ⟨r, h4.1, ⟨h5.2, h5.1⟩, h2⟩
    · rintro ⟨r, h1, h2, h3⟩
      exact ⟨r.tag, List.mem_map.2 ⟨r, List.mem_filter.2 ⟨h1, by simp [h2.1, h2.2]⟩, rfl⟩, h3⟩
  have hne : ∀ {l : List PatternRow} {ts : List Str}, (∀ r ∈ l, Readable canon r) →
      (∀ t, t ∈ ts ↔ ∃ r ∈ l, For c i r ∧ canon r.tag = .ok t) → (ts = [] ↔ ¬ ∃ r ∈ l, For c i r) := by
    intro l ts hl hts
    constructor
    · rintro rfl ⟨r, h1, h2⟩
      obtain ⟨t, ht⟩ := hl r h1
      have := (hts t).2 ⟨r, h1, h2, ht⟩
      cases this
    · intro hno
      cases ts with
      | nil => rfl
      | cons t ts =>
        obtain ⟨r, h1, h2, _⟩ := (hts t).1 (by simp)
        exact absurd ⟨r, h1, h2⟩ hno
  unfold Sqlite.identifierDetails
  rw [hd]
  cases hf1 : files.1 with
  | false =>
    have hf2 : files.2 = true := by rcases hf with h | h; (rw [hf1] at h; cases h); exact h
    have hplaces : places files c = [c] := by simp [places, hf1, hf2]
    rw [hplaces] at hr ⊢
    obtain ⟨ts, h1, h2⟩ := hread (rows c) (hr c (by simp)).2
    have hq : ∀ aio, p.identifierLanguages canon st c i aio = .ok ts := fun aio => by
      unfold Sqlite.identifierLanguages
      rw [connection_own hc h hf2 (by simp [hf1]), Outcome.bind_ok, (hr c (by simp)).1, readTable, Outcome.bind_ok, h1]
    refine ⟨ts, ?_, fun t => by rw [h2]; simp⟩
    simp [hq, askIf]
  | true =>
    obtain ⟨ts, h1, h2⟩ := hread (rows allInOne) (hr allInOne (by simp [places, hf1])).2
    have hq : p.identifierLanguages canon st c i true = .ok ts := by
      unfold Sqlite.identifierLanguages
      rw [connection_shared hc h hf1, Outcome.bind_ok, (hr allInOne (by simp [places, hf1])).1, readTable, Outcome.bind_ok,
        h1]
    simp only [hq, Outcome.bind_ok]
    by_cases hsome : ∃ r ∈ rows allInOne, For c i r
    · have hts : ts ≠ [] := fun e => (hne (hr allInOne (by simp [places, hf1])).2 h2).1 e hsome
      refine ⟨ts, ?_, fun t => ?_⟩
      · have : ts.isEmpty = false := by simp [hts]
        simp [askIf, this]
      · rw [h2]
        constructor
        · intro h; exact ⟨allInOne, by simp [places, hf1], h⟩
        · rintro ⟨name, hn, r, h3, h4, h5⟩
          unfold places at hn
          rw [hf1] at hn
          rcases List.mem_append.1 hn with hn | hn
          · simp at hn; subst hn; exact ⟨r, h3, h4, h5⟩
          · split at hn
            · next hf2 =>
              simp at hn; subst hn
              obtain ⟨r', h6, h7, h8⟩ := hsame hf1 hf2 hsome r h3 h4
              exact ⟨r', h6, h7, by rw [h8]; exact h5⟩
            · cases hn
    · have hf2 : files.2 = true := by
        cases hf2 : files.2 with
        | true => rfl
        | false => exact absurd (hknown hf1 hf2) hsome
      have hts : ts = [] := (hne (hr allInOne (by simp [places, hf1])).2 h2).2 hsome
      obtain ⟨us, h3, h4⟩ := hread (rows c) (hr c (by simp [places, hf2])).2
      have hq' : p.identifierLanguages canon st c i false = .ok us := by
        unfold Sqlite.identifierLanguages
        rw [connection_own hc h hf2 rfl, Outcome.bind_ok, (hr c (by simp [places, hf2])).1, readTable, Outcome.bind_ok, h3]
      refine ⟨us, by simp [hts, askIf, hq'], fun t => ?_⟩
      rw [h4]
      constructor
      · intro h; exact ⟨c, by simp [places, hf2], h⟩
      · rintro ⟨name, hn, r, h5, h6, h7⟩
        unfold places at hn
        rw [hf1, hf2] at hn
        rcases List.mem_append.1 hn with hn | hn
        · simp at hn; subst hn; exact absurd ⟨r, h5, h6⟩ hsome
        · simp at hn; subst hn; exact ⟨r, h5, h6, h7⟩

example : ∃ languages, (provider (true, true)).identifierDetails DemoStore.canon
      (store [row en hello, row enZA howzit] [row enZA hello]) [(app, { languages := [], default := en, total := 0 })] app greeting =
        .ok (languages, en) ∧
    ∀ t, t ∈ languages ↔ ∃ name ∈ places (true, true) app, ∃ r ∈ rowsOf [row en hello, row enZA howzit] [row enZA hello] name,
      For app greeting r ∧ DemoStore.canon r.tag = .ok t :=
  C44_lists_stored_languages_partial (p := provider (true, true)) (c := app) (i := greeting)
    (rows := rowsOf [row en hello, row enZA howzit] [row enZA hello]) (connected _) (files := (true, true)) (by decide)
    (by decide) (details := [(app, { languages := [], default := en, total := 0 })]) rfl (holds _ _ _)
    (fun _ h => by cases h) (by
      intro _ _ _ r hr _
      have hrows : rowsOf [row en hello, row enZA howzit] [row enZA hello] app = [row enZA hello] := by decide
      rw [hrows] at hr
      have : r = row enZA hello := by simpa using hr
      subst this
      exact ⟨row enZA howzit, by decide, by decide, rfl⟩)

/-- Exactly when the details of an identifier list the languages in which it has strings. -/
theorem C44_exactly_partial {canon : Str → Except E Str} {p : Sqlite} (hc : Connected p) {st : Store} {c i : Str}
    {files : Bool × Bool} (h : p.components.get c = some files) (hf : files.1 = true ∨ files.2 = true)
    {details : AMap Str ComponentDetails} {d : ComponentDetails} (hd : details.get c = some d)
    {rows : Str → List PatternRow} (hr : Holds canon st (places files c) rows) :
    (∃ languages, p.identifierDetails canon st details c i = .ok (languages, d.default) ∧
      ∀ t, t ∈ languages ↔ ∃ name ∈ places files c, ∃ r ∈ rows name, For c i r ∧ canon r.tag = .ok t) ↔
    (files.1 = true → files.2 = false → ∃ r ∈ rows allInOne, For c i r) ∧
    (files.1 = true → files.2 = true → (∃ r ∈ rows allInOne, For c i r) →
      ∀ r ∈ rows c, For c i r → ∃ r' ∈ rows allInOne, For c i r' ∧ canon r'.tag = canon r.tag) := by
  constructor
  · rintro ⟨languages, hok, hall⟩
    unfold Sqlite.identifierDetails at hok
    rw [hd] at hok
    obtain ⟨first, h1, hok⟩ := bind_eq_ok hok
    obtain ⟨last, h2, hok⟩ := bind_eq_ok hok
    cases hok
    have hfirst : files.1 = true → ∀ t, t ∈ first ↔ ∃ r ∈ rows allInOne, For c i r ∧ canon r.tag = .ok t := by
      intro hf1 t
      unfold Sqlite.identifierLanguages at h1
      rw [connection_shared hc h hf1, Outcome.bind_ok, (hr allInOne (by simp [places, hf1])).1, readTable,
        Outcome.bind_ok] at h1
      rw [askTags_ok h1]
      unfold selectIdentifierLanguages
      constructor
      · rintro ⟨t', h3, h4⟩
        obtain ⟨r, h5, rfl⟩ := List.mem_map.1 h3
        have h6 := List.mem_filter.1 h5
        have h7 : r.identifier = i ∧ r.component = c := by simpa using h6.2
        exact ⟨r, h6.1, ⟨h7.2, h7.1⟩, h4⟩
      · rintro ⟨r, h3, h4, h5⟩
        exact ⟨r.tag, List.mem_map.2 ⟨r, List.mem_filter.2 ⟨h3, by simp [h4.1, h4.2]⟩, rfl⟩, h5⟩
    unfold askIf at h2
    refine ⟨fun hf1 hf2 => ?_, fun hf1 hf2 hsome r hrow hfor => ?_⟩
    · split at h2
      · unfold Sqlite.identifierLanguages Sqlite.connection at h2
        rw [h] at h2
        simp [hf2] at h2
      · next he =>
        cases first with
        | nil => exact absurd rfl he
        | cons t _ =>
          obtain ⟨r, h3, h4, _⟩ := (hfirst hf1 t).1 (by simp)
          exact ⟨r, h3, h4⟩
    · obtain ⟨t, ht⟩ := (hr c (by simp [places, hf2])).2 r hrow
      split at h2
      · next he =>
        obtain ⟨r0, h3, h4⟩ := hsome
        obtain ⟨t0, ht0⟩ := (hr allInOne (by simp [places, hf1])).2 r0 h3
        have := (hfirst hf1 t0).2 ⟨r0, h3, h4, ht0⟩
        rw [List.isEmpty_iff.1 he] at this
        cases this
      · cases h2
        obtain ⟨r', h3, h4, h5⟩ := (hfirst hf1 t).1 ((hall t).2 ⟨c, by simp [places, hf2], r, hrow, hfor, ht⟩)
        exact ⟨r', h3, h4, by rw [h5, ht]⟩
  · rintro ⟨hknown, hsame⟩
    exact C44_lists_stored_languages_partial hc h hf hd hr hknown hsame

/-- Both sides are false for the store of `C44_violated_shadowed`. -/
example : ¬ ∃ languages, (provider (true, true)).identifierDetails DemoStore.canon (store [row en hello] [row enZA howzit])
      [(app, { languages := [], default := en, total := 0 })] app greeting = .ok (languages, en) ∧
    ∀ t, t ∈ languages ↔ ∃ name ∈ places (true, true) app, ∃ r ∈ rowsOf [row en hello] [row enZA howzit] name,
      For app greeting r ∧ DemoStore.canon r.tag = .ok t := by
  intro hex
  have := (C44_exactly_partial (p := provider (true, true)) (c := app) (i := greeting)
    (rows := rowsOf [row en hello] [row enZA howzit]) (connected _) (files := (true, true)) (by decide)
    (by decide) (details := [(app, { languages := [], default := en, total := 0 })]) rfl (holds _ _ _)).1 hex
  obtain ⟨r', h1, h2, h3⟩ := this.2 rfl rfl ⟨row en hello, by decide, by decide⟩ (row enZA howzit) (by decide) (by decide)
  have hrows : rowsOf [row en hello] [row enZA howzit] allInOne = [row en hello] := by decide
  rw [hrows] at h1
  have : r' = row en hello := by simpa using h1
  subst this
  exact absurd (Except.ok.inj h3) (by decide)

end Verif.Props
