import Verif.Lemmas.OpenBlame
import Verif.Props.ProviderOpen
/-
Property theorem C82: an error of opening a directory of databases tells the cause,
/repo/crates/provider/sqlite3/src/provider.rs:114-246, 1546-2152.
-/
namespace Verif.Props
open Verif Verif.Spec Verif.ProviderLemmas Verif.OpenLemmas

/-- **C82, one file.** An error of the verification tells what is wrong with the file: a query that fails, a table that is
missing, another version, or a column that is not as declared. -/
theorem C82_file (db : DbFile) (e : SchemaErr) (h : verifySchema db = .err e) : FileCause db e := by
  unfold verifySchema at h
  rcases bind_err_iff.1 h with h | ⟨tables, h1, h⟩
  · cases hc : db.tables with
    | ok r => rw [hc] at h; cases h
    | error c => rw [hc] at h; cases h; exact .noTables c hc
  have ht : db.tables = .ok tables := by
    cases hc : db.tables with
    | error c => rw [hc] at h1; cases h1
    | ok r => rw [hc] at h1; cases h1; rfl
  by_cases hm : "metadata".toList ∈ tables
  rotate_left
  · rw [if_pos hm] at h; cases h; exact .table tables _ ht hm (.inl rfl)
  rw [if_neg (fun hh => hh hm)] at h
  rcases bind_err_iff.1 h with h | ⟨versions, h2, h⟩
  · cases hc : db.versions with
    | ok r => rw [hc] at h; cases h
    | error c => rw [hc] at h; cases h; exact .noVersions c hc
  have hv : db.versions = .ok versions := by
    cases hc : db.versions with
    | error c => rw [hc] at h2; cases h2
    | ok r => rw [hc] at h2; cases h2; rfl
  by_cases hver : versions.getLast?.getD [] = "1.0".toList
  · rw [if_pos hver] at h
    rcases bind_err_iff.1 h with h | ⟨_, _, h⟩
    · exact tableExists_cause ht (by decide +kernel) h
    rcases bind_err_iff.1 h with h | ⟨_, _, h⟩
    · exact tableExists_cause ht (by decide +kernel) h
    rcases bind_err_iff.1 h with h | ⟨_, _, h⟩
    · exact tableExists_cause ht (by decide +kernel) h
    rcases bind_err_iff.1 h with h | ⟨_, _, h⟩
    · exact tableExists_cause ht (by decide +kernel) h
    rcases bind_err_iff.1 h with h | ⟨_, _, h⟩
    · exact tableExists_cause ht (by decide +kernel) h
    rcases bind_err_iff.1 h with h | ⟨_, _, h⟩
    · exact checkTable_cause (schema_at 1 (by decide)) rfl h
    rcases bind_err_iff.1 h with h | ⟨_, _, h⟩
    · exact checkTable_cause (schema_at 2 (by decide)) rfl h
    rcases bind_err_iff.1 h with h | ⟨_, _, h⟩
    · exact checkTable_cause (schema_at 4 (by decide)) rfl h
    rcases bind_err_iff.1 h with h | ⟨_, _, h⟩
    · exact checkTable_cause (schema_at 0 (by decide)) rfl h
    rcases bind_err_iff.1 h with h | ⟨_, _, h⟩
    · exact checkTable_cause (schema_at 3 (by decide)) rfl h
    cases h
  · rw [if_neg hver] at h
    rcases bind_err_iff.1 h with h | ⟨path, h3, h⟩
    · cases hp : db.path with
      | none => rw [hp] at h; cases h
      | some p => rw [hp] at h; cases h
    · cases hp : db.path with
      | none => rw [hp] at h3; cases h3
      | some p =>
        rw [hp] at h3; cases h3; cases h
        exact .version versions _ hv (fun hh => hver (by rw [hh]; rfl)) hp

/-- **C82, panics of the verification.** It panics exactly if the file has the table `metadata`, another version, and a path
that is not UTF-8. -/
theorem C82_file_panics (db : DbFile) : verifySchema db = .panic ↔
    ∃ tables versions, db.tables = .ok tables ∧ "metadata".toList ∈ tables ∧ db.versions = .ok versions ∧
      versions.getLast? ≠ some "1.0".toList ∧ db.path = none := by
  constructor
  · intro h
    unfold verifySchema at h
    rcases bind_panic_iff.1 h with h | ⟨tables, h1, h⟩
    · cases hc : db.tables with
      | ok r => rw [hc] at h; cases h
      | error c => rw [hc] at h; cases h
    have ht : db.tables = .ok tables := by
      cases hc : db.tables with
      | error c => rw [hc] at h1; cases h1
      | ok r => rw [hc] at h1; cases h1; rfl
    by_cases hm : "metadata".toList ∈ tables
    rotate_left
    · rw [if_pos hm] at h; cases h
    rw [if_neg (fun hh => hh hm)] at h
    rcases bind_panic_iff.1 h with h | ⟨versions, h2, h⟩
    · cases hc : db.versions with
      | ok r => rw [hc] at h; cases h
      | error c => rw [hc] at h; cases h
    have hv : db.versions = .ok versions := by
      cases hc : db.versions with
      | error c => rw [hc] at h2; cases h2
      | ok r => rw [hc] at h2; cases h2; rfl
    by_cases hver : versions.getLast?.getD [] = "1.0".toList
    · rw [if_pos hver] at h
      exfalso
      repeat
        rcases bind_panic_iff.1 h with h | ⟨_, _, h⟩
        · first | exact tableExists_ne_panic _ _ h | exact checkTable_ne_panic _ _ _ h
      cases h
    · rw [if_neg hver] at h
      refine ⟨tables, versions, ht, hm, hv, fun hh => hver (by rw [hh]; rfl), ?_⟩
      cases hp : db.path with
      | none => rfl
      | some p => rw [hp] at h; cases h
  · rintro ⟨tables, versions, ht, hm, hv, hver, hp⟩
    have : ¬ versions.getLast?.getD [] = "1.0".toList := by
      intro hh
      cases hl : versions.getLast? with
      | none => rw [hl] at hh; cases hh
      | some x => rw [hl] at hh hver; exact hver (by rw [← hh]; rfl)
    unfold verifySchema
    rw [ht, hv, hp]
    simp only [ask, Outcome.bind_ok, if_neg (fun hh => hh hm : ¬ "metadata".toList ∉ tables), if_neg this]
    rfl

/-- **C82.** An error of opening tells what is wrong with the path, with an entry of the directory or with a file in it. -/
theorem C82_opening (path : PathKind) (e : OpenErr) (h : Sqlite.tryNew path = .err e) : OpenCause path e := by
  cases path with
  | noPath => cases h; exact .noPath
  | noDirectory => cases h; exact .noDirectory
  | unreadable code => cases h; exact .unreadable code
  | directory entries =>
    rcases bind_err_iff.1 (show (openEntries _ entries >>= _) = _ from h) with h | ⟨p, h1, h⟩
    · have key : ∀ (rest : List (Except Nat DirEntry)) (p : Sqlite), (∀ x ∈ rest, x ∈ entries) →
          openEntries p rest = .err e → OpenCause (.directory entries) e := by
        intro rest
        induction rest with
        | nil => intro p _ h; cases h
        | cons x rest ih =>
          intro p hsub h
          rcases bind_err_iff.1 (show (openEntry p x >>= _) = _ from h) with h | ⟨p', _, h⟩
          rotate_left
          · exact ih p' (fun y hy => hsub y (List.mem_cons_of_mem _ hy)) h
          have hx := hsub x (by simp)
          unfold openEntry at h
          cases x with
          | error code => cases h; exact .entry entries code hx
          | ok entry =>
            dsimp only at h
            by_cases hext : entry.extension = some "sqlite3".toList
            rotate_left
            · rw [if_pos hext] at h; cases h
            rw [if_neg (fun hh => hh hext)] at h
            cases hs : entry.stem with
            | none => rw [hs] at h; cases h
            | some component =>
              rw [hs] at h
              simp only [Outcome.unwrap_some, Outcome.bind_ok] at h
              cases hf : entry.file with
              | none => rw [hf] at h; cases h
              | some file =>
                rw [hf] at h
                have ho : Opens entries component file := ⟨entry, hx, hext, hs, hf⟩
                rcases bind_err_iff.1 h with h | ⟨version, _, h'⟩
                · cases hv : verifySchema file.schema with
                  | ok v => rw [hv] at h; cases h
                  | panic => rw [hv] at h; cases h
                  | err se =>
                    rw [hv] at h; cases h
                    exact .file entries component file se ho (C82_file _ _ hv)
                · by_cases hc : component = allInOne
                  · rw [if_pos hc] at h'
                    subst hc
                    cases hn : file.components with
                    | error code => rw [hn] at h'; cases h'; exact .components entries file code ho hn
                    | ok names => rw [hn] at h'; cases h'
                  · rw [if_neg hc] at h'; cases h'
      exact key entries _ (fun _ h => h) h
    · by_cases hc : p.components = []
      rotate_left
      · rw [if_neg hc] at h; cases h
      rw [if_pos hc] at h
      cases h
      obtain ⟨p', h3, hs⟩ := openEntries_fine (p := { components := [], connections := [] }) (fine_of_entries h1)
      rw [h1] at h3
      cases h3
      refine .nothing entries (fun c hi => ?_) fun c ho => ?_
      · have := (hs.shared c).2 (.inr hi)
        rw [hc] at this; cases this
      · have := (hs.own c).2 (.inr ho)
        rw [hc] at this; cases this

/-- **C82, panics.** Opening panics only over a database file whose name is not UTF-8, or a database of another version whose
path is not UTF-8. -/
theorem C82_opening_panics (path : PathKind) (h : Sqlite.tryNew path = .panic) :
    ∃ entries entry, path = .directory entries ∧ .ok entry ∈ entries ∧ entry.extension = some "sqlite3".toList ∧
      (entry.stem = none ∨ ∃ file versions, entry.file = some file ∧ file.schema.versions = .ok versions ∧
        versions.getLast? ≠ some "1.0".toList ∧ file.schema.path = none) := by
  cases path with
  | noPath => cases h
  | noDirectory => cases h
  | unreadable code => cases h
  | directory entries =>
    rcases bind_panic_iff.1 (show (openEntries _ entries >>= _) = _ from h) with h | ⟨p, h1, h⟩
    rotate_left
    · split at h <;> cases h
    have key : ∀ (rest : List (Except Nat DirEntry)) (p : Sqlite), (∀ x ∈ rest, x ∈ entries) →
        openEntries p rest = .panic → ∃ entry, .ok entry ∈ entries ∧ entry.extension = some "sqlite3".toList ∧
      (entry.stem = none ∨ ∃ file versions, entry.file = some file ∧ file.schema.versions = .ok versions ∧
        versions.getLast? ≠ some "1.0".toList ∧ file.schema.path = none) := by
      intro rest
      induction rest with
      | nil => intro p _ h; cases h
      | cons x rest ih =>
        intro p hsub h
        rcases bind_panic_iff.1 (show (openEntry p x >>= _) = _ from h) with h | ⟨p', _, h⟩
        rotate_left
        · exact ih p' (fun y hy => hsub y (List.mem_cons_of_mem _ hy)) h
        have hx := hsub x (by simp)
        unfold openEntry at h
        cases x with
        | error code => cases h
        | ok entry =>
          dsimp only at h
          by_cases hext : entry.extension = some "sqlite3".toList
          rotate_left
          · rw [if_pos hext] at h; cases h
          rw [if_neg (fun hh => hh hext)] at h
          refine ⟨entry, hx, hext, ?_⟩
          cases hs : entry.stem with
          | none => exact .inl rfl
          | some component =>
            refine .inr ?_
            rw [hs] at h
            simp only [Outcome.unwrap_some, Outcome.bind_ok] at h
            cases hf : entry.file with
            | none => rw [hf] at h; cases h
            | some file =>
              rw [hf] at h
              rcases bind_panic_iff.1 h with h | ⟨version, _, h⟩
              · cases hv : verifySchema file.schema with
                | ok v => rw [hv] at h; cases h
                | err se => rw [hv] at h; cases h
                | panic =>
                  obtain ⟨_, versions, _, _, h1, h2, h3⟩ := (C82_file_panics _).1 hv
                  exact ⟨file, versions, rfl, h1, h2, h3⟩
              · split at h
                · split at h <;> cases h
                · cases h
    obtain ⟨entry, h⟩ := key entries _ (fun _ h => h) h
    exact ⟨entries, entry, rfl, h⟩

/-- **C82, properties.** If an error names a property of a column, then either the column at its place lacks it, or the column
differs from its declaration in belonging to the primary key. Missing: what the error says in the latter case, see
`C82_violated`. -/
theorem C82_property_is_lacking_partial (table : Str) (row : Column) (d : Declared) (text : Str)
    (hty : d.type ∉ ["NOT NULL".toList, "NULL".toList, "PRIMARY KEY".toList])
    (hrow : row.type ∉ ["NOT NULL".toList, "NULL".toList])
    (h : columnsCheck table row (wantedOf d) = .err (.columnProperty table d.name text)) :
    ¬ HasProperty row text ∨ row.primary ≠ flagNumber d.primaryKey := by
  simp only [List.mem_cons, List.not_mem_nil, or_false, not_or] at hty hrow
  have hc := columnsCheck_cause table row d _ h
  generalize he : SchemaErr.columnProperty table d.name text = e at hc
  cases hc with
  | name => cases he
  | type h1 h2 =>
    cases he
    refine .inl ?_
    rintro (h | ⟨h, _⟩ | ⟨h, _⟩ | ⟨h, _⟩)
    · exact h2 h.symm
    · exact hty.1 h
    · exact hty.2.1 h
    · exact hty.2.2 h
  | null h1 h2 h3 =>
    cases he
    refine .inl ?_
    cases hn : d.notNull
    · rw [hn] at h3
      rintro (h | ⟨h, _⟩ | ⟨_, h⟩ | ⟨h, _⟩)
      · exact hrow.2 h.symm
      · revert h; decide
      · exact h3 h
      · revert h; decide
    · rw [hn] at h3
      rintro (h | ⟨_, h⟩ | ⟨h, _⟩ | ⟨h, _⟩)
      · exact hrow.1 h.symm
      · exact h3 h
      · revert h; decide
      · revert h; decide
  | primary text h1 h2 h3 => exact .inr h3
  | default => cases he
  | numberDefault => cases he

namespace DemoFiles

/-- The shipped schema with another column in a place. -/
def altered (table : String) (place : Nat) (column : Column) : DbFile :=
  { shipped with columns := fun t => .ok (if t = table.toList then (pragma t).set place column else pragma t) }

end DemoFiles

open DemoFiles

/-- **C82, violated.** A column that belongs to the primary key and must not is said to lack `PRIMARY KEY`, or the empty
property; a column of numbers with a default gives an error of SQLite instead of that of the default. -/
theorem C82_violated :
    (verifySchema (altered "pattern" 1 ⟨"component".toList, "TEXT".toList, 1, 1, none⟩) =
        .err (.columnProperty "pattern".toList "component".toList "PRIMARY KEY".toList) ∧
      HasProperty ⟨"component".toList, "TEXT".toList, 1, 1, none⟩ "PRIMARY KEY".toList) ∧
    verifySchema (altered "pattern" 5 ⟨"comment".toList, "TEXT".toList, 0, 1, none⟩) =
      .err (.columnProperty "pattern".toList "comment".toList []) ∧
    verifySchema (altered "languageData" 3 ⟨"count".toList, "INTEGER".toList, 1, 0, some "0".toList⟩) = .err (.sql 0) ∧
    verifySchema (altered "pattern" 5 ⟨"comment".toList, "TEXT".toList, 0, 0, some "x".toList⟩) =
      .err (.columnDefault "pattern".toList "comment".toList "NULL".toList) := by
  refine ⟨⟨by decide +kernel, .inr (.inr (.inr ⟨rfl, rfl⟩))⟩, by decide +kernel, by decide +kernel, by decide +kernel⟩

example : Sqlite.tryNew (.directory [readme]) = .err .noSqlite3Files ∧
    Sqlite.tryNew (.directory [file "b" { shipped with tables := .error 11 } []]) = .err (.schema (.sql 11)) ∧
    Sqlite.tryNew (.directory [file "b" { shipped with versions := .ok ["2.0".toList], path := some "b".toList } []]) =
      .err (.schema (.version "b".toList "1.0".toList)) ∧
    Sqlite.tryNew (.directory [file "b" (altered "pattern" 2 ⟨"id".toList, "TEXT".toList, 1, 0, none⟩) []]) =
      .err (.schema (.missingColumn "pattern".toList "identifier".toList)) ∧
    columnsCheck [] ⟨"a".toList, "TEXT".toList, 0, 0, none⟩ (wantedOf (col "a" "TEXT" true false)) =
      .err (.columnProperty [] "a".toList "NOT NULL".toList) := by
  refine ⟨?_, ?_, ?_, ?_, ?_⟩ <;> decide +kernel

end Verif.Props
