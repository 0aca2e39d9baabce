import Verif.Spec.OpenBlame
import Verif.Lemmas.ProviderOpen
/-
Lemmas on the errors of opening a directory of databases.
-/
namespace Verif.OpenLemmas
open Verif Verif.Spec Verif.ProviderLemmas

theorem bind_err_iff {ε α β : Type} {x : Outcome ε α} {k : α → Outcome ε β} {e : ε} :
    x >>= k = .err e ↔ x = .err e ∨ ∃ a, x = .ok a ∧ k a = .err e := by
  cases x with
  | ok a => exact ⟨fun h => .inr ⟨a, rfl, h⟩, fun h => by rcases h with h | ⟨_, h1, h2⟩; cases h; cases h1; exact h2⟩
  | err e' => exact ⟨fun h => by cases h; exact .inl rfl, fun h => by rcases h with h | ⟨_, h1, _⟩; cases h; rfl; cases h1⟩
  | panic => exact ⟨fun h => (nomatch h), fun h => by rcases h with h | ⟨_, h1, _⟩; cases h; cases h1⟩

theorem bind_panic_iff {ε α β : Type} {x : Outcome ε α} {k : α → Outcome ε β} :
    x >>= k = .panic ↔ x = .panic ∨ ∃ a, x = .ok a ∧ k a = .panic := by
  cases x with
  | ok a => exact ⟨fun h => .inr ⟨a, rfl, h⟩, fun h => by rcases h with h | ⟨_, h1, h2⟩; cases h; cases h1; exact h2⟩
  | err e' => exact ⟨fun h => (nomatch h), fun h => by rcases h with h | ⟨_, h1, _⟩; cases h; cases h1⟩
  | panic => exact ⟨fun _ => .inl rfl, fun _ => rfl⟩

/-- The parameters of a call of `columns_check` for a declared column. -/
def wantedOf (d : Declared) : Wanted := ⟨d.name, d.type, flagNumber d.notNull, flagNumber d.primaryKey⟩

theorem columnsCheck_cause (table : Str) (row : Column) (d : Declared) (e : SchemaErr)
    (h : columnsCheck table row (wantedOf d) = .err e) : ColumnCause table row d e := by
  unfold columnsCheck wantedOf at h
  by_cases h1 : row.name = d.name
  rotate_left
  · rw [if_pos h1] at h; cases h; exact .name h1
  rw [if_neg (fun hh => hh h1)] at h
  by_cases h2 : row.type = d.type
  rotate_left
  · rw [if_pos h2] at h; cases h; exact .type h1 h2
  rw [if_neg (fun hh => hh h2)] at h
  by_cases h3 : row.notNull = flagNumber d.notNull
  rotate_left
  · rw [if_pos h3] at h
    have := ColumnCause.null (table := table) h1 h2 h3
    cases hn : d.notNull
    · rw [hn] at h this; cases h; exact this
    · rw [hn] at h this; cases h; exact this
  rw [if_neg (fun hh => hh h3)] at h
  by_cases h4 : row.primary = flagNumber d.primaryKey
  rotate_left
  · rw [if_pos h4] at h; cases h; exact .primary _ h1 h2 h4
  rw [if_neg (fun hh => hh h4)] at h
  cases hd : row.default with
  | none => rw [hd] at h; cases h
  | some x =>
    have hne : row.default ≠ none := by rw [hd]; simp
    rw [hd] at h
    rw [if_pos Option.isSome_some] at h
    by_cases h5 : d.type = "INTEGER".toList ∨ d.type = "REAL".toList
    · rw [if_pos h5] at h; cases h; exact .numberDefault h1 hne h5
    · rw [if_neg h5] at h; cases h; exact .default h1 hne

theorem columnsCheck_ne_panic (table : Str) (row : Column) (w : Wanted) : columnsCheck table row w ≠ .panic := by
  unfold columnsCheck
  repeat' split
  all_goals exact fun h => (nomatch h)

theorem checkColumns_cause (table : Str) (e : SchemaErr) : ∀ (rows : List Column) (ds : List Declared),
    checkColumns table rows (ds.map wantedOf) = .err e →
    ∃ (n : Nat) (row : Column) (d : Declared), rows[n]? = some row ∧ ds[n]? = some d ∧ ColumnCause table row d e := by
  intro rows
  induction rows with
  | nil => intro ds h; unfold checkColumns at h; cases h
  | cons r rows ih =>
    intro ds h
    cases ds with
    | nil => cases h
    | cons d ds =>
      rcases bind_err_iff.1 (show (columnsCheck table r (wantedOf d) >>= fun _ => checkColumns table rows (ds.map wantedOf)) = _
        from h) with h | ⟨_, _, h⟩
      · exact ⟨0, r, d, rfl, rfl, columnsCheck_cause table r d e h⟩
      · obtain ⟨n, row, d', h1, h2, h3⟩ := ih ds h
        exact ⟨n + 1, row, d', by simpa using h1, by simpa using h2, h3⟩

theorem checkColumns_ne_panic (table : Str) : ∀ (rows : List Column) (ws : List Wanted),
    checkColumns table rows ws ≠ .panic := by
  intro rows
  induction rows with
  | nil => intro ws h; unfold checkColumns at h; cases h
  | cons r rows ih =>
    intro ws h
    cases ws with
    | nil => cases h
    | cons w ws =>
      rcases bind_panic_iff.1 (show (columnsCheck table r w >>= fun _ => checkColumns table rows ws) = _ from h) with
        h | ⟨_, _, h⟩
      · exact columnsCheck_ne_panic _ _ _ h
      · exact ih ws h

theorem checkTable_cause {db : DbFile} {t : Str × List Declared} (ht : t ∈ schemaTables) {ws : List Wanted}
    (hw : ws = t.2.map wantedOf) {e : SchemaErr} (h : checkTable db t.1 ws = .err e) : FileCause db e := by
  subst hw
  unfold checkTable at h
  rcases bind_err_iff.1 h with h | ⟨rows, h1, h⟩
  · cases hc : db.columns t.1 with
    | ok r => rw [hc] at h; cases h
    | error c => rw [hc] at h; cases h; exact .noColumns t c ht hc
  · cases hc : db.columns t.1 with
    | error c => rw [hc] at h1; cases h1
    | ok r =>
      rw [hc] at h1; cases h1
      obtain ⟨n, row, d, h1, h2, h3⟩ := checkColumns_cause _ _ _ _ h
      exact .column t _ n row d e ht hc h1 h2 h3

theorem checkTable_ne_panic (db : DbFile) (t : Str) (ws : List Wanted) : checkTable db t ws ≠ .panic := by
  intro h
  unfold checkTable at h
  rcases bind_panic_iff.1 h with h | ⟨rows, h1, h⟩
  · cases hc : db.columns t with
    | ok r => rw [hc] at h; cases h
    | error c => rw [hc] at h; cases h
  · exact checkColumns_ne_panic _ _ _ h

theorem tableExists_cause {db : DbFile} {tables : List Str} (ht : db.tables = .ok tables) {t : Str}
    (hm : t ∈ schemaTables.map (·.1)) {e : SchemaErr} (h : tableExists tables t = .err e) : FileCause db e := by
  unfold tableExists at h
  split at h
  · cases h
  · rename_i hn; cases h; exact .table tables t ht hn (.inr hm)

theorem tableExists_ne_panic (tables : List Str) (t : Str) : tableExists tables t ≠ .panic := by
  unfold tableExists
  split <;> exact fun h => (nomatch h)

/-- Membership in the schema by place. -/
theorem schema_at (n : Nat) (hn : n < 5) : schemaTables[n]'(by simpa [schemaTables] using hn) ∈ schemaTables :=
  List.getElem_mem _

end Verif.OpenLemmas
