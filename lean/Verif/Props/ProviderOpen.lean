import Verif.Lemmas.ProviderOpen
/-
Properties of opening a directory of databases.
-/
namespace Verif.Props
open Verif Verif.Spec Verif.ProviderLemmas

variable {E : Type}

/-! ### Files for the examples -/

namespace DemoFiles

/-- The pragma of a table made by the shipped schema. -/
def pragma (t : Str) : List Column :=
  match schemaTables.find? fun x => x.1 == t with
  | none => []
  | some x => x.2.map fun d => ⟨d.name, d.type, if d.notNull then 1 else 0, if d.primaryKey then 1 else 0, none⟩

def allTables : List Str := "metadata".toList :: schemaTables.map (·.1)

/-- A database made by the shipped schema. -/
def shipped : DbFile :=
  { tables := .ok allTables, versions := .ok ["1.0".toList], columns := fun t => .ok (pragma t), path := none }

/-- The same, but the table of patterns ends before the strings. -/
def stringless : DbFile :=
  { shipped with columns := fun t => .ok (if t = "pattern".toList then (pragma t).take 4 else pragma t) }

def file (stem : String) (schema : DbFile) (components : List String) : Except Nat DirEntry :=
  .ok { extension := some "sqlite3".toList, stem := some stem.toList,
        file := some { schema := schema, components := .ok (components.map String.toList) } }

/-- A file of another kind. -/
def readme : Except Nat DirEntry := .ok { extension := some "md".toList, stem := some "README".toList, file := none }

/-- A database whose name is not UTF-8. -/
def unnameable : Except Nat DirEntry :=
  .ok { extension := some "sqlite3".toList, stem := none, file := some { schema := shipped, components := .ok [] } }

def directory : List (Except Nat DirEntry) :=
  [file "b" shipped [], readme, file "__all_in_one__" shipped ["a", "b"], file "c" shipped []]

end DemoFiles

open DemoFiles

/-! ### C42 -/

/-- Exactly what is accepted: the table `metadata` is there and its last schema version is `1.0`, and of each table that
the schema declares, the columns agree with those declared at the same places. -/
theorem C42_accepted_iff (db : DbFile) (v : Str) : verifySchema db = .ok v ↔
    v = "1.0".toList ∧ ∃ tables, db.tables = .ok tables ∧ "metadata".toList ∈ tables ∧
      (∃ versions, db.versions = .ok versions ∧ versions.getLast? = some "1.0".toList) ∧
      ∀ t ∈ schemaTables, t.1 ∈ tables ∧ ∃ rows, db.columns t.1 = .ok rows ∧
        ∀ (n : Nat) (row : Column) (d : Declared), rows[n]? = some row → t.2[n]? = some d → Agrees row d :=
  verify_ok db v

/-- A database without a table of the schema is rejected. -/
theorem C42_missing_table_rejected {db : DbFile} {tables : List Str} (h : db.tables = .ok tables) {t : Str}
    (ht : t = "metadata".toList ∨ t ∈ schemaTables.map (·.1)) (hm : t ∉ tables) (v : Str) : verifySchema db ≠ .ok v := by
  intro hv
  obtain ⟨_, tables', h1, h2, _, h3⟩ := (verify_ok db v).1 hv
  rw [h] at h1
  have := Except.ok.inj h1
  subst this
  rcases ht with rfl | ht
  · exact hm h2
  · obtain ⟨x, hx, rfl⟩ := List.mem_map.1 ht
    exact hm (h3 x hx).1

/-- If no table is shorter than declared, then a database that is accepted has every declared column, with its type, and
so on. What is missing: shorter tables (`C42_violated`). -/
theorem C42_incomplete_rejected_partial {db : DbFile} {v : Str} (h : verifySchema db = .ok v) {t : Str × List Declared}
    (ht : t ∈ schemaTables) {rows : List Column} (hr : db.columns t.1 = .ok rows) (hlen : t.2.length ≤ rows.length)
    {d : Declared} (hd : d ∈ t.2) : ∃ row ∈ rows, Agrees row d := by
  obtain ⟨_, _, _, _, _, h3⟩ := (verify_ok db v).1 h
  obtain ⟨_, rows', h4, h5⟩ := h3 t ht
  rw [hr] at h4
  have := Except.ok.inj h4
  subst this
  obtain ⟨n, hn, he⟩ := List.mem_iff_getElem.1 hd
  have hn' : n < rows.length := Nat.lt_of_lt_of_le hn hlen
  exact ⟨rows[n], List.getElem_mem hn', h5 n _ d (List.getElem?_eq_getElem hn') (by rw [List.getElem?_eq_getElem hn, he])⟩

/-- A column of another type than declared at its place is rejected, whatever else the database has. -/
theorem C42_wrong_column_rejected {db : DbFile} {t : Str × List Declared} (ht : t ∈ schemaTables) {rows : List Column}
    (hr : db.columns t.1 = .ok rows) {n : Nat} {row : Column} {d : Declared} (hn : rows[n]? = some row)
    (hd : t.2[n]? = some d) (hw : row.name ≠ d.name ∨ row.type ≠ d.type) (v : Str) : verifySchema db ≠ .ok v := by
  intro hv
  obtain ⟨_, _, _, _, _, h3⟩ := (verify_ok db v).1 hv
  obtain ⟨_, rows', h4, h5⟩ := h3 t ht
  rw [hr] at h4
  have := Except.ok.inj h4
  subst this
  obtain ⟨a, b, _⟩ := h5 n row d hn hd
  exact hw.elim (fun h => h a) (fun h => h b)

/-- The shipped schema is accepted. -/
example : verifySchema shipped = .ok "1.0".toList := by decide +kernel

/-- A table that is too short is not noticed: a database without the column of the strings is accepted. -/
theorem C42_violated : verifySchema stringless = .ok "1.0".toList ∧
    ∃ rows, stringless.columns "pattern".toList = .ok rows ∧ ∀ row ∈ rows, row.name ≠ "string".toList := by
  refine ⟨by decide +kernel, _, rfl, ?_⟩
  decide +kernel

example : ∃ row ∈ pragma "pattern".toList, Agrees row (col "string" "TEXT" true false) :=
  C42_incomplete_rejected_partial (db := shipped) (v := "1.0".toList) (by decide +kernel)
    (t := ("pattern".toList, [col "rowID" "INTEGER" true true, col "component" "TEXT" true false,
      col "identifier" "TEXT" true false, col "languageTag" "TEXT" true false, col "string" "TEXT" true false,
      col "comment" "TEXT" false false, col "verified" "DATE" false false]))
    (.tail _ (.tail _ (.tail _ (.tail _ (.head _))))) rfl (by decide +kernel)
    (.tail _ (.tail _ (.tail _ (.tail _ (.head _)))))

example (v : Str) : verifySchema { shipped with tables := .ok (allTables.erase "language".toList) } ≠ .ok v :=
  C42_missing_table_rejected rfl (t := "language".toList) (.inr (by decide +kernel)) (by decide +kernel) v

/-! ### C39 -/

/-- Exactly which components are served, and from which places: those that the database of all components lists, and
those with their own database. -/
theorem C39_components_served {entries : List (Except Nat DirEntry)} {p : Sqlite}
    (h : Sqlite.tryNew (.directory entries) = .ok p) (c : Str) :
    ((∃ v, p.components.get c = some v) ↔ InShared entries c ∨ HasOwn entries c) ∧
      ∀ v, p.components.get c = some v → (v.1 = true ↔ InShared entries c) ∧ (v.2 = true ↔ HasOwn entries c) := by
  obtain ⟨_, hs, _⟩ := tryNew_ok h
  have s1 := hs.shared c
  have s2 := hs.own c
  have hsome := hs.somewhere (by intro c v h; cases h)
  unfold flags at s1 s2
  simp only [AMap.get, Option.getD_none, Bool.false_eq_true, false_or] at s1 s2
  refine ⟨⟨?_, ?_⟩, ?_⟩
  · rintro ⟨v, hv⟩
    rw [← s1, ← s2, hv]
    exact hsome c v hv
  · intro hor
    rw [← s1, ← s2] at hor
    cases hg : p.components.get c with
    | none => rw [hg] at hor; simp at hor
    | some v => exact ⟨v, rfl⟩
  · intro v hv
    rw [hv] at s1 s2
    exact ⟨s1, s2⟩

/-- The order of the files does not matter: the opening succeeds for one order exactly if it does for another, and then
the components are in the same places and the same databases are open. -/
theorem C39_any_order {entries entries' : List (Except Nat DirEntry)} (hp : entries.Perm entries') {p : Sqlite}
    (h : Sqlite.tryNew (.directory entries) = .ok p) : ∃ p', Sqlite.tryNew (.directory entries') = .ok p' ∧
      (∀ c, p'.components.get c = p.components.get c) ∧ ∀ name, p'.connections.get name = p.connections.get name := by
  obtain ⟨hf, hs, hne⟩ := tryNew_ok h
  obtain ⟨p', h1, hs'⟩ := openEntries_fine (p := { components := [], connections := [] })
    (es := entries') fun e he => hf e (hp.mem_iff.2 he)
  have hopens : ∀ n f, Opens entries n f ↔ Opens entries' n f := by
    intro n f
    unfold Opens
    constructor
    · rintro ⟨e, h1, h2⟩; exact ⟨e, hp.mem_iff.1 h1, h2⟩
    · rintro ⟨e, h1, h2⟩; exact ⟨e, hp.mem_iff.2 h1, h2⟩
  have hflags : ∀ c, flags p'.components c = flags p.components c := by
    intro c
    have a := hs.shared c
    have b := hs'.shared c
    have a2 := hs.own c
    have b2 := hs'.own c
    have e1 : InShared entries c ↔ InShared entries' c := by unfold InShared; simp only [hopens]
    have e2 : HasOwn entries c ↔ HasOwn entries' c := by unfold HasOwn; simp only [hopens]
    rw [e1, ← b] at a
    rw [e2, ← b2] at a2
    exact Prod.ext (Bool.eq_iff_iff.2 a.symm) (Bool.eq_iff_iff.2 a2.symm)
  have empty : Somewhere ([] : AMap Str (Bool × Bool)) := by intro c v h; cases h
  have hget := get_of_flags (hs'.somewhere empty) (hs.somewhere empty) hflags
  refine ⟨p', ?_, hget, fun name => ?_⟩
  · have : p'.components ≠ [] := by
      intro e
      cases hc : p.components with
      | nil => exact hne hc
      | cons x xs =>
        have := hget x.1
        rw [e, hc] at this
        simp [AMap.get] at this
    simp [Sqlite.tryNew, h1, this]
  · by_cases ho : ∃ f, Opens entries name f
    · rw [hs.opened name ho, hs'.opened name (by simpa only [hopens] using ho)]
    · rw [hs.others name ho, hs'.others name (by simpa only [hopens] using ho)]

/-- What was opened has the connections that its requests unwrap, each component is in a place, and all databases have the
version that the queries are written for. -/
theorem C39_connections_available {path : PathKind} {p : Sqlite} (h : Sqlite.tryNew path = .ok p) :
    Connected p ∧ p.components.keys.Nodup ∧ (∀ name v, p.connections.get name = some v → v = "1.0".toList) ∧
      ∀ c v, p.components.get c = some v → v.1 = true ∨ v.2 = true := by
  cases path with
  | noPath => cases h
  | noDirectory => cases h
  | unreadable _ => cases h
  | directory entries =>
    have hserved := C39_components_served h
    obtain ⟨_, hs, _⟩ := tryNew_ok h
    have hsome := hs.somewhere (by intro c v h; cases h)
    refine ⟨⟨fun c v hv h1 => ?_, fun c v hv h2 => ?_⟩, hs.nodup (by simp [AMap.keys]), fun name v hv => ?_, hsome⟩
    · obtain ⟨file, _, ho, _⟩ := ((hserved c).2 v hv).1.1 h1
      rw [hs.opened _ ⟨file, ho⟩]; rfl
    · obtain ⟨_, file, ho⟩ := ((hserved c).2 v hv).2.1 h2
      rw [hs.opened _ ⟨file, ho⟩]; rfl
    · by_cases ho : ∃ f, Opens entries name f
      · rw [hs.opened name ho] at hv
        exact (Option.some.inj hv).symm
      · rw [hs.others name ho] at hv
        cases hv

/-- No request of an opened provider fails on a missing connection: none panics, whatever the files contain by then. -/
theorem C39_requests_never_panic {path : PathKind} {p : Sqlite} (h : Sqlite.tryNew path = .ok p) (canon : Str → Except E Str)
    (st : Store) (c i tag : Str) :
    p.string canon st c i tag ≠ .panic ∧ p.stringExactMatch canon st c i tag ≠ .panic ∧ p.strings canon st c i tag ≠ .panic ∧
      p.buildCache canon st ≠ .panic ∧ ∀ details, p.identifierDetails canon st details c i ≠ .panic := by
  obtain ⟨hc, hn, _⟩ := C39_connections_available h
  exact ⟨oneString_ne_panic hc canon st c i tag false, oneString_ne_panic hc canon st c i tag true,
    strings_ne_panic hc canon st c i tag, buildCache_ne_panic hc hn st,
    fun details => identifierDetails_ne_panic hc canon st details c i⟩

example : Sqlite.tryNew (.directory directory) = .ok
    { components := [("b".toList, true, true), ("a".toList, true, false), ("c".toList, false, true)]
      connections := [("b".toList, "1.0".toList), (allInOne, "1.0".toList), ("c".toList, "1.0".toList)] } := by
  decide +kernel

example : Sqlite.tryNew (.directory directory.reverse) = .ok
    { components := [("c".toList, false, true), ("a".toList, true, false), ("b".toList, true, true)]
      connections := [("c".toList, "1.0".toList), (allInOne, "1.0".toList), ("b".toList, "1.0".toList)] } := by
  decide +kernel

example : directory.Perm directory.reverse := (List.reverse_perm _).symm

/-- The opening itself can panic: a database whose name is not UTF-8 (line 142), and one with another version whose path is
not UTF-8. -/
theorem C39_opening_can_panic : Sqlite.tryNew (.directory [unnameable]) = .panic ∧
    Sqlite.tryNew (.directory [file "b" { shipped with versions := .ok ["2.0".toList] } []]) = .panic := by
  decide +kernel

end Verif.Props
