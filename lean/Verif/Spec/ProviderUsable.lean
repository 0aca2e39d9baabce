import Verif.Spec.Provider
/-
What a component must have in its databases for the SQLite provider to give details, and what can be wrong.
-/
namespace Verif.Spec
open Verif

variable {E : Type}

/-- The table `component` of the database can be read and has no row for the component. -/
def NoDefaultIn (st : Store) (c name : Str) : Prop :=
  ∃ rows, (st name).component = .ok rows ∧ ∀ r ∈ rows, r.identifier ≠ c

/-- The first database that has a row for the component decides: its last row has the default language. -/
inductive DefaultOf (canon : Str → Except E Str) (st : Store) (c : Str) : (names : List Str) → (tag : Str) → Prop
  | here {name names rows r t} : (st name).component = .ok rows →
      (∀ r ∈ rows, r.identifier = c → ∃ x, canon r.tag = .ok x) →
      (rows.filter fun r => r.identifier = c).getLast? = some r → canon r.tag = .ok t →
      DefaultOf canon st c (name :: names) t
  | later {name names t} : NoDefaultIn st c name → DefaultOf canon st c names t → DefaultOf canon st c (name :: names) t

/-- Someone has contributed to the component in the language, according to one of the databases. -/
def Contributed (canon : Str → Except E Str) (st : Store) (c : Str) (names : List Str) (tag : Str) : Prop :=
  ∃ name ∈ names, ∃ rows, (st name).contributor = .ok rows ∧ ∃ r ∈ rows, r.component = c ∧ canon r.tag = .ok tag

/-- The component has all that details need. -/
structure Usable (canon : Str → Except E Str) (st : Store) (files : Bool × Bool) (c : Str) : Prop where
  undetermined : ∃ x, canon "und".toList = .ok x
  contributor : ∀ name ∈ places files c, ∃ rows, (st name).contributor = .ok rows ∧
    ∀ r ∈ rows, r.component = c → ∃ x, canon r.tag = .ok x
  pattern : ∀ name ∈ places files c, ∃ rows, (st name).pattern = .ok rows
  default : ∃ t, DefaultOf canon st c (places files c) t ∧ Contributed canon st c (places files c) t

/-- The database is asked for the default language: those before it have none. -/
def AskedForDefault (st : Store) (files : Bool × Bool) (c name : Str) : Prop :=
  ∃ before after, places files c = before ++ name :: after ∧ ∀ n ∈ before, NoDefaultIn st c n

/-- What can be wrong with a component, and the error that says so. -/
inductive Fault (canon : Str → Except E Str) (st : Store) (files : Bool × Bool) (c : Str) : ProvErr E → Prop
  | undetermined {e} : canon "und".toList = .error e → Fault canon st files c (.registry e)
  | contributor {name code} : name ∈ places files c → (st name).contributor = .error code → Fault canon st files c (.sql code)
  | language {name rows r e} : name ∈ places files c → (st name).contributor = .ok rows → r ∈ rows → r.component = c →
      canon r.tag = .error e → Fault canon st files c (.registry e)
  | component {name code} : AskedForDefault st files c name → (st name).component = .error code →
      Fault canon st files c (.sql code)
  | tag {name rows r e} : AskedForDefault st files c name → (st name).component = .ok rows → r ∈ rows → r.identifier = c →
      canon r.tag = .error e → Fault canon st files c (.registry e)
  | noDefault : (∀ name ∈ places files c, NoDefaultIn st c name) → Fault canon st files c (.defaultLanguage c)
  | notContributed {t} : DefaultOf canon st c (places files c) t → ¬ Contributed canon st c (places files c) t →
      Fault canon st files c (.invalidDefaultLanguage c)
  | pattern {name code} : name ∈ places files c → (st name).pattern = .error code → Fault canon st files c (.sql code)

end Verif.Spec

namespace Verif.Spec
open Verif

/-- Two hash maps that hold the same, walked in different orders. -/
structure SameSqlite (p p' : Sqlite) : Prop where
  components : p.components.Perm p'.components
  connections : p.connections.Perm p'.connections

/-- The same to whoever asks: the maps answer alike, the lists hold the same, and each once. -/
structure SameRepository (r r' : RepositoryDetails) : Prop where
  languages : ∀ t, r.languages.get t = r'.languages.get t
  default : r.default = r'.default
  total : r.total = r'.total
  components : r.components.Perm r'.components
  contributors : r.contributors.Perm r'.contributors

end Verif.Spec
