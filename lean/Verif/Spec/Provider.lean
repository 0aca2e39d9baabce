import Verif.Model.ProviderSqlite
/-
Words for the properties of the SQLite provider.
-/
namespace Verif.Spec
open Verif

/-- Without case. -/
def lower (s : Str) : Str := s.map Char.toLower

/-- The text begins with the other, without regard to case. -/
def Begins (t s : Str) : Prop := lower t <+: lower s

instance (t s : Str) : Decidable (Begins t s) := inferInstanceAs (Decidable (_ <+: _))

/-- The tag itself, or the tag with subtags dropped from its end. -/
def Truncation (t tag : Str) : Prop := t ≠ [] ∧ (t = tag ∨ ∃ rest, tag = t ++ '-' :: rest)

/-- No character that means something in a `LIKE` pattern. Language tags have none. -/
def NoWildcards (tag : Str) : Prop := '%' ∉ tag ∧ '_' ∉ tag

/-- The text has the form of the pattern: `%` stands for any characters, `_` for one, any other character for itself without
regard to case. -/
inductive HasForm : (pattern text : Str) → Prop
  | nil : HasForm [] []
  | any {p t} (s : Str) : HasForm p t → HasForm ('%' :: p) (s ++ t)
  | one {p t} (x : Char) : HasForm p t → HasForm ('_' :: p) (x :: t)
  | char {p t c x} : c ≠ '%' → c ≠ '_' → c.toLower = x.toLower → HasForm p t → HasForm (c :: p) (x :: t)

/-- The row is for the string. -/
def For (component identifier : Str) (r : PatternRow) : Prop := r.component = component ∧ r.identifier = identifier

instance (c i : Str) (r : PatternRow) : Decidable (For c i r) := inferInstanceAs (Decidable (_ ∧ _))

/-- The tag in the row is accepted by the registry. -/
def Readable {E : Type} (canon : Str → Except E Str) (r : PatternRow) : Prop := ∃ t, canon r.tag = .ok t

/-- The rows for the string of which the tag is `t`, or, not exactly, begins with `t`. -/
def rowsAt (rows : List PatternRow) (component identifier : Str) (exact : Bool) (t : Str) : List PatternRow :=
  rows.filter fun r => For component identifier r ∧ if exact then r.tag = t else Begins t r.tag

/-- `found` are the rows at the longest truncation of the tag that has rows; none if no truncation has. -/
inductive Longest (rows : List PatternRow) (component identifier : Str) (exact : Bool) (tag : Str) :
    (found : List PatternRow) → Prop
  | none : (∀ t, Truncation t tag → rowsAt rows component identifier exact t = []) →
      Longest rows component identifier exact tag []
  | at (t) : Truncation t tag → rowsAt rows component identifier exact t ≠ [] →
      (∀ t', Truncation t' tag → t.length < t'.length → rowsAt rows component identifier exact t' = []) →
      Longest rows component identifier exact tag (rowsAt rows component identifier exact t)

/-- The string of a row and its tag. -/
def Gives {E : Type} (canon : Str → Except E Str) (r : PatternRow) (x : Str × Str) : Prop :=
  x.1 = r.string ∧ canon r.tag = .ok x.2

/-- One by one. -/
inductive AllGive {E : Type} (canon : Str → Except E Str) : List PatternRow → List (Str × Str) → Prop
  | nil : AllGive canon [] []
  | cons {r x rs xs} : Gives canon r x → AllGive canon rs xs → AllGive canon (r :: rs) (x :: xs)

/-- Every connection that the components need is there. -/
structure Connected (p : Sqlite) : Prop where
  shared : ∀ c v, p.components.get c = some v → v.1 = true → (p.connections.get allInOne).isSome = true
  own : ∀ c v, p.components.get c = some v → v.2 = true → (p.connections.get c).isSome = true

end Verif.Spec

namespace Verif.Spec
open Verif

/-- The databases that are asked for a component, in their order: that of all components, then its own. -/
def places (files : Bool × Bool) (component : Str) : List Str :=
  (if files.1 then [allInOne] else []) ++ (if files.2 then [component] else [])

/-- The strings in the places can be read and the registry accepts their tags. -/
def Holds {E : Type} (canon : Str → Except E Str) (st : Store) (names : List Str) (rows : Str → List PatternRow) : Prop :=
  ∀ name ∈ names, (st name).pattern = .ok (rows name) ∧ ∀ r ∈ rows name, Readable canon r

/-- What the places have: the first that has rows at some truncation decides. -/
inductive Decides (rows : Str → List PatternRow) (c i : Str) (exact : Bool) (tag : Str) :
    List Str → List PatternRow → Prop
  | none : Decides rows c i exact tag [] []
  | here {name names found} : Longest (rows name) c i exact tag found → found ≠ [] →
      Decides rows c i exact tag (name :: names) found
  | later {name names found} : Longest (rows name) c i exact tag [] → Decides rows c i exact tag names found →
      Decides rows c i exact tag (name :: names) found

/-- The part of a tag before its first hyphen. -/
def primary (tag : Str) : Str := tag.takeWhile (· ≠ '-')

end Verif.Spec

namespace Verif.Spec
open Verif

/-- The count reported for a language; zero if the language is not there. -/
def languageCount (m : AMap Str LanguageData) (t : Str) : Nat :=
  match m.get t with
  | some d => d.count
  | none => 0

/-- All counts together. -/
def sumCounts (m : AMap Str LanguageData) : Nat := (m.map fun x => x.2.count).sum

/-- The tables of the places can be read. -/
structure Contents (st : Store) (names : List Str) (pattern : Str → List PatternRow)
    (contributor : Str → List ContributorRow) : Prop where
  pattern : ∀ name ∈ names, (st name).pattern = .ok (pattern name)
  contributor : ∀ name ∈ names, (st name).contributor = .ok (contributor name)

/-- Different tags of the contributors in the database of all components are different for the registry. -/
def TagsDiffer {E : Type} (canon : Str → Except E Str) (st : Store) : Prop :=
  ∀ rows, (st allInOne).contributor = .ok rows → ∀ r ∈ rows, ∀ r' ∈ rows, ∀ t,
    canon r.tag = .ok t → canon r'.tag = .ok t → r.tag = r'.tag

/-- The registry makes one tag of two tags that contributors of the component have in the database of all components. -/
def Merged {E : Type} (canon : Str → Except E Str) (p : Sqlite) (st : Store) (component t : Str) : Prop :=
  (∃ files, p.components.get component = some files ∧ files.1 = true) ∧
    ∃ rows, (st allInOne).contributor = .ok rows ∧ ∃ r ∈ rows, ∃ r' ∈ rows, r.component = component ∧
      r'.component = component ∧ r.tag ≠ r'.tag ∧ canon r.tag = .ok t ∧ canon r'.tag = .ok t

end Verif.Spec
