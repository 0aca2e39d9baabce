import Verif.Spec.EndToEnd
/-
Words for the language in which a stored string is shown if it is not stored for the requested one.
-/
namespace Verif.Spec
open Verif

/-- No row for the string has a tag that begins with the requested tag or with one of its truncations. -/
def NothingFor (rows : List PatternRow) (component identifier tag : Str) : Prop :=
  ∀ t, Truncation t tag → ∀ r ∈ rows, For component identifier r → ¬ Begins t r.tag

/-- The component is served, and none of its databases has anything for the string and the tag. -/
def Nowhere (p : Sqlite) (rows : Str → List PatternRow) (component identifier tag : Str) : Prop :=
  ∃ files, p.components.get component = some files ∧
    ∀ name ∈ places files component, NothingFor (rows name) component identifier tag

/-- In the first database that has anything for the string and the requested tag, the string is stored with the tag
`shown`, the requested one or a truncation of it; nothing there has a tag that begins with a longer truncation; and before
it there is nothing for the same identifier with a tag that begins with `shown`. -/
def StoredLess (p : Sqlite) (rows : Str → List PatternRow) (component identifier tag shown string : Str) : Prop :=
  ∃ files asked name others before r after, p.components.get component = some files ∧
    places files component = asked ++ name :: others ∧
    (∀ n ∈ asked, NothingFor (rows n) component identifier tag) ∧ rows name = before ++ r :: after ∧
    For component identifier r ∧ lower r.tag = lower shown ∧ r.string = string ∧ Truncation shown tag ∧
    (∀ t, Truncation t tag → shown.length < t.length → ∀ r' ∈ rows name, For component identifier r' → ¬ Begins t r'.tag) ∧
    ∀ r' ∈ before, For component identifier r' → ¬ Begins shown r'.tag

/-- The default language of a component: the tag in the last row for it in the table `component` of the first of its
databases that has such a row. -/
def DefaultLanguage {E : Type} (canon : Str → Except E Str) (p : Sqlite) (st : Verif.Store) (component tag : Str) : Prop :=
  ∃ (files : Bool × Bool) (table : Str → List ComponentRow) (asked : List Str) (name : Str) (others : List Str) (r : ComponentRow),
    p.components.get component = some files ∧
    (∀ n ∈ places files component, (st n).component = .ok (table n)) ∧
    places files component = asked ++ name :: others ∧ (∀ n ∈ asked, ∀ r ∈ table n, r.identifier ≠ component) ∧
    ((table name).filter fun r => r.identifier = component).getLast? = some r ∧ canon r.tag = .ok tag

end Verif.Spec
