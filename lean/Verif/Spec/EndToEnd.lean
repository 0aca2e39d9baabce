import Verif.Spec.ProviderLocaliser
import Verif.Spec.LanguageTag
/-
Words for the properties of a localiser, a provider and a formatter together.
-/
namespace Verif.Spec
open Verif

/-- The tables of patterns can be read, and their tags are spelt as the registry spells them, but for letter case. -/
structure Stocked (p : Sqlite) (st : Verif.Store) (rows : Str → List PatternRow) : Prop where
  read : ∀ c files, p.components.get c = some files → ∀ name ∈ places files c, (st name).pattern = .ok (rows name)
  tags : ∀ name, ∀ r ∈ rows name, ∃ t, CanonicalTag t ∧ lower t = lower r.tag

/-- In the first place that is asked for the component, the string is stored with exactly this tag, and before it nothing
for the same identifier with a tag that begins with this one. -/
def StoredFirst (p : Sqlite) (rows : Str → List PatternRow) (component identifier tag string : Str) : Prop :=
  ∃ files name others before r after, p.components.get component = some files ∧
    places files component = name :: others ∧ rows name = before ++ r :: after ∧ For component identifier r ∧
    r.tag = tag ∧ r.string = string ∧ ∀ r' ∈ before, For component identifier r' → ¬ Begins tag r'.tag

end Verif.Spec
