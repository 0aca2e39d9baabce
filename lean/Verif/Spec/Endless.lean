import Verif.Spec.Blame
/-
Pattern strings that never end.
-/
namespace Verif.Spec
open Verif

variable {D F : Type}

/-- A string with these items never ends with these values: the items before have texts, and then an item shows the main
string, or a named string that never ends. `before` are the named strings it may use, latest first. -/
inductive Endless (E : FmtEnv D F) (lang : Str) (values : AMap Str (PValue D F)) : List Named → Str → List Item → Prop
  | here (before self front it back) : (∀ x ∈ front, HasText E lang values before self x) → Picks E lang values it mainName →
      Endless E lang values before self (front ++ it :: back)
  | inside (before self front it back n later earlier) : (∀ x ∈ front, HasText E lang values before self x) →
      Picks E lang values it n.name → before = later ++ n :: earlier → Endless E lang values earlier n.name n.items →
      Endless E lang values before self (front ++ it :: back)

end Verif.Spec
