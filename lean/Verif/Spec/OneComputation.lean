import Verif.Spec.ProviderSync
/-
Details that come from one and the same computation.
-/
namespace Verif

/-- The program may end with this result when other threads change the state as they like between its steps. -/
def Act.CanEnd {σ α : Type} : Act σ α → α → Prop
  | .done a, b => a = b
  | .step ready _ next, b => ∃ s, ready s = true ∧ (next s).CanEnd b

end Verif

namespace Verif.Spec
open Verif

/-- One computation of the details, while the files may be changed, gives both. -/
def OneComputation {E : Type} (canon : Str → Except E Str) (p : Sqlite) (m : AMap Str ComponentDetails)
    (r : RepositoryDetails) : Prop :=
  (p.buildComponentsSync canon p.components []
    { languages := [], default := none, total := 0, components := [], contributors := [] }).CanEnd (.ok (m, r))

/-- The call may start a computation of the details. -/
def NeedsDetails : ProvCall → Prop
  | .identifierDetails _ _ => True
  | .componentDetails _ => True
  | .repositoryDetails => True
  | _ => False

/-- The details of the repository fit those of the components. -/
structure Agree (m : AMap Str ComponentDetails) (r : RepositoryDetails) : Prop where
  /-- the components are the same -/
  components : r.components = m.keys
  /-- the strings are as many -/
  total : r.total = (m.map fun x => x.2.total).sum

end Verif.Spec
