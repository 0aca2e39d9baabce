import Verif.Spec.ProviderLocaliser
import Verif.Spec.ProviderUsable
/-
Words for what a request for a string may depend on.
-/
namespace Verif.Spec
open Verif

variable {P : Type}

/-- The places have the same rows for the string in the two stores, in the same order, or cannot be read for the same
reason. Rows for other strings, and the other tables, may differ. -/
def SameStrings (st st' : Verif.Store) (c i : Str) (names : List Str) : Prop :=
  ∀ name ∈ names, (∃ code, (st name).pattern = .error code ∧ (st' name).pattern = .error code) ∨
    ∃ rows rows', (st name).pattern = .ok rows ∧ (st' name).pattern = .ok rows' ∧
      rows.filter (fun r => For c i r) = rows'.filter (fun r => For c i r)

/-- The places name the same default languages of the component in the two stores. -/
def SameDefaults (st st' : Verif.Store) (c : Str) (names : List Str) : Prop :=
  ∀ name ∈ names, ∃ rows rows', (st name).component = .ok rows ∧ (st' name).component = .ok rows' ∧
    rows.filter (fun r => r.identifier = c) = rows'.filter (fun r => r.identifier = c)

/-- The two providers give the same for what is needed: the string in the language, and, with fallback, the default language
and the string in it. -/
def SameFor (p q : Provider P) (u : Use) : Prop :=
  p.string u.component u.identifier u.tag = q.string u.component u.identifier u.tag ∧
  (u.fallback = true → p.string u.component u.identifier u.tag = .ok none →
    p.default u.component = q.default u.component ∧
    ∀ d, p.default u.component = .ok d →
      p.string u.component u.identifier d = q.string u.component u.identifier d)

end Verif.Spec
