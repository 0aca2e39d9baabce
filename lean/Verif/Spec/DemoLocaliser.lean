import Verif.Spec.DemoFormat
import Verif.Spec.Localiser
/-
A concrete provider and localiser, used only in examples and in witnesses of violations.
-/
namespace Verif.Demo
open Verif

/-- Strings: component, identifier, language tag, string. -/
abbrev Rows := List (Str × Str × Str × Str)

def rows (l : List (String × String × String × String)) : Rows :=
  l.map fun (c, i, t, s) => (c.toList, i.toList, t.toList, s.toList)

/-- The string of the tag or else of its first subtag. -/
def provider (r : Rows) : Provider Unit where
  string c i tag :=
    let find := fun t => r.find? fun x => x.1 = c ∧ x.2.1 = i ∧ x.2.2.1 = t
    match (find tag).or (find (tag.takeWhile (· ≠ '-'))) with
    | some x => .ok (some (x.2.2.2, x.2.2.1))
    | none => .ok none
  default _ := .ok "en".toList

def loc (r : Rows) : LocEnv Nat Unit Unit where
  fmt := env
  provider := provider r
  icuLanguage := some

/-- A localiser for `en` with fallback. -/
def start (caching : Bool) : Localiser Unit where
  cache := []
  fallback := true
  caching := caching
  tag := "en".toList
  script := ()

/-- The answers to a sequence of calls: `none` for a panic, `some none` for an error. -/
def answers (L : LocEnv Nat Unit Unit) (l : Localiser Unit) : List (Request Nat Unit) → List (Option (Option Str))
  | [] => []
  | r :: rest =>
    (match (l.call L (fun _ => ()) r).1 with
      | some (.ok (s, _)) => some (some s)
      | some (.err _) => some none
      | some .panic => none
      | none => some none) :: answers L (l.call L (fun _ => ()) r).2 rest

/-- Format with the defaults. -/
def fmt (c i : String) (vs : List (String × (String ⊕ Nat))) (tag : String := "en") (fallback : Option Bool := none) :
    Request Nat Unit :=
  .format c.toList i.toList (vals vs) (some tag.toList) fallback none

def lit (c i : String) (tag : String := "en") (fallback : Option Bool := none) : Request Nat Unit :=
  .literal c.toList i.toList (some tag.toList) fallback none

def say (s : String) : Option (Option Str) := some (some s.toList)

end Verif.Demo
