import Verif.Model.LocaliserNew
import Verif.Spec.ScriptData
import Verif.Model.LanguageTag
/-
Programs that use a localiser, independent of the localiser: which language they set last, and which calls they make.
-/
namespace Verif.Spec
open Verif Verif.Scripts

variable {D F E : Type}

/-- The spelling of the language that is set last: rejected ones do not count. -/
inductive SetLast (canon : Str → Except E Str) (first : Str) : List (Use D F) → Str → Prop
  | never {uses : List (Use D F)} : (∀ u ∈ uses, ∀ q f c, u = .language q f c → ∃ e, canon q = .error e) →
      SetLast canon first uses first
  | last {before later : List (Use D F)} {q c : Str} {fallback caching : Option Bool} : canon q = .ok c →
      (∀ u ∈ later, ∀ q f c, u = .language q f c → ∃ e, canon q = .error e) →
      SetLast canon first (before ++ .language q fallback caching :: later) q

/-- The data are those that the table has for the script of the language. -/
def DataOfTag (likely : Tag.Identifier → Option Str) (tag : Str) (r : Option ScriptData) : Prop :=
  ∃ x, Tag.parse tag = .ok x ∧ ∀ d, r = some d ↔ ∃ s, HasScript likely x s ∧ Entry insertions s d

/-- The calls of the localiser in a program, with the texts of the tags. -/
def callsOf (canon : Str → Except E Str) : List (Use D F) → List (Request D F)
  | [] => []
  | .ask _ :: rest => callsOf canon rest
  | .language q fallback caching :: rest =>
    match canon q with
    | .ok c => .defaults (some c) fallback caching :: callsOf canon rest
    | .error _ => callsOf canon rest
  | .flags fallback caching :: rest => .defaults none fallback caching :: callsOf canon rest
  | .text r _ :: rest => r :: callsOf canon rest

end Verif.Spec
