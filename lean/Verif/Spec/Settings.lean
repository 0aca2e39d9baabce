import Verif.Spec.LockSync
/-
Words for the property that panics never reach the settings of a localiser.
-/
namespace Verif.Spec
open Verif

variable {S : Type}

/-- The cells with the defaults that a program can set. -/
def Setting : Cell → Prop
  | .fallback | .caching | .tag | .script => True
  | .cache | .formatter _ _ => False

/-- No lock of a setting is poisoned. -/
def SettingsUsable (s : LkState S) : Prop := ∀ c, Setting c → s.poisoned c = false

end Verif.Spec
