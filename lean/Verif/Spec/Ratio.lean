import Mathlib.Algebra.Order.Field.Rat
import Mathlib.Algebra.Order.Field.Power
import Verif.Model.Ratio

/-! # What it means to round a number to `f32` -/

namespace Verif.Spec
open Verif

/-- The number that is meant. -/
def valueF32 : F32 → Option ℚ
  | .fin m e => some (m * 2 ^ e)
  | _ => none

/-- A number with 24 binary digits. -/
def Single (v : ℚ) : Prop := ∃ (m : ℕ) (e : ℤ), m < 2 ^ 24 ∧ v = m * 2 ^ e

/-- `x` is the number with 24 binary digits that is nearest to `q`; of two it is the one whose last digit (of 24) is even. -/
structure Rounded (q : ℚ) (x : F32) : Prop where
  single : ∃ v, valueF32 x = some v ∧ Single v
  nearest : ∀ v w, valueF32 x = some v → Single w → |v - q| ≤ |w - q|
  even : ∀ v w, valueF32 x = some v → Single w → w ≠ v → |v - q| = |w - q| →
    ∃ (m : ℕ) (e : ℤ), 2 ^ 23 ≤ m ∧ m < 2 ^ 24 ∧ m % 2 = 0 ∧ v = m * 2 ^ e

end Verif.Spec
