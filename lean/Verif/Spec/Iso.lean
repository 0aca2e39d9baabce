import Verif.Model.Iso
/-
Written dates and times: digits with leading zeros.
-/
namespace Verif.Spec
open Verif

deriving instance DecidableEq for Except

/-- The decimal digit of `n % 10`. -/
def digitChar (n : Nat) : Char := Char.ofNat (48 + n % 10)

/-- `n` written with `w` decimal digits (leading zeros included). -/
def pad : (w n : Nat) → Str
  | 0, _ => []
  | w + 1, n => pad w (n / 10) ++ [digitChar n]

/-- The date, if the calendar has it. -/
def dateOrError (valid : Int → Nat → Nat → Bool) (y : Int) (m d : Nat) : Except IsoError IsoDate :=
  if valid y m d then .ok ⟨y, m, d⟩ else .error .calendar

/-- Sign of a year as written. -/
inductive YearSign where
  | none | plus | minus
  deriving DecidableEq, Repr

def YearSign.text : YearSign → Str
  | none => []
  | plus => ['+']
  | minus => ['-']

def YearSign.apply : YearSign → Nat → Int
  | minus, n => -(n : Int)
  | _, n => n

/-- Largest year of the type `i32`. -/
def YearSign.bound : YearSign → Nat
  | minus => 2147483648
  | _ => 2147483647

end Verif.Spec
