import Verif.Spec.Iso
/-
All strings that are taken for dates and times, with what they are taken for.
-/
namespace Verif.Spec
open Verif

/-- A number as the standard library reads it: digits, perhaps after a plus sign. -/
def Count (max : Nat) (s : Str) (n : Nat) : Prop :=
  n ≤ max ∧ ∃ w, 0 < w ∧ n < 10 ^ w ∧ (s = pad w n ∨ s = '+' :: pad w n)

/-- A year as the standard library reads it: a number, perhaps after a sign. -/
def YearText (s : Str) (y : Int) : Prop :=
  (∃ n : Nat, Count 2147483647 s n ∧ y = n) ∨
  ∃ w n : Nat, 0 < w ∧ n < 10 ^ w ∧ n ≤ 2147483648 ∧ s = '-' :: pad w n ∧ y = -(n : Int)

/-- A number in two bytes. -/
def Two (s : Str) (n : Nat) : Prop := (n < 100 ∧ s = pad 2 n) ∨ (n < 10 ∧ s = '+' :: pad 1 n)

/-- The string cannot be cut after so many bytes: it is shorter, or a character is in the way. -/
def NoCut (k : Nat) (s : Str) : Prop := ∀ a b, s = a ++ b → byteLen a ≠ k

/-- What may follow the day or the time: nothing, or anything after one of these characters. -/
def Trailer (cs : List Char) (r : Str) : Prop := r = [] ∨ ∃ c ∈ cs, ∃ r', r = c :: r'

/-- The sign of a year before which there is no plus sign. -/
def minusSign (b : Bool) : Str := if b then ['-'] else []

/-- The strings taken for dates, after their plus signs. -/
inductive DateText : Str → Int → Nat → Nat → Prop
  | nothing (s) : '-' ∉ s → NoCut 4 s → DateText s 0 1 1
  | year (n : Nat) (r) : n < 10 ^ 4 → '-' ∉ r → NoCut 2 r → DateText (pad 4 n ++ r) n 1 1
  | month (n : Nat) (m r k) : n < 10 ^ 4 → Two m k → '-' ∉ r → NoCut 2 r → DateText (pad 4 n ++ m ++ r) n k 1
  | day (n : Nat) (m d r k l) : n < 10 ^ 4 → Two m k → Two d l → '-' ∉ r → DateText (pad 4 n ++ m ++ d ++ r) n k l
  | dashYear (y n) : '-' ∉ y → YearText ('-' :: y) n → DateText ('-' :: y) n 1 1
  | dashMonth (b y m n k) : '-' ∉ y → '-' ∉ m → YearText (minusSign b ++ y) n → Count 255 m k →
      DateText (minusSign b ++ y ++ '-' :: m) n k 1
  | dashDay (b y m d r n k l) : '-' ∉ y → '-' ∉ m → '-' ∉ d → Trailer ['-'] r → YearText (minusSign b ++ y) n →
      Count 255 m k → Count 255 d l → DateText (minusSign b ++ y ++ '-' :: m ++ '-' :: d ++ r) n k l

/-- The strings taken for dates. -/
def DateForm (s : Str) (y : Int) (m d : Nat) : Prop :=
  ∃ k t, s = List.replicate k '+' ++ t ∧ t.head? ≠ some '+' ∧ DateText t y m d

/-- The strings taken for times, without the letters before and the time zone behind them. -/
inductive TimeText : Str → Nat → Nat → Nat → Nat → Prop
  | nothing (s) : NoCut 2 s → TimeText s 0 0 0 0
  | hour (h i r) : h ≤ 24 → r.head? ≠ some ':' → NoCut 2 r → TimeText (pad 2 h ++ List.replicate i ':' ++ r) h 0 0 0
  | minute (h i m j r) : h ≤ 24 → m ≤ 60 → r.head? ≠ some ':' → NoCut 2 r →
      TimeText (pad 2 h ++ List.replicate i ':' ++ pad 2 m ++ List.replicate j ':' ++ r) h m 0 0
  | second (h i m j s k w n) : h ≤ 24 → m ≤ 60 → s ≤ 61 → n ≤ 999999999 → 0 < w → n < 10 ^ w →
      TimeText (pad 2 h ++ List.replicate i ':' ++ pad 2 m ++ List.replicate j ':' ++ pad 2 s ++ List.replicate k '.' ++
        pad w n) h m s n

/-- The strings taken for times. -/
def TimeForm (s : Str) (h m sec n : Nat) : Prop :=
  ∃ k t z, s = List.replicate k 'T' ++ t ++ z ∧ t.head? ≠ some 'T' ∧ '+' ∉ t ∧ '-' ∉ t ∧ Trailer ['+', '-'] z ∧
    TimeText t h m sec n

end Verif.Spec
