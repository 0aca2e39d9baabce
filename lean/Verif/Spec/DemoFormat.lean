import Verif.Spec.Demo
import Verif.Model.Localiser
/-
A concrete environment of the formatter, used only in examples and in witnesses of violations: numbers are natural
numbers written in decimal, English plural rules, one command that joins its parameters.
-/
namespace Verif.Demo
open Verif

/-- Decimal digits. -/
def digitsAux : (fuel : Nat) → Nat → Str → Str
  | 0, _, acc => acc
  | fuel + 1, n, acc =>
    let acc := Char.ofNat (48 + n % 10) :: acc
    if n < 10 then acc else digitsAux fuel (n / 10) acc

def digits (n : Nat) : Str := digitsAux 40 n []

def icu4x : Icu4x Nat Unit where
  decimal _ _ := .ok digits
  applySign _ d := d
  ofUnsigned n := n
  ofInteger i := i.toNat
  ofFloat _ := .ok 0
  cardinal _ := .ok fun n => if n = 1 then .one else .other
  ordinal _ := .ok fun n => if n = 1 then .one else if n = 2 then .two else if n = 3 then .few else .other
  date _ _ := .ok fun _ => .ok "date".toList
  time _ _ := .ok fun _ => "time".toList
  dateTime _ _ _ := .ok fun _ _ => .ok "date and time".toList
  validDate _ m d := 1 ≤ m && m ≤ 12 && 1 ≤ d && d ≤ 31
  parseLocale s := .ok s

/-- Joins the texts of its parameters. -/
def join (ps : List (PValue Nat Unit)) : Outcome CommandError Str :=
  .ok ((ps.map fun p => (toText p).getD ['?']).intersperse ['-']).flatten

def env : FmtEnv Nat Unit where
  icu := icu
  grammar := patternGrammar
  icu4x := icu4x
  commands := [("join".toList, join)]

/-- Texts and numbers as values. -/
def vals (l : List (String × (String ⊕ Nat))) : AMap Str (PValue Nat Unit) :=
  l.map fun (k, v) => (k.toList, match v with | .inl s => .string s.toList | .inr n => .unsigned n)

/-- Is the pattern string accepted? -/
def accepts (s : String) : Bool :=
  match Formatter.tryNew env s.toList "en".toList (some "en".toList) with
  | .ok _ => true
  | _ => false

/-- Results of a sequence of calls. -/
def runs (f : Formatter) : List (AMap Str (PValue Nat Unit)) → List (Option Str)
  | [] => []
  | v :: vs =>
    (match (f.format env v).1 with
      | .ok (s, _) => some s
      | _ => none) :: runs (f.format env v).2 vs

/-- Results of a sequence of calls on the formatter of a pattern string; `none` if it is rejected. -/
def format (s : String) (vs : List (List (String × (String ⊕ Nat)))) : Option (List (Option Str)) :=
  match Formatter.tryNew env s.toList "en".toList (some "en".toList) with
  | .ok f => some (runs f (vs.map vals))
  | _ => none

end Verif.Demo
