import Verif.Model.Formatter
/-
How values are shown, according to their kind (user documentation of pattern strings, and
crates/utility/src/types.rs:54-66 `PlaceholderValue`): text values as they are, numbers and dates by the formatters of the
language. Written apart from the helpers of the formatter model.
-/
namespace Verif.Spec
open Verif

variable {D F : Type}

/-- The keyword of a plural category. -/
def categoryName (c : PluralCategory) : Str :=
  (match c with
    | .zero => "zero" | .one => "one" | .two => "two" | .few => "few" | .many => "many" | .other => "other").toList

/-- The keywords of plural categories (CLDR). -/
def IsCategory (s : Str) : Prop := ∃ c, s = categoryName c

/-- The text of a value; numbers and dates have none. -/
def textOf : PValue D F → Option Str
  | .string s | .taggedString s _ | .localised s _ => some s
  | .fixedDecimal _ | .unsigned _ | .integer _ | .float _ | .dateTime _ _ | .date _ | .time _ | .localisationData _ _ _ =>
    none

/-- The decimal of a number. Some floating point numbers (infinities) have none. -/
def numberOf (X : Icu4x D F) : PValue D F → Option D
  | .fixedDecimal d => some d
  | .unsigned n => some (X.ofUnsigned n)
  | .integer i => some (X.ofInteger i)
  | .float f => (X.ofFloat f).toOption
  | .string _ | .taggedString _ _ | .localised _ _ | .dateTime _ _ | .date _ | .time _ | .localisationData _ _ _ => none

/-- The decimal of a number that may be used as an ordinal: the numbers without a sign. -/
def ordinalOf (X : Icu4x D F) : PValue D F → Option D
  | .unsigned n => some (X.ofUnsigned n)
  | _ => none

/-- The result if there is one. -/
def ofOption : Option Str → Outcome Unit Str
  | some s => .ok s
  | none => .err ()

/-- A number in the language, without options. -/
def showDecimal (X : Icu4x D F) (lang : Str) (v : PValue D F) : Outcome Unit Str :=
  ofOption do
    let format ← (X.decimal lang none).toOption
    let d ← numberOf X v
    pure (format d)

/-- A date, time or both in the language, with medium lengths. -/
def showMoment (X : Icu4x D F) (lang : Str) : Option IsoDate → Option IsoTime → Option Str
  | some d, some t => do (← (X.dateTime lang .medium .medium).toOption) d t |>.toOption
  | some d, none => do (← (X.date lang .medium).toOption) d |>.toOption
  | none, some t => do pure ((← (X.time lang .medium).toOption) t)
  | none, none => none

/-- Dates and times, also in the notation of ISO 8601: `T` in front of the time. A text with more than one `T` is read
up to the first. -/
def showDateTime (X : Icu4x D F) (lang : Str) (v : PValue D F) : Outcome Unit Str :=
  ofOption <|
    match v with
    | .dateTime d t => showMoment X lang (some d) (some t)
    | .date d => showMoment X lang (some d) none
    | .time t => showMoment X lang none (some t)
    | .string s => do
      let before := s.takeWhile (· ≠ 'T')
      if s.count 'T' = 1 then
        let t ← (decomposeIsoTime (s.drop (before.length + 1))).toOption
        if before.length = 0 then showMoment X lang none (some t)
        else showMoment X lang (some (← (decomposeIsoDate X.validDate before).toOption)) (some t)
      else showMoment X lang (some (← (decomposeIsoDate X.validDate before).toOption)) none
    | _ => none

/-- What a name stands for as parameter of a delayed command: its value, and without a value itself. -/
def argument (values : AMap Str (PValue D F)) (name : Str) : PValue D F := (values.get name).getD (.string name)

end Verif.Spec
