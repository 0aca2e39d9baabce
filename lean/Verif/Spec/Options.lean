import Verif.Model.Formatter
/-
The options of decimal and date_time patterns as documented in crates/localiser/docs/pattern strings.asciidoc:22-34 and
52-64.
-/
namespace Verif.Spec
open Verif

/-- `decimal_sign` -/
def signs : List (Str × SignDisplay) :=
  [("auto".toList, .auto), ("never".toList, .never), ("always".toList, .always), ("except_zero".toList, .exceptZero),
   ("negative".toList, .negative)]

/-- `decimal_group` -/
def groupings : List (Str × Grouping) :=
  [("auto".toList, .auto), ("never".toList, .never), ("always".toList, .always), ("min2".toList, .min2)]

/-- `date_time_length` -/
def lengths : List (Str × FmtLength) :=
  [("full".toList, .full), ("long".toList, .long), ("medium".toList, .medium), ("short".toList, .short)]

/-- `date_time_calendar` -/
def documentedCalendars : List Str :=
  ["gregory".toList, "buddhist".toList, "japanese".toList, "coptic".toList, "indian".toList, "ethiopic".toList, "iso".toList]

/-- What an option says: nothing if it is absent, else what the table gives for its value. -/
def Chosen {α : Type} (table : List (Str × α)) (options : AMap Str Str) (name : Str) (choice : Option α) : Prop :=
  match options.get name with
  | none => choice = none
  | some v => ∃ a, choice = some a ∧ (v, a) ∈ table

/-- A reading of the options of a decimal pattern. -/
structure DecimalReading (options : AMap Str Str) (sign : Option SignDisplay) (group : Option Grouping) : Prop where
  known : ∀ name, options.contains name → name = "sign".toList ∨ name = "group".toList
  sign : Chosen signs options "sign".toList sign
  group : Chosen groupings options "group".toList group

/-- A reading of the options of a date_time pattern, where `locale` gives the locale for a calendar. -/
structure DateTimeReading (locale : Str → Option Str) (options : AMap Str Str) (date time : Option FmtLength)
    (calendar : Option Str) : Prop where
  known : ∀ name, options.contains name → name = "date".toList ∨ name = "time".toList ∨ name = "calendar".toList
  date : Chosen lengths options "date".toList date
  time : Chosen lengths options "time".toList time
  calendar : match options.get "calendar".toList with
    | none => calendar = none
    | some v => v ∈ documentedCalendars ∧ ∃ l, locale v = some l ∧ calendar = some l

/-- `pat` is in `s` after `a`. -/
def After (pat a s : Str) : Prop := ∃ b, s = a ++ pat ++ b

variable {D F : Type}

/-- The number of a value. -/
inductive IsNumber (X : Icu4x D F) : PValue D F → D → Prop
  | fixedDecimal (d : D) : IsNumber X (.fixedDecimal d) d
  | unsigned (n : Nat) : IsNumber X (.unsigned n) (X.ofUnsigned n)
  | integer (i : Int) : IsNumber X (.integer i) (X.ofInteger i)
  | float (f : F) (d : D) : X.ofFloat f = .ok d → IsNumber X (.float f) d

/-- The number with the sign that the option asks for. -/
def signed (X : Icu4x D F) : Option SignDisplay → D → D
  | none, d => d
  | some s, d => X.applySign s d

/-- The text of a date, time, or both, with lengths; without a length it is `medium`. -/
inductive DateTimeText (X : Icu4x D F) (locale : Str) (date time : Option FmtLength) : PValue D F → Str → Prop
  | both (d : IsoDate) (t : IsoTime) (f : IsoDate → IsoTime → Except FormatterError Str) (s : Str) :
    X.dateTime locale (date.getD .medium) (time.getD .medium) = .ok f → f d t = .ok s →
      DateTimeText X locale date time (.dateTime d t) s
  | date (d : IsoDate) (f : IsoDate → Except FormatterError Str) (s : Str) :
    X.date locale (date.getD .medium) = .ok f → f d = .ok s → DateTimeText X locale date time (.date d) s
  | time (t : IsoTime) (f : IsoTime → Str) :
    X.time locale (time.getD .medium) = .ok f → DateTimeText X locale date time (.time t) (f t)

end Verif.Spec
