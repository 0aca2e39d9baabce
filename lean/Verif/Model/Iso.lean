import Verif.Model.Lexer
import Verif.Model.Outcome
/-
ISO 8601 dates and times: `decompose_iso_date` and `decompose_iso_time`,
/repo/crates/localiser/src/formatter.rs:862-1017.

`Date::try_new_iso_date` (icu_calendar) either rejects a year, month and day or returns the date with exactly these
fields; which are rejected is a parameter. The unit types `IsoHour`, `IsoMinute`, `IsoSecond`, `NanoSecond` of
icu_calendar parse an unsigned integer and check an upper bound.
-/
namespace Verif

/-- `icu_calendar::Date<Iso>`. -/
structure IsoDate where
  year : Int
  month : Nat
  day : Nat
  deriving DecidableEq, Repr

/-- `icu_calendar::types::Time`. -/
structure IsoTime where
  hour : Nat
  minute : Nat
  second : Nat
  nano : Nat
  deriving DecidableEq, Repr

/-- The errors of the two functions: `FormatterError::ParseInt` and `FormatterError::Calendar`. -/
inductive IsoError where
  | parseInt | calendar
  deriving DecidableEq, Repr

/-- Decimal digit. -/
def digit? (c : Char) : Option Nat :=
  if '0' ≤ c ∧ c ≤ '9' then some (c.toNat - '0'.toNat) else none

/-- Value of a sequence of digits after the digits with value `acc`. -/
def digits? (acc : Nat) : Str → Option Nat
  | [] => some acc
  | c :: cs => match digit? c with
    | some d => digits? (acc * 10 + d) cs
    | none => none

/-- `u8::from_str`, `u32::from_str`, …: an optional `+`, at least one digit, and a bound. -/
def parseUnsigned (max : Nat) (s : Str) : Option Nat :=
  let ds := match s with
    | '+' :: rest => rest
    | s => s
  match ds with
  | [] => none
  | ds => match digits? 0 ds with
    | some n => if n ≤ max then some n else none
    | none => none

/-- `i32::from_str`: an optional sign, at least one digit, and bounds. -/
def parseI32 (s : Str) : Option Int :=
  match s with
  | '-' :: rest =>
    match rest with
    | [] => none
    | ds => match digits? 0 ds with
      | some n => if n ≤ 2147483648 then some (-(n : Int)) else none
      | none => none
  | s => match parseUnsigned 2147483647 s with
    | some n => some n
    | none => none

/-- `s.get(..n)` together with `&s[n..]`: split after `n` bytes; `None` when the string is shorter or byte `n` is not
the start of a character. -/
def splitBytes : Nat → Str → Option (Str × Str)
  | 0, s => some ([], s)
  | _ + 1, [] => none
  | n + 1, c :: cs =>
    if c.utf8Size ≤ n + 1 then
      match splitBytes (n + 1 - c.utf8Size) cs with
      | some (a, b) => some (c :: a, b)
      | none => none
    else none
termination_by _ s => s.length

/-- `str::trim_start_matches(c)`. -/
def trimStart (c : Char) : Str → Str
  | [] => []
  | x :: xs => if x = c then trimStart c xs else x :: xs

/-- `str::split(c)`: always at least one part. -/
def splitOn (c : Char) : Str → List Str
  | [] => [[]]
  | x :: xs =>
    if x = c then [] :: splitOn c xs
    else match splitOn c xs with
      | p :: ps => (x :: p) :: ps
      | [] => [[x]]

/-- The part of `s` before the first `c`: `match s.find(c) { None => s, Some(pos) => &s[..pos] }`. -/
def cutAt (c : Char) (s : Str) : Str := s.takeWhile (· ≠ c)

/-- `?` on `i32::from_str` and `u8::from_str`. -/
def orParseInt {α : Type} (x : Option α) : Except IsoError α :=
  match x with
  | some a => .ok a
  | none => .error .parseInt

/-- `Date::try_new_iso_date(year, month, day)?`. -/
def newDate (valid : Int → Nat → Nat → Bool) (y : Int) (m d : Nat) : Except IsoError IsoDate :=
  if valid y m d then .ok { year := y, month := m, day := d } else .error .calendar

/-- `decompose_iso_date`, crates/localiser/src/formatter.rs:892-947. -/
def decomposeIsoDate (valid : Int → Nat → Nat → Bool) (string : Str) : Except IsoError IsoDate :=
  let noPlus := trimStart '+' string
  if noPlus = [] then newDate valid 0 1 1
  else
    match splitOn '-' noPlus with
    | [p] =>
      match splitBytes 4 p with
      | none => newDate valid 0 1 1
      | some (y, r) => do
        let year ← orParseInt (parseI32 y)
        match splitBytes 2 r with
        | none => newDate valid year 1 1
        | some (m, r) =>
          let month ← orParseInt (parseUnsigned 255 m)
          match splitBytes 2 r with
          | none => newDate valid year month 1
          | some (d, _) =>
            let day ← orParseInt (parseUnsigned 255 d)
            newDate valid year month day
    | parts => do
      -- `parts[index]` exists: there are at least two parts
      let (yearString, rest) := match parts with
        | [] :: y :: rest => ('-' :: y, rest)
        | y :: rest => (y, rest)
        | [] => ([], [])
      let year ← orParseInt (parseI32 yearString)
      match rest with
      | [] => newDate valid year 1 1
      | m :: rest =>
        let month ← orParseInt (parseUnsigned 255 m)
        match rest with
        | [] => newDate valid year month 1
        | d :: _ =>
          let day ← orParseInt (parseUnsigned 255 d)
          newDate valid year month day

/-- `IsoHour::from_str` and the others: parse, then check the upper bound. `store` is the largest value of the
underlying integer type. -/
def parseUnit (store max : Nat) (s : Str) : Except IsoError Nat :=
  match parseUnsigned store s with
  | none => .error .calendar
  | some n => if n ≤ max then .ok n else .error .calendar

/-- `decompose_iso_time`, crates/localiser/src/formatter.rs:969-1017. -/
def decomposeIsoTime (string : Str) : Except IsoError IsoTime :=
  let trimmed := cutAt '-' (cutAt '+' (trimStart 'T' string))
  match splitBytes 2 trimmed with
  | none => .ok { hour := 0, minute := 0, second := 0, nano := 0 }
  | some (h, r) => do
    let hour ← parseUnit 255 24 h
    match splitBytes 2 (trimStart ':' r) with
    | none => .ok { hour := hour, minute := 0, second := 0, nano := 0 }
    | some (m, r) =>
      let minute ← parseUnit 255 60 m
      match splitBytes 2 (trimStart ':' r) with
      | none => .ok { hour := hour, minute := minute, second := 0, nano := 0 }
      | some (s, r) =>
        let second ← parseUnit 255 61 s
        let nano ← parseUnit 4294967295 999999999 (trimStart '.' r)
        .ok { hour := hour, minute := minute, second := second, nano := nano }

end Verif
