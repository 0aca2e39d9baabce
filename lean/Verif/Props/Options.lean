import Verif.Lemmas.Options
import Verif.Spec.DemoFormat
/-
Property theorems C78 and C79: the options of patterns and the values of plural and ordinal patterns,
/repo/crates/localiser/src/formatter.rs.

A pattern string with options is always rejected (C19), since the name of an option is taken for its value. The theorems here
are about what the formatter does with options once they are read: `partKeyword` gets the names and values.
-/
namespace Verif.Props
open Verif Verif.Spec Verif.OptionsLemmas

variable {D F : Type}

/-! ### C78: what the options mean -/

/-- **C78, decimal.** Exactly the documented options and values are accepted, with the documented meaning. -/
theorem C78_decimal (X : Icu4x D F) (lang p : Str) (patterns : AMap Str (List PatternPart)) (selectors : List (AMap Str Str))
    (options : AMap Str Str) (hn : options.keys.Nodup) (part : PatternPart) (selectors' : List (AMap Str Str)) :
    partKeyword X lang p "decimal".toList patterns selectors (.ok options) = .ok (part, selectors') ↔
      selectors' = selectors ∧ ∃ sign group, part = .patternDecimal p sign group ∧ DecimalReading options sign group := by
  unfold partKeyword
  rw [if_pos rfl, bind_ok]
  constructor
  · rintro ⟨o, h, h'⟩
    cases h
    obtain ⟨⟨s, g⟩, h1, h2⟩ := bind_ok.1 h'
    cases h2
    obtain ⟨k1, k2, k3⟩ := (decimalOptions_iff p options hn none none s g).1 h1
    exact ⟨rfl, s, g, rfl, k1, k2, k3⟩
  · rintro ⟨rfl, s, g, rfl, k1, k2, k3⟩
    exact ⟨options, rfl, bind_ok.2 ⟨(s, g), (decimalOptions_iff p options hn none none s g).2 ⟨k1, k2, k3⟩, rfl⟩⟩

/-- **C78, date_time.** The documented options and values are accepted, with the documented meaning, and no others, as long as
the calendar is not one of the two names that the documentation and the code write differently. Missing: these names, see
`C78_violated`. -/
theorem C78_date_time_partial (X : Icu4x D F) (lang p : Str) (patterns : AMap Str (List PatternPart))
    (selectors : List (AMap Str Str)) (options : AMap Str Str) (hn : options.keys.Nodup)
    (hc : ∀ v, options.get "calendar".toList = some v → v ∉ ["gregory".toList, "ethiopic".toList, "gregorian".toList,
      "ethiopian".toList]) (part : PatternPart) (selectors' : List (AMap Str Str)) :
    partKeyword X lang p "date_time".toList patterns selectors (.ok options) = .ok (part, selectors') ↔
      selectors' = selectors ∧ ∃ date time calendar, part = .patternDateTime p date time calendar ∧
        DateTimeReading (fun v => (X.parseLocale (calendarLocale lang v)).toOption) options date time calendar := by
  have hx : ∀ c, calendarCode X lang options none c ↔ (match options.get "calendar".toList with
      | none => c = none
      | some v => v ∈ documentedCalendars ∧
        ∃ l, (X.parseLocale (calendarLocale lang v)).toOption = some l ∧ c = some l) := by
    intro c
    unfold calendarCode
    cases ho : options.get "calendar".toList with
    | none => exact Iff.rfl
    | some v =>
      have hv := hc v ho
      have h1 : calendars.contains v = true ↔ v ∈ documentedCalendars := by
        simp only [List.mem_cons, List.not_mem_nil, or_false, not_or] at hv
        rw [List.contains_iff_mem]
        simp only [calendars, documentedCalendars, List.mem_cons, List.not_mem_nil, or_false, hv, false_or]
        constructor
        · rintro (h | h | h | h | h) <;> simp [h]
        · rintro (h | h | h | h | h) <;> simp [h]
      have h2 : ∀ l, (X.parseLocale (calendarLocale lang v)).toOption = some l ↔
          X.parseLocale (calendarLocale lang v) = .ok l := by
        intro l
        cases X.parseLocale (calendarLocale lang v) <;> simp [Except.toOption]
      simp only [h1, h2]
  unfold partKeyword
  rw [if_neg (by decide), if_pos rfl, bind_ok]
  constructor
  · rintro ⟨o, h, h'⟩
    cases h
    obtain ⟨⟨d, t, c⟩, h1, h2⟩ := bind_ok.1 h'
    cases h2
    obtain ⟨k1, k2, k3, k4⟩ := (dateTimeOptions_iff X lang p options hn none none none d t c).1 h1
    exact ⟨rfl, d, t, c, rfl, k1, k2, k3, (hx c).1 k4⟩
  · rintro ⟨rfl, d, t, c, rfl, k1, k2, k3, k4⟩
    exact ⟨options, rfl, bind_ok.2 ⟨(d, t, c),
      (dateTimeOptions_iff X lang p options hn none none none d t c).2 ⟨k1, k2, k3, (hx c).2 k4⟩, rfl⟩⟩

/-- **C78, the locale for a calendar.** A locale without calendar gets one at its end; of a locale with one calendar that is
replaced, whatever follows it. -/
theorem C78_calendar_locale (value : Str) :
    (∀ locale, (∀ a, ¬ After "-u-ca-".toList a locale) →
      calendarLocale locale value = locale ++ "-u-ca-".toList ++ value) ∧
    ∀ a old rest, '-' ∉ old → (rest = [] ∨ ∃ r, rest = '-' :: r) →
      (∀ a', After "-u-ca-".toList a' (a ++ "-u-ca-".toList ++ old ++ rest) → a' = a) →
      calendarLocale (a ++ "-u-ca-".toList ++ old ++ rest) value = a ++ "-u-ca-".toList ++ value ++ rest :=
  ⟨fun _ h => calendarLocale_append h value, fun _ _ _ h1 h2 h3 => calendarLocale_replace h1 h2 h3 value⟩

/-- **C78, what is rejected.** The formatter never panics over options of decimal; an error tells the value that is not
documented, and its option; or else the value of an option that does not exist. Missing: the name of the latter, see
`C78_violated`. -/
theorem C78_decimal_errors_partial (X : Icu4x D F) (lang p : Str) (patterns : AMap Str (List PatternPart))
    (selectors : List (AMap Str Str)) (options : AMap Str Str) :
    partKeyword X lang p "decimal".toList patterns selectors (.ok options) ≠ .panic ∧
    ∀ e, partKeyword X lang p "decimal".toList patterns selectors (.ok options) = .err e → ∃ name v, (name, v) ∈ options ∧
      ((name = "sign".toList ∧ (∀ s, (v, s) ∉ signs) ∧ e = .invalidOptionValue v name "decimal".toList) ∨
       (name = "group".toList ∧ (∀ g, (v, g) ∉ groupings) ∧ e = .invalidOptionValue v name "decimal".toList) ∨
       (name ≠ "sign".toList ∧ name ≠ "group".toList ∧ e = .invalidOption v "decimal".toList p)) := by
  have hs : ∀ v, signDisplay v ≠ .panic ∧ ∀ e, signDisplay v = .err e → (∀ s, (v, s) ∉ signs) ∧
      e = .invalidOptionValue v "sign".toList "decimal".toList := by
    intro v
    refine ⟨fun h => ?_, fun e h => ⟨fun s hm => ?_, ?_⟩⟩
    · unfold signDisplay at h
      repeat' split at h
      all_goals cases h
    · rw [(sign_iff v s).2 hm] at h; cases h
    · unfold signDisplay at h
      repeat' split at h
      all_goals cases h
      rfl
  have hg : ∀ v, decimalGrouping v ≠ .panic ∧ ∀ e, decimalGrouping v = .err e → (∀ s, (v, s) ∉ groupings) ∧
      e = .invalidOptionValue v "group".toList "decimal".toList := by
    intro v
    refine ⟨fun h => ?_, fun e h => ⟨fun s hm => ?_, ?_⟩⟩
    · unfold decimalGrouping at h
      repeat' split at h
      all_goals cases h
    · rw [(group_iff v s).2 hm] at h; cases h
    · unfold decimalGrouping at h
      repeat' split at h
      all_goals cases h
      rfl
  have key : ∀ (options : AMap Str Str) s g, decimalOptions p options s g ≠ .panic ∧
      ∀ e, decimalOptions p options s g = .err e → ∃ name v, (name, v) ∈ options ∧
      ((name = "sign".toList ∧ (∀ s, (v, s) ∉ signs) ∧ e = .invalidOptionValue v name "decimal".toList) ∨
       (name = "group".toList ∧ (∀ g, (v, g) ∉ groupings) ∧ e = .invalidOptionValue v name "decimal".toList) ∨
       (name ≠ "sign".toList ∧ name ≠ "group".toList ∧ e = .invalidOption v "decimal".toList p)) := by
    intro options
    induction options with
    | nil => intro s g; exact ⟨fun h => (nomatch h), fun e h => (nomatch h)⟩
    | cons o rest ih =>
      obtain ⟨name, v⟩ := o
      intro s g
      have lift : ∀ s g, decimalOptions p rest s g ≠ .panic ∧ ∀ e, decimalOptions p rest s g = .err e →
          ∃ name' v', (name', v') ∈ (name, v) :: rest ∧
          ((name' = "sign".toList ∧ (∀ s, (v', s) ∉ signs) ∧ e = .invalidOptionValue v' name' "decimal".toList) ∨
           (name' = "group".toList ∧ (∀ g, (v', g) ∉ groupings) ∧ e = .invalidOptionValue v' name' "decimal".toList) ∨
           (name' ≠ "sign".toList ∧ name' ≠ "group".toList ∧ e = .invalidOption v' "decimal".toList p)) := by
        intro s g
        refine ⟨(ih s g).1, fun e h => ?_⟩
        obtain ⟨n, v', h1, h2⟩ := (ih s g).2 e h
        exact ⟨n, v', List.mem_cons_of_mem _ h1, h2⟩
      unfold decimalOptions
      by_cases h1 : name = "sign".toList
      · rw [if_pos h1]
        cases hv : signDisplay v with
        | ok a => exact lift _ _
        | panic => exact absurd hv (hs v).1
        | err e =>
          refine ⟨fun h => (nomatch h), fun e' h => ?_⟩
          cases h
          obtain ⟨k1, k2⟩ := (hs v).2 e hv
          exact ⟨name, v, List.mem_cons_self .., .inl ⟨h1, k1, by rw [k2, h1]⟩⟩
      · rw [if_neg h1]
        by_cases h2 : name = "group".toList
        · rw [if_pos h2]
          cases hv : decimalGrouping v with
          | ok a => exact lift _ _
          | panic => exact absurd hv (hg v).1
          | err e =>
            refine ⟨fun h => (nomatch h), fun e' h => ?_⟩
            cases h
            obtain ⟨k1, k2⟩ := (hg v).2 e hv
            exact ⟨name, v, List.mem_cons_self .., .inr (.inl ⟨h2, k1, by rw [k2, h2]⟩)⟩
        · rw [if_neg h2]
          refine ⟨fun h => (nomatch h), fun e' h => ?_⟩
          cases h
          exact ⟨name, v, List.mem_cons_self .., .inr (.inr ⟨h1, h2, rfl⟩)⟩
  obtain ⟨k1, k2⟩ := key options none none
  unfold partKeyword
  rw [if_pos rfl]
  dsimp only [bind, Outcome.bind]
  cases hd : decimalOptions p options none none with
  | ok x => exact ⟨fun h => (nomatch h), fun e h => (nomatch h)⟩
  | panic => exact absurd hd k1
  | err e =>
    refine ⟨fun h => (nomatch h), fun e' h => ?_⟩
    cases h
    exact k2 e hd

/-- **C78, decimal options are used.** A number is given the sign that the option asks for, and formatted for the language
with the grouping that the option asks for; other values are errors. -/
theorem C78_decimal_used (E : FmtEnv D F) (f : Formatter) (values : AMap Str (PValue D F)) (rec : Str → List Str → FmtRes)
    (p : Str) (sign : Option SignDisplay) (group : Option Grouping) (numbers : List Str) (v : PValue D F)
    (hv : values.get p = some v) (fdf : D → Str) (hf : E.icu4x.decimal f.icuLanguage group = .ok fdf) :
    (∀ d, IsNumber E.icu4x v d → formatPart E f values rec (.patternDecimal p sign group) numbers =
      (some (.ok (fdf (signed E.icu4x sign d))), numbers)) ∧
    ((∀ d, ¬ IsNumber E.icu4x v d) → ∃ e, formatPart E f values rec (.patternDecimal p sign group) numbers =
      (some (.err e), numbers)) := by
  have h0 : formatPart E f values rec (.patternDecimal p sign group) numbers =
      (some (formatDecimal E.icu4x f.icuLanguage sign group v), numbers) := by
    simp only [formatPart, hv]
  rw [h0]
  unfold formatDecimal
  rw [hf]
  dsimp only [liftE, bind, Outcome.bind]
  constructor
  · intro d h
    cases h with
    | float x d hx => simp only [toDecimal, liftE, hx, pure]; cases sign <;> rfl
    | _ => simp only [toDecimal, pure]; cases sign <;> rfl
  · intro h
    cases v with
    | fixedDecimal d => exact absurd (.fixedDecimal d) (h d)
    | unsigned n => exact absurd (.unsigned n) (h _)
    | integer n => exact absurd (.integer n) (h _)
    | float x =>
      cases hx : E.icu4x.ofFloat x with
      | ok d => exact absurd (.float x d hx) (h d)
      | error e => exact ⟨e, by simp only [toDecimal, liftE, hx]⟩
    | _ => exact ⟨_, rfl⟩

/-- **C78, date_time options are used.** Dates and times get the lengths that the options ask for, or `medium`, and are
formatted for the locale of the calendar if there is one, else for that of the language. -/
theorem C78_date_time_used (E : FmtEnv D F) (f : Formatter) (values : AMap Str (PValue D F)) (rec : Str → List Str → FmtRes)
    (p : Str) (date time : Option FmtLength) (calendar : Option Str) (numbers : List Str) (v : PValue D F)
    (hv : values.get p = some v) (s : Str) (h : DateTimeText E.icu4x (calendar.getD f.icuLanguage) date time v s) :
    formatPart E f values rec (.patternDateTime p date time calendar) numbers = (some (.ok s), numbers) := by
  have h0 : formatPart E f values rec (.patternDateTime p date time calendar) numbers =
      (some (formatDateTime E.icu4x f.icuLanguage date time calendar v), numbers) := by
    simp only [formatPart, hv]
  rw [h0]
  cases h with
  | both d t g s h1 h2 => simp only [formatDateTime, h1, h2, liftE, bind, Outcome.bind]
  | date d g s h1 h2 => simp only [formatDateTime, h1, h2, liftE, bind, Outcome.bind]
  | time t g h1 => simp only [formatDateTime, h1, liftE, bind, Outcome.bind, pure]

/-- Options of a pattern. -/
def demoOptions (l : List (String × String)) : AMap Str Str := l.map fun (k, v) => (k.toList, v.toList)

/-- What becomes of a pattern with these options, for the language `en`. -/
def demoPart (keyword : String) (l : List (String × String)) : FmtM (PatternPart × List (AMap Str Str)) :=
  partKeyword Demo.icu4x "en".toList ['x'] keyword.toList [] [] (.ok (demoOptions l))

/-- **C78 is violated.** Two documented calendars are rejected, while names that are not documented are accepted; the error for
an option that does not exist tells its value for its name; and the keyword is told wrongly. -/
theorem C78_violated :
    demoPart "date_time" [("calendar", "gregory")] = .err (.invalidOption "gregory".toList "ordinal".toList ['x']) ∧
    demoPart "date_time" [("calendar", "ethiopic")] = .err (.invalidOption "ethiopic".toList "ordinal".toList ['x']) ∧
    demoPart "date_time" [("calendar", "gregorian")] =
      .ok (.patternDateTime ['x'] none none (some "en-u-ca-gregorian".toList), []) ∧
    demoPart "date_time" [("calendar", "ethiopian")] =
      .ok (.patternDateTime ['x'] none none (some "en-u-ca-ethiopian".toList), []) ∧
    demoPart "date_time" [("hour", "12")] = .err (.invalidOption "12".toList "date-time".toList ['x']) ∧
    demoPart "decimal" [("colour", "red")] = .err (.invalidOption "red".toList "decimal".toList ['x']) := by
  refine ⟨?_, ?_, ?_, ?_, ?_, ?_⟩ <;> rfl

/-- Options that meet the hypotheses, and what they mean. -/
example : (demoOptions [("sign", "always"), ("group", "min2")]).keys.Nodup ∧
    demoPart "decimal" [("sign", "always"), ("group", "min2")] = .ok (.patternDecimal ['x'] (some .always) (some .min2), []) ∧
    demoPart "date_time" [("time", "short"), ("calendar", "buddhist")] =
      .ok (.patternDateTime ['x'] none (some .short) (some "en-u-ca-buddhist".toList), []) ∧
    demoPart "decimal" [("sign", "plus")] = .err (.invalidOptionValue "plus".toList "sign".toList "decimal".toList) := by
  refine ⟨by decide +kernel, ?_, ?_, ?_⟩ <;> rfl

example : calendarLocale "th-u-ca-buddhist-nu-thai".toList "iso".toList = "th-u-ca-iso-nu-thai".toList ∧
    calendarLocale "th-u-ca-buddhist".toList "iso".toList = "th-u-ca-iso".toList ∧
    calendarLocale "th".toList "iso".toList = "th-u-ca-iso".toList := by decide +kernel

/-! ### C79: numbers of plural and ordinal patterns -/

/-- **C79, only numbers.** A plural pattern gives a text only for a number, and an ordinal pattern only for an unsigned
integer. Missing: that the number is a positive integer, and that each positive integer is taken; see `C79_violated`. -/
theorem C79_numbers_partial (E : FmtEnv D F) (f : Formatter) (values : AMap Str (PValue D F)) (rec : Str → List Str → FmtRes)
    (p : Str) (index : Nat) (numbers : List Str) (s : Str) (numbers' : List Str) :
    (formatPart E f values rec (.patternComplex p .plural index) numbers = (some (.ok s), numbers') →
      ∃ v d, values.get p = some v ∧ IsNumber E.icu4x v d) ∧
    (formatPart E f values rec (.patternComplex p .ordinal index) numbers = (some (.ok s), numbers') →
      ∃ n, values.get p = some (.unsigned n)) := by
  constructor
  · intro h
    simp only [formatPart] at h
    split at h
    · cases h
    · rename_i v hv
      refine ⟨v, ?_⟩
      unfold formatPlural at h
      split at h
      · cases h
      · cases v with
        | fixedDecimal d => exact ⟨_, hv, .fixedDecimal d⟩
        | unsigned n => exact ⟨_, hv, .unsigned n⟩
        | integer n => exact ⟨_, hv, .integer n⟩
        | float x =>
          cases hx : E.icu4x.ofFloat x with
          | ok d => exact ⟨_, hv, .float x d hx⟩
          | error e => simp only [toDecimal, liftE, hx] at h; cases h
        | _ => simp only [toDecimal] at h; cases h
  · intro h
    simp only [formatPart] at h
    split at h
    · cases h
    · rename_i v hv
      unfold formatPlural at h
      split at h
      · cases h
      · cases v with
        | unsigned n => exact ⟨_, hv⟩
        | _ => simp only [toOrdinal] at h; cases h

/-- The values that the documentation allows: positive integers. -/
def positive : PValue Nat Unit → Bool
  | .unsigned n => 0 < n
  | .integer i => 0 < i
  | _ => false

/-- What a pattern of the text gives for a value. -/
def demoNumber (s : String) (v : PValue Nat Unit) : Option Str :=
  match Formatter.tryNew Demo.env s.toList "en".toList (some "en".toList) with
  | .ok f =>
    match (f.format Demo.env [(['n'], v)]).1 with
    | .ok (s, _) => some s
    | _ => none
  | _ => none

/-- **C79 is violated.** A plural pattern accepts negative integers, zero and numbers with fraction; an ordinal pattern accepts
zero, and rejects integers that are positive. -/
theorem C79_violated :
    (positive (.integer (-3)) = false ∧ demoNumber "{n plural other#other}# {other x}" (.integer (-3)) = some "x".toList) ∧
    (positive (.float ()) = false ∧ demoNumber "{n plural other#other}# {other x}" (.float ()) = some "x".toList) ∧
    (positive (.unsigned 0) = false ∧ demoNumber "{n ordinal other#other}# {other x}" (.unsigned 0) = some "x".toList) ∧
    (positive (.integer 5) = true ∧ demoNumber "{n ordinal other#other}# {other x}" (.integer 5) = none) := by
  decide +kernel

end Verif.Props
