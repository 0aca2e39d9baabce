import Verif.Lemmas.Iso
/-
Property theorems C25 and C26: ISO dates and times, /repo/crates/localiser/src/formatter.rs:862-1017.
-/
namespace Verif.Props
open Verif Verif.Spec Verif.IsoLemmas

/-! ### C25: dates -/

/-- A calendar that has every date with month 1–12 and day 1–31. -/
def demoCalendar (_ : Int) (m d : Nat) : Bool := 1 ≤ m && m ≤ 12 && 1 ≤ d && d ≤ 31

/-- **C25 is violated**: strings of other shapes are accepted, and `+YYYYY` loses digits. -/
theorem C25_violated :
    decomposeIsoDate demoCalendar "+12345".toList = .ok ⟨1234, 1, 1⟩ ∧
    decomposeIsoDate demoCalendar "".toList = .ok ⟨0, 1, 1⟩ ∧
    decomposeIsoDate demoCalendar "xyz".toList = .ok ⟨0, 1, 1⟩ ∧
    decomposeIsoDate demoCalendar "202012".toList = .ok ⟨2020, 12, 1⟩ ∧
    decomposeIsoDate demoCalendar "20201231xyz".toList = .ok ⟨2020, 12, 31⟩ ∧
    decomposeIsoDate demoCalendar "2020-12-31-xyz".toList = .ok ⟨2020, 12, 31⟩ ∧
    decomposeIsoDate demoCalendar "2020-+1-+1".toList = .ok ⟨2020, 1, 1⟩ := by decide +kernel

/-- **C25, extended formats.** `YYYY-MM-DD`, also with a sign and with any number of year digits, gives exactly the
year, month and day that are written, or the calendar's error. Missing: that other strings are rejected, which
`C25_violated` refutes. -/
theorem C25_year_month_day_partial (valid : Int → Nat → Nat → Bool) (sg : YearSign) (w y m d : Nat) (hw : 0 < w)
    (hy : y < 10 ^ w) (hb : y ≤ sg.bound) (hm : m < 100) (hd : d < 100) :
    decomposeIsoDate valid (sg.text ++ pad w y ++ '-' :: pad 2 m ++ '-' :: pad 2 d) =
      dateOrError valid (sg.apply y) m d := by
  have hs : splitOn '-' (pad w y ++ ('-' :: pad 2 m ++ '-' :: pad 2 d)) = pad w y :: [pad 2 m, pad 2 d] := by
    rw [List.cons_append, splitOn_append _ _ _ (minus_pad w y), splitOn_append _ _ _ (minus_pad 2 m),
      splitOn_one _ _ (minus_pad 2 d)]
  have h := iso_parts sg valid _ _ hw hy hb hs (Or.inr (by simp))
  rw [show sg.text ++ pad w y ++ '-' :: pad 2 m ++ '-' :: pad 2 d =
    sg.text ++ pad w y ++ ('-' :: pad 2 m ++ '-' :: pad 2 d) from by simp, h]
  simp only [parseUnsigned_pad (max := 255) (w := 2) (by omega) hm (by omega),
    parseUnsigned_pad (max := 255) (w := 2) (by omega) hd (by omega)]
  rfl

/-- **C25, no day.** `YYYY-MM` means the first day. -/
theorem C25_year_month_partial (valid : Int → Nat → Nat → Bool) (sg : YearSign) (w y m : Nat) (hw : 0 < w)
    (hy : y < 10 ^ w) (hb : y ≤ sg.bound) (hm : m < 100) :
    decomposeIsoDate valid (sg.text ++ pad w y ++ '-' :: pad 2 m) = dateOrError valid (sg.apply y) m 1 := by
  have hs : splitOn '-' (pad w y ++ ('-' :: pad 2 m)) = pad w y :: [pad 2 m] := by
    rw [splitOn_append _ _ _ (minus_pad w y), splitOn_one _ _ (minus_pad 2 m)]
  have h := iso_parts sg valid _ _ hw hy hb hs (Or.inr (by simp))
  rw [h]
  simp only [parseUnsigned_pad (max := 255) (w := 2) (by omega) hm (by omega)]
  rfl

/-- **C25, only a negative year.** -/
theorem C25_negative_year_partial (valid : Int → Nat → Nat → Bool) (w y : Nat) (hw : 0 < w)
    (hy : y < 10 ^ w) (hb : y ≤ 2147483648) :
    decomposeIsoDate valid ('-' :: pad w y) = dateOrError valid (-(y : Int)) 1 1 := by
  have h := iso_parts .minus valid [] [] hw hy hb (by simp [splitOn_one _ _ (minus_pad w y)]) (Or.inl rfl)
  simp only [YearSign.text, List.append_nil, List.cons_append, List.nil_append] at h
  rw [h]
  rfl

/-- The basic formats start with four digits. -/
theorem iso_basic (valid : Int → Nat → Nat → Bool) (y : Nat) (s : Str) (hy : y < 10000) (hs : '-' ∉ s) :
    decomposeIsoDate valid (pad 4 y ++ s) =
      (match splitBytes 2 s with
        | none => newDate valid y 1 1
        | some (m, r) => do
          let month ← orParseInt (parseUnsigned 255 m)
          match splitBytes 2 r with
          | none => newDate valid y month 1
          | some (d, _) =>
            let day ← orParseInt (parseUnsigned 255 d)
            newDate valid y month day) := by
  have ht := trimStart_plus .none (w := 4) y s (by omega)
  simp only [YearSign.text, List.nil_append, reduceCtorEq, if_false] at ht
  unfold decomposeIsoDate
  simp only [ht]
  rw [if_neg (by simp [pad_ne_nil]), splitOn_one '-' (pad 4 y ++ s) (by simp [minus_pad, hs])]
  simp only [splitBytes_pad, parseI32_pad (w := 4) (by omega) hy (by omega)]
  rfl

/-- **C25, basic formats.** `YYYYMMDD` and `YYYY`. -/
theorem C25_basic_partial (valid : Int → Nat → Nat → Bool) (y m d : Nat) (hy : y < 10000) (hm : m < 100) (hd : d < 100) :
    decomposeIsoDate valid (pad 4 y ++ pad 2 m ++ pad 2 d) = dateOrError valid y m d ∧
    decomposeIsoDate valid (pad 4 y) = dateOrError valid y 1 1 := by
  constructor
  · rw [List.append_assoc, iso_basic valid y _ hy (by simp [minus_pad]), splitBytes_pad]
    have := splitBytes_pad 2 d []
    rw [List.append_nil] at this
    simp only [this, parseUnsigned_pad (max := 255) (w := 2) (by omega) hm (by omega),
      parseUnsigned_pad (max := 255) (w := 2) (by omega) hd (by omega)]
    rfl
  · have := iso_basic valid y [] hy (by simp)
    rw [List.append_nil] at this
    rw [this, show splitBytes 2 [] = none from by simp [splitBytes]]
    rfl

example : YearSign.plus.text ++ pad 5 12345 ++ '-' :: pad 2 2 ++ '-' :: pad 2 3 = "+12345-02-03".toList ∧
    pad 4 987 ++ pad 2 12 ++ pad 2 31 = "09871231".toList ∧
    decomposeIsoDate demoCalendar "+12345-02-03".toList = .ok ⟨12345, 2, 3⟩ ∧
    decomposeIsoDate demoCalendar "09871231".toList = .ok ⟨987, 12, 31⟩ ∧
    decomposeIsoDate demoCalendar "-0044-13".toList = .error .calendar ∧
    decomposeIsoDate demoCalendar "-0044".toList = .ok ⟨-44, 1, 1⟩ := by decide +kernel

/-! ### C26: times -/

/-- **C26 is violated**: full seconds are rejected, also with a trailing `Z`; a fraction is read as a number of
nanoseconds; other shapes are accepted. -/
theorem C26_violated :
    decomposeIsoTime "12:34:56".toList = .error .calendar ∧
    decomposeIsoTime "123456".toList = .error .calendar ∧
    decomposeIsoTime "12:34:56.5Z".toList = .error .calendar ∧
    decomposeIsoTime "12:34:56.5".toList = .ok ⟨12, 34, 56, 5⟩ ∧
    decomposeIsoTime "1".toList = .ok ⟨0, 0, 0, 0⟩ ∧
    decomposeIsoTime "12x".toList = .ok ⟨12, 0, 0, 0⟩ ∧
    decomposeIsoTime "12Z".toList = .ok ⟨12, 0, 0, 0⟩ ∧
    decomposeIsoTime "TT12:::34:x".toList = .ok ⟨12, 34, 0, 0⟩ := by decide +kernel

/-- The optional separator `T`. -/
def tPrefix (b : Bool) : Str := if b then ['T'] else []

/-- The optional colon between hours, minutes and seconds. -/
def colon (b : Bool) : Str := if b then [':'] else []

/-- What may follow the time: nothing or a time zone starting with a sign. -/
def Zone (z : Str) : Prop := z = [] ∨ ∃ r, z = '+' :: r ∨ z = '-' :: r

theorem cutAt_append {c : Char} {a : Str} (z : Str) (h : c ∉ a) : cutAt c (a ++ z) = a ++ cutAt c z := by
  unfold cutAt
  induction a with
  | nil => rfl
  | cons x a ih =>
    simp only [List.mem_cons, not_or] at h
    have hx : decide (x ≠ c) = true := by simpa using fun e => h.1 (Eq.symm e)
    rw [List.cons_append, List.takeWhile_cons, if_pos hx, ih h.2]; rfl

theorem cutAt_zone {a z : Str} (h1 : '+' ∉ a) (h2 : '-' ∉ a) (hz : Zone z) : cutAt '-' (cutAt '+' (a ++ z)) = a := by
  rw [cutAt_append z h1, cutAt_append _ h2]
  rcases hz with rfl | ⟨r, rfl | rfl⟩
  · simp [cutAt]
  · simp [cutAt]
  · have : cutAt '+' ('-' :: r) = '-' :: cutAt '+' r := by
      simp [cutAt]
    rw [this]
    simp [cutAt]

theorem trimT (b : Bool) {w : Nat} (n : Nat) (s : Str) (hw : 0 < w) :
    trimStart 'T' (tPrefix b ++ (pad w n ++ s)) = pad w n ++ s := by
  have := trimStart_pad (c := 'T') n s hw (fun k => (digitChar_sep k).2.2.2.1)
  cases b
  · simpa [tPrefix] using this
  · simpa [tPrefix, trimStart] using this

theorem trimColon (b : Bool) {w : Nat} (n : Nat) (s : Str) (hw : 0 < w) :
    trimStart ':' (colon b ++ (pad w n ++ s)) = pad w n ++ s := by
  have := trimStart_pad (c := ':') n s hw (fun k => (digitChar_sep k).2.2.2.2.1)
  cases b
  · simpa [colon] using this
  · simpa [colon, trimStart] using this

theorem parseUnit_pad {store max w n : Nat} (hw : 0 < w) (hn : n < 10 ^ w) (hm : max ≤ store) :
    parseUnit store max (pad w n) = if n ≤ max then .ok n else .error .calendar := by
  unfold parseUnit
  rw [parseUnsigned_eq store hw hn]
  by_cases h : n ≤ store
  · simp [h]
  · rw [if_neg h, if_neg (by omega)]

theorem plus_pad (w n : Nat) : '+' ∉ pad w n := not_mem_pad w n fun k => (digitChar_sep k).2.2.1

theorem not_mem_colon {c : Char} (b : Bool) (h : c ≠ ':') : c ∉ colon b := by cases b <;> simp [colon, h]

/-- The time, if its parts are in the ranges of ICU4X. -/
def timeOrError (h m s n : Nat) : Except IsoError IsoTime :=
  if h ≤ 24 ∧ m ≤ 60 ∧ s ≤ 61 ∧ n ≤ 999999999 then .ok ⟨h, m, s, n⟩ else .error .calendar

theorem iso_time_eq (b : Bool) (n : Nat) (s z : Str) (h1 : '+' ∉ s) (h2 : '-' ∉ s) (hz : Zone z) :
    decomposeIsoTime (tPrefix b ++ (pad 2 n ++ s) ++ z) = (do
      let hour ← parseUnit 255 24 (pad 2 n)
      match splitBytes 2 (trimStart ':' s) with
      | none => .ok { hour := hour, minute := 0, second := 0, nano := 0 }
      | some (m, r) =>
        let minute ← parseUnit 255 60 m
        match splitBytes 2 (trimStart ':' r) with
        | none => .ok { hour := hour, minute := minute, second := 0, nano := 0 }
        | some (s, r) =>
          let second ← parseUnit 255 61 s
          let nano ← parseUnit 4294967295 999999999 (trimStart '.' r)
          .ok { hour := hour, minute := minute, second := second, nano := nano }) := by
  unfold decomposeIsoTime
  simp only
  rw [List.append_assoc, List.append_assoc, trimT b n (s ++ z) (by omega), ← List.append_assoc,
    cutAt_zone (by simp [plus_pad, h1]) (by simp [minus_pad, h2]) hz, splitBytes_pad]
  rfl

/-- **C26, hours, minutes and a fraction.** `hh`, `hh:mm`, `hhmm`, `hh:mm:ss.n` and `hhmmss.n`, optionally after `T`
and before a time zone with sign, give the written numbers (nanoseconds for the last one) or the range error. Missing:
full seconds without fraction, see `C26_seconds_rejected`, and that other strings are rejected, which `C26_violated`
refutes. -/
theorem C26_time_partial (t c1 c2 : Bool) (h m s w n : Nat) (z : Str) (hz : Zone z) (hh : h < 100) (hm : m < 100)
    (hs : s < 100) (hw : 0 < w) (hn : n < 10 ^ w) :
    decomposeIsoTime (tPrefix t ++ pad 2 h ++ z) = timeOrError h 0 0 0 ∧
    decomposeIsoTime (tPrefix t ++ pad 2 h ++ colon c1 ++ pad 2 m ++ z) = timeOrError h m 0 0 ∧
    decomposeIsoTime (tPrefix t ++ pad 2 h ++ colon c1 ++ pad 2 m ++ colon c2 ++ pad 2 s ++ '.' :: pad w n ++ z) =
      timeOrError h m s n := by
  have e1 : splitBytes 2 [] = none := by simp [splitBytes]
  refine ⟨?_, ?_, ?_⟩
  · have := iso_time_eq t h [] z (by simp) (by simp) hz
    rw [List.append_nil] at this
    rw [this, parseUnit_pad (by omega) hh (by omega)]
    simp only [timeOrError, trimStart, e1]
    by_cases h1 : h ≤ 24 <;> simp [h1] <;> rfl
  · have := iso_time_eq t h (colon c1 ++ pad 2 m) z (by simp [plus_pad, not_mem_colon])
      (by simp [minus_pad, not_mem_colon]) hz
    rw [show tPrefix t ++ pad 2 h ++ colon c1 ++ pad 2 m ++ z = tPrefix t ++ (pad 2 h ++ (colon c1 ++ pad 2 m)) ++ z
      from by simp, this, parseUnit_pad (by omega) hh (by omega)]
    have e2 := trimColon c1 m [] (w := 2) (by omega)
    have e3 := splitBytes_pad 2 m []
    rw [List.append_nil] at e2 e3
    simp only [e2, e3, parseUnit_pad (store := 255) (max := 60) (w := 2) (n := m) (by omega) hm (by omega), trimStart, e1,
      timeOrError]
    by_cases h1 : h ≤ 24
    · by_cases h2 : m ≤ 60
      · simp only [h1, h2, if_true]; rfl
      · simp only [h1, h2, if_true, if_false]; rfl
    · simp only [h1, if_false]; rfl
  · have := iso_time_eq t h (colon c1 ++ (pad 2 m ++ (colon c2 ++ (pad 2 s ++ '.' :: pad w n)))) z
      (by simp [plus_pad, not_mem_colon]) (by simp [minus_pad, not_mem_colon]) hz
    rw [show tPrefix t ++ pad 2 h ++ colon c1 ++ pad 2 m ++ colon c2 ++ pad 2 s ++ '.' :: pad w n ++ z =
      tPrefix t ++ (pad 2 h ++ (colon c1 ++ (pad 2 m ++ (colon c2 ++ (pad 2 s ++ '.' :: pad w n))))) ++ z
      from by simp, this, parseUnit_pad (by omega) hh (by omega)]
    have e4 : trimStart '.' ('.' :: pad w n) = pad w n := by
      have := trimStart_pad (c := '.') n [] hw (fun k => (digitChar_sep k).2.2.2.2.2)
      rw [List.append_nil] at this
      simpa [trimStart] using this
    simp only [trimColon c1 m _ (w := 2) (by omega), trimColon c2 s _ (w := 2) (by omega), splitBytes_pad, e4,
      parseUnit_pad (store := 255) (max := 60) (w := 2) (n := m) (by omega) hm (by omega),
      parseUnit_pad (store := 255) (max := 61) (w := 2) (n := s) (by omega) hs (by omega),
      parseUnit_pad (store := 4294967295) (max := 999999999) (w := w) (n := n) hw hn (by omega), timeOrError]
    by_cases h1 : h ≤ 24
    · by_cases h2 : m ≤ 60
      · by_cases h3 : s ≤ 61
        · by_cases h4 : n ≤ 999999999
          · simp only [h1, h2, h3, h4, if_true]; rfl
          · simp only [h1, h2, h3, h4, if_true, if_false]; rfl
        · simp only [h1, h2, h3, if_true, if_false]; rfl
      · simp only [h1, h2, if_true, if_false]; rfl
    · simp only [h1, if_false]; rfl

/-- **C26 fails for every time with full seconds**: `hh:mm:ss` and `hhmmss` are always rejected, although
documented. -/
theorem C26_seconds_rejected_partial (t c1 c2 : Bool) (h m s : Nat) (z : Str) (hz : Zone z) (hh : h < 100)
    (hm : m < 100) (hs : s < 100) :
    decomposeIsoTime (tPrefix t ++ pad 2 h ++ colon c1 ++ pad 2 m ++ colon c2 ++ pad 2 s ++ z) = .error .calendar := by
  have := iso_time_eq t h (colon c1 ++ (pad 2 m ++ (colon c2 ++ (pad 2 s ++ [])))) z
    (by simp [plus_pad, not_mem_colon]) (by simp [minus_pad, not_mem_colon]) hz
  rw [show tPrefix t ++ pad 2 h ++ colon c1 ++ pad 2 m ++ colon c2 ++ pad 2 s ++ z =
    tPrefix t ++ (pad 2 h ++ (colon c1 ++ (pad 2 m ++ (colon c2 ++ (pad 2 s ++ []))))) ++ z
    from by simp, this, parseUnit_pad (by omega) hh (by omega)]
  simp only [trimColon c1 m _ (w := 2) (by omega), trimColon c2 s _ (w := 2) (by omega), splitBytes_pad,
    parseUnit_pad (store := 255) (max := 60) (w := 2) (n := m) (by omega) hm (by omega),
    parseUnit_pad (store := 255) (max := 61) (w := 2) (n := s) (by omega) hs (by omega)]
  by_cases h1 : h ≤ 24
  · by_cases h2 : m ≤ 60
    · by_cases h3 : s ≤ 61
      · simp only [h1, h2, h3, if_true]; rfl
      · simp only [h1, h2, h3, if_true, if_false]; rfl
    · simp only [h1, h2, if_true, if_false]; rfl
  · simp only [h1, if_false]; rfl

example : Zone "+01:00".toList ∧ tPrefix true ++ pad 2 9 ++ colon true ++ pad 2 5 ++ "+01:00".toList = "T09:05+01:00".toList ∧
    decomposeIsoTime "T09:05+01:00".toList = .ok ⟨9, 5, 0, 0⟩ ∧
    decomposeIsoTime "090507.042-0100".toList = .ok ⟨9, 5, 7, 42⟩ ∧
    decomposeIsoTime "25:00".toList = .error .calendar :=
  ⟨Or.inr ⟨"01:00".toList, Or.inl rfl⟩, by decide +kernel⟩

end Verif.Props
