import Verif.Lemmas.IsoForms
import Verif.Props.Iso
/-
Exactly which strings are taken for dates (C25) and times (C26), and for which.
-/
namespace Verif.Props
open Verif Verif.Spec Verif.IsoLemmas

theorem newDate_ok {valid : Int → Nat → Nat → Bool} {y y' : Int} {m m' d d' : Nat} :
    newDate valid y m d = .ok ⟨y', m', d'⟩ ↔ valid y' m' d' = true ∧ y = y' ∧ m = m' ∧ d = d' := by
  unfold newDate
  by_cases h : valid y m d = true
  · rw [if_pos h]
    constructor
    · intro e; cases e; exact ⟨h, rfl, rfl, rfl⟩
    · rintro ⟨_, rfl, rfl, rfl⟩; rfl
  · rw [if_neg h]
    refine ⟨fun e => (nomatch e), ?_⟩
    rintro ⟨h', rfl, rfl, rfl⟩
    exact absurd h' h

theorem orParseInt_ok {α β : Type} {x : Option α} {f : α → Except IsoError β} {r : β} :
    (do let a ← orParseInt x; f a) = .ok r ↔ ∃ a, x = some a ∧ f a = .ok r := by
  cases x with
  | none => exact ⟨fun e => (nomatch e), fun ⟨_, e, _⟩ => (nomatch e)⟩
  | some a =>
    constructor
    · exact fun h => ⟨a, rfl, h⟩
    · rintro ⟨_, e, h⟩; cases e; exact h

theorem byteLen_pad (w n : Nat) : byteLen (pad w n) = w := by
  induction w generalizing n with
  | zero => rfl
  | succ w ih => rw [pad, LexerLemmas.byteLen_append, ih, LexerLemmas.byteLen_single, (digitChar_sep n).1]

theorem two_iff {s : Str} {n : Nat} : (byteLen s = 2 ∧ Count 255 s n) ↔ Two s n := by
  constructor
  · rintro ⟨hl, hm, w, hw, hn, rfl | rfl⟩
    · rw [byteLen_pad] at hl
      subst hl
      exact .inl ⟨by omega, rfl⟩
    · rw [LexerLemmas.byteLen_cons, byteLen_pad] at hl
      obtain rfl : w = 1 := by
        have : '+'.utf8Size = 1 := by decide
        omega
      exact .inr ⟨by omega, rfl⟩
  · rintro (⟨hn, rfl⟩ | ⟨hn, rfl⟩)
    · exact ⟨byteLen_pad 2 n, by omega, 2, by omega, by omega, .inl rfl⟩
    · refine ⟨?_, by omega, 1, by omega, by omega, .inr rfl⟩
      rw [LexerLemmas.byteLen_cons, byteLen_pad]
      decide

theorem two_minus {s : Str} {n : Nat} (h : Two s n) : '-' ∉ s := by
  rcases h with ⟨_, rfl⟩ | ⟨_, rfl⟩
  · exact minus_pad _ _
  · simp [minus_pad]

/-- The first four bytes of a date without hyphen. -/
theorem four_iff {s r : Str} {y : Int} (hp : (s ++ r).head? ≠ some '+') (hm : '-' ∉ s) :
    (byteLen s = 4 ∧ YearText s y) ↔ ∃ n : Nat, n < 10 ^ 4 ∧ s = pad 4 n ∧ y = n := by
  constructor
  · rintro ⟨hl, ⟨n, ⟨_, w, hw, hn, rfl | rfl⟩, rfl⟩ | ⟨w, n, _, _, _, rfl, _⟩⟩
    · rw [byteLen_pad] at hl
      subst hl
      exact ⟨n, hn, rfl, rfl⟩
    · simp at hp
    · simp at hm
  · rintro ⟨n, hn, rfl, rfl⟩
    exact ⟨byteLen_pad 4 n, .inl ⟨n, ⟨by omega, 4, by omega, hn, .inl rfl⟩, rfl⟩⟩

/-- Dates without hyphen. -/
theorem basic_date {valid : Int → Nat → Nat → Bool} {t : Str} {y : Int} {m d : Nat} (hp : t.head? ≠ some '+') (hm : '-' ∉ t) :
    (match splitBytes 4 t with
      | none => newDate valid 0 1 1
      | some (y, r) => do
        let year ← orParseInt (parseI32 y)
        match splitBytes 2 r with
        | none => newDate valid year 1 1
        | some (m, r) =>
          let month ← orParseInt (parseUnsigned 255 m)
          match splitBytes 2 r with
          | none => newDate valid year month 1
          | some (d, _) =>
            let day ← orParseInt (parseUnsigned 255 d)
            newDate valid year month day) = .ok ⟨y, m, d⟩ ↔ valid y m d = true ∧ DateText t y m d := by
  constructor
  · intro h
    cases h4 : splitBytes 4 t with
    | none =>
      rw [h4] at h
      obtain ⟨hv, rfl, rfl, rfl⟩ := newDate_ok.1 h
      exact ⟨hv, .nothing t hm (noCut_iff.1 h4)⟩
    | some p =>
      obtain ⟨ys, r⟩ := p
      rw [h4] at h
      obtain ⟨rfl, hl⟩ := cut_iff.1 h4
      have hmy : '-' ∉ ys := fun x => hm (by simp [x])
      have hmr : '-' ∉ r := fun x => hm (by simp [x])
      obtain ⟨year, hy, h'⟩ := orParseInt_ok.1 h
      replace h := h'; clear h'
      obtain ⟨n, hn, rfl, rfl⟩ := (four_iff hp hmy).1 ⟨hl, year_iff.1 hy⟩
      cases h2 : splitBytes 2 r with
      | none =>
        rw [h2] at h
        obtain ⟨hv, rfl, rfl, rfl⟩ := newDate_ok.1 h
        exact ⟨hv, .year n r hn hmr (noCut_iff.1 h2)⟩
      | some p =>
        obtain ⟨ms, r⟩ := p
        rw [h2] at h
        obtain ⟨rfl, hl2⟩ := cut_iff.1 h2
        obtain ⟨month, hmo, h'⟩ := orParseInt_ok.1 h
        replace h := h'; clear h'
        have hmo := two_iff.1 ⟨hl2, count_iff.1 hmo⟩
        have hmr : '-' ∉ r := fun x => hmr (by simp [x])
        cases h3 : splitBytes 2 r with
        | none =>
          rw [h3] at h
          obtain ⟨hv, rfl, rfl, rfl⟩ := newDate_ok.1 h
          rw [← List.append_assoc]
          exact ⟨hv, .month n ms r _ hn hmo hmr (noCut_iff.1 h3)⟩
        | some p =>
          obtain ⟨ds, r⟩ := p
          rw [h3] at h
          obtain ⟨rfl, hl3⟩ := cut_iff.1 h3
          obtain ⟨day, hda, h'⟩ := orParseInt_ok.1 h
          replace h := h'; clear h'
          have hda := two_iff.1 ⟨hl3, count_iff.1 hda⟩
          obtain ⟨hv, rfl, rfl, rfl⟩ := newDate_ok.1 h
          rw [← List.append_assoc, ← List.append_assoc]
          exact ⟨hv, .day n ms ds r _ _ hn hmo hda (fun x => hmr (by simp [x]))⟩
  · rintro ⟨hv, h⟩
    have year : ∀ n r, n < 10 ^ 4 → splitBytes 4 (pad 4 n ++ r) = some (pad 4 n, r) ∧ parseI32 (pad 4 n) = some (n : Int) :=
      fun n r hn => ⟨splitBytes_pad 4 n r, parseI32_pad (by omega) hn (by omega)⟩
    have two : ∀ {s n r}, Two s n → splitBytes 2 (s ++ r) = some (s, r) ∧ parseUnsigned 255 s = some n := fun h =>
      ⟨cut_iff.2 ⟨rfl, (two_iff.2 h).1⟩, count_iff.2 (two_iff.2 h).2⟩
    have res : newDate valid y m d = .ok ⟨y, m, d⟩ := newDate_ok.2 ⟨hv, rfl, rfl, rfl⟩
    cases h with
    | nothing _ _ h => rw [noCut_iff.2 h]; exact res
    | year n r hn _ h =>
      rw [(year n r hn).1]
      exact orParseInt_ok.2 ⟨_, (year n r hn).2, by simp only [noCut_iff.2 h]; exact res⟩
    | month n ms r k hn h2 _ h =>
      rw [List.append_assoc, (year n _ hn).1]
      refine orParseInt_ok.2 ⟨_, (year n [] hn).2, ?_⟩
      simp only [(two h2).1]
      exact orParseInt_ok.2 ⟨_, (two (r := r) h2).2, by simp only [noCut_iff.2 h]; exact res⟩
    | day n ms ds r k l hn h2 h3 _ =>
      rw [List.append_assoc, List.append_assoc, (year n _ hn).1]
      refine orParseInt_ok.2 ⟨_, (year n [] hn).2, ?_⟩
      simp only [(two h2).1]
      refine orParseInt_ok.2 ⟨_, (two (r := r) h2).2, ?_⟩
      simp only [(two h3).1]
      exact orParseInt_ok.2 ⟨_, (two (r := r) h3).2, res⟩
    | dashYear y n _ _ => simp at hm
    | dashMonth b y m n k _ _ _ _ => simp at hm
    | dashDay b y m d r n k l _ _ _ _ _ _ _ => simp at hm

theorem trailer_split {r : Str} (h : Trailer ['-'] r) {d : Str} (hd : '-' ∉ d) : ∃ more, splitOn '-' (d ++ r) = d :: more := by
  rcases h with rfl | ⟨c, hc, r', rfl⟩
  · exact ⟨[], by rw [List.append_nil, splitOn_one _ _ hd]⟩
  · simp only [List.mem_singleton] at hc
    subst hc
    exact ⟨_, splitOn_append _ _ _ hd⟩

theorem flat_trailer (more : List Str) : Trailer ['-'] (more.flatMap fun p => '-' :: p) := by
  cases more with
  | nil => exact .inl rfl
  | cons a more => exact .inr ⟨'-', by simp, _, rfl⟩

/-- Dates in parts separated by hyphens. -/
theorem dashed_date {valid : Int → Nat → Nat → Bool} {t : Str} {y : Int} {m d : Nat} (hm : '-' ∈ t) :
    (do
      let (yearString, rest) := match splitOn '-' t with
        | [] :: y :: rest => ('-' :: y, rest)
        | y :: rest => (y, rest)
        | [] => ([], [])
      let year ← orParseInt (parseI32 yearString)
      match rest with
      | [] => newDate valid year 1 1
      | m :: rest =>
        let month ← orParseInt (parseUnsigned 255 m)
        match rest with
        | [] => newDate valid year month 1
        | d :: _ =>
          let day ← orParseInt (parseUnsigned 255 d)
          newDate valid year month day) = .ok ⟨y, m, d⟩ ↔ valid y m d = true ∧ DateText t y m d := by
  constructor
  · intro h
    obtain ⟨a, rest, hs, ha, hr, rfl⟩ := split_join '-' t
    rw [hs] at h
    -- what follows the year
    have tail : ∀ (b : Bool) (ys : Str) (rest : List Str) (year : Int), '-' ∉ ys → YearText (minusSign b ++ ys) year →
        (∀ p ∈ rest, '-' ∉ p) → (rest = [] → b = true) →
        (match rest with
          | [] => newDate valid year 1 1
          | m :: rest => do
            let month ← orParseInt (parseUnsigned 255 m)
            match rest with
            | [] => newDate valid year month 1
            | d :: _ =>
              let day ← orParseInt (parseUnsigned 255 d)
              newDate valid year month day) = .ok ⟨y, m, d⟩ →
        valid y m d = true ∧ DateText (minusSign b ++ ys ++ rest.flatMap fun p => '-' :: p) y m d := by
      intro b ys rest year hys hy hr hb h
      match rest, hr, hb, h with
      | [], _, hb, h =>
        obtain ⟨hv, rfl, rfl, rfl⟩ := newDate_ok.1 h
        rw [hb rfl] at hy ⊢
        exact ⟨hv, by simpa [minusSign] using DateText.dashYear ys _ hys hy⟩
      | [ms], hr, _, h =>
        obtain ⟨month, hmo, h'⟩ := orParseInt_ok.1 h
        replace h := h'; clear h'
        obtain ⟨hv, rfl, rfl, rfl⟩ := newDate_ok.1 h
        exact ⟨hv, by simpa using DateText.dashMonth b ys ms _ _ hys (hr ms (by simp)) hy (count_iff.1 hmo)⟩
      | ms :: ds :: more, hr, _, h =>
        obtain ⟨month, hmo, h'⟩ := orParseInt_ok.1 h
        replace h := h'; clear h'
        obtain ⟨day, hda, h'⟩ := orParseInt_ok.1 h
        replace h := h'; clear h'
        obtain ⟨hv, rfl, rfl, rfl⟩ := newDate_ok.1 h
        have := DateText.dashDay b ys ms ds _ _ _ _ hys (hr ms (by simp)) (hr ds (by simp)) (flat_trailer more) hy
          (count_iff.1 hmo) (count_iff.1 hda)
        exact ⟨hv, by simpa using this⟩
    have hne : rest ≠ [] := by
      rintro rfl
      simp at hm
      exact ha hm
    match a, rest, hne, ha, hr, h with
    | [], b :: rest, _, _, hr, h =>
      obtain ⟨year, hy, h'⟩ := orParseInt_ok.1 h
      replace h := h'; clear h'
      have := tail true b rest year (hr b (by simp)) (year_iff.1 hy) (fun p hp => hr p (by simp [hp])) (fun _ => rfl) h
      simpa [minusSign] using this
    | c :: a, rest, hne, ha, hr, h =>
      obtain ⟨year, hy, h'⟩ := orParseInt_ok.1 h
      replace h := h'; clear h'
      have := tail false (c :: a) rest year ha (year_iff.1 hy) hr (fun e => absurd e hne) h
      simpa [minusSign] using this
  · rintro ⟨hv, h⟩
    have res : newDate valid y m d = .ok ⟨y, m, d⟩ := newDate_ok.2 ⟨hv, rfl, rfl, rfl⟩
    have nocut : ∀ {n : Nat} {r : Str}, '-' ∉ r → '-' ∈ pad 4 n ++ r → False := fun h1 h2 => by
      rcases List.mem_append.1 h2 with h | h
      · exact minus_pad _ _ h
      · exact h1 h
    have year_ne : ∀ {n : Int}, ¬ YearText [] n := fun h => by have := year_iff.2 h; cases this
    cases h with
    | nothing _ h _ => exact absurd hm h
    | year n r _ h _ => exact (nocut h hm).elim
    | month n ms r k _ h2 h _ =>
      rw [List.append_assoc] at hm
      exact (nocut (by simp [two_minus h2, h]) hm).elim
    | day n ms ds r k l _ h2 h3 h =>
      rw [List.append_assoc, List.append_assoc] at hm
      exact (nocut (by simp [two_minus h2, two_minus h3, h]) hm).elim
    | dashYear ys _ h hy =>
      have : splitOn '-' ('-' :: ys) = [[], ys] := by
        have := splitOn_append '-' [] ys (by simp)
        rw [splitOn_one _ _ h] at this
        simpa using this
      rw [this]
      exact orParseInt_ok.2 ⟨_, year_iff.2 hy, res⟩
    | dashMonth b ys ms _ k h1 h2 hy hmo =>
      have e : splitOn '-' (ys ++ '-' :: ms) = [ys, ms] := by rw [splitOn_append _ _ _ h1, splitOn_one _ _ h2]
      cases b with
      | true =>
        have : splitOn '-' (minusSign true ++ ys ++ '-' :: ms) = [[], ys, ms] := by
          have := splitOn_append '-' [] (ys ++ '-' :: ms) (by simp)
          rw [e] at this
          simpa [minusSign] using this
        rw [this]
        exact orParseInt_ok.2 ⟨_, year_iff.2 hy, orParseInt_ok.2 ⟨_, count_iff.2 hmo, res⟩⟩
      | false =>
        simp only [minusSign, Bool.false_eq_true, if_false, List.nil_append] at hy ⊢
        rw [e]
        match ys, hy with
        | [], hy => exact (year_ne hy).elim
        | c :: ys, hy => exact orParseInt_ok.2 ⟨_, year_iff.2 hy, orParseInt_ok.2 ⟨_, count_iff.2 hmo, res⟩⟩
    | dashDay b ys ms ds r _ k l h1 h2 h3 hr hy hmo hda =>
      obtain ⟨more, hmore⟩ := trailer_split hr h3
      have e : splitOn '-' (ys ++ '-' :: (ms ++ '-' :: (ds ++ r))) = ys :: ms :: ds :: more := by
        rw [splitOn_append _ _ _ h1, splitOn_append _ _ _ h2, hmore]
      cases b with
      | true =>
        have : splitOn '-' (minusSign true ++ ys ++ '-' :: ms ++ '-' :: ds ++ r) = [] :: ys :: ms :: ds :: more := by
          have := splitOn_append '-' [] (ys ++ '-' :: (ms ++ '-' :: (ds ++ r))) (by simp)
          rw [e] at this
          simpa [minusSign] using this
        rw [this]
        exact orParseInt_ok.2 ⟨_, year_iff.2 hy, orParseInt_ok.2 ⟨_, count_iff.2 hmo, orParseInt_ok.2 ⟨_, count_iff.2 hda, res⟩⟩⟩
      | false =>
        have : minusSign false ++ ys ++ '-' :: ms ++ '-' :: ds ++ r = ys ++ '-' :: (ms ++ '-' :: (ds ++ r)) := by
          simp [minusSign]
        rw [this, e]
        match ys, hy with
        | [], hy => exact (year_ne (by simpa [minusSign] using hy)).elim
        | c :: ys, hy =>
          exact orParseInt_ok.2 ⟨_, year_iff.2 hy, orParseInt_ok.2 ⟨_, count_iff.2 hmo, orParseInt_ok.2 ⟨_, count_iff.2 hda, res⟩⟩⟩

/-- **C25, exactly what is accepted.** A string is taken for a date exactly if it has one of the forms of `DateForm` (which
are more than those documented, and `+YYYYY` is not among them with its meaning) and the calendar has that date. -/
theorem C25_accepted_exactly_partial (valid : Int → Nat → Nat → Bool) (s : Str) (y : Int) (m d : Nat) :
    decomposeIsoDate valid s = .ok ⟨y, m, d⟩ ↔ valid y m d = true ∧ DateForm s y m d := by
  obtain ⟨k, hs, hp⟩ := trim_iff.1 (rfl : trimStart '+' s = trimStart '+' s)
  have hf : DateForm s y m d ↔ DateText (trimStart '+' s) y m d := by
    constructor
    · rintro ⟨k', t, h1, h2, h3⟩
      rw [trim_iff.2 ⟨k', h1, h2⟩]
      exact h3
    · exact fun h => ⟨k, _, hs, hp, h⟩
  rw [hf]
  unfold decomposeIsoDate
  simp only
  generalize trimStart '+' s = t at hp
  by_cases hm : '-' ∈ t
  · have hne : t ≠ [] := by rintro rfl; simp at hm
    rw [if_neg hne, ← dashed_date hm]
    obtain ⟨a, rest, hs, ha, hr, rfl⟩ := split_join '-' t
    rw [hs]
    match rest with
    | [] => simp at hm; exact absurd hm ha
    | b :: rest => rfl
  · by_cases ht : t = []
    · subst ht
      rw [if_pos rfl, ← basic_date hp hm, show splitBytes 4 [] = none from by simp [splitBytes]]
    · rw [if_neg ht, splitOn_one _ _ hm, ← basic_date hp hm]
      exact Iff.rfl

/-- Examples of forms: two documented ones, and some that are not. -/
example : DateForm "-0044-03-15".toList (-44) 3 15 ∧ DateForm "+12345-02".toList 12345 2 1 ∧ DateForm "++12345".toList 1234 1 1 ∧
    DateForm "xyz".toList 0 1 1 ∧ DateForm "2020+1+2 etc.".toList 2020 1 2 := by
  have h := fun (s : String) (y : Int) (m d : Nat) (h : decomposeIsoDate demoCalendar s.toList = .ok ⟨y, m, d⟩) =>
    ((C25_accepted_exactly_partial demoCalendar s.toList y m d).1 h).2
  refine ⟨h _ _ _ _ ?_, h _ _ _ _ ?_, h _ _ _ _ ?_, h _ _ _ _ ?_, h _ _ _ _ ?_⟩ <;> decide +kernel

/-! ### Times -/

theorem parseUnit_ok {store max n : Nat} {s : Str} : parseUnit store max s = .ok n ↔ n ≤ max ∧ Count store s n := by
  unfold parseUnit
  cases hp : parseUnsigned store s with
  | none =>
    refine ⟨fun h => (nomatch h), fun ⟨_, h⟩ => ?_⟩
    rw [count_iff.2 h] at hp
    cases hp
  | some k =>
    have hc := count_iff.1 hp
    by_cases hk : k ≤ max
    · simp only [hk, if_true]
      constructor
      · intro h; cases h; exact ⟨hk, hc⟩
      · rintro ⟨_, h⟩
        rw [count_iff.2 h] at hp
        cases hp
        rfl
    · simp only [hk, if_false]
      refine ⟨fun h => (nomatch h), ?_⟩
      rintro ⟨hn, h⟩
      rw [count_iff.2 h] at hp
      cases hp
      exact absurd hn hk

theorem except_bind {α β : Type} {x : Except IsoError α} {f : α → Except IsoError β} {r : β} :
    (do let a ← x; f a) = .ok r ↔ ∃ a, x = .ok a ∧ f a = .ok r := by
  cases x with
  | error e => exact ⟨fun h => (nomatch h), fun ⟨_, h, _⟩ => (nomatch h)⟩
  | ok a =>
    constructor
    · exact fun h => ⟨a, rfl, h⟩
    · rintro ⟨_, e, h⟩; cases e; exact h

/-- A number in two bytes without sign. -/
theorem two_digits {s : Str} {max n : Nat} (hm : max < 100) (hp : '+' ∉ s) :
    (byteLen s = 2 ∧ parseUnit 255 max s = .ok n) ↔ n ≤ max ∧ s = pad 2 n := by
  rw [parseUnit_ok]
  constructor
  · rintro ⟨hl, hn, hc⟩
    rcases two_iff.1 ⟨hl, hc⟩ with ⟨_, rfl⟩ | ⟨_, rfl⟩
    · exact ⟨hn, rfl⟩
    · simp at hp
  · rintro ⟨hn, rfl⟩
    have := two_iff.2 (.inl ⟨(by omega : n < 100), rfl⟩)
    exact ⟨this.1, hn, this.2⟩

/-- The time zone begins at the first sign. -/
theorem cut_zone_iff {x t : Str} : cutAt '-' (cutAt '+' x) = t ↔
    ∃ z, x = t ++ z ∧ '+' ∉ t ∧ '-' ∉ t ∧ Trailer ['+', '-'] z := by
  constructor
  · rintro rfl
    induction x with
    | nil => exact ⟨[], rfl, by simp [cutAt], by simp [cutAt], .inl rfl⟩
    | cons c x ih =>
      by_cases h1 : c = '+'
      · subst h1
        exact ⟨'+' :: x, by simp [cutAt], by simp [cutAt], by simp [cutAt], .inr ⟨'+', by simp, x, rfl⟩⟩
      · have e1 : cutAt '+' (c :: x) = c :: cutAt '+' x := by simp [cutAt, h1]
        rw [e1]
        by_cases h2 : c = '-'
        · subst h2
          exact ⟨'-' :: x, by simp [cutAt], by simp [cutAt], by simp [cutAt], .inr ⟨'-', by simp, x, rfl⟩⟩
        · have e2 : cutAt '-' (c :: cutAt '+' x) = c :: cutAt '-' (cutAt '+' x) := by simp [cutAt, h2]
          rw [e2]
          obtain ⟨z, hx, hp, hm, hz⟩ := ih
          refine ⟨z, ?_, by simp [hp, Ne.symm h1], by simp [hm, Ne.symm h2], hz⟩
          rw [List.cons_append, ← hx]
  · rintro ⟨z, rfl, hp, hm, hz⟩
    refine cutAt_zone hp hm ?_
    rcases hz with rfl | ⟨c, hc, r, rfl⟩
    · exact .inl rfl
    · simp only [List.mem_cons, List.not_mem_nil, or_false] at hc
      rcases hc with rfl | rfl
      · exact .inr ⟨r, .inl rfl⟩
      · exact .inr ⟨r, .inr rfl⟩

theorem time_text {t : Str} {h m s n : Nat} (hp : '+' ∉ t) :
    (match splitBytes 2 t with
      | none => .ok { hour := 0, minute := 0, second := 0, nano := 0 }
      | some (h, r) => do
        let hour ← parseUnit 255 24 h
        match splitBytes 2 (trimStart ':' r) with
        | none => .ok { hour := hour, minute := 0, second := 0, nano := 0 }
        | some (m, r) =>
          let minute ← parseUnit 255 60 m
          match splitBytes 2 (trimStart ':' r) with
          | none => .ok { hour := hour, minute := minute, second := 0, nano := 0 }
          | some (s, r) =>
            let second ← parseUnit 255 61 s
            let nano ← parseUnit 4294967295 999999999 (trimStart '.' r)
            .ok { hour := hour, minute := minute, second := second, nano := nano } : Except IsoError IsoTime) =
        .ok ⟨h, m, s, n⟩ ↔ TimeText t h m s n := by
  constructor
  · intro e
    cases h1 : splitBytes 2 t with
    | none =>
      rw [h1] at e
      cases e
      exact .nothing t (noCut_iff.1 h1)
    | some p =>
      obtain ⟨hs, r⟩ := p
      rw [h1] at e
      obtain ⟨ht, hl1⟩ := cut_iff.1 h1
      obtain ⟨hour, hh, e1⟩ := except_bind.1 e
      obtain ⟨hb1, hs1⟩ := (two_digits (by omega) (fun x => hp (by simp [ht, x]))).1 ⟨hl1, hh⟩
      obtain ⟨i, hr, hc⟩ := trim_iff.1 (rfl : trimStart ':' r = trimStart ':' r)
      generalize hr' : trimStart ':' r = r' at hr hc e1
      cases h2 : splitBytes 2 r' with
      | none =>
        rw [h2] at e1
        cases e1
        rw [ht, hr, hs1, ← List.append_assoc]
        exact .hour _ i r' hb1 hc (noCut_iff.1 h2)
      | some p =>
        obtain ⟨ms, q⟩ := p
        rw [h2] at e1
        obtain ⟨hq, hl2⟩ := cut_iff.1 h2
        obtain ⟨minute, hmi, e2⟩ := except_bind.1 e1
        obtain ⟨hb2, hs2⟩ := (two_digits (by omega) (fun x => hp (by simp [ht, hr, hq, x]))).1 ⟨hl2, hmi⟩
        obtain ⟨j, hqq, hcq⟩ := trim_iff.1 (rfl : trimStart ':' q = trimStart ':' q)
        generalize hq' : trimStart ':' q = q' at hqq hcq e2
        cases h3 : splitBytes 2 q' with
        | none =>
          rw [h3] at e2
          cases e2
          rw [ht, hr, hq, hqq, hs1, hs2]
          have := TimeText.minute _ i _ j q' hb1 hb2 hcq (noCut_iff.1 h3)
          simpa using this
        | some p =>
          obtain ⟨ss, f⟩ := p
          rw [h3] at e2
          obtain ⟨hf, hl3⟩ := cut_iff.1 h3
          obtain ⟨second, hse, e3⟩ := except_bind.1 e2
          obtain ⟨hb3, hs3⟩ := (two_digits (by omega) (fun x => hp (by simp [ht, hr, hq, hqq, hf, x]))).1 ⟨hl3, hse⟩
          obtain ⟨nano, hna, e4⟩ := except_bind.1 e3
          cases e4
          obtain ⟨k, hff, _⟩ := trim_iff.1 (rfl : trimStart '.' f = trimStart '.' f)
          generalize hf' : trimStart '.' f = f' at hff hna
          obtain ⟨hb4, _, w, hw, hn, hs4 | hs4⟩ := parseUnit_ok.1 hna
          · rw [ht, hr, hq, hqq, hf, hff, hs1, hs2, hs3, hs4]
            have := TimeText.second _ i _ j _ k w _ hb1 hb2 hb3 hb4 hw hn
            simpa using this
          · exact absurd (by rw [ht, hr, hq, hqq, hf, hff, hs4]; simp) hp
  · have two : ∀ {max n : Nat}, n ≤ max → max < 100 → parseUnit 255 max (pad 2 n) = .ok n := fun hn hm =>
      ((two_digits hm (plus_pad 2 _)).2 ⟨hn, rfl⟩).2
    have trim : ∀ {i w n : Nat} {r : Str}, 0 < w → trimStart ':' (List.replicate i ':' ++ (pad w n ++ r)) = pad w n ++ r := by
      intro i w n r hw
      refine trim_iff.2 ⟨i, rfl, ?_⟩
      obtain ⟨k, s, hk⟩ := pad_cons n hw
      rw [hk]
      simpa using (digitChar_sep k).2.2.2.2.1
    intro e
    cases e with
    | nothing _ h => rw [noCut_iff.2 h]
    | hour _ i r hh hr hc =>
      rw [List.append_assoc, splitBytes_pad]
      refine except_bind.2 ⟨h, two hh (by omega), ?_⟩
      simp only [trim_iff.2 ⟨i, rfl, hr⟩, noCut_iff.2 hc]
    | minute _ i _ j r hh hm hr hc =>
      simp only [List.append_assoc, splitBytes_pad]
      refine except_bind.2 ⟨h, two hh (by omega), ?_⟩
      simp only [trim (by omega : 0 < 2), splitBytes_pad]
      refine except_bind.2 ⟨m, two hm (by omega), ?_⟩
      simp only [trim_iff.2 ⟨j, rfl, hr⟩, noCut_iff.2 hc]
    | second _ i _ j _ k w _ hh hm hs hn hw hnw =>
      simp only [List.append_assoc, splitBytes_pad]
      refine except_bind.2 ⟨h, two hh (by omega), ?_⟩
      simp only [trim (by omega : 0 < 2), splitBytes_pad]
      refine except_bind.2 ⟨m, two hm (by omega), ?_⟩
      refine except_bind.2 ⟨s, two hs (by omega), except_bind.2 ⟨n, ?_, rfl⟩⟩
      rw [show trimStart '.' (List.replicate k '.' ++ pad w n) = pad w n from trim_iff.2 ⟨k, rfl, by
        obtain ⟨d, s, hk⟩ := pad_cons n hw
        rw [hk]
        simpa using (digitChar_sep d).2.2.2.2.2⟩]
      exact parseUnit_ok.2 ⟨hn, by omega, w, hw, hnw, .inl rfl⟩

/-- **C26, exactly what is accepted.** A string is taken for a time exactly if it has one of the forms of `TimeForm`. -/
theorem C26_accepted_exactly_partial (str : Str) (h m s n : Nat) :
    decomposeIsoTime str = .ok ⟨h, m, s, n⟩ ↔ TimeForm str h m s n := by
  obtain ⟨k, hs, ht⟩ := trim_iff.1 (rfl : trimStart 'T' str = trimStart 'T' str)
  obtain ⟨z, hx, hp, hm, hz⟩ := cut_zone_iff.1 (rfl : cutAt '-' (cutAt '+' (trimStart 'T' str)) = _)
  have hf : TimeForm str h m s n ↔ TimeText (cutAt '-' (cutAt '+' (trimStart 'T' str))) h m s n := by
    constructor
    · rintro ⟨k', t, z', h1, h2, h3, h4, h5, h6⟩
      have e : trimStart 'T' str = t ++ z' := by
        refine trim_iff.2 ⟨k', by rw [h1, List.append_assoc], ?_⟩
        match t, h2 with
        | [], _ =>
          rcases h5 with rfl | ⟨c, hc, r, rfl⟩
          · simp
          · simp only [List.mem_cons, List.not_mem_nil, or_false] at hc
            rcases hc with rfl | rfl <;> simp
        | c :: t, h2 => simpa using h2
      rw [e, cut_zone_iff.2 ⟨z', rfl, h3, h4, h5⟩]
      exact h6
    · intro h
      refine ⟨k, _, z, ?_, ?_, hp, hm, hz, h⟩
      · rw [List.append_assoc, ← hx]; exact hs
      · rw [hx] at ht
        generalize cutAt '-' (cutAt '+' (trimStart 'T' str)) = t at ht
        cases t with
        | nil => simp
        | cons c t => simpa using ht
  rw [hf, ← time_text hp]
  rfl

/-- Examples of forms: two documented ones, and some that are not. -/
example : TimeForm "T09:05+01:00".toList 9 5 0 0 ∧ TimeForm "090507.042".toList 9 5 7 42 ∧ TimeForm "0905071".toList 9 5 7 1 ∧
    TimeForm "TT24::60:61..1".toList 24 60 61 1 ∧ TimeForm "?".toList 0 0 0 0 := by
  have h := fun (s : String) (h m sec n : Nat) (e : decomposeIsoTime s.toList = .ok ⟨h, m, sec, n⟩) =>
    (C26_accepted_exactly_partial s.toList h m sec n).1 e
  refine ⟨h _ _ _ _ _ ?_, h _ _ _ _ _ ?_, h _ _ _ _ _ ?_, h _ _ _ _ _ ?_, h _ _ _ _ _ ?_⟩ <;> decide +kernel

end Verif.Props
