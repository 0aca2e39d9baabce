import Verif.Spec.IsoForms
import Verif.Lemmas.Iso
import Verif.Lemmas.Lexer
/-
Reading numbers, cutting and splitting strings, in both directions.
-/
namespace Verif.IsoLemmas
open Verif Verif.Spec

theorem digit_some {c : Char} {d : Nat} (h : digit? c = some d) : d < 10 ∧ c = digitChar d := by
  unfold digit? at h
  split at h
  · rename_i hc
    cases h
    obtain ⟨h0, h9⟩ := hc
    have h0 : 48 ≤ c.toNat := h0
    have h9 : c.toNat ≤ 57 := h9
    have e : '0'.toNat = 48 := rfl
    refine ⟨by omega, ?_⟩
    have : (48 + (c.toNat - '0'.toNat) % 10) = c.toNat := by omega
    unfold digitChar
    rw [this, Char.ofNat_toNat]
  · cases h

theorem pad_front {w d m : Nat} (hm : m < 10 ^ w) : digitChar d :: pad w m = pad (w + 1) (d * 10 ^ w + m) := by
  induction w generalizing m with
  | zero =>
    simp at hm
    subst hm
    simp [pad]
  | succ w ih =>
    have h' : m / 10 < 10 ^ w := by rw [Nat.pow_succ] at hm; omega
    have e : (d * 10 ^ (w + 1) + m) / 10 = d * 10 ^ w + m / 10 := by
      rw [Nat.pow_succ, ← Nat.mul_assoc]; omega
    have e' : digitChar (d * 10 ^ (w + 1) + m) = digitChar m := by
      unfold digitChar
      rw [Nat.pow_succ, ← Nat.mul_assoc]
      congr 2
      omega
    rw [show pad (w + 1 + 1) (d * 10 ^ (w + 1) + m) = pad (w + 1) ((d * 10 ^ (w + 1) + m) / 10) ++ [digitChar (d * 10 ^ (w + 1) + m)]
      from rfl, e, ← ih h', e']
    rfl

theorem digits_some {acc n : Nat} {s : Str} (h : digits? acc s = some n) :
    ∃ m, m < 10 ^ s.length ∧ s = pad s.length m ∧ n = acc * 10 ^ s.length + m := by
  induction s generalizing acc with
  | nil => exact ⟨0, by simp, rfl, by simpa [digits?] using h.symm⟩
  | cons c s ih =>
    rw [digits?] at h
    cases hd : digit? c with
    | none => rw [hd] at h; cases h
    | some d =>
      rw [hd] at h
      obtain ⟨m, hm, hs, hn⟩ := ih h
      obtain ⟨_, rfl⟩ := digit_some hd
      refine ⟨d * 10 ^ s.length + m, ?_, ?_, ?_⟩
      · rw [List.length_cons, Nat.pow_succ]
        have : d * 10 ^ s.length ≤ 9 * 10 ^ s.length := Nat.mul_le_mul_right _ (by omega)
        omega
      · rw [List.length_cons, ← pad_front hm, ← hs]
      · rw [hn, List.length_cons, Nat.pow_succ, Nat.add_mul, Nat.mul_assoc, Nat.mul_comm 10]
        omega

theorem digits_iff {s : Str} {n : Nat} : digits? 0 s = some n ↔ n < 10 ^ s.length ∧ s = pad s.length n := by
  constructor
  · intro h
    obtain ⟨m, hm, hs, hn⟩ := digits_some h
    obtain rfl : n = m := by omega
    exact ⟨hm, hs⟩
  · rintro ⟨hn, hs⟩
    have := digits_pad s.length n 0 [] hn
    rw [List.append_nil, ← hs] at this
    simpa [digits?] using this

theorem plus_not_pad {w n : Nat} {s : Str} (h : '+' :: s = pad w n) : False := by
  obtain ⟨k, hk⟩ := pad_mem (w := w) (n := n) (c := '+') (by rw [← h]; simp)
  exact (digitChar_sep k).2.2.1 hk.symm

theorem minus_not_pad {w n : Nat} {s : Str} (h : '-' :: s = pad w n) : False := by
  obtain ⟨k, hk⟩ := pad_mem (w := w) (n := n) (c := '-') (by rw [← h]; simp)
  exact (digitChar_sep k).2.1 hk.symm

/-- The standard library reads a number exactly if it is one. -/
theorem count_iff {max n : Nat} {s : Str} : parseUnsigned max s = some n ↔ Count max s n := by
  constructor
  · intro h
    unfold parseUnsigned at h
    have key : ∀ ds : Str, (match ds with
        | [] => none
        | ds => match digits? 0 ds with
          | some n => if n ≤ max then some n else none
          | none => none) = some n → n ≤ max ∧ 0 < ds.length ∧ n < 10 ^ ds.length ∧ ds = pad ds.length n := by
      intro ds h
      match ds with
      | [] => cases h
      | c :: ds =>
        simp only at h
        cases hd : digits? 0 (c :: ds) with
        | none => rw [hd] at h; cases h
        | some k =>
          rw [hd] at h
          by_cases hk : k ≤ max
          · simp only [hk, if_true, Option.some.injEq] at h
            subst h
            exact ⟨hk, by simp, digits_iff.1 hd⟩
          · simp [hk] at h
    have h := key _ h
    split at h
    · obtain ⟨h1, h2, h3, h4⟩ := h
      exact ⟨h1, _, h2, h3, .inr (by rw [← h4])⟩
    · obtain ⟨h1, h2, h3, h4⟩ := h
      exact ⟨h1, _, h2, h3, .inl h4⟩
  · rintro ⟨hm, w, hw, hn, rfl | rfl⟩
    · exact parseUnsigned_pad hw hn hm
    · obtain ⟨k, t, hk⟩ := pad_cons n hw
      have hd := digits_pad w n 0 [] hn
      simp only [List.append_nil, Nat.zero_mul, Nat.zero_add] at hd
      rw [hk] at hd ⊢
      unfold parseUnsigned
      simp only [hd]
      simp [digits?, hm]

theorem year_iff {s : Str} {y : Int} : parseI32 s = some y ↔ YearText s y := by
  constructor
  · intro h
    unfold parseI32 at h
    split at h
    · rename_i rest
      match rest with
      | [] => cases h
      | c :: ds =>
        simp only at h
        cases hd : digits? 0 (c :: ds) with
        | none => rw [hd] at h; cases h
        | some n =>
          rw [hd] at h
          by_cases hn : n ≤ 2147483648
          · simp only [hn, if_true, Option.some.injEq] at h
            obtain ⟨h1, h2⟩ := digits_iff.1 hd
            exact .inr ⟨_, n, by simp, h1, hn, by rw [← h2], h.symm⟩
          · simp [hn] at h
    · cases hp : parseUnsigned 2147483647 s with
      | none => rw [hp] at h; cases h
      | some n =>
        rw [hp] at h
        cases h
        exact .inl ⟨n, count_iff.1 hp, rfl⟩
  · rintro (⟨n, hc, rfl⟩ | ⟨w, n, hw, hn, hb, rfl, rfl⟩)
    · have := count_iff.2 hc
      unfold parseI32
      split
      · rename_i rest
        obtain ⟨_, w, _, _, h | h⟩ := hc
        · exact (minus_not_pad h).elim
        · cases h
      · rw [this]
    · exact parseI32_neg hw hn hb

theorem utf8_pos (c : Char) : 0 < c.utf8Size := Char.utf8Size_pos c

theorem cut_iff {k : Nat} {s a b : Str} : splitBytes k s = some (a, b) ↔ s = a ++ b ∧ byteLen a = k := by
  induction s generalizing k a with
  | nil =>
    cases k with
    | zero =>
      simp only [splitBytes, Option.some.injEq, Prod.mk.injEq]
      constructor
      · rintro ⟨rfl, rfl⟩; exact ⟨rfl, rfl⟩
      · rintro ⟨h, _⟩
        have := List.append_eq_nil_iff.1 h.symm
        exact ⟨this.1.symm, this.2.symm⟩
    | succ k =>
      simp only [splitBytes, reduceCtorEq, false_iff]
      rintro ⟨h, hk⟩
      have := List.append_eq_nil_iff.1 h.symm
      rw [this.1] at hk
      simp [byteLen] at hk
  | cons c s ih =>
    cases k with
    | zero =>
      simp only [splitBytes, Option.some.injEq, Prod.mk.injEq]
      constructor
      · rintro ⟨rfl, rfl⟩; exact ⟨rfl, rfl⟩
      · rintro ⟨h, hk⟩
        match a with
        | [] => exact ⟨rfl, h⟩
        | x :: a =>
          have := utf8_pos x
          simp [byteLen] at hk
          omega
    | succ k =>
      rw [splitBytes]
      by_cases hc : c.utf8Size ≤ k + 1
      · rw [if_pos hc]
        constructor
        · intro h
          cases hs : splitBytes (k + 1 - c.utf8Size) s with
          | none => rw [hs] at h; cases h
          | some p =>
            obtain ⟨a', b'⟩ := p
            rw [hs] at h
            cases h
            obtain ⟨rfl, hl⟩ := ih.1 hs
            refine ⟨rfl, ?_⟩
            rw [LexerLemmas.byteLen_cons, hl]
            omega
        · rintro ⟨h, hk⟩
          match a, h, hk with
          | [], _, hk => simp [byteLen] at hk
          | x :: a, h, hk =>
            cases h
            rw [LexerLemmas.byteLen_cons] at hk
            rw [ih.2 ⟨rfl, by omega⟩]
      · rw [if_neg hc]
        refine ⟨fun h => (nomatch h), ?_⟩
        rintro ⟨h, hk⟩
        match a, h, hk with
        | [], _, hk => simp [byteLen] at hk
        | x :: a, h, hk =>
          cases h
          rw [LexerLemmas.byteLen_cons] at hk
          omega

theorem noCut_iff {k : Nat} {s : Str} : splitBytes k s = none ↔ NoCut k s := by
  constructor
  · intro h a b hs hk
    rw [cut_iff.2 ⟨hs, hk⟩] at h
    cases h
  · intro h
    cases hs : splitBytes k s with
    | none => rfl
    | some p =>
      obtain ⟨a, b⟩ := p
      obtain ⟨h1, h2⟩ := cut_iff.1 hs
      exact absurd h2 (h _ _ h1)

theorem trim_iff {c : Char} {s t : Str} : trimStart c s = t ↔ ∃ k, s = List.replicate k c ++ t ∧ t.head? ≠ some c := by
  constructor
  · rintro rfl
    induction s with
    | nil => exact ⟨0, rfl, by simp [trimStart]⟩
    | cons x s ih =>
      rw [trimStart]
      by_cases hx : x = c
      · rw [if_pos hx]
        obtain ⟨k, h1, h2⟩ := ih
        refine ⟨k + 1, ?_, h2⟩
        rw [List.replicate_succ, List.cons_append, ← h1, hx]
      · rw [if_neg hx]
        exact ⟨0, rfl, by simpa using hx⟩
  · rintro ⟨k, rfl, h⟩
    induction k with
    | zero =>
      match t with
      | [] => rfl
      | x :: t => simp [trimStart] at h ⊢; simp [h]
    | succ k ih => simpa [List.replicate_succ, trimStart] using ih

/-- The parts of a string are without the separator, and joined by it they are the string. -/
theorem split_join (c : Char) (s : Str) : ∃ a rest, splitOn c s = a :: rest ∧ c ∉ a ∧ (∀ p ∈ rest, c ∉ p) ∧
    s = a ++ rest.flatMap fun p => c :: p := by
  induction s with
  | nil => exact ⟨[], [], rfl, by simp, by simp, rfl⟩
  | cons x s ih =>
    obtain ⟨a, rest, h1, h2, h3, h4⟩ := ih
    rw [splitOn]
    by_cases hx : x = c
    · rw [if_pos hx, h1]
      refine ⟨[], a :: rest, rfl, by simp, ?_, ?_⟩
      · intro p hp
        rcases List.mem_cons.1 hp with rfl | hp
        · exact h2
        · exact h3 p hp
      · subst hx
        simp [← h4]
    · rw [if_neg hx, h1]
      refine ⟨x :: a, rest, rfl, by simp [h2, Ne.symm hx], h3, ?_⟩
      simp [← h4]

theorem split_of_join (c : Char) {a : Str} {rest : List Str} (h2 : c ∉ a) (h3 : ∀ p ∈ rest, c ∉ p) :
    splitOn c (a ++ rest.flatMap fun p => c :: p) = a :: rest := by
  induction rest generalizing a with
  | nil => simpa using splitOn_one c a h2
  | cons b rest ih =>
    rw [List.flatMap_cons, List.cons_append, splitOn_append _ _ _ h2, ih (h3 b (by simp)) fun p hp => h3 p (by simp [hp])]

end Verif.IsoLemmas
