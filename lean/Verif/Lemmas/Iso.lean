import Verif.Spec.Iso
/-
Lemmas for ISO dates and times.
-/
namespace Verif.IsoLemmas
open Verif Verif.Spec

theorem digit_cases (n : Nat) : ∃ k : Fin 10, n % 10 = k := ⟨⟨n % 10, Nat.mod_lt _ (by omega)⟩, rfl⟩

theorem digit_digitChar (n : Nat) : digit? (digitChar n) = some (n % 10) := by
  obtain ⟨k, hk⟩ := digit_cases n
  unfold digitChar
  rw [hk]
  clear hk
  revert k
  decide

/-- Digits are ASCII and none of the separators. -/
theorem digitChar_sep (n : Nat) : (digitChar n).utf8Size = 1 ∧ digitChar n ≠ '-' ∧ digitChar n ≠ '+' ∧
    digitChar n ≠ 'T' ∧ digitChar n ≠ ':' ∧ digitChar n ≠ '.' := by
  obtain ⟨k, hk⟩ := digit_cases n
  unfold digitChar
  rw [hk]
  clear hk
  revert k
  decide

theorem pad_length (w n : Nat) : (pad w n).length = w := by
  induction w generalizing n with
  | zero => rfl
  | succ w ih => simp [pad, ih]

theorem pad_mem {w n : Nat} {c : Char} (h : c ∈ pad w n) : ∃ k, c = digitChar k := by
  induction w generalizing n with
  | zero => simp [pad] at h
  | succ w ih =>
    simp only [pad, List.mem_append, List.mem_singleton] at h
    rcases h with h | h
    · exact ih h
    · exact ⟨n, h⟩

theorem pad_cons {w : Nat} (n : Nat) (h : 0 < w) : ∃ k s, pad w n = digitChar k :: s := by
  cases hp : pad w n with
  | nil => have := pad_length w n; rw [hp] at this; simp at this; omega
  | cons c s =>
    obtain ⟨k, hk⟩ := pad_mem (n := n) (w := w) (c := c) (by rw [hp]; simp)
    exact ⟨k, s, by rw [hk]⟩

theorem digits_pad (w : Nat) : ∀ (n acc : Nat) (rest : Str), n < 10 ^ w →
    digits? acc (pad w n ++ rest) = digits? (acc * 10 ^ w + n) rest := by
  induction w with
  | zero => intro n acc rest h; simp at h; simp [pad, h]
  | succ w ih =>
    intro n acc rest h
    have h' : n / 10 < 10 ^ w := by rw [Nat.pow_succ] at h; omega
    simp only [pad, List.append_assoc, List.cons_append, List.nil_append]
    rw [ih _ _ _ h']
    simp only [digits?, digit_digitChar]
    congr 1
    rw [Nat.pow_succ, ← Nat.mul_assoc, Nat.add_mul]
    omega

theorem parseUnsigned_eq {w n : Nat} (max : Nat) (hw : 0 < w) (h : n < 10 ^ w) :
    parseUnsigned max (pad w n) = if n ≤ max then some n else none := by
  have hd := digits_pad w n 0 [] h
  obtain ⟨k, s, hk⟩ := pad_cons n hw
  rw [hk] at hd ⊢
  have := (digitChar_sep k).2.2.1
  unfold parseUnsigned
  simp only [List.append_nil, Nat.zero_mul, Nat.zero_add] at hd
  split
  · rename_i heq
    simp only [List.cons.injEq] at heq; exact absurd heq.1 this
  · simp only [hd]; rfl

theorem parseUnsigned_pad {w n max : Nat} (hw : 0 < w) (h : n < 10 ^ w) (hm : n ≤ max) :
    parseUnsigned max (pad w n) = some n := by rw [parseUnsigned_eq max hw h, if_pos hm]

theorem parseI32_pad {w n : Nat} (hw : 0 < w) (h : n < 10 ^ w) (hm : n ≤ 2147483647) :
    parseI32 (pad w n) = some (n : Int) := by
  unfold parseI32
  obtain ⟨k, s, hk⟩ := pad_cons n hw
  have := (digitChar_sep k).2.1
  split
  · rename_i h2
    rw [hk] at h2
    simp only [List.cons.injEq] at h2; exact absurd h2.1 this
  · rw [parseUnsigned_pad hw h hm]

theorem parseI32_neg {w n : Nat} (hw : 0 < w) (h : n < 10 ^ w) (hm : n ≤ 2147483648) :
    parseI32 ('-' :: pad w n) = some (-(n : Int)) := by
  have hd := digits_pad w n 0 [] h
  obtain ⟨k, s, hk⟩ := pad_cons n hw
  simp only [List.append_nil, Nat.zero_mul, Nat.zero_add] at hd
  rw [hk, show digits? n [] = some n from rfl] at hd
  rw [hk]
  simp only [parseI32, hd, if_pos hm]

theorem splitBytes_append (a : Str) : ∀ b : Str, (∀ c ∈ a, c.utf8Size = 1) → splitBytes a.length (a ++ b) = some (a, b) := by
  induction a with
  | nil => intro b _; simp [splitBytes]
  | cons c a ih =>
    intro b h
    simp only [List.length_cons, List.cons_append, splitBytes]
    have hc : c.utf8Size = 1 := h c (by simp)
    have h1 : (c.utf8Size ≤ a.length + 1) := by omega
    have h2 : a.length + 1 - c.utf8Size = a.length := by omega
    rw [if_pos h1, h2, ih b (fun c hc => h c (by simp [hc]))]

theorem splitBytes_pad (w n : Nat) (b : Str) : splitBytes w (pad w n ++ b) = some (pad w n, b) := by
  have := splitBytes_append (pad w n) b (fun c hc => by obtain ⟨k, rfl⟩ := pad_mem hc; exact (digitChar_sep k).1)
  rwa [pad_length] at this

theorem splitOn_append (c : Char) (a b : Str) (h : c ∉ a) : splitOn c (a ++ c :: b) = a :: splitOn c b := by
  induction a with
  | nil => simp [splitOn]
  | cons x a ih =>
    simp only [List.mem_cons, not_or] at h
    simp only [List.cons_append, splitOn, if_neg (fun e => h.1 (Eq.symm e)), ih h.2]

theorem splitOn_one (c : Char) (a : Str) (h : c ∉ a) : splitOn c a = [a] := by
  induction a with
  | nil => rfl
  | cons x a ih =>
    simp only [List.mem_cons, not_or] at h
    simp only [splitOn, if_neg (fun e => h.1 (Eq.symm e)), ih h.2]

theorem not_mem_pad {c : Char} (w n : Nat) (h : ∀ k, digitChar k ≠ c) : c ∉ pad w n := by
  intro hc
  obtain ⟨k, hk⟩ := pad_mem hc
  exact h k hk.symm

theorem minus_pad (w n : Nat) : '-' ∉ pad w n := not_mem_pad w n fun k => (digitChar_sep k).2.1

theorem trimStart_pad {c : Char} {w : Nat} (n : Nat) (s : Str) (hw : 0 < w) (h : ∀ k, digitChar k ≠ c) :
    trimStart c (pad w n ++ s) = pad w n ++ s := by
  obtain ⟨k, t, hk⟩ := pad_cons n hw
  rw [hk, List.cons_append, trimStart, if_neg (h k)]

theorem pad_ne_nil {w : Nat} (n : Nat) (hw : 0 < w) : pad w n ≠ [] := by
  obtain ⟨k, t, hk⟩ := pad_cons n hw
  rw [hk]; simp

theorem trimStart_plus (sg : YearSign) {w : Nat} (n : Nat) (s : Str) (hw : 0 < w) :
    trimStart '+' (sg.text ++ pad w n ++ s) = (if sg = .minus then ['-'] else []) ++ pad w n ++ s := by
  have h := trimStart_pad (c := '+') n s hw (fun k => (digitChar_sep k).2.2.1)
  cases sg
  · simpa [YearSign.text] using h
  · simpa [YearSign.text, trimStart] using h
  · simp [YearSign.text, trimStart]

/-- The parts of a date with at least one hyphen. -/
theorem iso_parts (sg : YearSign) {w y : Nat} (valid : Int → Nat → Nat → Bool) (rest : List Str) (s : Str) (hw : 0 < w)
    (hy : y < 10 ^ w) (hb : y ≤ sg.bound) (hs : splitOn '-' (pad w y ++ s) = pad w y :: rest)
    (hr : sg = .minus ∨ rest ≠ []) :
    decomposeIsoDate valid (sg.text ++ pad w y ++ s) = (do
      match rest with
      | [] => newDate valid (sg.apply y) 1 1
      | m :: rest =>
        let month ← orParseInt (parseUnsigned 255 m)
        match rest with
        | [] => newDate valid (sg.apply y) month 1
        | d :: _ =>
          let day ← orParseInt (parseUnsigned 255 d)
          newDate valid (sg.apply y) month day) := by
  unfold decomposeIsoDate
  simp only
  rw [trimStart_plus sg y s hw]
  obtain ⟨k, t, hk⟩ := pad_cons y hw
  by_cases hsg : sg = .minus
  · subst hsg
    rw [if_neg (by simp)]
    simp only [if_true, List.cons_append, List.nil_append, splitOn, hs]
    rw [parseI32_neg hw hy hb]
    rfl
  · have hp : parseI32 (pad w y) = some (y : Int) := parseI32_pad hw hy (by cases sg <;> simp_all [YearSign.bound])
    rw [if_neg (by simp [hsg, hk])]
    simp only [hsg, if_false, List.nil_append, hs]
    have ha : sg.apply y = (y : Int) := by cases sg <;> simp_all [YearSign.apply]
    rcases hr with h | h
    · exact absurd h hsg
    · cases rest with
      | nil => exact absurd rfl h
      | cons m rest =>
        simp only [ha]
        rw [hk] at hp ⊢
        simp only [hp]
        rfl

end Verif.IsoLemmas
