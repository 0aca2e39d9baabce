import Mathlib.Tactic.Linarith
import Mathlib.Tactic.Positivity
import Mathlib.Tactic.FieldSimp
import Mathlib.Tactic.Ring
import Mathlib.Tactic.NormNum
import Mathlib.Tactic.ByContra
import Verif.Spec.Ratio

namespace Verif.RatioLemmas
open Verif Verif.Spec

theorem nearestNat_spec (a b : ℕ) (hb : 0 < b) (k : ℤ) :
    |(F32.nearestNat a b : ℚ) - a / b| ≤ |(k : ℚ) - a / b| ∧
    (k ≠ F32.nearestNat a b → |(F32.nearestNat a b : ℚ) - a / b| = |(k : ℚ) - a / b| → F32.nearestNat a b % 2 = 0) := by
  have hbq : (0:ℚ) < b := by exact_mod_cast hb
  have hdm : (a:ℚ) = b * (a / b : ℕ) + (a % b : ℕ) := by exact_mod_cast (Nat.div_add_mod a b).symm
  have hr : (a % b : ℕ) < b := Nat.mod_lt _ hb
  set q := a / b with hq
  set r := a % b with hr'
  have hs : (a:ℚ) / b = q + r / b := by rw [hdm]; field_simp
  set s : ℚ := (r:ℚ) / b with hs'
  have hs0 : 0 ≤ s := by positivity
  have hs1 : s < 1 := by rw [hs', div_lt_one hbq]; exact_mod_cast hr
  have hcases : (k:ℚ) ≤ q ∨ (q:ℚ) + 1 ≤ k := by
    rcases lt_or_ge (q:ℤ) k with h | h
    · right; exact_mod_cast h
    · left; exact_mod_cast h
  have hlt : (2 * r < b ↔ s < 1/2) := by
    rw [hs', div_lt_iff₀ hbq]
    constructor
    · intro h; have : (2:ℚ) * r < b := by exact_mod_cast h
      linarith
    · intro h; have : (2:ℚ) * r < b := by linarith
      exact_mod_cast this
  have heq : (2 * r = b ↔ s = 1/2) := by
    rw [hs', div_eq_iff hbq.ne']
    constructor
    · intro h; have : (2:ℚ) * r = b := by exact_mod_cast h
      linarith
    · intro h; have : (2:ℚ) * r = b := by linarith
      exact_mod_cast this
  rw [hs]
  unfold F32.nearestNat
  rw [← hq, ← hr']
  split
  · next h =>
    have hle : s ≤ 1/2 := by
      rcases h with h | h
      · exact (hlt.1 h).le
      · exact (heq.1 h.1).le
    have e1 : |(q:ℚ) - (q + s)| = s := by rw [show (q:ℚ) - (q+s) = -s by ring, abs_neg, abs_of_nonneg hs0]
    rw [e1]
    refine ⟨?_, fun hne he => ?_⟩
    · rcases hcases with h' | h'
      · rw [abs_of_nonpos (by linarith)]; linarith
      · rw [abs_of_nonneg (by linarith)]; linarith
    · rcases hcases with h' | h'
      · rw [abs_of_nonpos (by linarith)] at he
        exact absurd (by exact_mod_cast (by linarith : (k:ℚ) = q)) hne
      · rw [abs_of_nonneg (by linarith)] at he
        rcases h with h | h
        · have := hlt.1 h; linarith
        · exact h.2
  · next h =>
    have hge : 1/2 ≤ s := by
      by_contra hc
      exact h (.inl (hlt.2 (by linarith)))
    have hc : ((q + 1 : ℕ) : ℚ) = q + 1 := by push_cast; rfl
    have e1 : |((q + 1 : ℕ):ℚ) - (q + s)| = 1 - s := by
      rw [hc, show (q:ℚ) + 1 - (q+s) = 1 - s by ring, abs_of_nonneg (by linarith)]
    rw [e1]
    refine ⟨?_, fun hne he => ?_⟩
    · rcases hcases with h' | h'
      · rw [abs_of_nonpos (by linarith)]; linarith
      · rw [abs_of_nonneg (by linarith)]; linarith
    · rcases hcases with h' | h'
      · rw [abs_of_nonpos (by linarith)] at he
        have : s = 1/2 := by linarith
        have h2 := heq.2 this
        have : ¬ q % 2 = 0 := fun h3 => h (.inr ⟨h2, h3⟩)
        omega
      · rw [abs_of_nonneg (by linarith)] at he
        have : (k:ℚ) = ((q+1 : ℕ):ℚ) := by rw [hc]; linarith
        exact absurd (by exact_mod_cast this) hne

theorem nearestNat_between (a b : ℕ) (hb : 0 < b) {l u : ℕ} (h1 : l * b ≤ a) (h2 : a < u * b) :
    l ≤ F32.nearestNat a b ∧ F32.nearestNat a b ≤ u := by
  have hl : l ≤ a / b := (Nat.le_div_iff_mul_le hb).2 h1
  have hu : a / b < u := (Nat.div_lt_iff_lt_mul hb).2 h2
  unfold F32.nearestNat
  split <;> omega

theorem scaled_value {a b : ℕ} (hb : 0 < b) (e : ℤ) :
    ((F32.scaled a b e).1 : ℚ) / (F32.scaled a b e).2 * 2 ^ e = a / b := by
  have hbq : (b:ℚ) ≠ 0 := by exact_mod_cast hb.ne'
  unfold F32.scaled
  rcases le_total 0 e with h | h
  · obtain ⟨n, rfl⟩ := Int.eq_ofNat_of_zero_le h
    simp
    field_simp
  · obtain ⟨n, hn⟩ := Int.eq_ofNat_of_zero_le (show 0 ≤ -e by omega)
    obtain rfl : e = -n := by omega
    simp
    field_simp

theorem scaled_pos {a b : ℕ} (hb : 0 < b) (e : ℤ) : 0 < (F32.scaled a b e).2 := by
  unfold F32.scaled; positivity

theorem two_zpow_pos (e : ℤ) : (0:ℚ) < 2 ^ e := by positivity

theorem log2_bounds {a : ℕ} (ha : 0 < a) : (2:ℚ) ^ (a.log2 : ℤ) ≤ a ∧ (a:ℚ) < 2 ^ ((a.log2 : ℤ) + 1) := by
  constructor
  · have := Nat.log2_self_le ha.ne'
    rw [zpow_natCast]; exact_mod_cast this
  · have := @Nat.lt_log2_self a
    rw [show ((a.log2:ℤ) + 1) = ((a.log2 + 1 : ℕ) : ℤ) by push_cast; rfl, zpow_natCast]; exact_mod_cast this

/-- The scaled fraction compared with a number. -/
theorem scaled_lt {a b : ℕ} (hb : 0 < b) (e : ℤ) (n : ℕ) :
    (F32.scaled a b e).1 < n * (F32.scaled a b e).2 ↔ (a:ℚ) / b < n * 2 ^ e := by
  have hp : (0:ℚ) < (F32.scaled a b e).2 := by exact_mod_cast scaled_pos hb e
  rw [← scaled_value hb e, mul_lt_mul_iff_left₀ (two_zpow_pos e), div_lt_iff₀ hp]
  exact_mod_cast Iff.rfl

theorem exponent_spec {a b : ℕ} (ha : 0 < a) (hb : 0 < b) :
    (2:ℚ) ^ 23 * 2 ^ (F32.exponent a b) ≤ a / b ∧ (a:ℚ) / b < 2 ^ 24 * 2 ^ (F32.exponent a b) := by
  obtain ⟨a1, a2⟩ := log2_bounds ha
  obtain ⟨b1, b2⟩ := log2_bounds hb
  have hbq : (0:ℚ) < b := by exact_mod_cast hb
  set i : ℤ := (a.log2 : ℤ)
  set j : ℤ := (b.log2 : ℤ)
  have up : (a:ℚ) / b < 2 ^ (i - j + 1) := by
    rw [div_lt_iff₀ hbq]
    calc (a:ℚ) < 2 ^ (i + 1) := a2
      _ = 2 ^ (i - j + 1) * 2 ^ j := by rw [← zpow_add₀ (by norm_num)]; congr 1; ring
      _ ≤ _ := by apply mul_le_mul_of_nonneg_left b1 (two_zpow_pos _).le
  have low : (2:ℚ) ^ (i - j - 1) ≤ a / b := by
    rw [le_div_iff₀ hbq]
    calc (2:ℚ) ^ (i - j - 1) * b ≤ 2 ^ (i - j - 1) * 2 ^ (j + 1) := by
          apply mul_le_mul_of_nonneg_left b2.le (two_zpow_pos _).le
      _ = 2 ^ i := by rw [← zpow_add₀ (by norm_num)]; congr 1; ring
      _ ≤ a := a1
  have c23 : (2:ℚ) ^ 23 = 2 ^ (23:ℤ) := by norm_cast
  have c24 : (2:ℚ) ^ 24 = 2 ^ (24:ℤ) := by norm_cast
  have c : ((2 ^ 23 : ℕ) : ℚ) = 2 ^ (23:ℤ) := by norm_cast
  rw [c23, c24, ← zpow_add₀ (by norm_num), ← zpow_add₀ (by norm_num)]
  unfold F32.exponent
  simp only
  split
  · next h =>
    have h' := (scaled_lt hb _ (2^23)).1 h
    rw [c, ← zpow_add₀ (by norm_num)] at h'
    constructor
    · convert low using 2; ring
    · convert h' using 2; ring
  · next h =>
    have h' := not_lt.1 fun hc => h ((scaled_lt hb _ (2^23)).2 hc)
    rw [c, ← zpow_add₀ (by norm_num)] at h'
    constructor
    · exact h'
    · convert up using 2; ring

theorem value_fin (m : ℕ) (e : ℤ) : valueF32 (.fin m e) = some ((m:ℚ) * 2 ^ e) := rfl

/-- Numbers with 24 digits are multiples of `2 ^ e` or smaller than those with 24 digits before the point. -/
theorem single_cases {w : ℚ} (h : Single w) (e : ℤ) : (∃ k : ℤ, w = k * 2 ^ e) ∨ w < 2 ^ 23 * 2 ^ e := by
  obtain ⟨m, i, hm, rfl⟩ := h
  rcases le_or_gt e i with h | h
  · left
    obtain ⟨n, hn⟩ := Int.eq_ofNat_of_zero_le (show 0 ≤ i - e by omega)
    refine ⟨m * 2 ^ n, ?_⟩
    obtain rfl : i = e + n := by omega
    rw [zpow_add₀ (by norm_num)]
    push_cast
    rw [zpow_natCast]; ring
  · right
    have h1 : (m:ℚ) < 2 ^ 24 := by exact_mod_cast hm
    have h2 : (2:ℚ) ^ i ≤ 2 ^ (e - 1) := zpow_le_zpow_right₀ (by norm_num) (by omega)
    have h3 : (2:ℚ) ^ e = 2 * 2 ^ (e - 1) := by
      rw [← zpow_one_add₀ (by norm_num)]; congr 1; ring
    have h4 := two_zpow_pos i
    calc (m:ℚ) * 2 ^ i < 2 ^ 24 * 2 ^ i := by apply mul_lt_mul_of_pos_right h1 h4
      _ ≤ 2 ^ 24 * 2 ^ (e - 1) := by apply mul_le_mul_of_nonneg_left h2 (by norm_num)
      _ = 2 ^ 23 * 2 ^ e := by rw [h3]; ring

theorem round_rounded (a : ℕ) {b : ℕ} (hb : 0 < b) : Rounded (a / b) (F32.round a b) := by
  unfold F32.round
  split
  · next h =>
    subst h
    have hv : valueF32 F32.zero = some 0 := by simp [F32.zero, valueF32]
    refine ⟨⟨0, hv, 0, 0, by norm_num, by simp⟩, ?_, ?_⟩
    · rintro v w hv' hw
      cases hv.symm.trans hv'
      simp
    · rintro v w hv' hw hne he
      cases hv.symm.trans hv'
      simp at he
      exact absurd he.symm (by simpa using hne)
  · next h =>
    obtain ⟨h1, h2⟩ := exponent_spec (Nat.pos_of_ne_zero h) hb
    simp only
    set e := F32.exponent a b
    set n := (F32.scaled a b e).1 with hn
    set d := (F32.scaled a b e).2 with hd
    have hp : 0 < d := scaled_pos hb e
    have hdq : (0:ℚ) < d := by exact_mod_cast hp
    have hval : (a:ℚ) / b = n / d * 2 ^ e := (scaled_value hb e).symm
    have he := two_zpow_pos e
    rw [hval] at h1 h2 ⊢
    have g1 : (2:ℚ)^23 ≤ n / d := le_of_mul_le_mul_right h1 he
    have g2 : (n:ℚ) / d < 2^24 := lt_of_mul_lt_mul_right h2 he.le
    rw [le_div_iff₀ hdq] at g1
    rw [div_lt_iff₀ hdq] at g2
    have hb' := nearestNat_between n d hp (l := 2^23) (u := 2^24) (by exact_mod_cast g1) (by exact_mod_cast g2)
    set m := F32.nearestNat n d with hm
    have near : ∀ w, Single w → |(m:ℚ) * 2 ^ e - n / d * 2 ^ e| ≤ |w - n / d * 2 ^ e| ∧
        (w ≠ m * 2 ^ e → |(m:ℚ) * 2 ^ e - n / d * 2 ^ e| = |w - n / d * 2 ^ e| → m % 2 = 0) := by
      intro w hw
      have scale : ∀ x : ℚ, |x * 2 ^ e - n / d * 2 ^ e| = |x - n / d| * 2 ^ e := fun x => by
        rw [← sub_mul, abs_mul, abs_of_pos he]
      rcases single_cases hw e with ⟨k, rfl⟩ | hlt
      · obtain ⟨k1, k2⟩ := nearestNat_spec n d hp k
        rw [scale, scale]
        refine ⟨mul_le_mul_of_nonneg_right k1 he.le, fun hne heq => k2 (fun hc => hne ?_) (mul_right_cancel₀ he.ne' heq)⟩
        rw [hc]; push_cast; rfl
      · obtain ⟨k1, _⟩ := nearestNat_spec n d hp (2^23 : ℤ)
        have k1' : |(m:ℚ) * 2 ^ e - n / d * 2 ^ e| ≤ |(2:ℚ)^23 * 2 ^ e - n / d * 2 ^ e| := by
          rw [scale, scale]
          push_cast at k1
          exact mul_le_mul_of_nonneg_right k1 he.le
        have k3 : |(2:ℚ)^23 * 2 ^ e - n / d * 2 ^ e| < |w - n / d * 2 ^ e| := by
          rw [abs_of_nonpos (by linarith), abs_of_nonpos (by linarith)]
          linarith
        exact ⟨(k1'.trans_lt k3).le, fun _ heq => absurd heq (k1'.trans_lt k3).ne⟩
    split
    · next hc =>
      have hv : valueF32 (.fin (2^23) (e+1)) = some ((m:ℚ) * 2 ^ e) := by
        rw [value_fin, hc, zpow_add₀ (by norm_num)]
        congr 1
        push_cast
        ring
      refine ⟨⟨_, rfl, 2^23, e+1, by norm_num, rfl⟩, ?_, ?_⟩
      · intro v w hv' hw
        cases hv.symm.trans hv'
        exact (near w hw).1
      · intro v w hv' hw hne heq
        cases hv.symm.trans hv'
        exact ⟨2^23, e+1, le_rfl, by norm_num, by norm_num, Option.some.inj (hv.symm.trans (value_fin _ _))⟩
    · next hc =>
      have hlt : m < 2^24 := by omega
      refine ⟨⟨_, rfl, m, e, hlt, rfl⟩, ?_, ?_⟩
      · intro v w hv' hw
        cases hv'
        exact (near w hw).1
      · intro v w hv' hw hne heq
        cases hv'
        exact ⟨m, e, hb'.1, hlt, (near w hw).2 hne heq, rfl⟩

/-- Numbers with 24 digits stay as they are. -/
theorem rounded_exact {q : ℚ} {x : F32} (h : Rounded q x) (hq : Single q) : valueF32 x = some q := by
  obtain ⟨v, hv, _⟩ := h.single
  have := h.nearest v q hv hq
  rw [sub_self, abs_zero] at this
  rw [hv, show v = q by linarith [abs_eq_zero.1 (le_antisymm this (abs_nonneg _))]]

/-- Of two numbers the lower one can only be nearer if the number is not above their mean. -/
theorem mean_le {q v v' : ℚ} (hc : v' < v) (h : |v - q| ≤ |v' - q|) : v + v' ≤ 2 * q := by
  rcases abs_cases (v - q) with h1 | h1 <;> rcases abs_cases (v' - q) with h2 | h2 <;> linarith

theorem le_mean {q v v' : ℚ} (hc : v' < v) (h : |v' - q| ≤ |v - q|) : 2 * q ≤ v + v' := by
  rcases abs_cases (v - q) with h1 | h1 <;> rcases abs_cases (v' - q) with h2 | h2 <;> linarith

theorem rounded_lt {q q' v v' : ℚ} {x x' : F32} (h : Rounded q x) (h' : Rounded q' x') (hq : q < q')
    (hv : valueF32 x = some v) (hv' : valueF32 x' = some v') : v ≤ v' := by
  obtain ⟨w, hw, hs⟩ := h.single
  cases hv.symm.trans hw
  obtain ⟨w', hw', hs'⟩ := h'.single
  cases hv'.symm.trans hw'
  by_contra hc
  have hc := not_le.1 hc
  have e1 := mean_le hc (h.nearest v v' hv hs')
  have e2 := le_mean hc (h'.nearest v' v hv' hs)
  linarith

theorem digits_lt {m m' : ℕ} {e e' : ℤ} (hm' : m' < 2 ^ 24) (hm : 2 ^ 23 ≤ m)
    (h : (m:ℚ) * 2 ^ e ≤ m' * 2 ^ e') : e ≤ e' := by
  by_contra hc
  have h1 : (m':ℚ) < 2 ^ 24 := by exact_mod_cast hm'
  have h2 : (2:ℚ) ^ 23 ≤ m := by exact_mod_cast hm
  have h3 : (2:ℚ) ^ e' ≤ 2 ^ (e - 1) := zpow_le_zpow_right₀ (by norm_num) (by omega)
  have h4 : (2:ℚ) ^ e = 2 * 2 ^ (e - 1) := by
    rw [← zpow_one_add₀ (by norm_num)]; congr 1; ring
  have : (m':ℚ) * 2 ^ e' < m * 2 ^ e := by
    calc (m':ℚ) * 2 ^ e' < 2 ^ 24 * 2 ^ e' := mul_lt_mul_of_pos_right h1 (two_zpow_pos _)
      _ ≤ 2 ^ 24 * 2 ^ (e - 1) := mul_le_mul_of_nonneg_left h3 (by norm_num)
      _ = 2 ^ 23 * 2 ^ e := by rw [h4]; ring
      _ ≤ m * 2 ^ e := mul_le_mul_of_nonneg_right h2 (two_zpow_pos _).le
  linarith

/-- There is one rounded value. -/
theorem rounded_unique_le {q v v' : ℚ} {x x' : F32} (h : Rounded q x) (h' : Rounded q x')
    (hv : valueF32 x = some v) (hv' : valueF32 x' = some v') : v ≤ v' := by
  obtain ⟨w, hw, hs⟩ := h.single
  cases hv.symm.trans hw
  obtain ⟨w', hw', hs'⟩ := h'.single
  cases hv'.symm.trans hw'
  by_contra hc
  have hc := not_le.1 hc
  have heq := le_antisymm (h.nearest v v' hv hs') (h'.nearest v' v hv' hs)
  have e1 := mean_le hc heq.le
  have e2 := le_mean hc heq.ge
  obtain ⟨m, e, m1, m2, m3, hm⟩ := h.even v v' hv hs' hc.ne heq
  obtain ⟨n, i, n1, n2, n3, hn⟩ := h'.even v' v hv' hs hc.ne' heq.symm
  have hie : i ≤ e := digits_lt m2 n1 (by rw [← hm, ← hn]; exact hc.le)
  have hnext : Single (((n + 1 : ℕ) : ℚ) * 2 ^ i) := ⟨n + 1, i, by omega, rfl⟩
  obtain ⟨k, hk⟩ := Int.eq_ofNat_of_zero_le (show 0 ≤ e - i by omega)
  obtain rfl : e = i + k := by omega
  have hvk : v = ((m * 2 ^ k : ℕ) : ℚ) * 2 ^ i := by
    rw [hm, zpow_add₀ (by norm_num)]; push_cast; rw [zpow_natCast]; ring
  have hi := two_zpow_pos i
  have hlt : n < m * 2 ^ k := by
    rw [hvk, hn] at hc
    exact_mod_cast lt_of_mul_lt_mul_right hc hi.le
  rcases Nat.lt_or_ge (n + 1) (m * 2 ^ k) with h3 | h3
  · have c1 : ((n + 1 : ℕ) : ℚ) * 2 ^ i < v := by
      rw [hvk]; exact mul_lt_mul_of_pos_right (by exact_mod_cast h3) hi
    have c2 : v' < ((n + 1 : ℕ) : ℚ) * 2 ^ i := by
      rw [hn]; exact mul_lt_mul_of_pos_right (by exact_mod_cast Nat.lt_succ_self n) hi
    have := mean_le c1 (h.nearest v _ hv hnext)
    linarith
  · have h4 : m * 2 ^ k = n + 1 := by omega
    have : m * 2 ^ k % 2 = 0 := by rw [Nat.mul_mod, m3]; simp
    omega

theorem rounded_unique {q : ℚ} {x x' : F32} (h : Rounded q x) (h' : Rounded q x') : valueF32 x = valueF32 x' := by
  obtain ⟨v, hv, _⟩ := h.single
  obtain ⟨v', hv', _⟩ := h'.single
  rw [hv, hv', le_antisymm (rounded_unique_le h h' hv hv') (rounded_unique_le h' h hv' hv)]

theorem rounded_mono {q q' v v' : ℚ} {x x' : F32} (h : Rounded q x) (h' : Rounded q' x') (hq : q ≤ q')
    (hv : valueF32 x = some v) (hv' : valueF32 x' = some v') : v ≤ v' := by
  rcases hq.lt_or_eq with hlt | rfl
  · exact rounded_lt h h' hlt hv hv'
  · exact rounded_unique_le h h' hv hv'

theorem ofNat_rounded (n : ℕ) : Rounded n (F32.ofNat n) := by
  have := round_rounded n (b := 1) (by norm_num)
  simpa [F32.ofNat] using this

theorem single_natCast {n : ℕ} (h : n ≤ 2 ^ 24) : Single (n : ℚ) := by
  rcases h.lt_or_eq with h | rfl
  · exact ⟨n, 0, h, by simp⟩
  · exact ⟨2 ^ 23, 1, by norm_num, by norm_num⟩

theorem single_zpow (e : ℤ) : Single ((2:ℚ) ^ e) := ⟨1, e, by norm_num, by simp⟩

theorem ofNat_value (n : ℕ) : ∃ v, valueF32 (F32.ofNat n) = some v ∧ (n ≤ 2 ^ 24 → v = n) ∧ (n = 0 → v = 0) ∧
    (0 < n → 1 ≤ v) ∧ (n ≤ 2 ^ 64 → v ≤ 2 ^ 64) := by
  have h := ofNat_rounded n
  obtain ⟨v, hv, _⟩ := h.single
  have exact' : n ≤ 2 ^ 24 → v = n := fun hn => Option.some.inj (hv.symm.trans (rounded_exact h (single_natCast hn)))
  refine ⟨v, hv, exact', fun h0 => ?_, fun hn => ?_, fun hn => ?_⟩
  · rw [exact' (by omega), h0]; simp
  · have h1 := rounded_exact (ofNat_rounded 1) (single_natCast (by norm_num))
    have := rounded_mono (ofNat_rounded 1) h (by exact_mod_cast hn) h1 hv
    simpa using this
  · have h1 := rounded_exact (ofNat_rounded (2^64)) (by have := single_zpow 64; norm_cast at this ⊢)
    have := rounded_mono h (ofNat_rounded (2^64)) (by exact_mod_cast hn) hv h1
    exact_mod_cast this

theorem div_rounded {x y : F32} {v w : ℚ} (hx : valueF32 x = some v) (hy : valueF32 y = some w) (hw : w ≠ 0) :
    Rounded (v / w) (x.div y) := by
  match x, y with
  | .nan, _ => simp [valueF32] at hx
  | .inf, _ => simp [valueF32] at hx
  | .fin _ _, .nan => simp [valueF32] at hy
  | .fin _ _, .inf => simp [valueF32] at hy
  | .fin a i, .fin b j =>
    cases hx
    cases hy
    have hb : b ≠ 0 := by rintro rfl; simp at hw
    simp only [F32.div, hb, if_false]
    have h := round_rounded (a * 2 ^ (i - j).toNat) (b := b * 2 ^ (j - i).toNat) (by positivity)
    convert h using 1
    have hbq : (b:ℚ) ≠ 0 := by exact_mod_cast hb
    have hi := (two_zpow_pos i).ne'
    have hj := (two_zpow_pos j).ne'
    push_cast
    rcases le_total i j with hij | hij
    · obtain ⟨k, hk⟩ := Int.eq_ofNat_of_zero_le (show 0 ≤ j - i by omega)
      obtain rfl : j = i + k := by omega
      have e1 : (i - (i + (k:ℤ))).toNat = 0 := by omega
      have e2 : (i + (k:ℤ) - i).toNat = k := by omega
      rw [e1, e2, zpow_add₀ (by norm_num), zpow_natCast]
      field_simp
    · obtain ⟨k, hk⟩ := Int.eq_ofNat_of_zero_le (show 0 ≤ i - j by omega)
      obtain rfl : i = j + k := by omega
      have e1 : (j - (j + (k:ℤ))).toNat = 0 := by omega
      have e2 : (j + (k:ℤ) - j).toNat = k := by omega
      rw [e1, e2, zpow_add₀ (by norm_num), zpow_natCast]
      field_simp

theorem ofNat_zero : F32.ofNat 0 = F32.zero := by simp [F32.ofNat, F32.round]

theorem round_digits {a b m : ℕ} {e : ℤ} (hb : 0 < b) (h : F32.round a b = .fin m e) (ha : a ≠ 0) :
    2 ^ 23 ≤ m ∧ m < 2 ^ 24 := by
  unfold F32.round at h
  rw [if_neg ha] at h
  simp only at h
  obtain ⟨h1, h2⟩ := exponent_spec (Nat.pos_of_ne_zero ha) hb
  have he := two_zpow_pos (F32.exponent a b)
  have hp := scaled_pos (a := a) hb (F32.exponent a b)
  have hdq : (0:ℚ) < (F32.scaled a b (F32.exponent a b)).2 := by exact_mod_cast hp
  rw [← scaled_value hb (F32.exponent a b)] at h1 h2
  have g1 := le_of_mul_le_mul_right h1 he
  have g2 := lt_of_mul_lt_mul_right h2 he.le
  rw [le_div_iff₀ hdq] at g1
  rw [div_lt_iff₀ hdq] at g2
  have hb' := nearestNat_between _ _ hp (l := 2^23) (u := 2^24) (by exact_mod_cast g1) (by exact_mod_cast g2)
  split at h
  · cases h; norm_num
  · next hc => cases h; omega

theorem div_digits {x y : F32} {v w : ℚ} {m : ℕ} {e : ℤ} (hv : valueF32 x = some v) (hw : valueF32 y = some w) (h1 : v ≠ 0)
    (h2 : w ≠ 0) (h : x.div y = .fin m e) : 2 ^ 23 ≤ m ∧ m < 2 ^ 24 := by
  match x, y with
  | .nan, _ => simp [valueF32] at hv
  | .inf, _ => simp [valueF32] at hv
  | .fin _ _, .nan => simp [valueF32] at hw
  | .fin _ _, .inf => simp [valueF32] at hw
  | .fin a i, .fin b j =>
    cases hv
    cases hw
    have ha : a ≠ 0 := by rintro rfl; simp at h1
    have hb : b ≠ 0 := by rintro rfl; simp at h2
    simp only [F32.div, if_neg hb] at h
    exact round_digits (by positivity) h (by positivity)

end Verif.RatioLemmas
