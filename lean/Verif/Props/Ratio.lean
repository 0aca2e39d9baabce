import Verif.Lemmas.Ratio
import Verif.Props.ProviderDetails

/-! # Properties of the ratios of the languages (C83) -/

namespace Verif.Props
open Verif Verif.Spec Verif.RatioLemmas Verif.ProviderLemmas DemoStore

variable {E : Type}

/-- The ratio of two counts: with strings in the default language and at most `2 ^ 24` strings it is the quotient, rounded
to the nearest number. What is missing: a default language without strings (`C83_violated`), and larger counts, which are
rounded before they are divided (for them `C83_default_is_one` and `C83_order`). -/
theorem C83_quotient_partial {n d : ℕ} (hd : 0 < d) (h1 : n ≤ 2 ^ 24) (h2 : d ≤ 2 ^ 24) :
    Rounded ((n : ℚ) / d) (ratio n d) := by
  obtain ⟨v, hv, e1, _⟩ := ofNat_value n
  obtain ⟨w, hw, e2, _⟩ := ofNat_value d
  have := div_rounded hv hw (by rw [e2 h2]; exact_mod_cast hd.ne')
  rw [e1 h1, e2 h2] at this
  exact this

/-- What "rounded" means leaves no choice. -/
theorem C83_one_value {q : ℚ} {x x' : F32} (h : Rounded q x) (h' : Rounded q x') : valueF32 x = valueF32 x' :=
  rounded_unique h h'

example : ratio 1 3 = .fin 11184811 (-25) ∧ ratio 2 3 = .fin 11184811 (-24) ∧ ratio 3 4 = .fin (3 * 2 ^ 22) (-24) := by
  decide +kernel

/-- The ratio is a number exactly if the default language has strings. -/
theorem C83_number_iff (n d : ℕ) : (∃ v, valueF32 (ratio n d) = some v) ↔ 0 < d := by
  obtain ⟨v, hv, _, _, _⟩ := ofNat_value n
  obtain ⟨w, hw, _, _, e2, _⟩ := ofNat_value d
  constructor
  · rintro ⟨x, hx⟩
    by_contra hc
    obtain rfl : d = 0 := by omega
    unfold ratio at hx
    rw [ofNat_zero] at hx
    revert hx
    cases h : F32.ofNat n with
    | nan => simp [F32.div, valueF32]
    | inf => simp [F32.div, F32.zero, valueF32]
    | fin a i =>
      simp only [F32.div, F32.zero, if_true]
      split <;> simp [valueF32]
  · intro hd
    obtain ⟨x, hx, _⟩ := (div_rounded hv hw (by linarith [e2 hd])).single
    exact ⟨x, hx⟩

/-- A default language with strings has the ratio 1, whatever the count. -/
theorem C83_default_is_one {d : ℕ} (hd : 0 < d) : valueF32 (ratio d d) = some 1 := by
  obtain ⟨w, hw, _, _, e2, _⟩ := ofNat_value d
  have hw0 : w ≠ 0 := by linarith [e2 hd]
  have := div_rounded hw hw hw0
  rw [div_self hw0] at this
  exact rounded_exact this (by simpa using single_zpow 0)

/-- A language without strings has the ratio 0. -/
theorem C83_none_is_zero {d : ℕ} (hd : 0 < d) : valueF32 (ratio 0 d) = some 0 := by
  obtain ⟨v, hv, _, e1, _⟩ := ofNat_value 0
  obtain ⟨w, hw, _, _, e2, _⟩ := ofNat_value d
  have := div_rounded hv hw (by linarith [e2 hd])
  rw [e1 rfl, zero_div] at this
  exact rounded_exact this ⟨0, 0, by norm_num, by simp⟩

/-- A language with more strings has no lower ratio, whatever the counts. -/
theorem C83_order {n n' d : ℕ} (hd : 0 < d) (h : n ≤ n') {v v' : ℚ} (hv : valueF32 (ratio n d) = some v)
    (hv' : valueF32 (ratio n' d) = some v') : v ≤ v' := by
  obtain ⟨x, hx, _⟩ := ofNat_value n
  obtain ⟨x', hx', _⟩ := ofNat_value n'
  obtain ⟨w, hw, _, _, e2, _⟩ := ofNat_value d
  have hw1 := e2 hd
  have hxx := rounded_mono (ofNat_rounded n) (ofNat_rounded n') (by exact_mod_cast h) hx hx'
  exact rounded_mono (div_rounded hx hw (by linarith)) (div_rounded hx' hw (by linarith))
    (div_le_div_of_nonneg_right hxx (by linarith)) hv hv'

/-- For counts of the type `usize` the ratio is a normal number of `f32`: the first of the 24 digits is not zero, and the
exponent is between -126 and 127 (here it counts from the last digit). -/
theorem C83_exponent {n d m : ℕ} {e : ℤ} (hd : 0 < d) (hn : 0 < n) (h1 : n < 2 ^ 64) (h2 : d < 2 ^ 64)
    (h : ratio n d = .fin m e) : 2 ^ 23 ≤ m ∧ m < 2 ^ 24 ∧ -126 ≤ e + 23 ∧ e + 23 ≤ 127 := by
  obtain ⟨v, hv, _, _, a1, a2⟩ := ofNat_value n
  obtain ⟨w, hw, _, _, b1, b2⟩ := ofNat_value d
  have a1 := a1 hn
  have b1 := b1 hd
  have a2 := a2 h1.le
  have b2 := b2 h2.le
  have hr := div_rounded hv hw (by linarith)
  have hval : valueF32 ((F32.ofNat n).div (F32.ofNat d)) = some ((m:ℚ) * 2 ^ e) := by
    rw [show (F32.ofNat n).div (F32.ofNat d) = .fin m e from h]; rfl
  have hdig := div_digits hv hw (by linarith) (by linarith) h
  have low : (2:ℚ) ^ (-64 : ℤ) ≤ m * 2 ^ e := by
    have hs := round_rounded 1 (b := 2 ^ 64) (by norm_num)
    have he := rounded_exact hs (by have := single_zpow (-64); norm_num at this ⊢; exact this)
    have := rounded_mono hs hr (by
      push_cast
      rw [div_le_div_iff₀ (by norm_num) (by linarith)]
      nlinarith) he hval
    norm_num at this ⊢
    exact this
  have up : (m:ℚ) * 2 ^ e ≤ 2 ^ (64 : ℤ) := by
    have hs := round_rounded (2 ^ 64) (b := 1) (by norm_num)
    have he := rounded_exact hs (by have := single_zpow 64; norm_num at this ⊢; exact this)
    have := rounded_mono hr hs (by
      push_cast
      rw [div_le_div_iff₀ (by linarith) (by norm_num)]
      nlinarith) hval he
    norm_num at this ⊢
    exact this
  have e1 : (2 ^ 23 : ℕ) * (2:ℚ) ^ (-87 : ℤ) ≤ m * 2 ^ e := by norm_num at low ⊢; exact low
  have e2 : (m : ℚ) * 2 ^ e ≤ (2 ^ 23 : ℕ) * (2:ℚ) ^ (41 : ℤ) := by norm_num at up ⊢; exact up
  have d1 := digits_lt hdig.2 le_rfl e1
  have d2 := digits_lt (by norm_num) hdig.1 e2
  exact ⟨hdig.1, hdig.2, by omega, by omega⟩

/-! ### In the details -/

/-- Every language of a component has the ratio of its count and the count of the default language, which is one of the
languages of the component. -/
theorem C83_component {canon : Str → Except E Str} {p : Sqlite} (hk : p.components.keys.Nodup) {st : Store}
    {details : AMap Str ComponentDetails} {repo : RepositoryDetails} (h : p.buildCache canon st = .ok (details, repo))
    {c : Str} {d : ComponentDetails} (hd : details.get c = some d) {t : Str} {data : LanguageData}
    (ht : d.languages.get t = some data) :
    ∃ default, d.languages.get d.default = some default ∧ d.ratio t = some (ratio data.count default.count) := by
  obtain ⟨_, _, hb⟩ := (buildCache_ok hk h).1.built _ (AMap.mem_of_get hd)
  obtain ⟨default, hg⟩ := (AMap.mem_keys_iff _ _).1 hb.default
  refine ⟨default, hg, ?_⟩
  simp [ComponentDetails.ratio, ht, hg]

/-- Every language of the repository has the ratio of its count and the count of the default language; without default
language, that is without a component `application`, it is 0. -/
theorem C83_repository {canon : Str → Except E Str} {p : Sqlite} (hk : p.components.keys.Nodup) {st : Store}
    {details : AMap Str ComponentDetails} {repo : RepositoryDetails} (h : p.buildCache canon st = .ok (details, repo))
    {t : Str} {data : LanguageData} (ht : repo.languages.get t = some data) :
    (repo.default = none ∧ repo.ratio t = some F32.zero) ∨
    ∃ tag default, repo.default = some tag ∧ repo.languages.get tag = some default ∧
      repo.ratio t = some (ratio data.count default.count) := by
  obtain ⟨h1, _⟩ := buildCache_ok hk h
  cases hdef : repo.default with
  | none => exact .inl ⟨rfl, by simp [RepositoryDetails.ratio, ht, hdef]⟩
  | some tag =>
    have hd := h1.default
    rw [hdef] at hd
    cases happ : details.get "application".toList with
    | none => rw [happ] at hd; cases hd
    | some d =>
      rw [happ] at hd
      obtain rfl : tag = d.default := Option.some.inj hd
      obtain ⟨_, _, hb⟩ := h1.built _ (AMap.mem_of_get happ)
      have := (h1.languages d.default).2 ⟨_, AMap.mem_of_get happ, hb.default⟩
      obtain ⟨default, hg⟩ := (AMap.mem_keys_iff _ _).1 this
      exact .inr ⟨_, default, rfl, hg, by simp [RepositoryDetails.ratio, ht, hdef, hg]⟩

/-- One string in `en`, the default, and three in `en-ZA`. -/
example :
    let st := twoFiles (tables [row en hello, row enZA howzit, row enZA hello, row enZA hello]
      [writer en "Ann".toList, writer enZA "Bob".toList]) (tables [] [])
    ∃ details repo d, (provider (true, false)).buildCache canonCase st = .ok (details, repo) ∧ details.get app = some d ∧
      d.ratio en = some (.fin (2 ^ 23) (-23)) ∧ d.ratio enZA = some (.fin (3 * 2 ^ 22) (-22)) ∧
      repo.ratio enZA = d.ratio enZA := by
  refine ⟨_, _, _, rfl, rfl, by decide +kernel, by decide +kernel, by decide +kernel⟩

/-- The default language has a contributor but no strings yet: its ratio is not a number, that of a language with strings is
infinite. -/
theorem C83_violated :
    let st := twoFiles (tables [row enZA howzit] [writer en "Ann".toList, writer enZA "Bob".toList]) (tables [] [])
    ∃ details repo d, (provider (true, false)).buildCache canonCase st = .ok (details, repo) ∧ details.get app = some d ∧
      d.default = en ∧ d.ratio en = some .nan ∧ d.ratio enZA = some .inf ∧
      repo.ratio en = some .nan ∧ repo.ratio enZA = some .inf := by
  refine ⟨_, _, _, rfl, rfl, by decide +kernel, by decide +kernel, by decide +kernel, by decide +kernel, by decide +kernel⟩

end Verif.Props
