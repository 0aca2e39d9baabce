import Verif.Spec.Values
import Verif.Spec.Format
import Verif.Lemmas.Iso
/-
The helpers of the formatter model show values as `Spec.Values` says.
-/
namespace Verif.FormatLemmas
open Verif Verif.Spec Verif.IsoLemmas

variable {D F : Type}

theorem pluralCategory_eq (c : PluralCategory) : pluralCategory c = categoryName c := by cases c <;> rfl

theorem mem_validPlurals (s : Str) : s ∈ validPlurals ↔ IsCategory s := by
  constructor
  · intro h
    simp only [validPlurals, List.mem_cons, List.not_mem_nil, or_false] at h
    rcases h with h | h | h | h | h | h
    · exact ⟨.zero, h⟩
    · exact ⟨.one, h⟩
    · exact ⟨.two, h⟩
    · exact ⟨.few, h⟩
    · exact ⟨.many, h⟩
    · exact ⟨.other, h⟩
  · rintro ⟨c, rfl⟩
    cases c <;> decide

theorem mainName_not_category : ¬ IsCategory mainName := by
  rintro ⟨c, h⟩
  cases c <;> revert h <;> decide

theorem toText_eq (v : PValue D F) : toText v = textOf v := by cases v <;> rfl

theorem commandValue_eq (values : AMap Str (PValue D F)) (s : Str) : commandValue values s = argument values s := by
  unfold commandValue argument
  cases values.get s <;> rfl

/-- The number the model uses and the number of the value. -/
def NumberIs (x : Option (FmtM D)) (y : Option D) : Prop :=
  match y with
  | some d => x = some (.ok d)
  | none => x = none ∨ ∃ e, x = some (.err e)

theorem toDecimal_is (X : Icu4x D F) (v : PValue D F) : NumberIs (toDecimal X v) (numberOf X v) := by
  cases v <;> simp only [numberOf, toDecimal, NumberIs, true_or]
  rename_i f
  cases X.ofFloat f with
  | ok d => simp [liftE, Except.toOption]
  | error e => simp [liftE, Except.toOption]

theorem toOrdinal_is (X : Icu4x D F) (v : PValue D F) : NumberIs (toOrdinal X v) (ordinalOf X v) := by
  cases v <;> simp [ordinalOf, toOrdinal, NumberIs]

theorem formatDecimal_eq (X : Icu4x D F) (lang : Str) (v : PValue D F) :
    forget (formatDecimal X lang none none v) = showDecimal X lang v := by
  unfold formatDecimal showDecimal
  have h := toDecimal_is X v
  generalize toDecimal X v = x at h
  cases X.decimal lang none with
  | error e => rfl
  | ok f =>
    cases hn : numberOf X v with
    | some d => rw [hn] at h; simp only [NumberIs] at h; subst h; rfl
    | none =>
      rw [hn] at h
      rcases h with rfl | ⟨e, rfl⟩ <;> rfl

theorem splitOn_ne_nil (c : Char) (s : Str) : splitOn c s ≠ [] := by
  induction s with
  | nil => simp [splitOn]
  | cons x xs ih =>
    simp only [splitOn]
    split
    · simp
    · split <;> simp

theorem splitOn_length (c : Char) (s : Str) : (splitOn c s).length = s.count c + 1 := by
  induction s with
  | nil => rfl
  | cons x xs ih =>
    simp only [splitOn]
    by_cases h : x = c
    · subst h; simp [ih]
    · simp only [h, if_false]
      have hne := splitOn_ne_nil c xs
      generalize splitOn c xs = l at ih hne ⊢
      cases l with
      | nil => exact absurd rfl hne
      | cons p ps => simpa [h] using ih

theorem splitOn_head (c : Char) (s : Str) : (splitOn c s).headD [] = s.takeWhile (· ≠ c) := by
  induction s with
  | nil => rfl
  | cons x xs ih =>
    simp only [splitOn]
    by_cases h : x = c
    · subst h; simp
    · have hne := splitOn_ne_nil c xs
      simp only [h, if_false]
      generalize splitOn c xs = l at ih hne ⊢
      cases l with
      | nil => exact absurd rfl hne
      | cons p ps => simpa [h] using ih

theorem splitOn_two (c : Char) (s a b : Str) (h : splitOn c s = [a, b]) :
    a = s.takeWhile (· ≠ c) ∧ b = s.drop (a.length + 1) ∧ s.count c = 1 := by
  refine ⟨by rw [← splitOn_head, h]; rfl, ?_, by have := splitOn_length c s; rw [h] at this; simpa using this.symm⟩
  have hl := splitOn_length c s
  rw [h] at hl
  have hm : c ∈ s := List.count_pos_iff.1 (by simp at hl; omega)
  obtain ⟨p, q, rfl, hp⟩ := List.eq_append_cons_of_mem hm
  rw [splitOn_append c p q hp] at h
  injection h with h1 h2
  subst h1
  by_cases hq : c ∈ q
  · obtain ⟨p', q', rfl, hp'⟩ := List.eq_append_cons_of_mem hq
    rw [splitOn_append c p' q' hp'] at h2
    injection h2 with _ h3
    exact absurd h3 (splitOn_ne_nil c q')
  · rw [splitOn_one c q hq] at h2
    injection h2 with h3
    subst h3
    simp

theorem splitOn_not_two (c : Char) (s : Str) (h : ∀ a b, splitOn c s ≠ [a, b]) : s.count c ≠ 1 := by
  intro hc
  have := splitOn_length c s
  rw [hc] at this
  generalize splitOn c s = l at h this
  match l, this with
  | [a, b], _ => exact h a b rfl

theorem formatDateTime_eq (X : Icu4x D F) (lang : Str) (v : PValue D F) :
    forget (formatDateTime X lang none none none v) = showDateTime X lang v := by
  cases v with
  | string s =>
    simp only [formatDateTime, showDateTime, Option.getD_none]
    split
    · rename_i a b hs
      obtain ⟨ha, hb, hc⟩ := splitOn_two 'T' s a b hs
      simp only [hc, if_true, ← ha, ← hb]
      by_cases he : a = []
      · subst he
        simp only [if_true, List.length_nil]
        cases decomposeIsoTime b with
        | error e => rfl
        | ok t => cases hx : X.time lang .medium <;> simp [liftIso, liftE, showMoment, hx, forget, Outcome.mapErr, ofOption, Except.toOption]
      · have he' : a.length ≠ 0 := by simpa using he
        simp only [he, he', if_false]
        cases decomposeIsoDate X.validDate a with
        | error e => cases decomposeIsoTime b <;> rfl
        | ok d =>
          cases decomposeIsoTime b with
          | error e => rfl
          | ok t =>
            cases hx : X.dateTime lang .medium .medium with
            | error e => simp [liftIso, liftE, showMoment, hx, forget, Outcome.mapErr, ofOption, Except.toOption]
            | ok f => cases hf : f d t <;> simp [liftIso, liftE, showMoment, hx, hf, forget, Outcome.mapErr, ofOption, Except.toOption]
    · rename_i hs
      have hc := splitOn_not_two 'T' s hs
      simp only [hc, if_false, splitOn_head]
      cases decomposeIsoDate X.validDate (s.takeWhile (· ≠ 'T')) with
      | error e => rfl
      | ok d =>
        cases hx : X.date lang .medium with
        | error e => simp [liftIso, liftE, showMoment, hx, forget, Outcome.mapErr, ofOption, Except.toOption]
        | ok f => cases hf : f d <;> simp [liftIso, liftE, showMoment, hx, hf, forget, Outcome.mapErr, ofOption, Except.toOption]
  | dateTime d t =>
    simp only [formatDateTime, showDateTime, Option.getD_none]
    cases hx : X.dateTime lang .medium .medium with
    | error e => simp [liftE, showMoment, hx, forget, Outcome.mapErr, ofOption, Except.toOption]
    | ok f => cases hf : f d t <;> simp [liftE, showMoment, hx, hf, forget, Outcome.mapErr, ofOption, Except.toOption]
  | date d =>
    simp only [formatDateTime, showDateTime, Option.getD_none]
    cases hx : X.date lang .medium with
    | error e => simp [liftE, showMoment, hx, forget, Outcome.mapErr, ofOption, Except.toOption]
    | ok f => cases hf : f d <;> simp [liftE, showMoment, hx, hf, forget, Outcome.mapErr, ofOption, Except.toOption]
  | time t =>
    simp only [formatDateTime, showDateTime, Option.getD_none]
    cases hx : X.time lang .medium <;> simp [liftE, showMoment, hx, forget, Outcome.mapErr, ofOption, Except.toOption]
  | _ => rfl

theorem ofOption_no_panic (x : Option Str) : ofOption x ≠ .panic := by cases x <;> simp [ofOption]

end Verif.FormatLemmas
