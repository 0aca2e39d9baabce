import Verif.Lemmas.Shown
import Verif.Props.Format
import Verif.Props.Options
/-
Property theorem C94: exactly when a call of `format`, /repo/crates/localiser/src/formatter.rs:190-578, gives a text; and what
follows for numbers (C79) and categories (C21).
-/
namespace Verif.Props
open Verif Verif.Spec Verif.FormatLemmas

variable {D F : Type}

/-- **C94.** Whatever was formatted before, a call gives a text exactly if every item that it reaches can be shown. -/
theorem C94_text_exactly (E : FmtEnv D F) {s tag lang : Str} {d : Doc} {f : Formatter} (hd : Reads E s d)
    (hf : Formatter.tryNew E s tag (some lang) = .ok f) (history : List (AMap Str (PValue D F)))
    (hh : Ended E lang d history) (values : AMap Str (PValue D F)) :
    (∃ t, ((after E f history).format E values).1 = .ok (t, tag)) ↔
      ∀ it, Reached E lang values d it → Shown E lang values it := by
  rw [← eval_ok_iff (accepted_ok hd hf) (d.storeAfter E lang history)]
  obtain ⟨h1, h2⟩ := C48_format_gives_the_meaning E hd hf history hh values
  cases hy : (d.eval E lang values (d.storeAfter E lang history)).1 with
  | none =>
    rw [(h2 hy).1]
    constructor
    · rintro ⟨t, h⟩; cases h
    · rintro ⟨t, h⟩; cases h
  | some o =>
    have h := h1 o hy
    cases o with
    | ok t =>
      refine ⟨fun _ => ⟨t, rfl⟩, fun _ => ⟨t, ?_⟩⟩
      cases hx : ((after E f history).format E values).1 with
      | ok x => rw [hx] at h; simp only [forget, Outcome.mapErr, tagged] at h; cases h; rfl
      | err e => rw [hx] at h; cases h
      | panic => rw [hx] at h; cases h
    | err e =>
      constructor
      · rintro ⟨t, hx⟩; rw [hx] at h; cases h
      · rintro ⟨t, hx⟩; cases hx
    | panic =>
      constructor
      · rintro ⟨t, hx⟩; rw [hx] at h; cases h
      · rintro ⟨t, hx⟩; cases hx

/-- **C94, histories.** What was formatted before does not decide whether there is a text. -/
theorem C94_history_does_not_matter (E : FmtEnv D F) {s tag lang : Str} {d : Doc} {f : Formatter} (hd : Reads E s d)
    (hf : Formatter.tryNew E s tag (some lang) = .ok f) (history history' : List (AMap Str (PValue D F)))
    (hh : Ended E lang d history) (hh' : Ended E lang d history') (values : AMap Str (PValue D F)) :
    (∃ t, ((after E f history).format E values).1 = .ok (t, tag)) ↔
      ∃ t, ((after E f history').format E values).1 = .ok (t, tag) := by
  rw [C94_text_exactly E hd hf history hh values, C94_text_exactly E hd hf history' hh' values]

/-- Two documents of the same string with values for which the text exists or not. -/
example : (∀ it, Reached Demo.env "en".toList (Demo.vals [("n", .inr 1)]) Demo.dogsDoc it →
      Shown Demo.env "en".toList (Demo.vals [("n", .inr 1)]) it) ∧
    ¬ (∀ it, Reached Demo.env "en".toList (Demo.vals [("n", .inl "1")]) Demo.dogsDoc it →
      Shown Demo.env "en".toList (Demo.vals [("n", .inl "1")]) it) := by
  have hok : DocOk Demo.env Demo.dogsDoc := accepted_ok Demo.dogs_reads dogs_accepted.choose_spec
  rw [← eval_ok_iff hok Store.empty, ← eval_ok_iff hok Store.empty]
  constructor
  · exact ⟨"a dog".toList, by decide +kernel⟩
  · rintro ⟨t, h⟩
    have : (Demo.dogsDoc.eval Demo.env "en".toList (Demo.vals [("n", .inl "1")]) Store.empty).1 = some (.err ()) := by
      decide +kernel
    rw [this] at h
    cases h

/-! ### C79: exactly which values plural and ordinal patterns take -/

theorem isNumber_iff {X : Icu4x D F} {v : PValue D F} {n : D} : IsNumber X v n ↔ numberOf X v = some n := by
  constructor
  · intro h
    cases h with
    | fixedDecimal d => rfl
    | unsigned n => rfl
    | integer i => rfl
    | float f _ h => simp [numberOf, h, Except.toOption]
  · intro h
    cases v with
    | fixedDecimal d => cases h; exact .fixedDecimal _
    | unsigned n => cases h; exact .unsigned n
    | integer i => cases h; exact .integer i
    | float x =>
      cases hx : X.ofFloat x with
      | ok d =>
        simp only [numberOf, hx, Except.toOption, Option.some.injEq] at h
        subst h
        exact .float x d hx
      | error e => simp [numberOf, hx, Except.toOption] at h
    | _ => cases h

/-- **C79, exactly.** If everything else that is reached can be shown, the data of ICU are there and all categories of the language
are listed, a reached plural pattern lets a text result exactly if its value is a number of any type, and an ordinal pattern exactly if
its value is of the unsigned type. Missing: that the number must be a positive integer, and that positive integers of other
types are taken for ordinals; see `C79_violated`. -/
theorem C79_exactly_partial (E : FmtEnv D F) {s tag lang : Str} {d : Doc} {f : Formatter} (hd : Reads E s d)
    (hf : Formatter.tryNew E s tag (some lang) = .ok f) (history : List (AMap Str (PValue D F)))
    (hh : Ended E lang d history) (values : AMap Str (PValue D F)) {id k sels}
    (hr : Reached E lang values d (.pat id (some (k, sels))))
    (hothers : ∀ it, Reached E lang values d it → it ≠ .pat id (some (k, sels)) → Shown E lang values it)
    (hx : ∃ format, E.icu4x.decimal lang none = .ok format) :
    (k.str = "plural".toList → (∃ category, E.icu4x.cardinal lang = .ok category ∧
        ∀ n, categoryName (category n) ∈ sels.map fun s => s.1.str) →
      ((∃ t, ((after E f history).format E values).1 = .ok (t, tag)) ↔
        ∃ v n, values.get id.str = some v ∧ IsNumber E.icu4x v n)) ∧
    (k.str = "ordinal".toList → (∃ category, E.icu4x.ordinal lang = .ok category ∧
        ∀ n, categoryName (category n) ∈ sels.map fun s => s.1.str) →
      ((∃ t, ((after E f history).format E values).1 = .ok (t, tag)) ↔ ∃ n, values.get id.str = some (.unsigned n))) := by
  obtain ⟨k1, k2, k3, k4, k5, k6, k7, k8, k9, k10⟩ := kw_ne
  obtain ⟨format, hx⟩ := hx
  have key : (∃ t, ((after E f history).format E values).1 = .ok (t, tag)) ↔ Shown E lang values (.pat id (some (k, sels))) := by
    rw [C94_text_exactly E hd hf history hh values]
    refine ⟨fun h => h _ hr, fun h it hit => ?_⟩
    by_cases e : it = .pat id (some (k, sels))
    · rw [e]; exact h
    · exact hothers it hit e
  refine ⟨fun hk hc => ?_, fun hk hc => ?_⟩ <;> obtain ⟨category, hc, hall⟩ := hc <;> rw [key]
  · constructor
    · intro h
      cases h with
      | plural _ _ _ v n _ _ _ hv hn => exact ⟨v, n, hv, isNumber_iff.2 hn⟩
      | decimal _ _ _ _ _ h => exact absurd (hk.symm.trans h) k4
      | dateTime _ _ _ _ _ h => exact absurd (hk.symm.trans h) k5
      | ordinal _ _ _ _ _ _ _ h => exact absurd (hk.symm.trans h) k6
      | select _ _ _ _ _ h => exact absurd (h.symm.trans hk) k10
    · rintro ⟨v, n, hv, hn⟩
      exact .plural id k sels v n category format hk hv (isNumber_iff.1 hn) hc hx (hall _)
  · constructor
    · intro h
      cases h with
      | ordinal _ _ _ v n _ _ _ hv hn =>
        cases v with
        | unsigned m => exact ⟨m, hv⟩
        | _ => cases hn
      | decimal _ _ _ _ _ h => exact absurd (hk.symm.trans h) k2
      | dateTime _ _ _ _ _ h => exact absurd (hk.symm.trans h) k3
      | plural _ _ _ _ _ _ _ h => exact absurd (h.symm.trans hk) k6
      | select _ _ _ _ _ h => exact absurd (h.symm.trans hk) k9
    · rintro ⟨n, hv⟩
      exact .ordinal id k sels _ _ category format hk hv rfl hc hx (hall _)

/-- The text of `dogs` exists exactly for numbers. -/
example (values : AMap Str (PValue Nat Unit)) : ∃ f, Formatter.tryNew Demo.env Demo.dogs "en".toList (some "en".toList) = .ok f ∧
    ((∃ t, (f.format Demo.env values).1 = .ok (t, "en".toList)) ↔
      ∃ v n, values.get (Demo.lf 1).str = some v ∧ IsNumber Demo.icu4x v n) := by
  obtain ⟨f, hf⟩ := dogs_accepted
  refine ⟨f, hf, ?_⟩
  have hx : ∀ c : Bool, categoryName (if c then .one else .other) ∈
      [(Demo.lf 5, Demo.lf 7), (Demo.lf 9, Demo.lf 11)].map fun s => s.1.str := by decide +kernel
  refine (C79_exactly_partial Demo.env Demo.dogs_reads hf [] (by intro v hv; cases hv) values (id := Demo.lf 1)
    (k := Demo.lf 3) (sels := [(Demo.lf 5, Demo.lf 7), (Demo.lf 9, Demo.lf 11)]) (.main (by simp [Demo.dogsDoc])) ?_
    ⟨_, rfl⟩).1 (by decide +kernel) ⟨_, rfl, fun n => by simpa using hx (decide (n = 1))⟩
  intro it hit hne
  have hmem : it ∈ Demo.dogsDoc.items := by
    cases hit with
    | main h => exact List.mem_append_left _ h
    | named _ _ hn h => exact List.mem_append_right _ (List.mem_flatMap.2 ⟨_, hn, h⟩)
  cases it with
  | text toks => exact .text toks
  | number l => exact .number l
  | pat id k =>
    simp only [Doc.items, Demo.dogsDoc, Doc.named, Option.getD, List.flatMap_cons, List.flatMap_nil, List.mem_append,
      List.mem_cons, List.not_mem_nil, or_false, reduceCtorEq, or_self] at hmem
    exact absurd hmem hne
  | cmd parts =>
    simp [Doc.items, Demo.dogsDoc, Doc.named] at hmem

end Verif.Props
