import Verif.Lemmas.FormatPolicy
import Verif.Props.Shown
/-
Property theorems C18, C21 and C22 in terms of the items that a call reaches: /repo/crates/localiser/src/formatter.rs:190-578.
-/
namespace Verif.Props
open Verif Verif.Spec Verif.FormatLemmas

variable {D F : Type}

/-! ### The pattern string of the examples -/

theorem tale_accepted : ∃ f, Formatter.tryNew Demo.env Demo.tale "en".toList (some "en".toList) = .ok f := by
  have h : Demo.accepts (String.ofList Demo.tale) = true := by decide +kernel
  unfold Demo.accepts at h
  rw [String.toList_ofList] at h
  generalize Formatter.tryNew Demo.env Demo.tale "en".toList (some "en".toList) = x at h ⊢
  match x, h with
  | .ok f, _ => exact ⟨f, rfl⟩

theorem reached_mem {E : FmtEnv D F} {lang : Str} {values : AMap Str (PValue D F)} {d : Doc} {it : Item}
    (h : Reached E lang values d it) : it ∈ d.items := by
  simp only [Doc.items, List.mem_append, List.mem_flatMap]
  cases h with
  | main h => exact Or.inl h
  | named _ _ hn h => exact Or.inr ⟨_, hn, h⟩

/-- The patterns of the example. -/
theorem tale_item {id k sels} (hi : Item.pat id (some (k, sels)) ∈ Demo.taleDoc.items) :
    (id = Demo.la 1 ∧ k = Demo.la 3 ∧ sels = [(Demo.la 5, Demo.la 7), (Demo.la 9, Demo.la 11)]) ∨
    (id = Demo.la 14 ∧ k = Demo.la 16 ∧ sels = [(Demo.la 18, Demo.la 20)]) := by
  simp only [Doc.items, Demo.taleDoc, Doc.named, Option.getD, List.flatMap_cons, List.flatMap_nil, List.mem_append,
    List.mem_cons, List.not_mem_nil, or_false, reduceCtorEq, or_self, Item.pat.injEq, Option.some.injEq, Prod.mk.injEq] at hi
  exact hi

theorem tale_s : (Demo.la 1).str = "s".toList := by decide +kernel

theorem tale_n : (Demo.la 14).str = "n".toList := by decide +kernel

/-! ### C21 -/

/-- **C21, exactly.** Where the documented meaning, with the fallback to `other`, is the text `t`, a call gives `t`
exactly if every plural or ordinal pattern that it reaches lists the category of its value; `other` is never used in place
of a category that is not listed. -/
theorem C21_exactly_partial (E : FmtEnv D F) {s tag lang : Str} {d : Doc} {f : Formatter}
    (hd : Reads E s d) (hf : Formatter.tryNew E s tag (some lang) = .ok f) (values : AMap Str (PValue D F))
    (history : List (AMap Str (PValue D F))) (hh : Ended E lang d history) {t : Str}
    (ht : (d.evalP withFallback E lang values (d.storeAfter E lang history)).1 = some (.ok t)) :
    ((after E f history).format E values).1 = .ok (t, tag) ↔
      ∀ id k sels name, Reached E lang values d (.pat id (some (k, sels))) →
        k.str = "plural".toList ∨ k.str = "ordinal".toList →
        Selects E lang values (.pat id (some (k, sels))) name → name ∈ sels.map (·.1.str) := by
  constructor
  · intro h id k sels name hr _ hs
    refine Classical.byContradiction fun hn => ?_
    exact C21_missing_category_fails_partial E hd hf values history hh hr hs
      (fun c hc e => hn (List.mem_map.2 ⟨c, hc, e⟩)) _ h
  · intro hl
    have hfol : ∀ it, Reached E lang values d it → Follows withFallback E lang values it := by
      rintro it hr id k sels name rfl hs
      split
      · rfl
      · next hk =>
        have hm : name ∈ (pairs sels).map Prod.fst := by
          rw [pairs_fst]
          exact hl id k sels name hr (by cases hs with
            | plural h => exact Or.inl h
            | ordinal h => exact Or.inr h
            | select h => exact absurd h hk) hs
        simp only [withFallback, listed, if_pos hm]
    rw [← evalP_follows (accepted_ok hd hf) hfol] at ht
    have h := C23_number_sign_shows_selecting_number E hd hf history hh values _ ht
    cases hx : ((after E f history).format E values).1 with
    | ok x => rw [hx] at h; simp only [forget, Outcome.mapErr, tagged] at h; cases h; rfl
    | err e => rw [hx] at h; cases h
    | panic => rw [hx] at h; cases h

/-- For 2 the text is the documented one; for 1 the documented text would be `x1`, but the category `one` is not listed. -/
example : ∃ f, Formatter.tryNew Demo.env Demo.tale "en".toList (some "en".toList) = .ok f ∧
    (Demo.taleDoc.evalP withFallback Demo.env "en".toList (Demo.vals [("s", .inl "a"), ("n", .inr 1)]) Store.empty).1 =
      some (.ok "x1".toList) ∧
    (∀ r, (f.format Demo.env (Demo.vals [("s", .inl "a"), ("n", .inr 1)])).1 ≠ .ok r) ∧
    (f.format Demo.env (Demo.vals [("s", .inl "a"), ("n", .inr 2)])).1 = .ok ("x2".toList, "en".toList) := by
  obtain ⟨f, hf⟩ := tale_accepted
  have h0 : ∀ d, Ended Demo.env "en".toList d [] := fun _ v hv => by cases hv
  refine ⟨f, hf, by decide +kernel, fun r => ?_, ?_⟩
  · refine C21_missing_category_fails_partial (id := Demo.la 14) (k := Demo.la 16) (sels := [(Demo.la 18, Demo.la 20)])
      (name := "one".toList) Demo.env Demo.tale_reads hf _ [] (h0 _) (.main (by simp [Demo.taleDoc])) ?_ ?_ r
    · have := Selects.plural (E := Demo.env) (lang := "en".toList) (values := Demo.vals [("s", .inl "a"), ("n", .inr 1)])
        (id := Demo.la 14) (k := Demo.la 16) (sels := [(Demo.la 18, Demo.la 20)]) (v := .unsigned 1) (n := 1)
        (category := fun n => if n = 1 then .one else .other) (by decide +kernel) (by rw [tale_n]; rfl) rfl rfl
      exact this
    · intro c hc
      simp only [List.mem_singleton] at hc
      subst hc
      decide +kernel
  · refine (C21_exactly_partial Demo.env Demo.tale_reads hf _ [] (h0 _) (t := "x2".toList) (by decide +kernel)).2 ?_
    intro id k sels name hr hk hs
    rcases tale_item (reached_mem hr) with ⟨rfl, rfl, rfl⟩ | ⟨rfl, rfl, rfl⟩
    · exact absurd hk (by decide +kernel)
    · cases hs with
      | ordinal h => exact absurd h (by decide +kernel)
      | select h => exact absurd h (by decide +kernel)
      | @plural _ _ _ v n category _ hv hn hc =>
        have e : (Demo.vals [("s", .inl "a"), ("n", .inr 2)]).get (Demo.la 14).str = some (.unsigned 2) := by
          rw [tale_n]; rfl
        rw [e] at hv
        cases hv
        cases hn
        cases hc
        decide +kernel

/-! ### C18 -/

/-- **C18, what holds, by the items reached.** If in the patterns that a call reaches the selected category is listed
with a branch of its own name, the call gives the meaning in which the branch is formatted; what the other patterns and
the other categories list does not matter. -/
theorem C18_reached_partial (E : FmtEnv D F) {s tag lang : Str} {d : Doc} {f : Formatter}
    (hd : Reads E s d) (hf : Formatter.tryNew E s tag (some lang) = .ok f)
    (history : List (AMap Str (PValue D F))) (hh : Ended E lang d history) (values : AMap Str (PValue D F))
    (hb : ∀ id k sels name branch, Reached E lang values d (.pat id (some (k, sels))) →
      Selects E lang values (.pat id (some (k, sels))) name → branchOf (pairs sels) name = some branch → branch = name) :
    ∀ o, (d.evalP byBranch E lang values (d.storeAfter E lang history)).1 = some o →
      forget ((after E f history).format E values).1 = tagged o tag := by
  have hfol : ∀ it, Reached E lang values d it → Follows byBranch E lang values it := by
    rintro it hr id k sels name rfl hs
    have : branchOf (pairs sels) name = listed (pairs sels) name := by
      cases hx : branchOf (pairs sels) name with
      | some b =>
        have hb := hb id k sels name b hr hs hx
        subst hb
        unfold branchOf at hx
        cases hy : (pairs sels).find? (fun s => s.1 == b) with
        | none => rw [hy] at hx; cases hx
        | some c =>
          have hm := List.mem_of_find?_eq_some hy
          have he : c.1 = b := by simpa using List.find?_some hy
          unfold listed
          rw [if_pos (List.mem_map.2 ⟨c, hm, he⟩)]
      | none =>
        unfold branchOf at hx
        simp only [Option.map_eq_none_iff, List.find?_eq_none] at hx
        unfold listed
        rw [if_neg]
        intro hm
        obtain ⟨c, hc, e⟩ := List.mem_map.1 hm
        exact hx c hc (by simp [e])
    simp only [byBranch, this, ite_self]
  rw [← evalP_follows (accepted_ok hd hf) hfol]
  exact C23_number_sign_shows_selecting_number E hd hf history hh values

/-- A branch that is not named as its category, and values with which it does not matter. -/
example : ¬ BranchIsCategory Demo.taleDoc ∧
    ∃ f, Formatter.tryNew Demo.env Demo.tale "en".toList (some "en".toList) = .ok f ∧
      forget (f.format Demo.env (Demo.vals [("s", .inl "a"), ("n", .inr 2)])).1 = .ok ("x2".toList, "en".toList) := by
  constructor
  · intro h
    exact absurd (h (Demo.la 1) (Demo.la 3) _ (by simp [Demo.taleDoc, Doc.items]; exact Or.inl rfl) (Demo.la 9, Demo.la 11) (by simp))
      (by decide +kernel)
  · obtain ⟨f, hf⟩ := tale_accepted
    refine ⟨f, hf, C18_reached_partial Demo.env Demo.tale_reads hf [] (fun v hv => by cases hv) _ ?_ (.ok "x2".toList)
      (by decide +kernel)⟩
    intro id k sels name branch hr hs hb
    rcases tale_item (reached_mem hr) with ⟨rfl, rfl, rfl⟩ | ⟨rfl, rfl, rfl⟩
    · cases hs with
      | ordinal h => exact absurd h (by decide +kernel)
      | plural h => exact absurd h (by decide +kernel)
      | @select _ _ _ v s _ hv ht =>
        have e : (Demo.vals [("s", .inl "a"), ("n", .inr 2)]).get (Demo.la 1).str = some (.string "a".toList) := by
          rw [tale_s]; rfl
        rw [e] at hv
        cases hv
        cases ht
        have e : branchOf (pairs [(Demo.la 5, Demo.la 7), (Demo.la 9, Demo.la 11)]) "a".toList = some "a".toList := by
          decide +kernel
        rw [e] at hb
        exact (Option.some.inj hb).symm
    · cases hs with
      | ordinal h => exact absurd h (by decide +kernel)
      | select h => exact absurd h (by decide +kernel)
      | @plural _ _ _ v n category _ hv hn hc =>
        have e : (Demo.vals [("s", .inl "a"), ("n", .inr 2)]).get (Demo.la 14).str = some (.unsigned 2) := by
          rw [tale_n]; rfl
        rw [e] at hv
        cases hv
        cases hn
        cases hc
        have e : branchOf (pairs [(Demo.la 18, Demo.la 20)]) "other".toList = some "other".toList := by decide +kernel
        have hb : branchOf (pairs [(Demo.la 18, Demo.la 20)]) "other".toList = some branch := hb
        rw [e] at hb
        exact (Option.some.inj hb).symm

/-! ### C22 -/

/-- **C22, what holds, by the items reached.** Two histories give the same result (text or exact error) if they leave the
same numbers with the named strings that have number signs and are selected by a text in this call; nothing else of a
history matters. Missing: different numbers there, for which the claim is false. -/
theorem C22_only_strings_selected_by_text_partial (E : FmtEnv D F) {s tag lang : Str} {d : Doc} {f : Formatter}
    (hd : Reads E s d) (hf : Formatter.tryNew E s tag (some lang) = .ok f)
    (history history' : List (AMap Str (PValue D F))) (hh : Ended E lang d history) (hh' : Ended E lang d history')
    (values : AMap Str (PValue D F))
    (hs : ∀ name, ByTextWithNumbers E lang values d name →
      d.storeAfter E lang history name = d.storeAfter E lang history' name) :
    ((after E f history).format E values).1 = ((after E f history').format E values).1 := by
  have hok := accepted_ok hd hf
  have hnum : NoNumbers d.main := by
    obtain ⟨ts, _, h, _⟩ := hd
    exact sentence_numbers h
  obtain ⟨a1, a2⟩ := C48_format_gives_the_meaning E hd hf history hh values
  obtain ⟨b1, b2⟩ := C48_format_gives_the_meaning E hd hf history' hh' values
  have he := (evalP_same hok hnum hs).1
  rw [eval_lexical hok, eval_lexical hok] at he
  obtain ⟨rfl, rfl, owners, hr, hn⟩ := rep_of hd hf
  obtain ⟨_, ht, hl, hp, hsel, hn1⟩ := rep_after history f Store.empty hr hn hh
  obtain ⟨_, ht', hl', hp', hsel', hn1'⟩ := rep_after history' f Store.empty hr hn hh'
  refine format_sameEnd ⟨by rw [hl, hl'], by rw [hp, hp'], by rw [hsel, hsel']⟩ (by rw [hn1, hn1']; simp) values ?_
  cases hy : (d.eval E f.icuLanguage values (d.storeAfter E f.icuLanguage history)).1 with
  | none => rw [(a2 hy).1, (b2 (he ▸ hy)).1]
  | some o => rw [a1 o hy, b1 o (he ▸ hy)]

/-- A string with a number sign is selected by a text, and two histories of different lengths leave the same number
there. -/
example : ByTextWithNumbers Demo.env "en".toList (Demo.vals [("s", .inl "other"), ("n", .inr 2)]) Demo.taleDoc "other".toList ∧
    ∃ f, Formatter.tryNew Demo.env Demo.tale "en".toList (some "en".toList) = .ok f ∧
      ((after Demo.env f [Demo.vals [("s", .inl "a"), ("n", .inr 7)], Demo.vals [("s", .inl "a"), ("n", .inr 5)]]).format
        Demo.env (Demo.vals [("s", .inl "other"), ("n", .inr 2)])).1 =
      ((after Demo.env f [Demo.vals [("s", .inl "other"), ("n", .inr 5)]]).format
        Demo.env (Demo.vals [("s", .inl "other"), ("n", .inr 2)])).1 := by
  constructor
  · refine ⟨⟨Demo.la 1, Demo.la 3, [(Demo.la 5, Demo.la 7), (Demo.la 9, Demo.la 11)], .main (by simp [Demo.taleDoc]),
      by decide +kernel, .select (v := .string "other".toList) (by decide +kernel) (by rw [tale_s]; rfl) rfl⟩,
      ⟨Demo.la 30, [.number (Demo.la 32)]⟩, by simp [Demo.taleDoc, Doc.named], by decide +kernel, Demo.la 32, by simp⟩
  · obtain ⟨f, hf⟩ := tale_accepted
    refine ⟨f, hf, C22_only_strings_selected_by_text_partial Demo.env Demo.tale_reads hf _ _ (fun v hv => ?_) (fun v hv => ?_) _
      fun name hn => ?_⟩
    · simp only [List.mem_cons, List.not_mem_nil, or_false] at hv
      rcases hv with rfl | rfl <;> decide +kernel
    · simp only [List.mem_singleton] at hv
      subst hv
      decide +kernel
    · obtain ⟨_, n, hn, rfl, l, hl⟩ := hn
      simp only [Demo.taleDoc, Doc.named, Option.getD, List.mem_cons, List.not_mem_nil, or_false] at hn
      rcases hn with rfl | rfl | rfl
      · simp at hl
      · decide +kernel
      · simp at hl

end Verif.Props
