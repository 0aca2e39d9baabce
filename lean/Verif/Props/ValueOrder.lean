import Verif.Lemmas.ValueErrors
import Verif.Props.LocaliserSync
/-
C62: localisation data are hash maps, nested in each other; their order of iteration is arbitrary.
-/
namespace Verif.Props
open Verif Verif.Spec LocaliserLemmas

variable {D F P S : Type}

/-- Without caching, the text of localisation data does not depend on the order of the values at any depth; in particular
there is a text in one order exactly if there is one in the other. What is missing: which error is returned
(`C62_error_depends_on_order`), and caching (`C62_violated`). -/
theorem C62_text_of_any_order_partial (L : LocEnv D F P) (tag : Str) (fb : Bool) {c i : Str} {vs vs' : List (Str × PValue D F)}
    (hn : (vs.map Prod.fst).Nodup) (h : SameValues vs vs') (x : Str × Str) :
    (actualData L tag fb false c i (some vs) []).1 = .ok x ↔ (actualData L tag fb false c i (some vs') []).1 = .ok x :=
  ⟨data_same L tag fb hn h, data_same L tag fb (((SameValues.names h).nodup_iff).1 hn) (SameValues.symm h)⟩

/-- Which error there may be instead, over all orders of the values at all depths: exactly those of the strings that can
spoil it. Some nested data fail, whatever the others do; or all nested data have texts, and the string fails with these. -/
theorem C62_possible_errors (L : LocEnv D F P) (tag : Str) (fb : Bool) {c i : Str} {vs : List (Str × PValue D F)}
    (hn : ∀ w, Inside vs w → (w.map Prod.fst).Nodup) {r : LocM P (Str × Str)} (hr : ∀ x, r ≠ .ok x) :
    (∃ vs', SameValues vs vs' ∧ (actualData L tag fb false c i (some vs') []).1 = r) ↔ MaySpoil L tag fb c i (some vs) r :=
  possible_failures hn hr

/-- With caching it holds after any history without panics, under the conditions of C29: the strings are `Tame`, and each is
found under the requested tag. -/
theorem C62_with_cache_partial (L : LocEnv D F P) (hco : Coherent L.provider) (scriptOf : Str → S)
    (l : Localiser S) (hl : l.cache = []) (calls : List (Request D F)) {c i : Str} {vs vs' : List (Str × PValue D F)}
    (tag : Option Str) (fb ca : Option Bool) (hn : (vs.map Prod.fst).Nodup) (h : SameValues vs vs')
    (ht : ∀ w ∈ [vs, vs'], Tame L (callsUses l.tag l.fallback (calls ++ [.data c i (some w) tag fb ca])) ∧
      Exact L (callsUses l.tag l.fallback (calls ++ [.data c i (some w) tag fb ca])))
    (hp : NoPanic L scriptOf l calls) (x : Str × Str) :
    let l' := l.after L scriptOf calls
    (l'.call L scriptOf (.data c i (some vs) tag fb ca)).1 = some (.ok x) ↔
      (l'.call L scriptOf (.data c i (some vs') tag fb ca)).1 = some (.ok x) := by
  intro l'
  have key : ∀ w ∈ [vs, vs'], (l'.call L scriptOf (.data c i (some w) tag fb ca)).1 =
      some (actualData L (tag.getD l'.tag) (fb.getD l'.fallback) false c i (some w) []).1 := by
    intro w hw
    obtain ⟨h1, h2⟩ := ht w hw
    exact (C29_answers_as_without_cache_partial L hco scriptOf l hl calls _ h1 hp).2 h2
  rw [key vs (by simp), key vs' (by simp), Option.some.injEq, Option.some.injEq]
  exact C62_text_of_any_order_partial L _ _ hn h x

/-- Values for an example: a nested string that has no values of its own, and a text. -/
def twoValues : List (Str × PValue Nat Unit) :=
  [("x".toList, .localisationData "c".toList "bye".toList none), ("y".toList, .string "!".toList)]

/-- The conditions are met. -/
example : (∀ w ∈ [twoValues, twoValues.reverse],
      Tame (Demo.loc demoFew) (callsUses "en".toList true
        ([Demo.lit "c" "bye"] ++ [.data "c".toList "hi".toList (some w) none none none])) ∧
      Exact (Demo.loc demoFew) (callsUses "en".toList true
        ([Demo.lit "c" "bye"] ++ [.data "c".toList "hi".toList (some w) none none none]))) ∧
    SameValues twoValues twoValues.reverse ∧
    Demo.answers (Demo.loc demoFew) (Demo.start true)
      [Demo.lit "c" "bye", .data "c".toList "hi".toList (some twoValues.reverse) none none none] =
        [Demo.say "bye", Demo.say "hello bye"] := by
  refine ⟨fun w hw => ?_, .swap _ _ _, by decide +kernel⟩
  have hkinds : ∀ uses : List Use, (∀ u ∈ uses, ∀ v ∈ uses, ¬ (u.component = v.component ∧ u.identifier = v.identifier ∧
      u.formatted = true ∧ v.formatted = false)) → (∀ u ∈ uses, '/' ∉ u.component) →
      (∀ u ∈ uses, u.tag = "en".toList ∧ u.fallback = true) → Tame (Demo.loc demoFew) uses ∧ Exact (Demo.loc demoFew) uses :=
    fun uses h1 h2 h3 => ⟨⟨h2, fun u hu v hv _ _ _ _ _ => by rw [(h3 u hu).2, (h3 v hv).2],
      fun u hu v hv a b c d => absurd ⟨a, b, c, d⟩ (h1 u hu v hv), fun _ _ _ tag s t h => demoFew_numbers tag s t h⟩,
      demoFew_exact fun u hu => (h3 u hu).1⟩
  simp only [List.mem_cons, List.not_mem_nil, or_false] at hw
  rcases hw with rfl | rfl
  · exact hkinds _ (by decide +kernel) (by decide +kernel) (by decide +kernel)
  · exact hkinds _ (by decide +kernel) (by decide +kernel) (by decide +kernel)

/-! ### Witnesses -/

namespace DemoOrder

/-- One string only in Italian, one only in English. -/
def rows : Demo.Rows :=
  Demo.rows [("c", "both", "it", "{a}{b}"), ("c", "here", "it", "qui"), ("c", "far", "en", "far"), ("c", "pair", "en", "{a}-{b}")]

def here : Str × PValue Nat Unit := ("a".toList, .localisationData "c".toList "here".toList none)
def far : Str × PValue Nat Unit := ("b".toList, .localisationData "c".toList "far".toList none)
def away (name : String) : Str × PValue Nat Unit := (name.toList, .localisationData "c".toList name.toList none)

/-- The text of localisation data of two values; `none` for a panic, `some none` for an error. -/
def both (caching : Bool) (x y : Str × PValue Nat Unit) : List (Option (Option Str)) :=
  Demo.answers (Demo.loc rows) (Demo.start caching)
    [.data "c".toList "both".toList (some [x, y]) (some "it".toList) (some true) none]

end DemoOrder

open DemoOrder

/-- **C62 is violated.** With caching, the order in which the hash map is walked decides whether there is a text or a
panic: if the Italian string is first the localiser panics at the English one (C30), if the English one is first all is
well. -/
theorem C62_violated : SameValues [far, here] [here, far] ∧ both true far here = [Demo.say "quifar"] ∧ both true here far = [none] ∧
    both false here far = [Demo.say "quifar"] :=
  ⟨.swap _ _ _, by decide +kernel, by decide +kernel, by decide +kernel⟩

/-- Without caching, the order decides which error is returned. -/
theorem C62_error_depends_on_order : ∃ vs vs' : List (Str × PValue Nat Unit), SameValues vs vs' ∧
    ∀ (w : List (Str × PValue Nat Unit)) (i : Str), (w = vs ∧ i = "x".toList) ∨ (w = vs' ∧ i = "y".toList) →
      (match (actualData (Demo.loc rows) "it".toList true false "c".toList "both".toList (some w) []).1 with
      | .err (.stringNotFound _ i _ _) => some i
      | _ => none) = some i := by
  refine ⟨[away "x", away "y"], [away "y", away "x"], .swap _ _ _, ?_⟩
  rintro w i (⟨rfl, rfl⟩ | ⟨rfl, rfl⟩) <;> decide +kernel

/-- Two strings that are not there: in some order each of the two errors is returned, and no other. -/
example (r : LocM Unit (Str × Str)) (hr : ∀ x, r ≠ .ok x) :
    (∃ vs', SameValues [away "x", away "y"] vs' ∧
      (actualData (Demo.loc rows) "it".toList true false "c".toList "both".toList (some vs') []).1 = r) ↔
    r = .err (.stringNotFound "c".toList "x".toList "it".toList true) ∨
    r = .err (.stringNotFound "c".toList "y".toList "it".toList true) := by
  rw [C62_possible_errors (Demo.loc rows) "it".toList true (vs := [away "x", away "y"]) _ hr]
  · constructor
    · intro h
      cases h with
      | nested hm hw =>
        simp only [away, List.mem_cons, Prod.mk.injEq, List.not_mem_nil, or_false] at hm
        rcases hm with ⟨_, hm⟩ | ⟨_, hm⟩
        all_goals
          cases hm
          cases hw with
          | literal hl => subst hl; first | exact .inl rfl | exact .inr rfl
      | itself ha _ =>
        cases ha with
        | cons h1 _ =>
          cases h1 with
          | nested h => 
            have : (actualData (Demo.loc rows) "it".toList true false "c".toList "x".toList none []).1 =
              .err (.stringNotFound "c".toList "x".toList "it".toList true) := by simp only [actualData]; rfl
            rw [this] at h; cases h
          | other h => exact absurd rfl (h _ _ _)
    · rintro (rfl | rfl)
      · exact .nested (w := none) (name := "x".toList) (c' := "c".toList) (i' := "x".toList) (by simp [away]) (.literal rfl)
      · exact .nested (w := none) (name := "y".toList) (c' := "c".toList) (i' := "y".toList) (by simp [away]) (.literal rfl)
  · intro w hw
    cases hw with
    | self => decide
    | deeper hm _ => simp [away] at hm

/-- Two levels, both in another order. -/
example : SameValues
    [("a".toList, .localisationData "c".toList "pair".toList (some [here, far])), ("b".toList, PValue.string "!".toList)]
    [("b".toList, PValue.string "!".toList), ("a".toList, .localisationData "c".toList "pair".toList (some [far, here]))] ∧
    both false ("a".toList, .localisationData "c".toList "pair".toList (some [here, far])) ("b".toList, PValue.string "!".toList) =
      [Demo.say "qui-far!"] :=
  ⟨.trans (.cons (.data (by decide) (.swap _ _ _)) (.cons (.same _) .nil)) (.swap _ _ _), by decide +kernel⟩

end Verif.Props
