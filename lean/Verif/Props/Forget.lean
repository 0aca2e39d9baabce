import Verif.Lemmas.Forget
import Verif.Props.Caching
import Verif.Props.Contagion
import Verif.Props.Transparent
/-
Property theorems C89, over histories: exactly which strings the localiser can forget.
-/
namespace Verif.Props
open Verif Verif.Spec Verif.LocaliserLemmas

variable {D F P S : Type}

/-- **C89, strings.** A string that was requested as it is can be asked for again exactly if it was found under another language,
or some other string is found under its language when another is asked for. -/
theorem C89_literal_forgotten_iff (L : LocEnv D F P) (scriptOf : Str → S) (l : Localiser S) (hl : l.cache = []) (c i tag : Str)
    (fallback : Bool) {s t : Str} (hf : Found L.provider c i tag fallback (.ok (s, t))) :
    CanForget L scriptOf l (.literal c i (some tag) (some fallback) (some true)) ↔ t ≠ tag ∨ Evicts L tag (cacheKey c i) := by
  have hf := found_fetch hf
  have h1 := hold_string scriptOf l hl hf
  constructor
  · rintro ⟨calls, -, h⟩
    refine Classical.byContradiction fun hn => h ?_
    rw [not_or, Classical.not_not] at hn
    obtain ⟨rfl, hn⟩ := hn
    refine C89_cached_needs_no_provider L scriptOf _ _ fun u hu => ?_
    simp only [requestUses, Option.getD_some, List.mem_singleton] at hu
    subst hu
    refine history_spares scriptOf (v := ⟨c, i, t, fallback, false⟩) hn calls _ ?_
    dsimp only
    rw [h1]
    exact ⟨[(cacheKey c i, .localised s t)], _, by simp [AMap.get_cons], by simp [AMap.get_cons]; rfl⟩
  · intro h
    by_cases ht : t = tag
    · subst ht
      obtain ⟨r, h2, h3⟩ := evict (L := L) scriptOf (l := (l.call L scriptOf (.literal c i (some t) (some fallback) (some true))).2)
        (e := .localised s t) (by rw [h1]) (h.resolve_left fun h => h rfl)
      refine ⟨[r], ⟨by rw [h1]; exact (fun h => nomatch h), h2, trivial⟩, needs_literal scriptOf h3 hf⟩
    · refine ⟨[], ⟨by rw [h1]; exact (fun h => nomatch h), trivial⟩, needs_literal scriptOf ?_ hf⟩
      show ((AMap.get (l.call L scriptOf _).2.cache tag).bind _) = none
      rw [h1]
      simp [AMap.get_cons, ht, AMap.get_nil]

/-- **C89, patterns.** A string that was formatted can be asked for again exactly if it was found under another language and is no
pattern, or some other string is found under its language when another is asked for. -/
theorem C89_format_forgotten_iff (L : LocEnv D F P) (scriptOf : Str → S) (l : Localiser S) (hl : l.cache = []) (c i tag : Str)
    (values : AMap Str (PValue D F)) (fallback : Bool) {s t : Str} (hf : Found L.provider c i tag fallback (.ok (s, t))) {x : Str × Str}
    (hx : (l.call L scriptOf (.format c i values (some tag) (some fallback) (some true))).1 = some (.ok x)) :
    CanForget L scriptOf l (.format c i values (some tag) (some fallback) (some true)) ↔
      (t ≠ tag ∧ NotAPattern L s t) ∨ Evicts L tag (cacheKey c i) := by
  have hf := found_fetch hf
  have hstart : (l.call L scriptOf (.format c i values (some tag) (some fallback) (some true))).1 ≠ some .panic := by
    rw [hx]; exact fun h => nomatch h
  have hlang : ∃ lang e, (l.call L scriptOf (.format c i values (some tag) (some fallback) (some true))).2.cache =
      [(lang, [(cacheKey c i, e)])] ∧ (lang = tag ↔ ¬ (t ≠ tag ∧ NotAPattern L s t)) := by
    by_cases hp : NotAPattern L s t
    · refine ⟨t, .localised s t, ?_, ?_⟩
      · simp only [Localiser.call, Option.getD_some, hl]
        unfold actualFormat
        simp only [AMap.get_nil, Option.bind_none, hf]
        rcases hp with rfl | hp
        · simp [returnString, addStringToCache]; rfl
        · by_cases hs : s = []
          · subst hs; simp [returnString, addStringToCache]; rfl
          · simp [hs, hp, returnString, addStringToCache]; rfl
      · constructor
        · rintro rfl ⟨h, -⟩; exact h rfl
        · exact fun h => Classical.byContradiction fun ht => h ⟨ht, hp⟩
    · have hs : s ≠ [] := fun h => hp (.inl h)
      cases hn : Formatter.tryNew L.fmt s t (L.icuLanguage t) with
      | ok f =>
        rw [hold_first scriptOf l hl hf hs hn values]
        exact ⟨tag, _, rfl, fun _ h => hp h.2, fun _ => rfl⟩
      | err e =>
        simp only [Localiser.call, Option.getD_some, hl] at hx
        unfold actualFormat at hx
        simp only [AMap.get_nil, Option.bind_none, hf, hs, if_false, hn] at hx
        cases e <;> first | exact absurd (Or.inr hn) hp | cases hx
      | panic =>
        simp only [Localiser.call, Option.getD_some, hl] at hx
        unfold actualFormat at hx
        simp only [AMap.get_nil, Option.bind_none, hf, hs, if_false, hn] at hx
        cases hx
  obtain ⟨lang, e, h1, h2⟩ := hlang
  constructor
  · rintro ⟨calls, -, h⟩
    refine Classical.byContradiction fun hn => h ?_
    rw [not_or] at hn
    have hlt := h2.2 hn.1
    subst hlt
    refine C89_cached_needs_no_provider L scriptOf _ _ fun u hu => ?_
    simp only [requestUses, Option.getD_some, List.mem_singleton] at hu
    subst hu
    refine history_spares scriptOf (v := ⟨c, i, lang, fallback, true⟩) hn.2 calls _ ?_
    dsimp only
    rw [h1]
    exact ⟨[(cacheKey c i, e)], e, by simp [AMap.get_cons], by simp [AMap.get_cons]⟩
  · intro h
    by_cases hlt : lang = tag
    · subst hlt
      obtain ⟨r, h3, h4⟩ := evict (L := L) scriptOf h1 (h.resolve_left (h2.1 rfl))
      exact ⟨[r], ⟨hstart, h3, trivial⟩, needs_format scriptOf values h4 hf⟩
    · refine ⟨[], ⟨hstart, trivial⟩, needs_format scriptOf values ?_ hf⟩
      show ((AMap.get (l.call L scriptOf _).2.cache tag).bind _) = none
      rw [h1]
      simp [AMap.get_cons, hlt, AMap.get_nil]

/-! Examples: the second way of `C89_violated`; and strings that are not forgotten. -/

example : CanForget (Demo.loc demoRows) (fun _ => ()) (Demo.start true)
    (.literal "c".toList "hi".toList (some "en".toList) (some true) (some true)) :=
  (C89_literal_forgotten_iff _ _ _ rfl _ _ _ _ (.requested (r := ("hello {x}".toList, "en".toList)) rfl)).2
    (.inr ⟨"c".toList, "bye".toList, "en-ZA".toList, true, "bye".toList, .requested rfl, by decide, by decide⟩)

example : ¬ CanForget dogsLoc (fun _ => ()) (Demo.start true)
    (.literal "c".toList "dogs".toList (some "en".toList) (some true) (some true)) := by
  rw [C89_literal_forgotten_iff _ _ _ rfl _ _ _ _ (.requested (r := (Demo.dogs, "en".toList)) (by simp [dogsLoc]))]
  rintro (h | ⟨c, i, tag, fb, s, hf, ht, -⟩)
  · exact h rfl
  · exact ht (dogsLoc_fetch (found_fetch hf)).2.1.symm

end Verif.Props
