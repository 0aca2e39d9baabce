import Verif.Props.Localiser
/-
Property theorem C31, exactly: which strings share an entry of the cache, and what comes of it.
-/
namespace Verif.Props
open Verif Verif.LocaliserLemmas
open Verif.Spec

variable {D F P S : Type}

/-- The second component is the first one with more path, which the identifiers make up for. -/
def Deeper (c i c' i' : Str) : Prop := ∃ x, c' = c ++ '/' :: x ∧ i = x ++ '/' :: i'

/-- **C31, the keys exactly.** Two strings share a key if and only if they are one, or the component of one is that of the
other followed by a slash and more, which is what the identifier of the other begins with. -/
theorem C31_keys_exactly_partial (c i c' i' : Str) :
    cacheKey c i = cacheKey c' i' ↔ c = c' ∧ i = i' ∨ Deeper c i c' i' ∨ Deeper c' i' c i := by
  unfold cacheKey Deeper
  constructor
  · intro h
    rcases List.append_eq_append_iff.1 h with ⟨a, h1, h2⟩ | ⟨a, h1, h2⟩
    · cases a with
      | nil =>
        rw [List.append_nil] at h1
        exact .inl ⟨h1.symm, (List.cons.inj h2).2⟩
      | cons x a =>
        rw [List.cons_append] at h2
        obtain ⟨rfl, rfl⟩ := List.cons.inj h2
        exact .inr (.inl ⟨a, h1, rfl⟩)
    · cases a with
      | nil =>
        rw [List.append_nil] at h1
        exact .inl ⟨h1, (List.cons.inj h2).2.symm⟩
      | cons x a =>
        rw [List.cons_append] at h2
        obtain ⟨rfl, rfl⟩ := List.cons.inj h2
        exact .inr (.inr ⟨a, h1, rfl⟩)
  · rintro (⟨rfl, rfl⟩ | ⟨x, rfl, rfl⟩ | ⟨x, rfl, rfl⟩) <;> simp

/-- **C31, two requests exactly.** With caching, a string is asked for, and then another one with the same tag, both of
which the provider has under that tag. The second answer is the right one if and only if the two are equal or neither of
them is deeper than the other. -/
theorem C31_exactly_partial (L : LocEnv D F P) (scriptOf : Str → S) (l : Localiser S) (hl : l.cache = []) {c i c' i' tag s s' : Str}
    (h : L.provider.string c i tag = .ok (some (s, tag))) (h' : L.provider.string c' i' tag = .ok (some (s', tag)))
    (fb fb' ca : Option Bool) :
    ((l.call L scriptOf (.literal c i (some tag) fb (some true))).2.call L scriptOf
      (.literal c' i' (some tag) fb' ca)).1 = some (.ok (s', tag)) ↔ s = s' ∨ ¬ Deeper c i c' i' ∧ ¬ Deeper c' i' c i := by
  have e1 : (l.call L scriptOf (.literal c i (some tag) fb (some true))).2.cache =
      AMap.insert [] tag [(cacheKey c i, .localised s tag)] := by
    simp only [Localiser.call, actualLiteral, hl, fetch_of_string h, Option.getD_some, AMap.get, returnString,
      addStringToCache]
    rfl
  have hkey := C31_keys_exactly_partial c i c' i'
  generalize (l.call L scriptOf (.literal c i (some tag) fb (some true))).2 = l₁ at e1 ⊢
  by_cases hk : cacheKey c i = cacheKey c' i'
  · have e2 : (l₁.call L scriptOf (.literal c' i' (some tag) fb' ca)).1 = some (.ok (s, tag)) := by
      simp [Localiser.call, actualLiteral, e1, AMap.get_insert_self, AMap.get, hk]
    rw [e2]
    constructor
    · intro e
      cases e
      exact .inl rfl
    · rintro (rfl | ⟨h1, h2⟩)
      · rfl
      · rcases hkey.1 hk with ⟨rfl, rfl⟩ | h | h
        · rw [h] at h'
          cases h'
          rfl
        · exact absurd h h1
        · exact absurd h h2
  · have e2 : (l₁.call L scriptOf (.literal c' i' (some tag) fb' ca)).1 = some (.ok (s', tag)) := by
      have hm : AMap.get [(cacheKey c i, CacheData.localised s tag)] (cacheKey c' i') = none := by simp [AMap.get, hk]
      simp only [Localiser.call, actualLiteral, e1, AMap.get_insert_self, Option.bind_some, hm, fetch_of_string h',
        Option.getD_some, returnString, addStringToCache]
      cases ca.getD l₁.caching <;> simp
    rw [e2]
    simp only [true_iff]
    exact .inr ⟨fun h => hk (hkey.2 (.inr (.inl h))), fun h => hk (hkey.2 (.inr (.inr h)))⟩

/-- Three names for one key, and a fourth string that has another. -/
example : Deeper "a".toList "b/c".toList "a/b".toList "c".toList ∧
    cacheKey "a".toList "b/c".toList = cacheKey "a/b".toList "c".toList ∧
    ¬ Deeper "a".toList "b-c".toList "a/b".toList "c".toList := by
  refine ⟨⟨"b".toList, by decide, by decide⟩, by decide, ?_⟩
  rintro ⟨x, h1, h2⟩
  have : x = "b".toList := by
    have h1 : "a/b".toList = "a/".toList ++ x := h1
    exact (List.append_cancel_left (as := "a/".toList) h1).symm
  subst this
  exact absurd h2 (by decide)

/-- The conditions at work: strings that the provider has. -/
example : (Demo.loc demoRows).provider.string "a/b".toList "c".toList "en".toList = .ok (some ("one".toList, "en".toList)) ∧
    (Demo.loc demoRows).provider.string "a".toList "b/c".toList "en".toList = .ok (some ("two".toList, "en".toList)) := ⟨rfl, rfl⟩

end Verif.Props
