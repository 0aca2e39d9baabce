import Verif.Lemmas.Caching
import Verif.Props.Localiser
/-
Property theorems C89: strings that are cached are used again, without asking the provider.
-/
namespace Verif.Props
open Verif Verif.Spec Verif.LocaliserLemmas

variable {D F P S : Type}

/-! ### C89 -/

/-- A provider that has nothing. -/
def noStrings : Provider Unit where
  string _ _ _ := .ok none
  default _ := .ok "en".toList

/-- The answers to the calls, and then to the last call if the provider has lost all strings. -/
def withoutStrings (calls : List (Request Nat Unit)) (last : Request Nat Unit) : List (Option (Option Str)) :=
  let l := (Demo.start true).after (Demo.loc demoRows) (fun _ => ()) calls
  Demo.answers (Demo.loc demoRows) l [last] ++ Demo.answers { Demo.loc demoRows with provider := noStrings } l [last]

/-- **C89 is violated** in two ways; all requests are made with caching, and are answered.
1. A text that is found under another tag than the requested one is cached under a tag with which nobody looks for it: the
same request asks the provider again.
2. A text found under another tag than the requested one, which is requested for the first time, makes the localiser forget
everything else cached for the language of the text. -/
theorem C89_violated :
    withoutStrings [Demo.lit "c" "bye" "en-ZA"] (Demo.lit "c" "bye" "en-ZA") = [Demo.say "bye", some none] ∧
    withoutStrings [Demo.fmt "c" "hi" [("x", .inl "you")]] (Demo.fmt "c" "hi" [("x", .inl "you")]) =
      [Demo.say "hello you", Demo.say "hello you"] ∧
    withoutStrings [Demo.fmt "c" "hi" [("x", .inl "you")], Demo.lit "c" "bye" "en-ZA"] (Demo.fmt "c" "hi" [("x", .inl "you")]) =
      [Demo.say "hello you", some none] := by
  decide +kernel

/-- **C89.** If there are entries for all strings that a request needs, the provider is not needed: whatever it would say,
the answer and the new state are the same. -/
theorem C89_cached_needs_no_provider (L : LocEnv D F P) (scriptOf : Str → S) (l : Localiser S) (r : Request D F)
    (h : ∀ u ∈ requestUses l.tag l.fallback r, Cached l.cache u) : NeedsNoProvider L scriptOf l r := by
  intro provider
  cases r with
  | format c i vs t fb ca =>
    have := (format_alone (L := L) provider (h ⟨c, i, t.getD l.tag, fb.getD l.fallback, true⟩ (by simp [requestUses]))
      (ca.getD l.caching) vs).1
    simp only at this
    simp only [Localiser.call, this]
  | literal c i t fb ca =>
    have := (literal_alone (L := L) provider (h ⟨c, i, t.getD l.tag, fb.getD l.fallback, false⟩ (by simp [requestUses]))
      (ca.getD l.caching)).1
    simp only at this
    simp only [Localiser.call, this]
  | data c i vs t fb ca =>
    have := (data_alone (L := L) provider _ _ (ca.getD l.caching) _ c i vs (fun _ h => h) _ h).1
    simp only [Localiser.call, this]
  | defaults t fb ca => rfl

/-- **C89, what holds.** After a request with caching that was answered, and any others, a request for the same strings
needs no provider, if every string is found under the requested tag. Missing: strings found under other tags
(`C89_violated`). -/
theorem C89_not_fetched_again_partial (L : LocEnv D F P) (scriptOf : Str → S) (l : Localiser S) (r : Request D F)
    (calls : List (Request D F)) (hx : Exact L (callsUses l.tag l.fallback (r :: calls))) (hc : WithCaching l.caching r)
    {x : Str × Str} (h : (l.call L scriptOf r).1 = some (.ok x)) (r' : Request D F)
    (hr' : let l' := l.after L scriptOf (r :: calls)
      ∀ u ∈ requestUses l'.tag l'.fallback r', ∃ v ∈ requestUses l.tag l.fallback r,
        v.component = u.component ∧ v.identifier = u.identifier ∧ v.tag = u.tag) :
    NeedsNoProvider L scriptOf (l.after L scriptOf (r :: calls)) r' := by
  rw [call_defaults L scriptOf] at hx
  refine C89_cached_needs_no_provider L scriptOf _ r' fun u hu => ?_
  obtain ⟨v, hv, h1, h2, h3⟩ := hr' u hu
  have hcv := call_caches scriptOf l r (fun u hu => hx u (List.mem_append_left _ hu)) hc h v hv
  obtain ⟨m, e, h4, h5⟩ := history_keeps scriptOf calls (l.call L scriptOf r).2
    (fun u hu => hx u (List.mem_append_right _ hu)) hcv
  exact ⟨m, e, by rw [← h3]; exact h4, by rw [← h1, ← h2]; exact h5⟩

/-- **C89, exactly.** A string that is not cached, and is found, is cached for its next request exactly if it is found under
the requested tag or, for formatting, is a pattern string. -/
theorem C89_cached_exactly_partial (L : LocEnv D F P) (cache : Cache) (c i tag : Str) (fb : Bool)
    (values : AMap Str (PValue D F)) (hn : NotCached cache c i tag) {s t : Str}
    (hf : Found L.provider c i tag fb (.ok (s, t))) :
    (∀ x, (actualLiteral L cache c i tag fb true).1 = .ok x →
      (¬ NotCached (actualLiteral L cache c i tag fb true).2 c i tag ↔ t = tag)) ∧
    (∀ x, (actualFormat L cache c i values tag fb true).1 = .ok x →
      (¬ NotCached (actualFormat L cache c i values tag fb true).2 c i tag ↔
        t = tag ∨ s ≠ [] ∧ ∃ f, Formatter.tryNew L.fmt s t (L.icuLanguage t) = .ok f)) := by
  have hf : fetch L c i tag fb = .ok (s, t) := found_fetch hf
  have e1 : (AMap.get cache tag).bind (fun m => m.get (cacheKey c i)) = none := by
    cases hg : AMap.get cache tag with
    | none => rfl
    | some m => exact hn m hg
  have e2 : (AMap.get cache tag).bind (fun m => (m.get (cacheKey c i)).map fun d => (m, d)) = none := by
    cases hg : AMap.get cache tag with
    | none => rfl
    | some m => simp [hn m hg]
  have cached_not : ∀ {cache : Cache}, Cached cache ⟨c, i, tag, fb, true⟩ → ¬ NotCached cache c i tag := by
    rintro cache ⟨m, e, h1, h2⟩ h
    rw [h m h1] at h2
    cases h2
  have other : ∀ (m : AMap Str CacheData), t ≠ tag → NotCached (AMap.insert cache t m) c i tag := by
    intro m ht m' hm'
    rw [AMap.get_insert_ne _ _ ht] at hm'
    exact hn m' hm'
  have ret : ∀ x, (returnString (P := P) cache true (AMap.get cache tag).isSome (cacheKey c i) s t).1 = .ok x →
      (¬ NotCached (returnString (P := P) cache true (AMap.get cache tag).isSome (cacheKey c i) s t).2 c i tag ↔ t = tag) := by
    intro x hx
    constructor
    · intro h
      by_cases ht : t = tag
      · exact ht
      · refine absurd ?_ h
        unfold returnString addStringToCache
        cases hg : AMap.get cache tag with
        | none => exact other _ ht
        | some m =>
          cases hg' : AMap.get cache t with
          | none => simp [returnString, addStringToCache, hg, hg'] at hx
          | some m' => simpa [hg'] using other _ ht
    · rintro rfl
      exact cached_not (returnString_caches cache ⟨c, i, t, fb, true⟩ s)
  constructor
  · intro x
    unfold actualLiteral
    simp only [e1, hf]
    exact ret x
  · intro x
    unfold actualFormat
    simp only [e2, hf]
    by_cases hs : s = []
    · simp only [if_pos hs]
      intro h
      rw [ret x h]
      exact ⟨.inl, fun h => h.resolve_right fun h => h.1 hs⟩
    · simp only [if_neg hs]
      cases hn : Formatter.tryNew L.fmt s t (L.icuLanguage t) with
      | panic => intro h; cases h
      | err e =>
        cases e with
        | noGrammar =>
          intro h
          rw [ret x h]
          exact ⟨.inl, fun h => h.resolve_right fun ⟨_, f, hf⟩ => by cases hf⟩
        | _ => intro h; cases h
      | ok f =>
        intro _
        refine ⟨fun _ => .inr ⟨hs, f, rfl⟩, fun _ => ?_⟩
        exact cached_not (cacheFormatter_caches L.fmt cache ⟨c, i, tag, fb, true⟩ f values)

/-- The conditions are met: three strings, one of them nested in data, then others, and the data again. -/
example : NeedsNoProvider (Demo.loc demoRows) (fun _ => ())
    ((Demo.start true).after (Demo.loc demoRows) (fun _ => ())
      [.data "c".toList "hi".toList (some [("x".toList, .localisationData "c".toList "bye".toList none)]) none none none,
        Demo.lit "a" "b/c"])
    (.data "c".toList "hi".toList (some [("x".toList, .localisationData "c".toList "bye".toList none)]) none none none) := by
  have ha : ∃ x, ((Demo.start true).call (Demo.loc demoRows) (fun _ => ())
      (.data "c".toList "hi".toList (some [("x".toList, .localisationData "c".toList "bye".toList none)]) none none none)).1 =
      some (.ok x) := by
    have h : Demo.answers (Demo.loc demoRows) (Demo.start true)
        [.data "c".toList "hi".toList (some [("x".toList, .localisationData "c".toList "bye".toList none)]) none none none] =
        [Demo.say "hello bye"] := by decide +kernel
    simp only [Demo.answers, Demo.say, List.cons.injEq, and_true] at h
    split at h
    · next s t he => exact ⟨_, he⟩
    · cases h
    · cases h
    · cases h
  obtain ⟨x, ha⟩ := ha
  refine C89_not_fetched_again_partial (Demo.loc demoRows) (fun _ => ()) (Demo.start true) _ _ ?_
    (by simp [WithCaching, Demo.start]) ha _ fun u hu => ⟨u, hu, rfl, rfl, rfl⟩
  have h : ∀ u ∈ [("c", "bye"), ("c", "hi"), ("a", "b/c")], ∃ s,
      (Demo.provider demoRows).string u.1.toList u.2.toList "en".toList = .ok (some (s, "en".toList)) := by
    intro u hu
    simp only [List.mem_cons, List.not_mem_nil, or_false] at hu
    rcases hu with rfl | rfl | rfl <;> exact ⟨_, rfl⟩
  intro u hu s t hf
  have key : ∀ {c i : String}, (c, i) ∈ [("c", "bye"), ("c", "hi"), ("a", "b/c")] → ∀ fb,
      Found (Demo.provider demoRows) c.toList i.toList "en".toList fb (.ok (s, t)) → t = "en".toList := by
    intro c i hm fb hf
    obtain ⟨s', h'⟩ := h _ hm
    cases hf with
    | requested h => rw [h'] at h; cases h; rfl
    | default h => rw [h'] at h; cases h
  simp [callsUses, requestUses, dataUses, valueUses, Demo.lit, Demo.start] at hu
  rcases hu with rfl | rfl | rfl
  · exact key (c := "c") (i := "bye") (by simp) _ hf
  · exact key (c := "c") (i := "hi") (by simp) _ hf
  · exact key (c := "a") (i := "b/c") (by simp) _ hf

end Verif.Props
