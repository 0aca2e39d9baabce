import Verif.Lemmas.Caching
import Verif.Lemmas.Transparent
/-
What makes the localiser forget an entry.
-/
namespace Verif.LocaliserLemmas
open Verif Verif.Spec

variable {D F P S : Type} {L : LocEnv D F P}

/-- No string takes the place of the entries of the language, except one with the key. -/
theorem safe_of_not_evicts {v : Use} (h : ¬ Evicts L v.tag (cacheKey v.component v.identifier)) {c i tag s : Str} {fb : Bool}
    (hf : fetch L c i tag fb = .ok (s, v.tag)) : tag = v.tag ∨ cacheKey c i = cacheKey v.component v.identifier := by
  refine Classical.byContradiction fun hn => h ⟨c, i, tag, fb, s, ?_, fun h => hn (.inl h), fun h => hn (.inr h)⟩
  rw [← hf]
  exact fetch_found _ _ _ _ _

theorem returnString_spares {cache : Cache} {v : Use} (h : Cached cache v) (ca : Bool) {tag key s t : Str}
    (hs : t = v.tag → tag = v.tag ∨ key = cacheKey v.component v.identifier) :
    Cached (returnString (P := P) cache ca (AMap.get cache tag).isSome key s t).2 v := by
  unfold returnString addStringToCache
  cases ca with
  | false => exact h
  | true =>
    cases hg : AMap.get cache tag with
    | none =>
      simp only [Option.isSome_none, Bool.false_eq_true, not_false_eq_true, if_true]
      by_cases ht : t = v.tag
      · rcases hs ht with h1 | h1
        · obtain ⟨m, e, h2, _⟩ := h
          rw [h1, h2] at hg
          cases hg
        · subst ht h1
          exact ⟨_, .localised s v.tag, AMap.get_insert_self _ _ _, by simp [AMap.get]⟩
      · obtain ⟨m, e, h2, h3⟩ := h
        exact ⟨m, e, by rw [AMap.get_insert_ne _ _ ht, h2], h3⟩
    | some m0 =>
      simp only [Option.isSome_some, not_true, if_false, if_true]
      cases hg' : AMap.get cache t with
      | none => exact h
      | some m =>
        refine cached_insert h fun m' hm' k e he => ?_
        rw [hg'] at hm'
        cases hm'
        exact more_insert _ _ _ _ he

theorem literal_spares {v : Use} (hx : ¬ Evicts L v.tag (cacheKey v.component v.identifier)) (c i tag : Str) (fb ca : Bool) {cache : Cache}
    (h : Cached cache v) : Cached (actualLiteral L cache c i tag fb ca).2 v := by
  unfold actualLiteral
  simp only
  split
  · exact h
  · exact h
  · split
    · exact h
    · exact h
    · next s t hf =>
      refine returnString_spares h ca fun ht => ?_
      subst ht
      exact safe_of_not_evicts hx hf

theorem format_spares {v : Use} (hx : ¬ Evicts L v.tag (cacheKey v.component v.identifier)) (c i tag : Str) (fb ca : Bool) {cache : Cache}
    (values : AMap Str (PValue D F)) (h : Cached cache v) : Cached (actualFormat L cache c i values tag fb ca).2 v := by
  unfold actualFormat
  simp only
  split
  · exact h
  · next m f he =>
    cases hg : AMap.get cache tag with
    | none => rw [hg] at he; cases he
    | some m' =>
      have : m = m' := by
        rw [hg] at he
        simp only [Option.bind_some, Option.map_eq_some_iff, Prod.mk.injEq] at he
        obtain ⟨_, _, rfl, _⟩ := he
        rfl
      rw [this]
      exact formatCached_keeps hg _ _ h
  · split
    · exact h
    · exact h
    · next s t hf =>
      have hs : t = v.tag → tag = v.tag ∨ cacheKey c i = cacheKey v.component v.identifier := by
        intro ht
        subst ht
        exact safe_of_not_evicts hx hf
      split
      · exact returnString_spares h ca hs
      · split
        · exact returnString_spares h ca hs
        · exact h
        · exact h
        · split
          · exact h
          · exact cacheFormatter_keeps _ _ _ _ _ _ h

theorem call_spares (scriptOf : Str → S) {v : Use} (hx : ¬ Evicts L v.tag (cacheKey v.component v.identifier)) (l : Localiser S)
    (r : Request D F) (h : Cached l.cache v) : Cached (l.call L scriptOf r).2.cache v := by
  cases r with
  | format c i vs t fb ca => exact format_spares hx _ _ _ _ _ vs h
  | literal c i t fb ca => exact literal_spares hx _ _ _ _ _ h
  | data c i vs t fb ca =>
    exact data_inv (fun cache => Cached cache v) _ _ _ _ (fun u _ cache hc => literal_spares hx _ _ _ _ _ hc)
      (fun u _ cache vs hc => format_spares hx _ _ _ _ _ vs hc) c i vs (fun _ h => h) _ h
  | defaults t fb ca =>
    have : (l.setDefaults scriptOf t fb ca).cache = l.cache := by
      unfold Localiser.setDefaults
      cases t <;> cases fb <;> cases ca <;> rfl
    simp only [Localiser.call, this]
    exact h

theorem history_spares (scriptOf : Str → S) {v : Use} (hx : ¬ Evicts L v.tag (cacheKey v.component v.identifier)) :
    ∀ (calls : List (Request D F)) (l : Localiser S), Cached l.cache v → Cached (l.after L scriptOf calls).cache v
  | [], _, h => h
  | r :: rest, l, h => history_spares scriptOf hx rest _ (call_spares scriptOf hx l r h)

/-- A provider that finds nothing. -/
def nothingFound : Provider P where
  string _ _ _ := .ok none
  default _ := .ok []

theorem fetch_nothing (L : LocEnv D F P) (c i tag : Str) (fb : Bool) :
    fetch ({ L with provider := nothingFound } : LocEnv D F P) c i tag fb = .err (.stringNotFound c i tag fb) := by
  cases fb <;> rfl

theorem return_no_error (cache : Cache) (ca ex : Bool) (key s t : Str) (e : LocErr P) :
    (returnString (P := P) cache ca ex key s t).1 ≠ .err e := by
  unfold returnString
  split
  · split <;> exact fun h => nomatch h
  · exact fun h => nomatch h

theorem needs_literal (scriptOf : Str → S) {l : Localiser S} {c i tag s t : Str} {fb ca : Bool}
    (he : ((AMap.get l.cache tag).bind fun m => m.get (cacheKey c i)) = none) (hf : fetch L c i tag fb = .ok (s, t)) :
    ¬ NeedsNoProvider L scriptOf l (.literal c i (some tag) (some fb) (some ca)) := by
  intro h
  have := congrArg (·.1) (h nothingFound)
  simp only [Localiser.call, Option.getD_some, Option.some.injEq] at this
  unfold actualLiteral at this
  simp only [he, fetch_nothing, hf] at this
  exact return_no_error _ _ _ _ _ _ _ this.symm

theorem needs_format (scriptOf : Str → S) {l : Localiser S} {c i tag s t : Str} {fb ca : Bool} (values : AMap Str (PValue D F))
    (he : ((AMap.get l.cache tag).bind fun m => m.get (cacheKey c i)) = none) (hf : fetch L c i tag fb = .ok (s, t)) :
    ¬ NeedsNoProvider L scriptOf l (.format c i values (some tag) (some fb) (some ca)) := by
  intro h
  have := congrArg (·.1) (h nothingFound)
  simp only [Localiser.call, Option.getD_some, Option.some.injEq] at this
  have he' : ((AMap.get l.cache tag).bind fun m => (m.get (cacheKey c i)).map fun d => (m, d)) = none := by
    cases hg : AMap.get l.cache tag with
    | none => rfl
    | some m =>
      rw [hg] at he
      simp only [Option.bind_some] at he ⊢
      rw [he]
      rfl
  have fmt : ∀ (f : Formatter), (f.format L.fmt values).1.mapErr (LocErr.formatter (P := P)) ≠ .err (.stringNotFound c i tag fb) := by
    intro f
    cases (f.format L.fmt values).1 <;> exact fun h => nomatch h
  unfold actualFormat at this
  simp only [he', fetch_nothing, hf] at this
  split at this
  · exact return_no_error _ _ _ _ _ _ _ this.symm
  · split at this
    · exact return_no_error _ _ _ _ _ _ _ this.symm
    · cases this
    · cases this
    · next f _ =>
      split at this
      · exact fmt f this.symm
      · cases hg : AMap.get l.cache tag with
        | none =>
          simp [cacheFormatter, hg, AMap.get_insert_self, AMap.get, formatCached] at this
          exact fmt f this.symm
        | some m =>
          simp [cacheFormatter, hg, AMap.get_insert_self, formatCached] at this
          exact fmt f this.symm

/-- A string that is found under another language than the one asked for takes the place of the only entry. -/
theorem evict (scriptOf : Str → S) {l : Localiser S} {tag key : Str} {e : CacheData} (hl : l.cache = [(tag, [(key, e)])])
    (h : Evicts L tag key) :
    ∃ r, (l.call L scriptOf r).1 ≠ some .panic ∧ ((AMap.get (l.call L scriptOf r).2.cache tag).bind fun m => m.get key) = none := by
  obtain ⟨c, i, tag', fb, s, hf, ht, hk⟩ := h
  have hf := found_fetch hf
  refine ⟨.literal c i (some tag') (some fb) (some true), ?_⟩
  have hg : AMap.get l.cache tag' = none := by rw [hl]; simp [AMap.get_cons, Ne.symm ht, AMap.get_nil]
  simp only [Localiser.call, Option.getD_some]
  unfold actualLiteral
  simp only [hg, Option.bind_none, hf, returnString, addStringToCache, if_true, Option.isSome_none, Bool.false_eq_true,
    not_false_eq_true, AMap.get_insert_self, Option.bind_some]
  exact ⟨(fun h => nomatch h), by simp [AMap.get_cons, hk, AMap.get_nil]⟩

end Verif.LocaliserLemmas
