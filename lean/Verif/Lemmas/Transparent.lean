import Verif.Spec.Transparent
import Verif.Lemmas.LocaliserCache
/-
What the cache of a localiser holds after requests that do not panic.
-/
namespace Verif.LocaliserLemmas
open Verif Verif.Spec

variable {D F P S : Type} {L : LocEnv D F P}

/-- Every language of the cache has entries, and they are such as the cache can hold. -/
def Held (L : LocEnv D F P) (cache : Cache) : Prop :=
  ∀ tag m, AMap.get cache tag = some m → (∃ k e, m.get k = some e) ∧ ∀ k e, m.get k = some e → CanHold L tag k e

theorem Held.insert {cache : Cache} (h : Held L cache) {tag key : Str} {e : CacheData} (he : CanHold L tag key e) {m : AMap Str CacheData}
    (hm : ∀ k e, m.get k = some e → CanHold L tag k e) : Held L (cache.insert tag (m.insert key e)) := by
  intro t m' hg
  rw [AMap.get_insert] at hg
  by_cases ht : tag = t
  · subst ht
    simp only [if_true] at hg
    cases hg
    refine ⟨⟨key, e, AMap.get_insert_self _ _ _⟩, fun k e' hk => ?_⟩
    rw [AMap.get_insert] at hk
    by_cases hkk : key = k
    · subst hkk
      simp only [if_true] at hk
      cases hk
      exact he
    · simp only [hkk, if_false] at hk
      exact hm k e' hk
  · simp only [ht, if_false] at hg
    exact h t m' hg

theorem single_eq (key : Str) (e : CacheData) : ([(key, e)] : AMap Str CacheData) = AMap.insert [] key e := rfl

theorem Held.fresh {cache : Cache} (h : Held L cache) {tag key : Str} {e : CacheData} (he : CanHold L tag key e) :
    Held L (cache.insert tag [(key, e)]) := by
  rw [single_eq]
  exact h.insert he fun k e hk => by cases hk

theorem quiet_snoc {E : FmtEnv D F} (h : List (AMap Str (PValue D F))) : ∀ {f : Formatter} {v : AMap Str (PValue D F)},
    Quiet E f h → ((after E f h).format E v).1 ≠ .panic → Quiet E f (h ++ [v]) := by
  induction h with
  | nil => intro f v _ hv; exact ⟨hv, trivial⟩
  | cons w rest ih => intro f v hq hv; exact ⟨hq.1, ih hq.2 hv⟩

theorem returnString_held {cache : Cache} (h : Held L cache) {c i tag s t : Str} {fb : Bool} (hf : fetch L c i tag fb = .ok (s, t))
    (caching ex : Bool) : Held L (returnString (P := P) cache caching ex (cacheKey c i) s t).2 := by
  have he : CanHold L t (cacheKey c i) (.localised s t) := ⟨rfl, c, i, tag, fb, rfl, hf⟩
  unfold returnString addStringToCache
  cases caching with
  | false => exact h
  | true =>
    cases ex with
    | false => exact h.fresh he
    | true =>
      cases hg : AMap.get cache t with
      | none => simpa [hg] using h
      | some m => simpa [hg] using h.insert he (h t m hg).2

theorem literal_held {cache : Cache} (h : Held L cache) (c i tag : Str) (fb caching : Bool) :
    Held L (actualLiteral L cache c i tag fb caching).2 := by
  unfold actualLiteral
  dsimp only
  split
  · exact h
  · exact h
  · cases hf : fetch L c i tag fb with
    | err e => exact h
    | panic => exact h
    | ok r => exact returnString_held h hf _ _

theorem formatCached_held {cache : Cache} (h : Held L cache) {m : AMap Str CacheData} {tag key : Str} {f : Formatter}
    (hm : ∀ k e, m.get k = some e → CanHold L tag k e) {c i s t : Str} {fb : Bool} {new : Formatter} {history : List (AMap Str (PValue D F))}
    (hkey : key = cacheKey c i) (hf : fetch L c i tag fb = .ok (s, t)) (hs : s ≠ [])
    (hn : Formatter.tryNew L.fmt s t (L.icuLanguage t) = .ok new) (hq : Quiet L.fmt new history) (hfe : f = after L.fmt new history)
    (values : AMap Str (PValue D F)) :
    (formatCached (P := P) L.fmt cache m tag key f values).1 = .panic ∨
      Held L (formatCached (P := P) L.fmt cache m tag key f values).2 := by
  by_cases hp : (f.format L.fmt values).1 = .panic
  · exact .inl ((mapErr_panic _ _).2 hp)
  · refine .inr (h.insert ?_ hm)
    subst hfe
    show HoldsFormatter L tag key _
    have hq' := quiet_snoc history hq hp
    rw [← after_snoc]
    cases history with
    | nil => exact ⟨c, i, fb, s, t, new, values, [], hkey, hf, hs, hn, hq', rfl⟩
    | cons v rest => exact ⟨c, i, fb, s, t, new, v, rest ++ [values], hkey, hf, hs, hn, hq', rfl⟩

/-- The entry of a request. -/
theorem entry_some {cache : Cache} {tag key : Str} {m : AMap Str CacheData} {e : CacheData}
    (h : (AMap.get cache tag).bind (fun m => (m.get key).map fun d => (m, d)) = some (m, e)) :
    AMap.get cache tag = some m ∧ m.get key = some e := by
  cases hg : AMap.get cache tag with
  | none => rw [hg] at h; cases h
  | some m' =>
    rw [hg] at h
    simp only [Option.bind_some, Option.map_eq_some_iff] at h
    obtain ⟨d, h1, h2⟩ := h
    cases h2
    exact ⟨rfl, h1⟩

theorem entry_none {cache : Cache} {tag key : Str}
    (h : (AMap.get cache tag).bind (fun m => (m.get key).map fun d => (m, d)) = none) :
    ∀ m, AMap.get cache tag = some m → m.get key = none := by
  intro m hm
  rw [hm] at h
  simpa using h

/-- A new formatter that is cached and used. -/
theorem cacheFormatter_eq (E : FmtEnv D F) (cache : Cache) (tag key : Str) (f : Formatter) (values : AMap Str (PValue D F)) :
    ∃ (cache' : Cache) (m : AMap Str CacheData), cacheFormatter (P := P) E cache (AMap.get cache tag).isSome tag key f values = formatCached E cache' m tag key f values ∧
      cache' = cache.insert tag m ∧ ∃ m0, m = m0.insert key (.formatter f) ∧
        (AMap.get cache tag = some m0 ∨ AMap.get cache tag = none ∧ m0 = []) := by
  unfold cacheFormatter
  cases hg : AMap.get cache tag with
  | none =>
    refine ⟨_, [(key, .formatter f)], ?_, rfl, [], single_eq _ _, .inr ⟨rfl, rfl⟩⟩
    simp [AMap.get_insert_self, AMap.get_cons]
  | some m =>
    refine ⟨_, m.insert key (.formatter f), ?_, rfl, m, rfl, .inl rfl⟩
    simp [AMap.get_insert_self]

theorem format_held {cache : Cache} (h : Held L cache) (c i : Str) (values : AMap Str (PValue D F)) (tag : Str) (fb caching : Bool) :
    (actualFormat L cache c i values tag fb caching).1 = .panic ∨ Held L (actualFormat L cache c i values tag fb caching).2 := by
  unfold actualFormat
  dsimp only
  split
  · exact .inr h
  · rename_i m f hen
    obtain ⟨hm, hk⟩ := entry_some hen
    obtain ⟨c', i', fb', s, t, new, v, hist, h1, h2, h3, h4, h5, h6⟩ := (h tag m hm).2 _ _ hk
    exact formatCached_held h (h tag m hm).2 h1 h2 h3 h4 h5 h6 values
  · rename_i hen
    cases hf : fetch L c i tag fb with
    | err e => exact .inr h
    | panic => exact .inl rfl
    | ok r =>
      obtain ⟨s, t⟩ := r
      dsimp only
      by_cases hs : s = []
      · simp only [hs, if_true]
        subst hs
        exact .inr (returnString_held h hf _ _)
      · simp only [hs, if_false]
        split
        · exact .inr (returnString_held h hf _ _)
        · exact .inr h
        · exact .inl rfl
        · rename_i f hn
          cases caching with
          | false => exact .inr h
          | true =>
            simp only [not_true, if_false]
            obtain ⟨cache', m, he, hc, m0, hm, hm0⟩ := cacheFormatter_eq (P := P) L.fmt cache tag (cacheKey c i) f values
            rw [he]
            -- the formatter is in the cache only for the time of the call
            have hh : formatCached (P := P) L.fmt cache' m tag (cacheKey c i) f values =
                (((f.format L.fmt values).1.mapErr .formatter), cache'.insert tag (m.insert (cacheKey c i) (.formatter (f.format L.fmt values).2))) := rfl
            by_cases hp : (f.format L.fmt values).1 = .panic
            · exact .inl (by rw [hh]; exact (mapErr_panic _ _).2 hp)
            · refine .inr ?_
              rw [hh]
              have hhold : CanHold L tag (cacheKey c i) (.formatter (f.format L.fmt values).2) :=
                ⟨c, i, fb, s, t, f, values, [], rfl, hf, hs, hn, ⟨hp, trivial⟩, rfl⟩
              intro t' m' hg
              dsimp only at hg
              rw [hc] at hg
              simp only [AMap.get_insert] at hg
              by_cases ht : tag = t'
              · subst ht
                simp only [if_true] at hg
                cases hg
                refine ⟨⟨_, _, AMap.get_insert_self _ _ _⟩, fun k e hk => ?_⟩
                rw [AMap.get_insert] at hk
                by_cases hkk : cacheKey c i = k
                · subst hkk
                  simp only [if_true] at hk
                  cases hk
                  exact hhold
                · simp only [hkk, if_false] at hk
                  rw [hm, AMap.get_insert] at hk
                  simp only [hkk, if_false] at hk
                  rcases hm0 with hm0 | ⟨-, rfl⟩
                  · exact (h tag m0 hm0).2 k e hk
                  · cases hk
              · simp only [ht, if_false] at hg
                exact h t' m' hg

/-! ### Requests of all kinds -/

mutual
theorem data_held (tag : Str) (fb ca : Bool) (c i : Str) (values : Option (List (Str × PValue D F))) (cache : Cache) (h : Held L cache) :
    (actualData L tag fb ca c i values cache).1 = .panic ∨ Held L (actualData L tag fb ca c i values cache).2 := by
  match values with
  | none =>
    simp only [actualData]
    exact .inr (literal_held h c i tag fb ca)
  | some vs =>
    have hv := values_held tag fb ca vs [] cache h
    simp only [actualData]
    generalize resolveValues L tag fb ca vs [] cache = x at hv ⊢
    obtain ⟨x1, x2⟩ := x
    cases x1 with
    | ok m => exact format_held (hv.resolve_left fun h => nomatch h) c i m tag fb ca
    | err e => exact .inr (hv.resolve_left fun h => nomatch h)
    | panic => exact .inl rfl

theorem values_held (tag : Str) (fb ca : Bool) (values : List (Str × PValue D F)) (acc : AMap Str (PValue D F)) (cache : Cache)
    (h : Held L cache) :
    (resolveValues L tag fb ca values acc cache).1 = .panic ∨ Held L (resolveValues L tag fb ca values acc cache).2 := by
  match values with
  | [] => simp only [resolveValues]; exact .inr h
  | (name, .localisationData c i vs) :: rest =>
    have hd := data_held tag fb ca c i vs cache h
    simp only [resolveValues]
    generalize actualData L tag fb ca c i vs cache = x at hd ⊢
    obtain ⟨x1, x2⟩ := x
    cases x1 with
    | ok r =>
      obtain ⟨s, t⟩ := r
      exact values_held tag fb ca rest _ _ (hd.resolve_left fun h => nomatch h)
    | err e => exact .inr (hd.resolve_left fun h => nomatch h)
    | panic => exact .inl rfl
  | (name, .string _) :: rest => simp only [resolveValues]; exact values_held tag fb ca rest _ _ h
  | (name, .integer _) :: rest => simp only [resolveValues]; exact values_held tag fb ca rest _ _ h
  | (name, .unsigned _) :: rest => simp only [resolveValues]; exact values_held tag fb ca rest _ _ h
  | (name, .float _) :: rest => simp only [resolveValues]; exact values_held tag fb ca rest _ _ h
  | (name, .taggedString _ _) :: rest => simp only [resolveValues]; exact values_held tag fb ca rest _ _ h
  | (name, .localised _ _) :: rest => simp only [resolveValues]; exact values_held tag fb ca rest _ _ h
  | (name, .fixedDecimal _) :: rest => simp only [resolveValues]; exact values_held tag fb ca rest _ _ h
  | (name, .dateTime _ _) :: rest => simp only [resolveValues]; exact values_held tag fb ca rest _ _ h
  | (name, .date _) :: rest => simp only [resolveValues]; exact values_held tag fb ca rest _ _ h
  | (name, .time _) :: rest => simp only [resolveValues]; exact values_held tag fb ca rest _ _ h
end

theorem call_held (scriptOf : Str → S) (l : Localiser S) (h : Held L l.cache) (r : Request D F) :
    (l.call L scriptOf r).1 = some .panic ∨ Held L (l.call L scriptOf r).2.cache := by
  cases r with
  | format c i vs t fb ca => exact (format_held h c i vs _ _ _).imp (congrArg some) id
  | literal c i t fb ca => exact .inr (literal_held h c i _ _ _)
  | data c i vs t fb ca => exact (data_held _ _ _ c i vs _ h).imp (congrArg some) id
  | defaults t fb ca =>
    have : (l.setDefaults scriptOf t fb ca).cache = l.cache := by
      unfold Localiser.setDefaults
      cases t <;> cases fb <;> cases ca <;> rfl
    refine .inr ?_
    simp only [Localiser.call, this]
    exact h

theorem history_held (scriptOf : Str → S) : ∀ (calls : List (Request D F)) (l : Localiser S), Held L l.cache →
    NoPanic L scriptOf l calls → Held L (l.after L scriptOf calls).cache := by
  intro calls
  induction calls with
  | nil => intro l h _; exact h
  | cons r rest ih => intro l h hp; exact ih _ ((call_held scriptOf l h r).resolve_left hp.1) hp.2

/-! ### How entries get in the cache -/

/-- A string is asked for. -/
theorem hold_string (scriptOf : Str → S) (l : Localiser S) (hl : l.cache = []) {c i tag s t : Str} {fb : Bool}
    (hf : fetch L c i tag fb = .ok (s, t)) :
    l.call L scriptOf (.literal c i (some tag) (some fb) (some true)) =
      (some (.ok (s, t)), { l with cache := [(t, [(cacheKey c i, .localised s t)])] }) := by
  simp [Localiser.call, actualLiteral, hl, AMap.get_nil, hf, returnString, addStringToCache]
  rfl

/-- A pattern is formatted again. -/
theorem hold_again (scriptOf : Str → S) {c i tag : Str} (fb : Bool) (values : AMap Str (PValue D F)) (f : Formatter) (l : Localiser S)
    (hl : l.cache = [(tag, [(cacheKey c i, .formatter f)])]) :
    l.call L scriptOf (.format c i values (some tag) (some fb) (some true)) =
      (some ((f.format L.fmt values).1.mapErr .formatter),
        { l with cache := [(tag, [(cacheKey c i, .formatter (f.format L.fmt values).2)])] }) := by
  simp [Localiser.call, actualFormat, hl, AMap.get_cons, formatCached, AMap.insert]

theorem hold_history (scriptOf : Str → S) {c i tag : Str} (fb : Bool) (history : List (AMap Str (PValue D F))) : ∀ (f : Formatter)
    (l : Localiser S), l.cache = [(tag, [(cacheKey c i, .formatter f)])] → Quiet L.fmt f history →
    let calls := history.map fun v => Request.format c i v (some tag) (some fb) (some true)
    NoPanic L scriptOf l calls ∧
      l.after L scriptOf calls = { l with cache := [(tag, [(cacheKey c i, .formatter (after L.fmt f history))])] } := by
  induction history with
  | nil => intro f l hl _; exact ⟨trivial, by cases l; cases hl; rfl⟩
  | cons v rest ih =>
    intro f l hl hq
    have h1 := hold_again (L := L) scriptOf fb v f l hl
    obtain ⟨h2, h3⟩ := ih (f.format L.fmt v).2 { l with cache := [(tag, [(cacheKey c i, .formatter (f.format L.fmt v).2)])] } rfl hq.2
    refine ⟨⟨?_, ?_⟩, ?_⟩
    · rw [h1]
      intro h
      exact hq.1 ((mapErr_panic _ _).1 (Option.some.inj h))
    · rw [h1]; exact h2
    · show Localiser.after L scriptOf (l.call L scriptOf _).2 _ = _
      rw [h1]; exact h3

/-- A pattern is formatted for the first time. -/
theorem hold_first (scriptOf : Str → S) (l : Localiser S) (hl : l.cache = []) {c i tag s t : Str} {fb : Bool}
    (hf : fetch L c i tag fb = .ok (s, t)) (hs : s ≠ []) {f : Formatter}
    (hn : Formatter.tryNew L.fmt s t (L.icuLanguage t) = .ok f) (values : AMap Str (PValue D F)) :
    l.call L scriptOf (.format c i values (some tag) (some fb) (some true)) =
      (some ((f.format L.fmt values).1.mapErr .formatter),
        { l with cache := [(tag, [(cacheKey c i, .formatter (f.format L.fmt values).2)])] }) := by
  simp [Localiser.call, actualFormat, hl, AMap.get_nil, hf, hs, hn, cacheFormatter, AMap.get_cons, formatCached, AMap.insert]

/-- Everything that the cache can hold it holds after some requests, and nothing else. -/
theorem hold_reached (scriptOf : Str → S) (l : Localiser S) (hl : l.cache = []) {tag key : Str} {e : CacheData} (h : CanHold L tag key e) :
    ∃ calls, NoPanic L scriptOf l calls ∧ l.after L scriptOf calls = { l with cache := [(tag, [(key, e)])] } := by
  cases e with
  | localised s t =>
    obtain ⟨rfl, c, i, tag', fb, rfl, hf⟩ := h
    have := hold_string scriptOf l hl hf
    refine ⟨[.literal c i (some tag') (some fb) (some true)], ⟨?_, trivial⟩, ?_⟩
    · rw [this]; exact fun h => nomatch h
    · show (l.call L scriptOf _).2 = _
      rw [this]
  | formatter f =>
    obtain ⟨c, i, fb, s, t, new, v, history, rfl, hf, hs, hn, hq, rfl⟩ := h
    have h1 := hold_first scriptOf l hl hf hs hn v
    obtain ⟨h2, h3⟩ := hold_history (L := L) scriptOf (tag := tag) fb history (new.format L.fmt v).2
      { l with cache := [(tag, [(cacheKey c i, .formatter (new.format L.fmt v).2)])] } rfl hq.2
    refine ⟨.format c i v (some tag) (some fb) (some true) ::
      history.map fun v => Request.format c i v (some tag) (some fb) (some true), ⟨?_, ?_⟩, ?_⟩
    · rw [h1]
      intro h
      exact hq.1 ((mapErr_panic _ _).1 (Option.some.inj h))
    · rw [h1]; exact h2
    · show Localiser.after L scriptOf (l.call L scriptOf _).2 _ = _
      rw [h1]; exact h3

end Verif.LocaliserLemmas
