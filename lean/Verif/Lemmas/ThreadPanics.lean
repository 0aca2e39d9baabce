import Verif.Lemmas.Contagion
/-
Ways in which other threads make a request panic.
-/
namespace Verif.SyncLemmas
open Verif Verif.Spec Verif.Act Verif.LocaliserLemmas

variable {D F P S : Type} {L : LocEnv D F P}

/-- Only the other threads make steps. -/
theorem run_others {σ α : Type} (p : Act σ α) (schedule : List Nat) : ∀ (s : σ) (ts : List (Act σ α)),
    runThreads s (p :: ts) (schedule.map (· + 1)) = ((runThreads s ts schedule).1, p :: (runThreads s ts schedule).2) := by
  induction schedule with
  | nil => intro s ts; rfl
  | cons i rest ih =>
    intro s ts
    have : stepThread s (p :: ts) (i + 1) = ((stepThread s ts i).1, p :: (stepThread s ts i).2) := by
      unfold stepThread
      simp only [List.getElem?_cons_succ]
      cases ts[i]? <;> rfl
    simp only [List.map_cons, runThreads, this]
    exact ih _ _

/-- The first thread makes its steps after the others. -/
theorem reach_after {p : Act (Shared S) (List (Option (LocM P (Str × Str))))} {ts : List (Act (Shared S) (List (Option (LocM P (Str × Str)))))}
    {s : Shared S} {schedule : List Nat} (n : Nat) {q : Act (Shared S) (List (Option (LocM P (Str × Str))))}
    (h : (walk n ((runThreads s ts schedule).1, p)).2 = q) : ∃ schedule, (runThreads s (p :: ts) schedule).2[0]? = some q := by
  obtain ⟨sch, hs⟩ := Act.Reach.solo (i := 0) (p := p) ⟨schedule.map (· + 1), run_others p schedule s ts⟩ rfl (solo_walk n _ _)
  refine ⟨sch, ?_⟩
  rw [hs, h]
  rfl

/-- Options that are given. -/
theorem options_given {I : Shared S → Prop} {R : Shared S → Shared S → Prop} {rest : Str → Bool → Bool → Act (Shared S) α} {Q : α → Prop}
    (hb : Blind I R) (tag : Str) (fb ca : Bool) (h : ∀ s, (rest tag fb ca).Ok I R Q s) (s : Shared S) :
    (syncOptions (some tag) (some fb) (some ca) rest).Ok I R Q s := by
  unfold syncOptions
  refine Act.Ok.atomic_bind fun s _ hi => ⟨hi, hb.refl _, ?_⟩
  refine Act.Ok.atomic_bind fun s _ hi => ⟨hi, hb.refl _, ?_⟩
  refine Act.Ok.atomic_bind fun s _ hi => ⟨hi, hb.refl _, ?_⟩
  exact h _

/-- A request after the lock of the cache is poisoned. -/
theorem walk_poisoned (scriptOf : Str → S) {s : Shared S} (hp : s.poisoned = true) (c i tag : Str) (fb ca : Bool)
    (values : AMap Str (PValue D F)) :
    (walk 4 (s, syncThread L scriptOf [.literal c i (some tag) (some fb) (some ca)] [])).2 = .done [some .panic] ∧
    (walk 4 (s, syncThread L scriptOf [.format c i values (some tag) (some fb) (some ca)] [])).2 = .done [some .panic] := by
  constructor <;>
  simp only [walk, syncThread, syncCall, syncOptions, Act.read, Act.atomic, Act.bind, Act.advance, if_true, Option.getD_some,
    syncLiteral, syncFormat, hp, List.nil_append]

/-- A request after the lock of its formatter is poisoned. -/
theorem walk_broken (scriptOf : Str → S) {s : Shared S} (hp : s.poisoned = false) {c i tag : Str} {m : AMap Str CacheData} {f : Formatter}
    (hm : AMap.get s.cache tag = some m) (hk : m.get (cacheKey c i) = some (.formatter f))
    (hb : s.broken tag (cacheKey c i) = true) (fb ca : Bool) (values : AMap Str (PValue D F)) :
    (walk 4 (s, syncThread L scriptOf [.format c i values (some tag) (some fb) (some ca)] [])).2 = .done [some .panic] := by
  simp only [walk, syncThread, syncCall, syncOptions, Act.read, Act.atomic, Act.bind, Act.advance, if_true, Option.getD_some,
    syncFormat, hp, Bool.false_eq_true, if_false, hm, Option.bind_some, hk, Option.map_some, useFormatter, hb, List.nil_append]

/-- A request for a string whose preparation panics. -/
theorem walk_unprepared (scriptOf : Str → S) {s : Shared S} (hp : s.poisoned = false) (hc : s.cache = []) {c i tag x t : Str}
    {fb : Bool} (hf : fetch L c i tag fb = .ok (x, t)) (hx : x ≠ [])
    (hn : Formatter.tryNew L.fmt x t (L.icuLanguage t) = .panic) (ca : Bool) (values : AMap Str (PValue D F)) :
    (walk 4 (s, syncThread L scriptOf [.format c i values (some tag) (some fb) (some ca)] [])).2 = .done [some .panic] := by
  simp only [walk, syncThread, syncCall, syncOptions, Act.read, Act.atomic, Act.bind, Act.advance, if_true, Option.getD_some,
    syncFormat, hp, Bool.false_eq_true, if_false, hc, AMap.get_nil, Option.bind_none, syncFormatMiss, hf, hx, hn, List.nil_append]

/-- A thread that is about to put an entry in the cache, and takes the language for new. -/
theorem enter_later (scriptOf : Str → S) {tag key : Str} (h : CanEnter L tag key) (l : Localiser S) (hl : l.cache = []) :
    ∃ r q e, Act.Solo l.share (syncThread L scriptOf [r] []) l.share q ∧ ∀ s : Shared S, s.poisoned = false →
      (q.advance s).1 = { s with
        cache := s.cache.insert tag [(key, e)], broken := fun t k => if t = tag then false else s.broken t k } := by
  have hc : l.share.cache = [] := hl
  obtain ⟨c, i, tag', fb, x, t, rfl, hf, h⟩ := h
  rcases h with rfl | ⟨rfl, hx, f, hn⟩
  · refine ⟨.literal c i (some tag') (some fb) (some true), (walk 4 (l.share, syncThread L scriptOf [.literal c i (some tag') (some fb) (some true)] [])).2, .localised x t, ?_, ?_⟩
    · have := solo_walk 4 l.share (syncThread L scriptOf [.literal c i (some tag') (some fb) (some true)] [])
      refine cast (congrArg (fun s => Act.Solo l.share _ s _) ?_) this
      simp only [walk, syncThread, syncCall, syncOptions, Act.read, Act.atomic, Act.bind, Act.advance, if_true, Option.getD_some,
        syncLiteral, hc, AMap.get_nil, Option.bind_none]
      rfl
    · intro s hp
      have hnp : l.share.poisoned = false := rfl
      simp only [walk, syncThread, syncCall, syncOptions, Act.read, Act.atomic, Act.bind, Act.advance, if_true, Option.getD_some,
        syncLiteral, hnp, Bool.false_eq_true, if_false, hc, AMap.get_nil, Option.bind_none, hf, syncReturn, Option.isSome_none, storeStep,
        hp, store, not_false_eq_true]
  · refine ⟨.format c i [] (some tag') (some fb) (some true), (walk 4 (l.share, syncThread L scriptOf [.format c i [] (some tag') (some fb) (some true)] [])).2, .formatter f, ?_, ?_⟩
    · have := solo_walk 4 l.share (syncThread L scriptOf [.format c i [] (some tag') (some fb) (some true)] [])
      refine cast (congrArg (fun s => Act.Solo l.share _ s _) ?_) this
      simp only [walk, syncThread, syncCall, syncOptions, Act.read, Act.atomic, Act.bind, Act.advance, if_true, Option.getD_some,
        syncFormat, hc, AMap.get_nil, Option.bind_none]
      rfl
    · intro s hp
      have hnp : l.share.poisoned = false := rfl
      simp only [walk, syncThread, syncCall, syncOptions, Act.read, Act.atomic, Act.bind, Act.advance, if_true, Option.getD_some,
        syncFormat, hnp, Bool.false_eq_true, if_false, hc, AMap.get_nil, Option.bind_none, syncFormatMiss, hf, hx, hn, not_true,
        Option.isSome_none, storeStep, hp, store, not_false_eq_true]

/-- A formatter whose entry is dropped before it is used. -/
theorem drop_reached (scriptOf : Str → S) (l : Localiser S) (hl : l.cache = []) {c i tag x t : Str} {fb : Bool}
    (hf : fetch L c i tag fb = .ok (x, t)) (hx : x ≠ []) {f : Formatter}
    (hn : Formatter.tryNew L.fmt x t (L.icuLanguage t) = .ok f) (hd : CanDrop L tag (cacheKey c i)) (values : AMap Str (PValue D F)) :
    ∃ r schedule, (runThreads l.share [syncThread L scriptOf [.format c i values (some tag) (some fb) (some true)] [],
      syncThread L scriptOf [r] []] schedule).2[0]? = some (.done [some .panic]) := by
  obtain ⟨key, hkey, hcan⟩ := hd
  obtain ⟨r, q, e, h1, h2⟩ := enter_later scriptOf hcan l hl
  let p := syncThread L scriptOf [.format c i values (some tag) (some fb) (some true)] []
  have hc : l.share.cache = [] := hl
  have hnp : l.share.poisoned = false := rfl
  have hp1 : (walk 5 (l.share, p)).1.poisoned = false := by
    simp only [p, walk, syncThread, syncCall, syncOptions, Act.read, Act.atomic, Act.bind, Act.advance, if_true, Option.getD_some,
      syncFormat, hnp, Bool.false_eq_true, if_false, hc, AMap.get_nil, Option.bind_none, syncFormatMiss, hf, hx, hn, not_true,
      Option.isSome_none, storeStep, store, not_false_eq_true]
  have hp2 : ∀ s : Shared S, s.poisoned = false → ∀ m, AMap.get s.cache tag = some m → m.get (cacheKey c i) = none →
      ((walk 5 (l.share, p)).2.advance s).2 = .done [some .panic] := by
    intro s hs m hm hk
    simp only [p, walk, syncThread, syncCall, syncOptions, Act.read, Act.atomic, Act.bind, Act.advance, if_true, Option.getD_some,
      syncFormat, hnp, Bool.false_eq_true, if_false, hc, AMap.get_nil, Option.bind_none, syncFormatMiss, hf, hx, hn, not_true,
      Option.isSome_none, storeStep, store, not_false_eq_true, syncReuse, hs, hm, hk, List.nil_append]
  have step : ∀ (s : Shared S) (p : Act (Shared S) (List (Option (LocM P (Str × Str))))), Act.Solo s p (p.advance s).1 (p.advance s).2 :=
    fun s p => .more (.refl _ _)
  obtain ⟨schedule, hsch⟩ := ((((Act.Reach.refl l.share [p, syncThread L scriptOf [r] []]).solo
    (i := 1) rfl h1).solo (i := 0) rfl (solo_walk 5 _ _)).solo (i := 1) rfl (step _ q)).solo (i := 0) rfl (step _ _)
  refine ⟨r, schedule, ?_⟩
  rw [hsch]
  show some ((walk 5 (l.share, p)).2.advance _).2 = _
  rw [h2 _ hp1]
  refine congrArg some (hp2 _ hp1 [(key, e)] (AMap.get_insert_self _ _ _) ?_)
  simp [AMap.get_cons, hkey]

end Verif.SyncLemmas
