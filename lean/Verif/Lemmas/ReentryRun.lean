import Verif.Lemmas.Reentry
/-
Helper lemmas: the localiser with cells does what the localiser without does, if commands do not call it.
-/
namespace Verif.ReentryLemmas
open Verif Verif.Spec

variable {D F P S : Type}

/-- The result of the other models. -/
def toLoc {α : Type} : Except (LocErr P) α → LocM P α
  | .ok a => .ok a
  | .error e => .err e

/-- The code gives this result and this localiser. -/
def Gives {α : Type} (sh : Cell → Nat) (ex : Cell → Bool) (x : ReM S (Except (LocErr P) α)) (l : Localiser S)
    (r : LocM P α × Localiser S) : Prop :=
  Tri sh ex x l (fun a l' => r = (toLoc a, l')) (fun l' => r = (.panic, l')) (fun _ => False)

/-- No cell is borrowed, except perhaps the cache for reading. -/
structure FreeCells (sh : Cell → Nat) (ex : Cell → Bool) : Prop where
  shared : ∀ c, c ≠ .cache → sh c = 0
  exclusive : ∀ c, ex c = false

theorem FreeCells.idle : FreeCells (fun _ => 0) (fun _ => false) := ⟨fun _ _ => rfl, fun _ => rfl⟩

theorem FreeCells.up {sh : Cell → Nat} {ex : Cell → Bool} (h : FreeCells sh ex) : FreeCells (up sh .cache) ex :=
  ⟨fun c hc => by unfold ReentryLemmas.up; rw [if_neg hc]; exact h.shared c hc, h.exclusive⟩

variable {sh : Cell → Nat} {ex : Cell → Bool} {l : Localiser S}

theorem Gives.ret {α : Type} {a : Except (LocErr P) α} {r : LocM P α × Localiser S} (h : r = (toLoc a, l)) :
    Gives sh ex (ReM.ret a) l r := Tri.ret h

theorem Gives.result {α : Type} {r : LocM P α} : Gives sh ex (ReM.result r) l (r, l) :=
  Tri.result (fun a h => by rw [h]; rfl) (fun e h => by rw [h]; rfl) fun h => by rw [h]

section
variable (L : LocEnv D F P) (ask : Request D F → ReM S (Answer P))

theorem reFormatter_gives (h : FreeCells sh ex) {tag key : Str} {f : Formatter} (values : AMap Str (PValue D F))
    {m : AMap Str CacheData} (hm : l.cache.get tag = some m) :
    Gives sh ex (reFormatter (talkLoc L) ask tag key f values) l
      ((formatCached (P := P) L.fmt l.cache m tag key f values).1,
        { l with cache := (formatCached (P := P) L.fmt l.cache m tag key f values).2 }) := by
  refine Tri.write (h.exclusive _) (h.shared _ (by intro h; cases h)) ?_
  have : converse ask (talkFormat (talkLoc L).fmt f values) = ReM.ret (f.format L.fmt values) := by
    rw [show (talkLoc L).fmt = talkEnv L.fmt from rfl, talkFormat_env]
    rfl
  rw [this]
  refine Tri.andThen (Q := fun a l' => a = f.format L.fmt values ∧ l = l') (Tri.ret ⟨rfl, rfl⟩) ?_
  rintro _ _ ⟨rfl, rfl⟩
  refine Tri.andThen (Q := fun _ l' => l' = { l with cache := (formatCached (P := P) L.fmt l.cache m tag key f values).2 })
    (Tri.set (fun l' h => ?_) fun h => by cases h) ?_
  · have h : l' = putFormatter tag key (f.format L.fmt values).2 l := (Option.some.inj h).symm
    rw [h, putFormatter, hm]
    rfl
  · rintro _ _ rfl
    exact Gives.result

theorem reString_gives (h : FreeCells sh ex) (hs : sh .cache = 0) (caching exist : Bool) (key string tag : Str) :
    Gives sh ex (reString caching exist key string tag) l
      ((returnString (P := P) l.cache caching exist key string tag).1,
        { l with cache := (returnString (P := P) l.cache caching exist key string tag).2 }) := by
  unfold reString returnString
  cases caching with
  | false => exact Gives.ret rfl
  | true =>
    simp only [if_true]
    cases ha : addStringToCache l.cache exist key string tag with
    | none =>
      refine Tri.andThen (Q := fun _ _ => False) (Tri.write (h.exclusive _) hs (Tri.set (fun l' h => ?_) fun _ => rfl))
        (fun _ _ h => h.elim)
      rw [ha] at h
      cases h
    | some c =>
      refine Tri.andThen (Q := fun _ l' => l' = { l with cache := c })
        (Tri.write (h.exclusive _) hs (Tri.set (fun l' h => ?_) fun h => ?_)) ?_
      · rw [ha] at h
        cases h
        rfl
      · rw [ha] at h
        cases h
      · rintro _ _ rfl
        exact Gives.ret rfl

theorem reCached_gives (h : FreeCells sh ex) (hs : sh .cache = 0) (exist : Bool) (tag key : Str) (f : Formatter)
    (values : AMap Str (PValue D F)) :
    Gives sh ex (reCached (talkLoc L) ask exist tag key f values) l
      ((cacheFormatter (P := P) L.fmt l.cache exist tag key f values).1,
        { l with cache := (cacheFormatter (P := P) L.fmt l.cache exist tag key f values).2 }) := by
  have hc : cacheFormatter (P := P) L.fmt l.cache exist tag key f values =
      match putNew exist tag key f l.cache with
      | none => (.panic, l.cache)
      | some cache =>
        match cache.get tag with
        | none => (.panic, cache)
        | some m =>
          match m.get key with
          | none => (.panic, cache)
          | some (.localised _ _) => (.err .neverReached, cache)
          | some (.formatter f) => formatCached L.fmt cache m tag key f values := rfl
  rw [hc]
  unfold reCached
  cases hp : putNew exist tag key f l.cache with
  | none =>
    refine Tri.andThen (Q := fun _ _ => False) (Tri.write (h.exclusive _) hs (Tri.set (fun l' h => ?_) fun _ => rfl))
      (fun _ _ h => h.elim)
    rw [hp] at h
    cases h
  | some c =>
    refine Tri.andThen (Q := fun _ l' => l' = { l with cache := c })
      (Tri.write (h.exclusive _) hs (Tri.set (fun l' h => ?_) fun h => ?_)) ?_
    · rw [hp] at h
      cases h
      rfl
    · rw [hp] at h
      cases h
    · rintro _ _ rfl
      refine Tri.read (h.exclusive _) ?_
      refine Tri.andThen (Q := fun a l' => a = (c.get tag).bind (fun m => m.get key) ∧ l' = { l with cache := c })
        (Tri.get ⟨rfl, rfl⟩) ?_
      rintro _ _ ⟨rfl, rfl⟩
      dsimp only
      cases hm : c.get tag with
      | none => exact Gives.result
      | some m =>
        dsimp only [Option.bind_some]
        cases hk : m.get key with
        | none => exact Gives.result
        | some d =>
          cases d with
          | localised _ _ => exact Gives.ret rfl
          | formatter f' => exact reFormatter_gives L ask h.up values hm

theorem reFormat_gives (h : FreeCells sh ex) (hs : sh .cache = 0) (c i : Str) (values : AMap Str (PValue D F)) (tag : Str)
    (fallback caching : Bool) :
    Gives sh ex (reFormat (talkLoc L) ask c i values tag fallback caching) l
      ((actualFormat L l.cache c i values tag fallback caching).1,
        { l with cache := (actualFormat L l.cache c i values tag fallback caching).2 }) := by
  unfold reFormat actualFormat
  generalize cacheKey c i = key
  dsimp only
  cases he : (l.cache.get tag).bind fun m => (m.get key).map fun d => (m, d) with
  | some x =>
    obtain ⟨m, d⟩ := x
    obtain ⟨m', hm, hk⟩ := Option.bind_eq_some_iff.1 he
    obtain ⟨d', hk, h'⟩ := Option.map_eq_some_iff.1 hk
    cases h'
    cases d with
    | localised s t =>
      refine Tri.andThen (Q := fun a l' => a = Sum.inl (.ok (s, t)) ∧ l = l') (Tri.read (h.exclusive _) ?_) ?_
      · refine Tri.andThen (Q := fun a l' => a = (true, some (.localised s t)) ∧ l = l') (Tri.get ⟨?_, rfl⟩) ?_
        · simp [hm, hk]
        · rintro _ _ ⟨rfl, rfl⟩
          exact Tri.ret ⟨rfl, rfl⟩
      · rintro _ _ ⟨rfl, rfl⟩
        exact Gives.ret rfl
    | formatter f =>
      have hg := reFormatter_gives L ask (l := l) h.up (key := key) (f := f) values hm
      refine Tri.andThen (Q := fun a l' => ∃ a', a = Sum.inl a' ∧
          ((formatCached (P := P) L.fmt l.cache m tag key f values).1,
            { l with cache := (formatCached (P := P) L.fmt l.cache m tag key f values).2 }) = (toLoc a', l'))
        (Tri.read (h.exclusive _) ?_) ?_
      · refine Tri.andThen (Q := fun a l' => a = (true, some (.formatter f)) ∧ l = l') (Tri.get ⟨?_, rfl⟩) ?_
        · simp [hm, hk]
        · rintro _ _ ⟨rfl, rfl⟩
          exact Tri.andThen hg fun a l' h => Tri.ret ⟨a, rfl, h⟩
      · rintro _ _ ⟨a', rfl, h⟩
        exact Gives.ret h
  | none =>
    have hn : (l.cache.get tag).bind (fun m => m.get key) = none := by
      cases hm : l.cache.get tag with
      | none => rfl
      | some m =>
        rw [hm] at he
        simpa using he
    refine Tri.andThen (Q := fun a l' => a = Sum.inr (l.cache.get tag).isSome ∧ l = l') (Tri.read (h.exclusive _) ?_) ?_
    · refine Tri.andThen (Q := fun a l' => a = ((l.cache.get tag).isSome, none) ∧ l = l') (Tri.get ⟨by rw [hn], rfl⟩) ?_
      rintro _ _ ⟨rfl, rfl⟩
      exact Tri.ret ⟨rfl, rfl⟩
    · rintro _ _ ⟨rfl, rfl⟩
      dsimp only
      have hf : fetch (talkLoc L).plain c i tag fallback = fetch L c i tag fallback := rfl
      rw [hf]
      cases fetch L c i tag fallback with
      | err e =>
        refine Tri.andThen (Q := fun a l' => a = .error e ∧ l = l') (Tri.ret ⟨rfl, rfl⟩) ?_
        rintro _ _ ⟨rfl, rfl⟩
        exact Gives.ret rfl
      | panic => exact Tri.andThen (Q := fun _ _ => False) ⟨rfl, rfl, rfl⟩ fun _ _ h => h.elim
      | ok x =>
        obtain ⟨s, t⟩ := x
        refine Tri.andThen (Q := fun a l' => a = .ok (s, t) ∧ l = l') (Tri.ret ⟨rfl, rfl⟩) ?_
        rintro _ _ ⟨rfl, rfl⟩
        dsimp only
        split
        · exact reString_gives h hs _ _ _ _ _
        · have : converse ask (talkNew (talkLoc L).fmt s t ((talkLoc L).icuLanguage t)) =
              ReM.ret (Formatter.tryNew L.fmt s t (L.icuLanguage t)) := by
            rw [show (talkLoc L).fmt = talkEnv L.fmt from rfl, talkNew_env]
            rfl
          rw [this]
          refine Tri.andThen (Q := fun a l' => a = Formatter.tryNew L.fmt s t (L.icuLanguage t) ∧ l = l')
            (Tri.ret ⟨rfl, rfl⟩) ?_
          rintro _ _ ⟨rfl, rfl⟩
          cases Formatter.tryNew L.fmt s t (L.icuLanguage t) with
          | err e =>
            cases e with
            | noGrammar => exact reString_gives h hs _ _ _ _ _
            | _ => exact Gives.ret rfl
          | panic => exact Gives.result
          | ok f =>
            dsimp only
            split
            · have : converse ask (talkFormat (talkLoc L).fmt f values) = ReM.ret (f.format L.fmt values) := by
                rw [show (talkLoc L).fmt = talkEnv L.fmt from rfl, talkFormat_env]
                rfl
              rw [this]
              refine Tri.andThen (Q := fun a l' => a = f.format L.fmt values ∧ l = l') (Tri.ret ⟨rfl, rfl⟩) ?_
              rintro _ _ ⟨rfl, rfl⟩
              exact Gives.result
            · exact reCached_gives L ask h hs _ _ _ _ _

theorem reLiteral_gives (h : FreeCells sh ex) (hs : sh .cache = 0) (c i tag : Str) (fallback caching : Bool) :
    Gives sh ex (reLiteral (talkLoc L) c i tag fallback caching) l
      ((actualLiteral L l.cache c i tag fallback caching).1,
        { l with cache := (actualLiteral L l.cache c i tag fallback caching).2 }) := by
  unfold reLiteral actualLiteral
  generalize cacheKey c i = key
  dsimp only
  refine Tri.andThen (Q := fun a l' => a = ((l.cache.get tag).isSome, (l.cache.get tag).bind fun m => m.get key) ∧ l = l')
    (Tri.read (h.exclusive _) (Tri.get ⟨rfl, rfl⟩)) ?_
  rintro _ _ ⟨rfl, rfl⟩
  cases (l.cache.get tag).bind fun m => m.get key with
  | some d => cases d <;> exact Gives.ret rfl
  | none =>
    dsimp only
    have hf : fetch (talkLoc L).plain c i tag fallback = fetch L c i tag fallback := rfl
    rw [hf]
    cases fetch L c i tag fallback with
    | err e =>
      refine Tri.andThen (Q := fun a l' => a = .error e ∧ l = l') (Tri.ret ⟨rfl, rfl⟩) ?_
      rintro _ _ ⟨rfl, rfl⟩
      exact Gives.ret rfl
    | panic => exact Tri.andThen (Q := fun _ _ => False) ⟨rfl, rfl, rfl⟩ fun _ _ h => h.elim
    | ok x =>
      obtain ⟨s, t⟩ := x
      refine Tri.andThen (Q := fun a l' => a = .ok (s, t) ∧ l = l') (Tri.ret ⟨rfl, rfl⟩) ?_
      rintro _ _ ⟨rfl, rfl⟩
      exact reString_gives h hs _ _ _ _ _

theorem Gives.andThen {α β : Type} {x : ReM S (Except (LocErr P) α)} {k : Except (LocErr P) α → ReM S (Except (LocErr P) β)}
    {r : LocM P α × Localiser S} {r' : LocM P β × Localiser S} (hx : Gives sh ex x l r)
    (hk : ∀ a, r.1 = toLoc a → Gives sh ex (k a) r.2 r') (hp : r.1 = .panic → r' = (.panic, r.2)) :
    Gives sh ex (x.andThen k) l r' := by
  refine Tri.andThen (Q := fun a l' => r = (toLoc a, l')) (hx.weaken (fun _ _ h => h) (fun l' h => ?_) fun _ h => h) ?_
  · subst h
    exact hp rfl
  · rintro a l' rfl
    exact hk a rfl

mutual
theorem reData_gives (h : FreeCells sh ex) (hs : sh .cache = 0) (tag : Str) (fallback caching : Bool) (c i : Str)
    (values : Option (List (Str × PValue D F))) (l : Localiser S) :
    Gives sh ex (reData (talkLoc L) ask tag fallback caching c i values) l
      ((actualData L tag fallback caching c i values l.cache).1,
        { l with cache := (actualData L tag fallback caching c i values l.cache).2 }) := by
  match values with
  | none =>
    unfold reData actualData
    exact reLiteral_gives L h hs c i tag fallback caching
  | some vs =>
    have hv := reValues_gives h hs tag fallback caching vs [] l
    unfold reData actualData
    generalize resolveValues L tag fallback caching vs [] l.cache = y at hv
    obtain ⟨r, cache⟩ := y
    refine Gives.andThen hv (fun a ha => ?_) fun hp => ?_
    · cases r with
      | ok values =>
        cases a <;> cases ha
        exact reFormat_gives L ask (l := { l with cache := cache }) h hs c i values tag fallback caching
      | err e =>
        cases a <;> cases ha
        exact Gives.ret rfl
      | panic => cases a <;> cases ha
    · have hp : r = .panic := hp
      subst hp
      rfl

theorem reValues_gives (h : FreeCells sh ex) (hs : sh .cache = 0) (tag : Str) (fallback caching : Bool)
    (values : List (Str × PValue D F)) (acc : AMap Str (PValue D F)) (l : Localiser S) :
    Gives sh ex (reValues (talkLoc L) ask tag fallback caching values acc) l
      ((resolveValues L tag fallback caching values acc l.cache).1,
        { l with cache := (resolveValues L tag fallback caching values acc l.cache).2 }) := by
  match values with
  | [] =>
    unfold reValues resolveValues
    exact Gives.ret rfl
  | (name, .localisationData c i vs) :: rest =>
    have hd := reData_gives h hs tag fallback caching c i vs l
    unfold reValues resolveValues
    generalize actualData L tag fallback caching c i vs l.cache = y at hd
    obtain ⟨r, cache⟩ := y
    refine Gives.andThen hd (fun a ha => ?_) fun hp => ?_
    · cases r with
      | ok x =>
        cases a <;> cases ha
        exact reValues_gives h hs tag fallback caching rest _ { l with cache := cache }
      | err e =>
        cases a <;> cases ha
        exact Gives.ret rfl
      | panic => cases a <;> cases ha
    · have hp : r = .panic := hp
      subst hp
      rfl
  | (name, .string s) :: rest => unfold reValues resolveValues; exact reValues_gives h hs tag fallback caching rest _ l
  | (name, .integer s) :: rest => unfold reValues resolveValues; exact reValues_gives h hs tag fallback caching rest _ l
  | (name, .unsigned s) :: rest => unfold reValues resolveValues; exact reValues_gives h hs tag fallback caching rest _ l
  | (name, .float s) :: rest => unfold reValues resolveValues; exact reValues_gives h hs tag fallback caching rest _ l
  | (name, .taggedString s t) :: rest =>
    unfold reValues resolveValues; exact reValues_gives h hs tag fallback caching rest _ l
  | (name, .localised s t) :: rest => unfold reValues resolveValues; exact reValues_gives h hs tag fallback caching rest _ l
  | (name, .fixedDecimal s) :: rest => unfold reValues resolveValues; exact reValues_gives h hs tag fallback caching rest _ l
  | (name, .dateTime s t) :: rest => unfold reValues resolveValues; exact reValues_gives h hs tag fallback caching rest _ l
  | (name, .date s) :: rest => unfold reValues resolveValues; exact reValues_gives h hs tag fallback caching rest _ l
  | (name, .time s) :: rest => unfold reValues resolveValues; exact reValues_gives h hs tag fallback caching rest _ l
end

end

end Verif.ReentryLemmas
