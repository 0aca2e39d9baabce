import Verif.Lemmas.LocaliserSync
import Verif.Lemmas.TwoAskers
import Verif.Spec.Contagion
/-
What a panic leaves behind: poisoned locks.
-/
namespace Verif.SyncLemmas
open Verif Verif.Spec Verif.Act Verif.LocaliserLemmas

variable {D F P S α β : Type} {L : LocEnv D F P}

/-! ### Programs of all requests -/

section
variable {I : Shared S → Prop} {R : Shared S → Shared S → Prop} {Q : LocM P (Str × Str) → Prop}

/-- The same for failures. -/
def Failing (Q : LocM P (Str × Str) → Prop) (x : LocM P α) : Prop :=
  match x with
  | .ok _ => True
  | .err e => Q (.err e)
  | .panic => Q .panic

mutual
/-- If a string and a pattern string are all right, so are localisation data. -/
theorem data_ok (htrans : ∀ a b c, R a b → R b c → R a c) (hrefl : ∀ a, R a a) (tag : Str) (fb ca : Bool)
    (hlit : ∀ c i s, (syncLiteral L c i tag fb ca).Ok I R Q s)
    (hfmt : ∀ c i vs s, (syncFormat L c i vs tag fb ca).Ok I R Q s) (c i : Str)
    (values : Option (List (Str × PValue D F))) (s : Shared S) : (syncData L tag fb ca c i values).Ok I R Q s := by
  match values with
  | none => rw [syncData]; exact hlit c i s
  | some vs =>
    rw [syncData]
    refine Act.Ok.bind htrans hrefl (values_ok htrans hrefl tag fb ca hlit hfmt vs [] s) fun a s' _ ha => ?_
    match a with
    | .ok vs => exact hfmt c i vs s'
    | .err e => exact ha
    | .panic => exact ha

theorem values_ok (htrans : ∀ a b c, R a b → R b c → R a c) (hrefl : ∀ a, R a a) (tag : Str) (fb ca : Bool)
    (hlit : ∀ c i s, (syncLiteral L c i tag fb ca).Ok I R Q s)
    (hfmt : ∀ c i vs s, (syncFormat L c i vs tag fb ca).Ok I R Q s)
    (values : List (Str × PValue D F)) (acc : AMap Str (PValue D F)) (s : Shared S) :
    (syncValues L tag fb ca values acc).Ok I R (Failing Q) s := by
  match values with
  | [] => rw [syncValues]; exact trivial
  | (name, .localisationData c i vs) :: rest =>
    rw [syncValues]
    refine Act.Ok.bind htrans hrefl (data_ok htrans hrefl tag fb ca hlit hfmt c i vs s) fun a s' _ ha => ?_
    match a with
    | .ok (x, t) => exact values_ok htrans hrefl tag fb ca hlit hfmt rest _ s'
    | .err e => exact ha
    | .panic => exact ha
  | (name, .string _) :: rest => rw [syncValues]; exact values_ok htrans hrefl tag fb ca hlit hfmt rest _ s; simp
  | (name, .integer _) :: rest => rw [syncValues]; exact values_ok htrans hrefl tag fb ca hlit hfmt rest _ s; simp
  | (name, .unsigned _) :: rest => rw [syncValues]; exact values_ok htrans hrefl tag fb ca hlit hfmt rest _ s; simp
  | (name, .float _) :: rest => rw [syncValues]; exact values_ok htrans hrefl tag fb ca hlit hfmt rest _ s; simp
  | (name, .taggedString _ _) :: rest => rw [syncValues]; exact values_ok htrans hrefl tag fb ca hlit hfmt rest _ s; simp
  | (name, .localised _ _) :: rest => rw [syncValues]; exact values_ok htrans hrefl tag fb ca hlit hfmt rest _ s; simp
  | (name, .fixedDecimal _) :: rest => rw [syncValues]; exact values_ok htrans hrefl tag fb ca hlit hfmt rest _ s; simp
  | (name, .dateTime _ _) :: rest => rw [syncValues]; exact values_ok htrans hrefl tag fb ca hlit hfmt rest _ s; simp
  | (name, .date _) :: rest => rw [syncValues]; exact values_ok htrans hrefl tag fb ca hlit hfmt rest _ s; simp
  | (name, .time _) :: rest => rw [syncValues]; exact values_ok htrans hrefl tag fb ca hlit hfmt rest _ s; simp
end

/-- The defaults are no part of the invariant. -/
structure Blind (I : Shared S → Prop) (R : Shared S → Shared S → Prop) : Prop where
  refl : ∀ s, R s s
  trans : ∀ a b c, R a b → R b c → R a c
  keep : ∀ s, I s → ∀ s' : Shared S, s'.cache = s.cache → s'.poisoned = s.poisoned → s'.broken = s.broken → I s' ∧ R s s'

theorem options_ok {rest : Str → Bool → Bool → Act (Shared S) α} {Q : α → Prop} (hb : Blind I R) (tag : Option Str) (fb ca : Option Bool)
    (h : ∀ t f c s, (rest t f c).Ok I R Q s) (s : Shared S) : (syncOptions tag fb ca rest).Ok I R Q s := by
  unfold syncOptions
  refine Act.Ok.atomic_bind fun s _ hi => ⟨hi, hb.refl _, ?_⟩
  refine Act.Ok.atomic_bind fun s _ hi => ⟨hi, hb.refl _, ?_⟩
  refine Act.Ok.atomic_bind fun s _ hi => ⟨hi, hb.refl _, ?_⟩
  exact h _ _ _ _

theorem defaults_ok (hb : Blind I R) (scriptOf : Str → S) (tag : Option Str) (fb ca : Option Bool) (s : Shared S) :
    (syncDefaults scriptOf tag fb ca).Ok I R (fun _ => True) s := by
  unfold syncDefaults
  refine Act.Ok.bind hb.trans hb.refl (Q := fun _ => True) ?_ fun _ s _ _ => ?_
  · cases tag with
    | none => exact trivial
    | some t =>
      intro s _ hi _
      obtain ⟨h1, h2⟩ := hb.keep s hi { s with tag := t } rfl rfl rfl
      refine ⟨h1, h2, ?_⟩
      refine Act.Ok.atomic fun s _ hi => ?_
      obtain ⟨h1, h2⟩ := hb.keep s hi { s with readers := s.readers + 1 } rfl rfl rfl
      refine ⟨h1, h2, ?_⟩
      refine Act.Ok.atomic fun s' _ hi => ?_
      obtain ⟨h1, h2⟩ := hb.keep s' hi { s' with script := scriptOf s.tag } rfl rfl rfl
      refine ⟨h1, h2, ?_⟩
      refine Act.Ok.atomic fun s'' _ hi => ?_
      obtain ⟨h1, h2⟩ := hb.keep s'' hi { s'' with readers := s''.readers - 1 } rfl rfl rfl
      exact ⟨h1, h2, trivial⟩
  refine Act.Ok.bind hb.trans hb.refl (Q := fun _ => True) ?_ fun _ s _ _ => ?_
  · cases fb with
    | none => exact trivial
    | some b =>
      refine Act.Ok.atomic fun s _ hi => ?_
      obtain ⟨h1, h2⟩ := hb.keep s hi { s with fallback := b } rfl rfl rfl
      exact ⟨h1, h2, trivial⟩
  · cases ca with
    | none => exact trivial
    | some b =>
      refine Act.Ok.atomic fun s _ hi => ?_
      obtain ⟨h1, h2⟩ := hb.keep s hi { s with caching := b } rfl rfl rfl
      exact ⟨h1, h2, trivial⟩

/-- Requests of any kind. -/
theorem call_ok (hb : Blind I R) (scriptOf : Str → S)
    (hlit : ∀ tag fb ca c i s, (syncLiteral L c i tag fb ca).Ok I R Q s)
    (hfmt : ∀ tag fb ca c i vs s, (syncFormat L c i vs tag fb ca).Ok I R Q s) (r : Request D F) (s : Shared S) :
    (syncCall L scriptOf r).Ok I R (fun a => ∀ x, a = some x → Q x) s := by
  have wrap : ∀ (p : Call S P (Str × Str)) s, p.Ok I R Q s →
      (p.bind fun r => (.done (some r) : Act (Shared S) _)).Ok I R (fun a => ∀ x, a = some x → Q x) s := by
    intro p s h
    refine Act.Ok.bind hb.trans hb.refl h fun a s' _ ha => ?_
    intro x hx
    cases hx
    exact ha
  cases r with
  | format c i vs t fb ca => exact options_ok hb _ _ _ (fun t f c' s => wrap _ _ (hfmt t f c' c i vs s)) s
  | literal c i t fb ca => exact options_ok hb _ _ _ (fun t f c' s => wrap _ _ (hlit t f c' c i s)) s
  | data c i vs t fb ca =>
    exact options_ok hb _ _ _ (fun t f c' s => wrap _ _
      (data_ok hb.trans hb.refl t f c' (hlit t f c') (hfmt t f c') c i vs s)) s
  | defaults t fb ca =>
    refine Act.Ok.bind hb.trans hb.refl (defaults_ok hb scriptOf t fb ca s) fun _ s' _ _ => ?_
    intro x hx
    cases hx

theorem thread_ok (hb : Blind I R) (scriptOf : Str → S)
    (hlit : ∀ tag fb ca c i s, (syncLiteral L c i tag fb ca).Ok I R Q s)
    (hfmt : ∀ tag fb ca c i vs s, (syncFormat L c i vs tag fb ca).Ok I R Q s) (calls : List (Request D F)) :
    ∀ answers (s : Shared S), (syncThread L scriptOf calls answers).Ok I R
      (fun as => ∃ as', as = answers ++ as' ∧ ∀ x, some x ∈ as' → Q x) s := by
  induction calls with
  | nil => intro answers s; exact ⟨[], by simp, by simp⟩
  | cons r rest ih =>
    intro answers s
    refine Act.Ok.bind hb.trans hb.refl (call_ok hb scriptOf hlit hfmt r s) fun a s' _ ha => ?_
    have hgo : (syncThread L scriptOf rest (answers ++ [a])).Ok I R
        (fun as => ∃ as', as = answers ++ as' ∧ ∀ x, some x ∈ as' → Q x) s' := by
      refine Act.Ok.weaken (ih _ s') ?_
      rintro as ⟨as', rfl, h⟩
      refine ⟨a :: as', by simp, fun x hx => ?_⟩
      rcases List.mem_cons.1 hx with hx | hx
      · exact ha x hx.symm
      · exact h x hx
    match a, ha, hgo with
    | some .panic, ha, _ => exact ⟨[some .panic], rfl, fun x hx => ha x (List.mem_singleton.1 hx).symm⟩
    | some (.ok _), _, hgo => exact hgo
    | some (.err _), _, hgo => exact hgo
    | none, _, hgo => exact hgo
end

/-! ### What the locks stand for -/

theorem _root_.Verif.Act.Ok.strengthen {σ : Type} {I J : σ → Prop} {R : σ → σ → Prop} {Q : α → Prop} (hji : ∀ s, J s → I s)
    (hj : ∀ s s', R s s' → J s → J s') {p : Act σ α} : ∀ {s : σ}, p.Ok I R Q s → p.Ok J R Q s := by
  induction p with
  | done a => intro s h; exact h
  | step ready effect next ih =>
    intro s h t hr hi hready
    obtain ⟨h1, h2, h3⟩ := h t hr (hji _ hi) hready
    exact ⟨hj _ _ h2 hi, h2, ih t h3⟩

/-- A formatter is made for this language and key, and one of the calls of a sequence of calls of its `format` panics. -/
def Breaks (L : LocEnv D F P) (language key : Str) : Prop :=
  ∃ c i fallback s t f history values, key = cacheKey c i ∧ fetch L c i language fallback = .ok (s, t) ∧ s ≠ [] ∧
    Formatter.tryNew L.fmt s t (L.icuLanguage t) = .ok f ∧ ((after L.fmt f history).format L.fmt values).1 = .panic

/-- A formatter of the cache. -/
def Made (L : LocEnv D F P) (tag key : Str) (f : Formatter) : Prop :=
  ∃ c i fb s t f0 history, key = cacheKey c i ∧ fetch L c i tag fb = .ok (s, t) ∧ s ≠ [] ∧
    Formatter.tryNew L.fmt s t (L.icuLanguage t) = .ok f0 ∧ f = after L.fmt f0 history

/-- An entry of the cache. -/
def Entered (L : LocEnv D F P) (tag key : Str) (e : CacheData) : Prop :=
  CanEnter L tag key ∧ ∀ f, e = .formatter f → Made L tag key f

/-- The entries come from requests, and poisoned locks have a reason. -/
structure Sound (L : LocEnv D F P) (s : Shared S) : Prop where
  entries : ∀ tag m, AMap.get s.cache tag = some m → (∃ k e, m.get k = some e) ∧ ∀ k e, m.get k = some e → Entered L tag k e
  broken : ∀ t k, s.broken t k = true → Breaks L t k
  poisoned : s.poisoned = true → Trap L

/-- Languages stay in the cache, and a poisoned lock stays poisoned. -/
def Stay (s s' : Shared S) : Prop :=
  (∀ t, (AMap.get s.cache t).isSome = true → (AMap.get s'.cache t).isSome = true) ∧ (s.poisoned = true → s'.poisoned = true)

theorem stay_refl (s : Shared S) : Stay s s := ⟨fun _ h => h, id⟩

theorem stay_trans (a b c : Shared S) (h : Stay a b) (h' : Stay b c) : Stay a c :=
  ⟨fun t ht => h'.1 t (h.1 t ht), fun hp => h'.2 (h.2 hp)⟩

theorem stay_insert {s s' : Shared S} {tag : Str} {m : AMap Str CacheData} (hc : s'.cache = s.cache.insert tag m)
    (hp : s'.poisoned = s.poisoned) : Stay s s' := by
  refine ⟨fun t ht => ?_, fun h => hp.trans h⟩
  rw [hc, AMap.get_insert]
  by_cases h : tag = t <;> simp [h, ht]

theorem sound_blind : Blind (S := S) (Sound L) Stay where
  refl := stay_refl
  trans := stay_trans
  keep := fun s h s' h1 h2 h3 =>
    ⟨⟨by rw [h1]; exact h.entries, by rw [h3]; exact h.broken, by rw [h2]; exact h.poisoned⟩, by rw [h1]; exact fun _ h => h,
      by rw [h2]; exact id⟩

/-- A language map with one more entry. -/
theorem Sound.insert {s : Shared S} (h : Sound L s) {tag key : Str} {e : CacheData} (he : Entered L tag key e) {m : AMap Str CacheData}
    (hm : ∀ k e, m.get k = some e → Entered L tag k e) {broken : Str → Str → Bool}
    (hb : ∀ t k, broken t k = true → Breaks L t k) :
    Sound L { s with cache := s.cache.insert tag (m.insert key e), broken := broken } := by
  refine ⟨fun t m' hg => ?_, hb, h.poisoned⟩
  simp only [AMap.get_insert] at hg
  by_cases ht : tag = t
  · subst ht
    simp only [if_true] at hg
    cases hg
    refine ⟨⟨key, e, AMap.get_insert_self _ _ _⟩, fun k e' hk => ?_⟩
    rw [AMap.get_insert] at hk
    by_cases hkk : key = k
    · subst hkk
      simp only [if_true] at hk
      cases hk
      exact he
    · simp only [hkk, if_false] at hk
      exact hm k e' hk
  · simp only [ht, if_false] at hg
    exact h.entries t m' hg

/-- A panic only for this reason. -/
def Only (X : Prop) (x : LocM P α) : Prop := x = .panic → X

theorem only_ok {X : Prop} {a : α} : Only X (.ok a : LocM P α) := fun h => nomatch h

theorem only_err {X : Prop} {e : LocErr P} : Only X (.err e : LocM P α) := fun h => nomatch h

theorem sound_store {tag key : Str} {e : CacheData} (he : Entered L tag key e) {ex : Bool} {rest : Call S P α} {X : Prop}
    (hq : Trap L → X) {s0 : Shared S} (hex : ex = true → (AMap.get s0.cache tag).isSome = true ∨ Trap L)
    (hrest : ∀ s, (AMap.get s.cache tag).isSome = true → rest.Ok (Sound L) Stay (Only X) s) :
    (storeStep ex tag key e rest).Ok (Sound L) Stay (Only X) s0 := by
  refine Act.Ok.atomic fun s hr hi => ?_
  by_cases hp : s.poisoned = true
  · simp only [hp, if_true]
    exact ⟨hi, stay_refl _, fun _ => hq (hi.poisoned hp)⟩
  · simp only [hp, Bool.false_eq_true, if_false]
    unfold store
    cases ex with
    | false =>
      simp only [Bool.false_eq_true, not_false_eq_true, if_true]
      refine ⟨?_, stay_insert rfl rfl, hrest _ (by simp [AMap.get_insert_self])⟩
      refine hi.insert (m := []) he (by intro k e h; cases h) fun t k hb => ?_
      by_cases ht : t = tag
      · simp [ht] at hb
      · simp only [ht, if_false] at hb
        exact hi.broken t k hb
    | true =>
      simp only [not_true, if_false]
      cases hg : AMap.get s.cache tag with
      | none =>
        have ht : Trap L := by
          rcases hex rfl with h | h
          · have := hr.1 tag h
            rw [hg] at this
            cases this
          · exact h
        exact ⟨⟨hi.entries, hi.broken, fun _ => ht⟩, ⟨fun _ h => h, fun _ => rfl⟩, fun _ => hq ht⟩
      | some m =>
        refine ⟨?_, stay_insert rfl rfl, hrest _ (by simp [AMap.get_insert_self])⟩
        refine hi.insert he (hi.entries tag m hg).2 fun t k hb => ?_
        by_cases ht : t = tag ∧ k = key
        · simp [ht] at hb
        · simp only [ht, if_false] at hb
          exact hi.broken t k hb

theorem after_last (E : FmtEnv D F) (f : Formatter) (history : List (AMap Str (PValue D F))) (v : AMap Str (PValue D F)) :
    ((after E f history).format E v).2 = after E f (history ++ [v]) := by
  simp [after, List.foldl_append]

theorem sound_use {s : Shared S} (hi : Sound L s) {m : AMap Str CacheData} {tag key : Str} {f : Formatter}
    (hm : AMap.get s.cache tag = some m) (hf : m.get key = some (.formatter f)) (values : AMap Str (PValue D F))
    {X : Prop} (hx : Breaks L tag key → X) :
    Sound L (useFormatter (P := P) L.fmt s m tag key f values).1 ∧ Stay s (useFormatter (P := P) L.fmt s m tag key f values).1 ∧
      (useFormatter (P := P) L.fmt s m tag key f values).2.Ok (Sound L) Stay (Only X)
        (useFormatter (P := P) L.fmt s m tag key f values).1 := by
  unfold useFormatter
  cases hb : s.broken tag key with
  | true =>
    simp only [if_true]
    exact ⟨hi, stay_refl _, fun _ => hx (hi.broken _ _ hb)⟩
  | false =>
    simp only [Bool.false_eq_true, if_false]
    obtain ⟨hcan, hmade⟩ := (hi.entries tag m hm).2 key _ hf
    obtain ⟨c, i, fb, x, t, f0, history, h1, h2, h3, h4, h5⟩ := hmade f rfl
    have hbreak : (f.format L.fmt values).1 = .panic → Breaks L tag key := fun h =>
      ⟨c, i, fb, x, t, f0, history, values, h1, h2, h3, h4, by rw [← h5]; exact h⟩
    refine ⟨?_, stay_insert rfl rfl, fun h => hx (hbreak ((mapErr_panic _ _).1 h))⟩
    refine hi.insert ⟨hcan, ?_⟩ (hi.entries tag m hm).2 fun t' k' hb' => ?_
    · intro f' hf'
      cases hf'
      exact ⟨c, i, fb, x, t, f0, history ++ [values], h1, h2, h3, h4, by rw [← after_last, ← h5]⟩
    · by_cases ht : t' = tag ∧ k' = key
      · simp only [ht, and_self, if_true] at hb'
        obtain ⟨rfl, rfl⟩ := ht
        refine hbreak ?_
        cases hx : (f.format L.fmt values).1 with
        | ok _ => rw [hx] at hb'; cases hb'
        | err _ => rw [hx] at hb'; cases hb'
        | panic => rfl
      · simp only [ht, if_false] at hb'
        exact hi.broken t' k' hb'

/-- Why the language of a string that was found has an entry if the one asked for has. -/
theorem may_miss {s : Shared S} (hi : Sound L s) {c i tag x t : Str} {fb : Bool} (hf : fetch L c i tag fb = .ok (x, t))
    (hnone : ((AMap.get s.cache tag).bind fun m => m.get (cacheKey c i)) = none)
    (hex : (AMap.get s.cache tag).isSome = true) : (AMap.get s.cache t).isSome = true ∨ Trap L := by
  by_cases ht : t = tag
  · exact .inl (ht ▸ hex)
  · obtain ⟨m, hm⟩ := Option.isSome_iff_exists.1 hex
    obtain ⟨⟨k, e, hk⟩, hall⟩ := hi.entries tag m hm
    refine .inr ⟨c, i, tag, fb, x, t, k, hf, ht, (hall k e hk).1, ?_⟩
    rintro rfl
    rw [hm] at hnone
    simp [hk] at hnone

theorem sound_return {s : Shared S} {c i tag x t : Str} {fb : Bool} (hf : fetch L c i tag fb = .ok (x, t)) (ca : Bool) {ex : Bool}
    (hex : ex = true → (AMap.get s.cache t).isSome = true ∨ Trap L) {X : Prop} (hx : Trap L → X) :
    (syncReturn (P := P) ca ex (cacheKey c i) x t).Ok (Sound L) Stay (Only X) s := by
  unfold syncReturn
  cases ca with
  | false => exact only_ok
  | true =>
    simp only [if_true]
    refine sound_store ⟨⟨c, i, tag, fb, x, t, rfl, hf, .inl rfl⟩, ?_⟩ hx hex fun _ _ => only_ok
    intro f h
    cases h

theorem fetch_no_panic (L : LocEnv D F P) (c i tag : Str) (fb : Bool) : fetch L c i tag fb ≠ .panic := by
  unfold fetch
  repeat' split
  all_goals exact fun h => nomatch h

theorem sound_literal (tag : Str) (fb ca : Bool) (c i : Str) {X : Prop} (hx : Trap L → X) (s : Shared S) :
    (syncLiteral L c i tag fb ca).Ok (Sound L) Stay (Only X) s := by
  refine Act.Ok.atomic fun s _ hi => ?_
  by_cases hp : s.poisoned = true
  · simp only [hp, if_true]
    exact ⟨hi, stay_refl _, fun _ => hx (hi.poisoned hp)⟩
  · simp only [hp, Bool.false_eq_true, if_false]
    cases hc : (AMap.get s.cache tag).bind fun m => m.get (cacheKey c i) with
    | some e =>
      cases e with
      | localised _ _ => exact ⟨hi, stay_refl _, only_ok⟩
      | formatter _ => exact ⟨hi, stay_refl _, only_err⟩
    | none =>
      refine ⟨hi, stay_refl _, ?_⟩
      cases hf : fetch L c i tag fb with
      | err e => exact only_err
      | panic => exact absurd hf (fetch_no_panic L c i tag fb)
      | ok r =>
        obtain ⟨x, t⟩ := r
        exact sound_return hf ca (may_miss hi hf hc) hx

theorem sound_reuse (tag key : Str) (values : AMap Str (PValue D F)) {X : Prop} (hx : Trap L ∨ Breaks L tag key ∨ CanDrop L tag key → X)
    (s : Shared S) (hs : (AMap.get s.cache tag).isSome = true) :
    (syncReuse (P := P) L.fmt tag key values).Ok (Sound L) Stay (Only X) s := by
  refine Act.Ok.atomic fun s hr hi => ?_
  by_cases hp : s.poisoned = true
  · simp only [hp, if_true]
    exact ⟨hi, stay_refl _, fun _ => hx (.inl (hi.poisoned hp))⟩
  · simp only [hp, Bool.false_eq_true, if_false]
    cases hm : AMap.get s.cache tag with
    | none =>
      have := hr.1 tag hs
      rw [hm] at this
      cases this
    | some m =>
      simp only
      cases hf : m.get key with
      | none =>
        refine ⟨hi, stay_refl _, fun _ => hx (.inr (.inr ?_))⟩
        obtain ⟨⟨k, e, hk⟩, hall⟩ := hi.entries tag m hm
        refine ⟨k, ?_, (hall k e hk).1⟩
        rintro rfl
        rw [hk] at hf
        cases hf
      | some e =>
        cases e with
        | localised _ _ => exact ⟨hi, stay_refl _, only_err⟩
        | formatter f => exact sound_use hi hm hf values fun h => hx (.inr (.inl h))

/-- The reasons for a panic of a request for a formatted string. -/
def Perils (L : LocEnv D F P) (tag key : Str) (c i : Str) (fb ca : Bool) : Prop :=
  Trap L ∨ Breaks L tag key ∨ ∃ s t, fetch L c i tag fb = .ok (s, t) ∧ s ≠ [] ∧
    (Formatter.tryNew L.fmt s t (L.icuLanguage t) = .panic ∨
     ca = true ∧ CanDrop L tag key ∧ ∃ f, Formatter.tryNew L.fmt s t (L.icuLanguage t) = .ok f)

theorem sound_format (tag : Str) (fb ca : Bool) (c i : Str) (values : AMap Str (PValue D F)) {X : Prop}
    (hX : Perils L tag (cacheKey c i) c i fb ca → X) (s : Shared S) :
    (syncFormat L c i values tag fb ca).Ok (Sound L) Stay (Only X) s := by
  refine Act.Ok.atomic fun s _ hi => ?_
  by_cases hp : s.poisoned = true
  · simp only [hp, if_true]
    exact ⟨hi, stay_refl _, fun _ => hX (.inl (hi.poisoned hp))⟩
  simp only [hp, Bool.false_eq_true, if_false]
  have miss : ((AMap.get s.cache tag).bind fun m => m.get (cacheKey c i)) = none →
      (syncFormatMiss (S := S) L c i values tag fb ca (AMap.get s.cache tag).isSome).Ok (Sound L) Stay (Only X) s := by
    intro hc
    unfold syncFormatMiss
    simp only
    cases hf : fetch L c i tag fb with
    | err e => exact only_err
    | panic => exact absurd hf (fetch_no_panic L c i tag fb)
    | ok r =>
      obtain ⟨x, t⟩ := r
      simp only
      by_cases hx : x = []
      · rw [if_pos hx]
        exact sound_return hf ca (may_miss hi hf hc) fun h => hX (.inl h)
      · rw [if_neg hx]
        cases hn : Formatter.tryNew L.fmt x t (L.icuLanguage t) with
        | panic => exact fun _ => hX (.inr (.inr ⟨x, t, hf, hx, .inl hn⟩))
        | err e =>
          cases e <;> first | exact only_err | exact sound_return hf ca (may_miss hi hf hc) fun h => hX (.inl h)
        | ok f =>
          simp only
          cases ca with
          | false =>
            exact fun h => hX (.inr (.inl ⟨c, i, fb, x, t, f, [], values, rfl, hf, hx, hn, (mapErr_panic _ _).1 h⟩))
          | true =>
            simp only [not_true, if_false]
            refine sound_store ⟨⟨c, i, tag, fb, x, t, rfl, hf, .inr ⟨rfl, hx, f, hn⟩⟩, ?_⟩ (fun h => hX (.inl h)) (fun h => .inl h)
              (sound_reuse tag _ values ?_)
            · intro f' hf'
              cases hf'
              exact ⟨c, i, fb, x, t, f, [], rfl, hf, hx, hn, rfl⟩
            · rintro (h | h | h)
              · exact hX (.inl h)
              · exact hX (.inr (.inl h))
              · exact hX (.inr (.inr ⟨x, t, hf, hx, .inr ⟨rfl, h, f, hn⟩⟩))
  cases hm : AMap.get s.cache tag with
  | none =>
    rw [hm] at miss
    exact ⟨hi, stay_refl _, miss rfl⟩
  | some m =>
    cases hf : m.get (cacheKey c i) with
    | none =>
      simp only [Option.bind_some, hf, Option.map_none]
      rw [hm] at miss
      exact ⟨hi, stay_refl _, miss hf⟩
    | some e =>
      simp only [Option.bind_some, hf, Option.map_some]
      cases e with
      | localised _ _ => exact ⟨hi, stay_refl _, only_ok⟩
      | formatter f => exact sound_use hi hm hf values fun h => hX (.inr (.inl h))

/-- Threads, whatever they do. -/
theorem sound_thread (scriptOf : Str → S) (calls : List (Request D F)) (s : Shared S) :
    (syncThread L scriptOf calls []).Ok (Sound L) Stay (fun _ => True) s :=
  Act.Ok.weaken (thread_ok (Q := Only True) sound_blind scriptOf (fun tag fb ca c i => sound_literal tag fb ca c i fun _ => trivial)
    (fun tag fb ca c i vs => sound_format tag fb ca c i vs fun _ => trivial) calls [] s) fun _ _ => trivial

/-! ### After the lock of the cache is poisoned -/

/-- A sound state with a poisoned lock. -/
def Poisoned (L : LocEnv D F P) (s : Shared S) : Prop := Sound L s ∧ s.poisoned = true

theorem poisoned_blind : Blind (S := S) (Poisoned L) Stay where
  refl := stay_refl
  trans := stay_trans
  keep := fun s h s' h1 h2 h3 =>
    let k := sound_blind.keep s h.1 s' h1 h2 h3
    ⟨⟨k.1, h2.trans h.2⟩, k.2⟩

theorem poisoned_thread (scriptOf : Str → S) (calls : List (Request D F)) (s : Shared S) :
    (syncThread L scriptOf calls []).Ok (Poisoned L) Stay (fun as => ∀ x, some x ∈ as → x = .panic) s := by
  refine Act.Ok.weaken (thread_ok (Q := fun x => x = .panic) poisoned_blind scriptOf ?_ ?_ calls [] s) ?_
  · intro tag fb ca c i s
    refine Act.Ok.atomic fun s _ hi => ?_
    simp only [hi.2, if_true]
    exact ⟨hi, stay_refl _, rfl⟩
  · intro tag fb ca c i values s
    refine Act.Ok.atomic fun s _ hi => ?_
    simp only [hi.2, if_true]
    exact ⟨hi, stay_refl _, rfl⟩
  · rintro as ⟨as', rfl, h⟩ x hx
    exact h x hx

/-- The old threads, in the middle of something. -/
theorem poisoned_old {p : Act (Shared S) α} {s : Shared S} (h : p.Ok (Sound L) Stay (fun _ => True) s) :
    p.Ok (Poisoned L) Stay (fun _ => True) s := by
  induction p generalizing s with
  | done a => trivial
  | step ready effect next ih =>
    intro t hr hi hready
    obtain ⟨h1, h2, h3⟩ := h t hr hi.1 hready
    exact ⟨⟨h1, h2.2 hi.2⟩, h2, ih t h3⟩

/-! ### Ways into a poisoned lock -/

/-- Some steps of a thread. -/
def walk (n : Nat) (x : Shared S × Act (Shared S) α) : Shared S × Act (Shared S) α :=
  match n with
  | 0 => x
  | n + 1 => walk n (x.2.advance x.1)

theorem solo_walk (n : Nat) : ∀ (s : Shared S) (p : Act (Shared S) α), Act.Solo s p (walk n (s, p)).1 (walk n (s, p)).2 := by
  induction n with
  | zero => intro s p; exact .refl _ _
  | succ n ih => intro s p; exact .more (ih _ _)

theorem walk_literal (scriptOf : Str → S) {c i tag x t : Str} {fb : Bool} (hf : fetch L c i tag fb = .ok (x, t)) {s s' : Shared S}
    (hp : s.poisoned = false) (hc : ((AMap.get s.cache tag).bind fun m => m.get (cacheKey c i)) = none)
    (hs : s' = (store s (AMap.get s.cache tag).isSome t (cacheKey c i) (.localised x t)).getD { s with poisoned := true }) :
    (walk 5 (s, syncThread L scriptOf [.literal c i (some tag) (some fb) (some true)] [])).1 = s' := by
  subst hs
  simp only [walk, syncThread, syncCall, syncOptions, Act.read, Act.atomic, Act.bind, Act.advance, if_true, Option.getD_some,
    syncLiteral, hp, Bool.false_eq_true, if_false, hc, hf, syncReturn, storeStep]
  cases store s (AMap.get s.cache tag).isSome t (cacheKey c i) (.localised x t) <;> rfl

theorem walk_format (scriptOf : Str → S) {c i tag x t : Str} {fb : Bool} (hf : fetch L c i tag fb = .ok (x, t)) (hx : x ≠ [])
    {f : Formatter} (hn : Formatter.tryNew L.fmt x t (L.icuLanguage t) = .ok f) {s s' : Shared S}
    (hp : s.poisoned = false) (hc : s.cache = [])
    (hs : store s false tag (cacheKey c i) (.formatter f) = some s') :
    (walk 5 (s, syncThread L scriptOf [.format c i [] (some tag) (some fb) (some true)] [])).1 = s' := by
  simp only [walk, syncThread, syncCall, syncOptions, Act.read, Act.atomic, Act.bind, Act.advance, if_true, Option.getD_some,
    syncFormat, hp, Bool.false_eq_true, if_false, hc, AMap.get_nil, Option.bind_none, syncFormatMiss, hf, hx, hn, not_true,
    Option.isSome_none, storeStep, hs]

/-- One call with a cached formatter. -/
theorem walk_cached (scriptOf : Str → S) {c i tag : Str} (fb : Bool) (v : AMap Str (PValue D F)) (rest : List (Request D F))
    (answers : List (Option (LocM P (Str × Str)))) {s : Shared S} {m : AMap Str CacheData} {f : Formatter}
    (hp : s.poisoned = false) (hm : AMap.get s.cache tag = some m) (hk : m.get (cacheKey c i) = some (.formatter f))
    (hb : s.broken tag (cacheKey c i) = false) :
    let r := walk 4 (s, syncThread L scriptOf (.format c i v (some tag) (some fb) (some true) :: rest) answers)
    r.1.broken tag (cacheKey c i) = isPanic (f.format L.fmt v).1 ∧ r.1.poisoned = false ∧
      (∃ m', AMap.get r.1.cache tag = some m' ∧ m'.get (cacheKey c i) = some (.formatter (f.format L.fmt v).2)) ∧
      (isPanic (f.format L.fmt v).1 = false → ∃ answers', r.2 = syncThread L scriptOf rest answers') := by
  simp only [walk, syncThread, syncCall, syncOptions, Act.read, Act.atomic, Act.bind, Act.advance, if_true, Option.getD_some,
    syncFormat, hp, Bool.false_eq_true, if_false, hm, Option.bind_some, hk, Option.map_some, useFormatter, hb, formatCached, and_self,
    true_and]
  refine ⟨⟨_, AMap.get_insert_self _ _ _, AMap.get_insert_self _ _ _⟩, fun h => ?_⟩
  cases hx : (f.format L.fmt v).1 with
  | panic => rw [hx] at h; cases h
  | ok r => exact ⟨_, rfl⟩
  | err e => exact ⟨_, rfl⟩

theorem solo_break (scriptOf : Str → S) {c i tag : Str} (fb : Bool) (v : AMap Str (PValue D F)) :
    ∀ (history : List (AMap Str (PValue D F))) (answers : List (Option (LocM P (Str × Str)))) (s : Shared S) (m : AMap Str CacheData)
      (f : Formatter), s.poisoned = false → AMap.get s.cache tag = some m → m.get (cacheKey c i) = some (.formatter f) →
      s.broken tag (cacheKey c i) = false → ((after L.fmt f history).format L.fmt v).1 = .panic →
      ∃ s' p, Act.Solo s (syncThread L scriptOf
        ((history ++ [v]).map fun v => .format c i v (some tag) (some fb) (some true)) answers) s' p ∧
        s'.broken tag (cacheKey c i) = true ∧ s'.poisoned = false ∧
        ∃ m' f', AMap.get s'.cache tag = some m' ∧ m'.get (cacheKey c i) = some (.formatter f') := by
  intro history
  induction history with
  | nil =>
    intro answers s m f hp hm hk hb hx
    obtain ⟨h1, h2, ⟨m', h3, h4⟩, -⟩ := walk_cached scriptOf fb v [] answers hp hm hk hb
    refine ⟨_, _, solo_walk 4 _ _, ?_, h2, m', _, h3, h4⟩
    refine h1.trans ?_
    rw [show (f.format L.fmt v).1 = .panic from hx]
    rfl
  | cons h rest ih =>
    intro answers s m f hp hm hk hb hx
    obtain ⟨h1, h2, ⟨m', h3, h4⟩, h5⟩ := walk_cached scriptOf fb h
      ((rest ++ [v]).map fun v => .format c i v (some tag) (some fb) (some true)) answers hp hm hk hb
    cases hq : isPanic (f.format L.fmt h).1 with
    | true => exact ⟨_, _, solo_walk 4 _ _, h1.trans hq, h2, m', _, h3, h4⟩
    | false =>
      obtain ⟨answers', h6⟩ := h5 hq
      obtain ⟨s', p, h7, h8⟩ := ih answers' _ m' _ h2 h3 h4 (h1.trans hq) hx
      refine ⟨s', p, Act.Solo.trans (solo_walk 4 _ _) ?_, h8⟩
      refine cast ?_ h7
      rw [← h6]
      rfl

/-- A formatter is put in an empty cache. -/
theorem enter_formatter (scriptOf : Str → S) {c i tag x t : Str} {fb : Bool} (hf : fetch L c i tag fb = .ok (x, t)) (hx : x ≠ [])
    {f : Formatter} (hn : Formatter.tryNew L.fmt x t (L.icuLanguage t) = .ok f) (l : Localiser S) (hl : l.cache = []) :
    ∃ s' p, Act.Solo l.share (syncThread L scriptOf [.format c i [] (some tag) (some fb) (some true)] []) s' p ∧
      s'.cache = [(tag, [(cacheKey c i, .formatter f)])] ∧ s'.poisoned = false ∧ ∀ t k, s'.broken t k = false := by
  have hstore : store l.share false tag (cacheKey c i) (.formatter f) = some { l.share with
      cache := l.share.cache.insert tag [(cacheKey c i, .formatter f)],
      broken := fun t k => if t = tag then false else l.share.broken t k } := rfl
  have hw := walk_format scriptOf hf hx hn (s := l.share) rfl hl hstore
  refine ⟨_, _, solo_walk 5 _ _, ?_⟩
  rw [hw]
  refine ⟨?_, rfl, fun t k => ?_⟩
  · show AMap.insert l.cache _ _ = _
    rw [hl]; rfl
  · show (if t = tag then false else false) = false
    simp

/-- A string is put in an empty cache. -/
theorem enter_string (scriptOf : Str → S) {c i tag x t : Str} {fb : Bool} (hf : fetch L c i tag fb = .ok (x, t))
    (l : Localiser S) (hl : l.cache = []) :
    ∃ s' p, Act.Solo l.share (syncThread L scriptOf [.literal c i (some tag) (some fb) (some true)] []) s' p ∧
      s'.cache = [(t, [(cacheKey c i, .localised x t)])] ∧ s'.poisoned = false := by
  have hw := walk_literal scriptOf hf (s := l.share) rfl (by show ((AMap.get l.cache tag).bind _) = _; rw [hl]; rfl) rfl
  refine ⟨_, _, solo_walk 5 _ _, ?_⟩
  rw [hw]
  have : (AMap.get l.share.cache tag).isSome = false := by show (AMap.get l.cache tag).isSome = _; rw [hl]; rfl
  rw [this]
  refine ⟨?_, rfl⟩
  show AMap.insert l.cache _ _ = _
  rw [hl]; rfl

/-- Two threads that poison the lock of the cache. -/
theorem trap_reached (scriptOf : Str → S) (l : Localiser S) (hl : l.cache = []) (h : Trap L) :
    ∃ r1 r2 schedule, (runThreads l.share [syncThread L scriptOf [r1] [], syncThread L scriptOf [r2] []] schedule).1.poisoned = true := by
  obtain ⟨c, i, tag, fb, x, t, key, hf, ht, hcan, hkey⟩ := h
  obtain ⟨c', i', tag', fb', x', t', rfl, hf', hor⟩ := hcan
  have first : ∃ r1 s' p e, Act.Solo l.share (syncThread L scriptOf [r1] []) s' p ∧ s'.cache = [(tag, [(cacheKey c' i', e)])] ∧
      s'.poisoned = false := by
    rcases hor with rfl | ⟨rfl, hx, f, hn⟩
    · obtain ⟨s', p, h1, h2, h3⟩ := enter_string scriptOf hf' l hl
      exact ⟨_, s', p, _, h1, h2, h3⟩
    · obtain ⟨s', p, h1, h2, h3, -⟩ := enter_formatter scriptOf hf' hx hn l hl
      exact ⟨_, s', p, _, h1, h2, h3⟩
  obtain ⟨r1, s', p, e, h1, h2, h3⟩ := first
  let r2 : Request D F := .literal c i (some tag) (some fb) (some true)
  have hw := walk_literal scriptOf hf (s := s') h3 (by rw [h2]; simp [AMap.get_cons, hkey]) rfl
  obtain ⟨schedule, hsch⟩ := ((Act.Reach.refl l.share [syncThread L scriptOf [r1] [], syncThread L scriptOf [r2] []]).solo
    (i := 0) rfl h1).solo (i := 1) rfl (solo_walk 5 _ _)
  refine ⟨r1, r2, schedule, ?_⟩
  rw [hsch]
  show (walk 5 (s', _)).1.poisoned = true
  rw [hw]
  have hnone : AMap.get s'.cache t = none := by rw [h2]; simp [AMap.get_cons, Ne.symm ht]
  have hsome : (AMap.get s'.cache tag).isSome = true := by rw [h2]; simp [AMap.get_cons]
  rw [hsome]
  simp [store, hnone]

/-- Two threads that poison the lock of a formatter. -/
theorem break_reached (scriptOf : Str → S) (l : Localiser S) (hl : l.cache = []) {tag key : Str} (h : Breaks L tag key) :
    ∃ r1 calls schedule, let s := (runThreads l.share [syncThread L scriptOf [r1] [], syncThread L scriptOf calls []] schedule).1
      s.broken tag key = true ∧ s.poisoned = false ∧
      ∃ m' f', AMap.get s.cache tag = some m' ∧ m'.get key = some (.formatter f') := by
  obtain ⟨c, i, fb, x, t, f, history, v, rfl, hf, hx, hn, hpanic⟩ := h
  obtain ⟨s', p, h1, h2, h3, h4⟩ := enter_formatter scriptOf hf hx hn l hl
  obtain ⟨s'', q, h5, h6⟩ := solo_break (L := L) scriptOf (c := c) (i := i) (tag := tag) fb v history [] s'
    [(cacheKey c i, .formatter f)] f h3 (by rw [h2]; simp [AMap.get_cons]) (by simp [AMap.get_cons]) (h4 _ _) hpanic
  obtain ⟨schedule, hsch⟩ := ((Act.Reach.refl l.share [syncThread L scriptOf [.format c i [] (some tag) (some fb) (some true)] [],
    syncThread L scriptOf ((history ++ [v]).map fun v => .format c i v (some tag) (some fb) (some true)) []]).solo
    (i := 0) rfl h1).solo (i := 1) rfl h5
  refine ⟨.format c i [] (some tag) (some fb) (some true),
    (history ++ [v]).map fun v => .format c i v (some tag) (some fb) (some true), schedule, ?_⟩
  simp only
  rw [hsch]
  exact h6

end Verif.SyncLemmas
