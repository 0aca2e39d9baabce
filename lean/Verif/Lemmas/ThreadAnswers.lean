import Verif.Lemmas.ThreadPanics
import Verif.Lemmas.Transparent
/-
What threads can find in the shared cache, and the answers that follow.
-/
namespace Verif.SyncLemmas
open Verif Verif.Spec Verif.Act Verif.LocaliserLemmas

variable {D F P S : Type} {L : LocEnv D F P}

/-- What an entry can be; `b` tells whether its lock is poisoned. -/
def Shows (L : LocEnv D F P) (b : Bool) (tag key : Str) : CacheData → Prop
  | .localised s t => t = tag ∧ HoldsString L tag key s
  | .formatter f => b = true ∨ SharedFormatter L tag key f

/-- All entries. -/
structure Kept (L : LocEnv D F P) (s : Shared S) : Prop where
  sound : Sound L s
  shows : ∀ tag m, AMap.get s.cache tag = some m → ∀ k e, m.get k = some e → Shows L (s.broken tag k) tag k e

theorem kept_blind : Blind (S := S) (Kept L) Stay where
  refl := stay_refl
  trans := stay_trans
  keep := fun s h s' h1 h2 h3 =>
    let k := sound_blind.keep s h.sound s' h1 h2 h3
    ⟨⟨k.1, by rw [h1, h3]; exact h.shows⟩, k.2⟩

theorem shows_insert {s : Shared S} (h : Kept L s) {tag key : Str} {e : CacheData} {m : AMap Str CacheData} {broken : Str → Str → Bool}
    (he : Shows L (broken tag key) tag key e) (hm : ∀ k e, k ≠ key → m.get k = some e → Shows L (broken tag k) tag k e)
    (hb : ∀ t k, t ≠ tag → broken t k = s.broken t k) :
    ∀ tag' m', AMap.get (s.cache.insert tag (m.insert key e)) tag' = some m' → ∀ k e, m'.get k = some e →
      Shows L (broken tag' k) tag' k e := by
  intro t m' hg k e' hk
  rw [AMap.get_insert] at hg
  by_cases ht : tag = t
  · subst ht
    simp only [if_true] at hg
    cases hg
    rw [AMap.get_insert] at hk
    by_cases hkk : key = k
    · subst hkk
      simp only [if_true] at hk
      cases hk
      exact he
    · simp only [hkk, if_false] at hk
      exact hm k e' (Ne.symm hkk) hk
  · simp only [ht, if_false] at hg
    rw [hb t k (Ne.symm ht)]
    exact h.shows t m' hg k e' hk

theorem kept_store {tag key : Str} {e : CacheData} (he : Entered L tag key e) (hs : Shows L false tag key e) {ex : Bool}
    {rest : Call S P α} {Q : LocM P α → Prop}
    (hq : Trap L → Q .panic) {s0 : Shared S} (hex : ex = true → (AMap.get s0.cache tag).isSome = true ∨ Trap L)
    (hrest : ∀ s, (AMap.get s.cache tag).isSome = true → rest.Ok (Kept L) Stay Q s) :
    (storeStep ex tag key e rest).Ok (Kept L) Stay Q s0 := by
  refine Act.Ok.atomic fun s hr hi => ?_
  by_cases hp : s.poisoned = true
  · simp only [hp, if_true]
    exact ⟨hi, stay_refl _, hq (hi.sound.poisoned hp)⟩
  · simp only [hp, Bool.false_eq_true, if_false]
    unfold store
    cases ex with
    | false =>
      simp only [Bool.false_eq_true, not_false_eq_true, if_true]
      refine ⟨⟨?_, ?_⟩, stay_insert rfl rfl, hrest _ (by simp [AMap.get_insert_self])⟩
      · refine hi.sound.insert (m := []) he (by intro k e h; cases h) fun t k hb => ?_
        by_cases ht : t = tag
        · simp [ht] at hb
        · simp only [ht, if_false] at hb
          exact hi.sound.broken t k hb
      · exact shows_insert hi (m := []) (broken := fun t k => if t = tag then false else s.broken t k) (by simpa using hs)
          (fun k e _ h => by cases h) fun t k ht => by simp [ht]
    | true =>
      simp only [not_true, if_false]
      cases hg : AMap.get s.cache tag with
      | none =>
        have ht : Trap L := by
          rcases hex rfl with h | h
          · have := hr.1 tag h
            rw [hg] at this
            cases this
          · exact h
        exact ⟨⟨⟨hi.sound.entries, hi.sound.broken, fun _ => ht⟩, hi.shows⟩, ⟨fun _ h => h, fun _ => rfl⟩, hq ht⟩
      | some m =>
        refine ⟨⟨?_, ?_⟩, stay_insert rfl rfl, hrest _ (by simp [AMap.get_insert_self])⟩
        · refine hi.sound.insert he (hi.sound.entries tag m hg).2 fun t k hb => ?_
          by_cases ht : t = tag ∧ k = key
          · simp [ht] at hb
          · simp only [ht, if_false] at hb
            exact hi.sound.broken t k hb
        · refine shows_insert hi (broken := fun t k => if t = tag ∧ k = key then false else s.broken t k) (by simpa using hs)
            (fun k e hk h => ?_) fun t k ht => by simp [ht]
          simpa [hk] using hi.shows tag m hg k e h

theorem isPanic_true {x : FmtM (Str × Str)} (h : isPanic x = true) : x = .panic := by
  cases x with
  | panic => rfl
  | ok _ => cases h
  | err _ => cases h

theorem kept_use {s : Shared S} (hi : Kept L s) {m : AMap Str CacheData} {tag key : Str} {f : Formatter}
    (hm : AMap.get s.cache tag = some m) (hf : m.get key = some (.formatter f)) (values : AMap Str (PValue D F))
    {Q : LocM P (Str × Str) → Prop} (hb : Breaks L tag key → Q .panic)
    (hq : SharedFormatter L tag key f → Q ((f.format L.fmt values).1.mapErr .formatter)) :
    Kept L (useFormatter (P := P) L.fmt s m tag key f values).1 ∧ Stay s (useFormatter (P := P) L.fmt s m tag key f values).1 ∧
      (useFormatter (P := P) L.fmt s m tag key f values).2.Ok (Kept L) Stay Q (useFormatter (P := P) L.fmt s m tag key f values).1 := by
  obtain ⟨h1, h2, -⟩ := sound_use hi.sound hm hf values (X := True) fun _ => trivial
  cases hbr : s.broken tag key with
  | true =>
    simp only [useFormatter, hbr, if_true]
    exact ⟨hi, stay_refl _, hb (hi.sound.broken _ _ hbr)⟩
  | false =>
    have hsf : SharedFormatter L tag key f := by
      rcases hi.shows tag m hm key _ hf with h | h
      · rw [hbr] at h; cases h
      · exact h
    refine ⟨⟨h1, ?_⟩, h2, ?_⟩
    · simp only [useFormatter, hbr, Bool.false_eq_true, if_false, formatCached]
      refine shows_insert hi (broken := fun t k => if t = tag ∧ k = key then isPanic (f.format L.fmt values).1 else s.broken t k) ?_
        (fun k e hk h => ?_) fun t k ht => by simp [ht]
      · simp only [and_self, if_true]
        cases hp : isPanic (f.format L.fmt values).1 with
        | true => exact .inl rfl
        | false =>
          obtain ⟨c, i, fb, x, t, new, history, a1, a2, a3, a4, a5, rfl⟩ := hsf
          refine .inr ⟨c, i, fb, x, t, new, history ++ [values], a1, a2, a3, a4, quiet_snoc history a5 ?_, after_last _ _ _ _⟩
          intro h
          rw [h] at hp
          cases hp
      · simpa [hk] using hi.shows tag m hm k e h
    · simp only [useFormatter, hbr, Bool.false_eq_true, if_false]
      exact hq hsf

theorem kept_return {s : Shared S} {c i tag x t : Str} {fb : Bool} (hf : fetch L c i tag fb = .ok (x, t)) (ca : Bool) {ex : Bool}
    (hex : ex = true → (AMap.get s.cache t).isSome = true ∨ Trap L) {Q : LocM P (Str × Str) → Prop} (hx : Trap L → Q .panic)
    (hok : Q (.ok (x, t))) : (syncReturn (P := P) ca ex (cacheKey c i) x t).Ok (Kept L) Stay Q s := by
  unfold syncReturn
  cases ca with
  | false => exact hok
  | true =>
    simp only [if_true]
    refine kept_store (e := .localised x t) ⟨⟨c, i, tag, fb, x, t, rfl, hf, .inl rfl⟩, ?_⟩
      (show t = t ∧ HoldsString L t (cacheKey c i) x from ⟨rfl, c, i, tag, fb, rfl, hf⟩) hx hex fun _ _ => hok
    intro f h
    cases h

theorem kept_literal (tag : Str) (fb ca : Bool) (c i : Str) (s : Shared S) :
    (syncLiteral L c i tag fb ca).Ok (Kept L) Stay (LiteralAnswer L c i tag fb) s := by
  have hfound := fetch_found L c i tag fb
  refine Act.Ok.atomic fun s _ hi => ?_
  by_cases hp : s.poisoned = true
  · simp only [hp, if_true]
    exact ⟨hi, stay_refl _, .inr (.inr (.inr ⟨rfl, hi.sound.poisoned hp⟩))⟩
  · simp only [hp, Bool.false_eq_true, if_false]
    cases hm : AMap.get s.cache tag with
    | none =>
      refine ⟨hi, stay_refl _, ?_⟩
      simp only [Option.bind_none]
      cases hf : fetch L c i tag fb with
      | err e => rw [hf] at hfound; exact .inl hfound
      | panic => exact absurd hf (fetch_no_panic L c i tag fb)
      | ok r =>
        obtain ⟨x, t⟩ := r
        rw [hf] at hfound
        exact kept_return hf ca (ex := false) (fun h => nomatch h) (fun h => .inr (.inr (.inr ⟨rfl, h⟩))) (.inl hfound)
    | some m =>
      simp only [Option.bind_some]
      cases hk : m.get (cacheKey c i) with
      | some e =>
        have hsh := hi.shows tag m hm _ _ hk
        cases e with
        | localised x t =>
          obtain ⟨rfl, hh⟩ := hsh
          exact ⟨hi, stay_refl _, .inr (.inl ⟨x, hh, rfl⟩)⟩
        | formatter f =>
          obtain ⟨-, hmade⟩ := (hi.sound.entries tag m hm).2 _ _ hk
          obtain ⟨c', i', fb', x, t, f0, history, h1, h2, h3, h4, h5⟩ := hmade f rfl
          exact ⟨hi, stay_refl _, .inr (.inr (.inl ⟨rfl, f0, c', i', fb', x, t, f0, [], h1, h2, h3, h4, trivial, rfl⟩))⟩
      | none =>
        refine ⟨hi, stay_refl _, ?_⟩
        dsimp only
        cases hf : fetch L c i tag fb with
        | err e => rw [hf] at hfound; exact .inl hfound
        | panic => exact absurd hf (fetch_no_panic L c i tag fb)
        | ok r =>
          obtain ⟨x, t⟩ := r
          rw [hf] at hfound
          refine kept_return hf ca (fun _ => may_miss hi.sound hf (by rw [hm]; exact hk) (by rw [hm]; rfl))
            (fun h => .inr (.inr (.inr ⟨rfl, h⟩))) (.inl hfound)

/-- The formatter that was stored is looked up again. -/
theorem kept_reuse (tag key : Str) (values : AMap Str (PValue D F)) {Q : LocM P (Str × Str) → Prop}
    (hpanic : Trap L ∨ Breaks L tag key ∨ CanDrop L tag key → Q .panic)
    (hnever : (∃ s, HoldsString L tag key s) → Q (.err .neverReached))
    (hq : ∀ f, SharedFormatter L tag key f → Q ((f.format L.fmt values).1.mapErr .formatter))
    (s : Shared S) (hs : (AMap.get s.cache tag).isSome = true) :
    (syncReuse (P := P) L.fmt tag key values).Ok (Kept L) Stay Q s := by
  refine Act.Ok.atomic fun s hr hi => ?_
  by_cases hp : s.poisoned = true
  · simp only [hp, if_true]
    exact ⟨hi, stay_refl _, hpanic (.inl (hi.sound.poisoned hp))⟩
  · simp only [hp, Bool.false_eq_true, if_false]
    cases hm : AMap.get s.cache tag with
    | none =>
      have := hr.1 tag hs
      rw [hm] at this
      cases this
    | some m =>
      simp only
      cases hf : m.get key with
      | none =>
        refine ⟨hi, stay_refl _, hpanic (.inr (.inr ?_))⟩
        obtain ⟨⟨k, e, hk⟩, hall⟩ := hi.sound.entries tag m hm
        refine ⟨k, ?_, (hall k e hk).1⟩
        rintro rfl
        rw [hk] at hf
        cases hf
      | some e =>
        cases e with
        | localised x t =>
          obtain ⟨rfl, hh⟩ := hi.shows tag m hm _ _ hf
          exact ⟨hi, stay_refl _, hnever ⟨x, hh⟩⟩
        | formatter f => exact kept_use hi hm hf values (fun h => hpanic (.inr (.inl h))) (hq f)

theorem kept_format (tag : Str) (fb ca : Bool) (c i : Str) (values : AMap Str (PValue D F))
    (hX : Perils L tag (cacheKey c i) c i fb ca → FormatPanics L c i tag fb ca) (s : Shared S) :
    (syncFormat L c i values tag fb ca).Ok (Kept L) Stay
      (FormatAnswer L c i tag values fb ca (fetch L c i tag fb >>= shown L values)) s := by
  have hpan : Perils L tag (cacheKey c i) c i fb ca →
      FormatAnswer L c i tag values fb ca (fetch L c i tag fb >>= shown L values) .panic :=
    fun h => .inr (.inr (.inr (.inr ⟨rfl, hX h⟩)))
  refine Act.Ok.atomic fun s _ hi => ?_
  by_cases hp : s.poisoned = true
  · simp only [hp, if_true]
    exact ⟨hi, stay_refl _, hpan (.inl (hi.sound.poisoned hp))⟩
  simp only [hp, Bool.false_eq_true, if_false]
  have miss : ((AMap.get s.cache tag).bind fun m => m.get (cacheKey c i)) = none →
      (syncFormatMiss (S := S) L c i values tag fb ca (AMap.get s.cache tag).isSome).Ok (Kept L) Stay
        (FormatAnswer L c i tag values fb ca (fetch L c i tag fb >>= shown L values)) s := by
    intro hc
    unfold syncFormatMiss
    simp only
    cases hf : fetch L c i tag fb with
    | err e => exact .inl rfl
    | panic => exact absurd hf (fetch_no_panic L c i tag fb)
    | ok r =>
      obtain ⟨x, t⟩ := r
      rw [hf] at hpan
      simp only [Outcome.bind_ok] at hpan ⊢
      by_cases hx : x = []
      · rw [if_pos hx]
        refine kept_return hf ca (may_miss hi.sound hf hc) (fun h => hpan (.inl h)) (.inl ?_)
        simp [shown, formatString, hx, Outcome.mapErr]
      · rw [if_neg hx]
        cases hn : Formatter.tryNew L.fmt x t (L.icuLanguage t) with
        | panic => exact hpan (.inr (.inr ⟨x, t, hf, hx, .inl hn⟩))
        | err e =>
          have hng : e = .noGrammar ∨ e ≠ .noGrammar := Classical.em _
          rcases hng with rfl | hng
          · refine kept_return hf ca (may_miss hi.sound hf hc) (fun h => hpan (.inl h)) (.inl ?_)
            simp [shown, formatString, hx, hn, Outcome.mapErr]
          · have : (.err (.formatter e) : LocM P (Str × Str)) = shown L values (x, t) := by
              simp only [shown, formatString, hx, if_false, hn]
              cases e <;> first | rfl | exact absurd rfl hng
            cases e <;> first | exact absurd rfl hng | exact .inl this
        | ok f =>
          simp only
          have hplain : shown L values (x, t) = (f.format L.fmt values).1.mapErr .formatter := by
            simp [shown, formatString, hx, hn]
          cases ca with
          | false => exact .inl hplain.symm
          | true =>
            simp only [not_true, if_false]
            have hsf : SharedFormatter L tag (cacheKey c i) f := ⟨c, i, fb, x, t, f, [], rfl, hf, hx, hn, trivial, rfl⟩
            refine kept_store (e := .formatter f) ⟨⟨c, i, tag, fb, x, t, rfl, hf, .inr ⟨rfl, hx, f, hn⟩⟩, ?_⟩
              (show false = true ∨ SharedFormatter L tag (cacheKey c i) f from .inr hsf) (fun h => hpan (.inl h)) (fun h => .inl h)
              (kept_reuse tag _ values ?_ ?_ ?_)
            · intro f' hf'
              cases hf'
              exact ⟨c, i, fb, x, t, f, [], rfl, hf, hx, hn, rfl⟩
            · rintro (h | h | h)
              · exact hpan (.inl h)
              · exact hpan (.inr (.inl h))
              · exact hpan (.inr (.inr ⟨x, t, hf, hx, .inr ⟨rfl, h, f, hn⟩⟩))
            · exact fun h => .inr (.inr (.inr (.inl ⟨rfl, rfl, h, x, t, f, hf, hx, hn⟩)))
            · exact fun f' h => .inr (.inr (.inl ⟨f', h, rfl⟩))
  cases hm : AMap.get s.cache tag with
  | none =>
    rw [hm] at miss
    exact ⟨hi, stay_refl _, miss rfl⟩
  | some m =>
    cases hf : m.get (cacheKey c i) with
    | none =>
      simp only [Option.bind_some, hf, Option.map_none]
      rw [hm] at miss
      exact ⟨hi, stay_refl _, miss hf⟩
    | some e =>
      simp only [Option.bind_some, hf, Option.map_some]
      cases e with
      | localised x t =>
        obtain ⟨rfl, hh⟩ := hi.shows tag m hm _ _ hf
        exact ⟨hi, stay_refl _, .inr (.inl ⟨x, hh, rfl⟩)⟩
      | formatter f =>
        exact kept_use hi hm hf values (fun h => hpan (.inr (.inl h))) fun h => .inr (.inr (.inl ⟨f, h, rfl⟩))

/-! ### Reached -/

/-- A request finds a string in the cache. -/
theorem walk_string (scriptOf : Str → S) {s : Shared S} (hp : s.poisoned = false) {c i tag x t : Str} {m : AMap Str CacheData}
    (hm : AMap.get s.cache tag = some m) (hk : m.get (cacheKey c i) = some (.localised x t)) (fb ca : Bool)
    (values : AMap Str (PValue D F)) :
    (walk 4 (s, syncThread L scriptOf [.literal c i (some tag) (some fb) (some ca)] [])).2 = .done [some (.ok (x, t))] ∧
    (walk 4 (s, syncThread L scriptOf [.format c i values (some tag) (some fb) (some ca)] [])).2 = .done [some (.ok (x, t))] := by
  constructor <;>
  simp only [walk, syncThread, syncCall, syncOptions, Act.read, Act.atomic, Act.bind, Act.advance, if_true, Option.getD_some,
    syncLiteral, syncFormat, hp, Bool.false_eq_true, if_false, hm, Option.bind_some, hk, Option.map_some, List.nil_append]

theorem walk_done (n : Nat) (s : Shared S) (a : α) : walk n (s, (.done a : Act (Shared S) α)) = (s, .done a) := by
  induction n with
  | zero => rfl
  | succ n ih => exact ih

/-- The steps of a program followed by another that is at its end. -/
theorem walk_bind {k : α → Act (Shared S) β} {x : α} {y : β} (hk : k x = .done y) : ∀ (n : Nat) (s : Shared S) (p : Act (Shared S) α),
    (walk n (s, p)).2 = .done x → (walk n (s, p.bind k)).2 = .done y := by
  intro n
  induction n with
  | zero =>
    intro s p h
    have : p = .done x := h
    rw [this]
    exact hk
  | succ n ih =>
    intro s p h
    cases p with
    | done a =>
      rw [walk_done] at h
      cases h
      show (walk (n + 1) (s, k x)).2 = _
      rw [hk, walk_done]
    | step ready effect next =>
      simp only [walk, Act.advance, Act.bind] at h ⊢
      by_cases hr : ready s = true
      · simp only [hr, if_true] at h ⊢
        exact ih _ _ h
      · simp only [hr, Bool.false_eq_true, if_false] at h ⊢
        exact ih _ _ h

/-- A thread with one request to format. -/
theorem walk_one_format (scriptOf : Str → S) {n : Nat} {s : Shared S} {c i tag : Str} {fb ca : Bool} {values : AMap Str (PValue D F)}
    {x : LocM P (Str × Str)} (h : (walk n (s, syncFormat L c i values tag fb ca)).2 = .done x) :
    (walk (n + 3) (s, syncThread L scriptOf [.format c i values (some tag) (some fb) (some ca)] [])).2 = .done [some x] := by
  unfold syncThread
  refine walk_bind (x := some x) (by cases x <;> rfl) _ _ _ ?_
  have := walk_bind (k := fun r => (.done (some r) : Act (Shared S) _)) (rfl : (fun r => (.done (some r) : Act (Shared S) _)) x = .done (some x)) n s _ h
  exact this

/-- A request finds a formatter in the cache. -/
theorem walk_formatter (scriptOf : Str → S) {s : Shared S} (hp : s.poisoned = false) {c i tag : Str} {m : AMap Str CacheData}
    {f : Formatter} (hm : AMap.get s.cache tag = some m) (hk : m.get (cacheKey c i) = some (.formatter f))
    (hb : s.broken tag (cacheKey c i) = false) (fb ca : Bool) (values : AMap Str (PValue D F)) :
    (walk 4 (s, syncThread L scriptOf [.literal c i (some tag) (some fb) (some ca)] [])).2 = .done [some (.err (.cacheEntry c i))] ∧
    (walk 4 (s, syncThread L scriptOf [.format c i values (some tag) (some fb) (some ca)] [])).2 =
      .done [some ((f.format L.fmt values).1.mapErr .formatter)] := by
  constructor
  · simp only [walk, syncThread, syncCall, syncOptions, Act.read, Act.atomic, Act.bind, Act.advance, if_true, Option.getD_some,
      syncLiteral, hp, Bool.false_eq_true, if_false, hm, Option.bind_some, hk, List.nil_append]
  · refine walk_one_format (n := 1) scriptOf ?_
    simp only [walk, syncFormat, Act.atomic, Act.advance, if_true, hp, Bool.false_eq_true, if_false, hm, Option.bind_some, hk,
      Option.map_some, useFormatter, hb, formatCached]

/-- A request for a string on an empty cache. -/
theorem walk_alone_literal (scriptOf : Str → S) {s : Shared S} (hp : s.poisoned = false) (hc : s.cache = []) (c i tag : Str) (fb ca : Bool) :
    (walk 5 (s, syncThread L scriptOf [.literal c i (some tag) (some fb) (some ca)] [])).2 = .done [some (fetch L c i tag fb)] := by
  cases hf : fetch L c i tag fb with
  | panic => exact absurd hf (fetch_no_panic L c i tag fb)
  | err e =>
    simp only [walk, syncThread, syncCall, syncOptions, Act.read, Act.atomic, Act.bind, Act.advance, if_true, Option.getD_some,
      syncLiteral, hp, Bool.false_eq_true, if_false, hc, AMap.get_nil, Option.bind_none, hf, List.nil_append]
  | ok r =>
    cases ca <;>
    simp only [walk, syncThread, syncCall, syncOptions, Act.read, Act.atomic, Act.bind, Act.advance, if_true, Option.getD_some,
      syncLiteral, hp, Bool.false_eq_true, if_false, hc, AMap.get_nil, Option.bind_none, hf, List.nil_append, syncReturn, storeStep,
      store, not_false_eq_true, Option.isSome_none]

theorem walk_return {s : Shared S} (hp : s.poisoned = false) (ca : Bool) (key x t : Str) :
    (walk 2 (s, syncReturn (P := P) ca false key x t)).2 = .done (.ok (x, t)) := by
  cases ca <;>
  simp only [walk, syncReturn, storeStep, Act.atomic, Act.advance, if_true, hp, Bool.false_eq_true, if_false, store, not_false_eq_true]

/-- A request to format on an empty cache. -/
theorem walk_alone_format (scriptOf : Str → S) {s : Shared S} (hp : s.poisoned = false) (hc : s.cache = []) (c i tag : Str) (fb ca : Bool)
    (values : AMap Str (PValue D F)) :
    (walk 6 (s, syncThread L scriptOf [.format c i values (some tag) (some fb) (some ca)] [])).2 =
      .done [some (fetch L c i tag fb >>= shown L values)] := by
  refine walk_one_format (n := 3) scriptOf ?_
  have : (walk 3 (s, syncFormat L c i values tag fb ca)).2 = (walk 2 (s, syncFormatMiss L c i values tag fb ca false)).2 := by
    simp only [walk, syncFormat, Act.atomic, Act.advance, if_true, hp, Bool.false_eq_true, if_false, hc, AMap.get_nil, Option.bind_none,
      Option.isSome_none]
  rw [this]
  unfold syncFormatMiss
  cases hf : fetch L c i tag fb with
  | panic => exact absurd hf (fetch_no_panic L c i tag fb)
  | err e => rfl
  | ok r =>
    obtain ⟨x, t⟩ := r
    simp only [Outcome.bind_ok, shown, formatString]
    by_cases hx : x = []
    · simp only [hx, if_true]
      exact walk_return hp ca _ _ _
    · simp only [hx, if_false]
      cases hn : Formatter.tryNew L.fmt x t (L.icuLanguage t) with
      | panic => rfl
      | err e =>
        cases e <;> first | rfl | exact walk_return hp ca _ _ _
      | ok f =>
        cases ca with
        | false => rfl
        | true =>
          simp only [walk, storeStep, Act.atomic, Act.advance, if_true, hp, Bool.false_eq_true, if_false, store, not_false_eq_true, not_true,
            syncReuse, AMap.get_insert_self, AMap.get_cons, useFormatter, formatCached]

/-- A thread uses a cached formatter without panics. -/
theorem solo_quiet (scriptOf : Str → S) {c i tag : Str} (fb : Bool) :
    ∀ (history : List (AMap Str (PValue D F))) (answers : List (Option (LocM P (Str × Str)))) (s : Shared S) (m : AMap Str CacheData)
      (f : Formatter), s.poisoned = false → AMap.get s.cache tag = some m → m.get (cacheKey c i) = some (.formatter f) →
      s.broken tag (cacheKey c i) = false → Quiet L.fmt f history →
      ∃ s' p, Act.Solo s (syncThread L scriptOf
        (history.map fun v => .format c i v (some tag) (some fb) (some true)) answers) s' p ∧
        s'.broken tag (cacheKey c i) = false ∧ s'.poisoned = false ∧
        ∃ m', AMap.get s'.cache tag = some m' ∧ m'.get (cacheKey c i) = some (.formatter (after L.fmt f history)) := by
  intro history
  induction history with
  | nil =>
    intro answers s m f hp hm hk hb _
    exact ⟨s, _, .refl _ _, hb, hp, m, hm, hk⟩
  | cons h rest ih =>
    intro answers s m f hp hm hk hb hq
    obtain ⟨h1, h2, ⟨m', h3, h4⟩, h5⟩ := walk_cached scriptOf fb h
      (rest.map fun v => .format c i v (some tag) (some fb) (some true)) answers hp hm hk hb
    have hnp : isPanic (f.format L.fmt h).1 = false := by
      cases hx : isPanic (f.format L.fmt h).1 with
      | false => rfl
      | true => exact absurd (isPanic_true hx) hq.1
    obtain ⟨answers', h5⟩ := h5 hnp
    obtain ⟨s', p, h6, h7⟩ := ih answers' _ m' _ h2 h3 h4 (h1.trans hnp) hq.2
    have := solo_walk 4 s (syncThread L scriptOf (.format c i h (some tag) (some fb) (some true) ::
      rest.map fun v => .format c i v (some tag) (some fb) (some true)) answers)
    rw [h5] at this
    exact ⟨s', p, this.trans h6, h7⟩

/-- A thread puts a string in the cache. -/
theorem string_reached (scriptOf : Str → S) (l : Localiser S) (hl : l.cache = []) {tag key x : Str} (h : HoldsString L tag key x) :
    ∃ r schedule, let s := (runThreads l.share [syncThread L scriptOf [r] []] schedule).1
      s.poisoned = false ∧ ∃ m, AMap.get s.cache tag = some m ∧ m.get key = some (.localised x tag) := by
  obtain ⟨c, i, tag', fb, rfl, hf⟩ := h
  obtain ⟨s', p, h1, h2, h3⟩ := enter_string scriptOf hf l hl
  obtain ⟨schedule, hsch⟩ := (Act.Reach.refl l.share [syncThread L scriptOf [.literal c i (some tag') (some fb) (some true)] []]).solo
    (i := 0) rfl h1
  refine ⟨.literal c i (some tag') (some fb) (some true), schedule, ?_⟩
  simp only
  rw [hsch]
  exact ⟨h3, [(cacheKey c i, .localised x tag)], by simp only [h2]; simp [AMap.get_cons], by simp [AMap.get_cons]⟩

/-- Two threads make and use a formatter. -/
theorem formatter_reached (scriptOf : Str → S) (l : Localiser S) (hl : l.cache = []) {tag key : Str} {f : Formatter}
    (h : SharedFormatter L tag key f) :
    ∃ r1 calls schedule, let s := (runThreads l.share [syncThread L scriptOf [r1] [], syncThread L scriptOf calls []] schedule).1
      s.broken tag key = false ∧ s.poisoned = false ∧
      ∃ m, AMap.get s.cache tag = some m ∧ m.get key = some (.formatter f) := by
  obtain ⟨c, i, fb, x, t, new, history, rfl, hf, hx, hn, hq, rfl⟩ := h
  obtain ⟨s', p, h1, h2, h3, h4⟩ := enter_formatter scriptOf hf hx hn l hl
  obtain ⟨s'', q, h5, h6⟩ := solo_quiet (L := L) scriptOf (c := c) (i := i) (tag := tag) fb history [] s'
    [(cacheKey c i, .formatter new)] new h3 (by rw [h2]; simp [AMap.get_cons]) (by simp [AMap.get_cons]) (h4 _ _) hq
  obtain ⟨schedule, hsch⟩ := ((Act.Reach.refl l.share [syncThread L scriptOf [.format c i [] (some tag) (some fb) (some true)] [],
    syncThread L scriptOf (history.map fun v => .format c i v (some tag) (some fb) (some true)) []]).solo
    (i := 0) rfl h1).solo (i := 1) rfl h5
  refine ⟨.format c i [] (some tag) (some fb) (some true),
    history.map fun v => .format c i v (some tag) (some fb) (some true), schedule, ?_⟩
  simp only
  rw [hsch]
  exact h6

/-- A formatter whose entry is replaced by a string before it is used. -/
theorem never_reached (scriptOf : Str → S) (l : Localiser S) (hl : l.cache = []) {c i tag x t y : Str} {fb : Bool}
    (hf : fetch L c i tag fb = .ok (x, t)) (hx : x ≠ []) {f : Formatter}
    (hn : Formatter.tryNew L.fmt x t (L.icuLanguage t) = .ok f) (hd : HoldsString L tag (cacheKey c i) y) (values : AMap Str (PValue D F)) :
    ∃ r schedule, (runThreads l.share [syncThread L scriptOf [.format c i values (some tag) (some fb) (some true)] [],
      syncThread L scriptOf [r] []] schedule).2[0]? = some (.done [some (.err .neverReached)]) := by
  obtain ⟨c', i', tag', fb', hkey, hf'⟩ := hd
  let p := syncThread L scriptOf [.format c i values (some tag) (some fb) (some true)] []
  let r : Request D F := .literal c' i' (some tag') (some fb') (some true)
  have hc : l.share.cache = [] := hl
  have hnp : l.share.poisoned = false := rfl
  have hr1 : (walk 4 (l.share, syncThread L scriptOf [r] [])).1 = l.share := by
    simp only [r, walk, syncThread, syncCall, syncOptions, Act.read, Act.atomic, Act.bind, Act.advance, if_true, Option.getD_some,
      syncLiteral, hc, AMap.get_nil, Option.bind_none]
    rfl
  have hr2 : ∀ s : Shared S, s.poisoned = false → ((walk 4 (l.share, syncThread L scriptOf [r] [])).2.advance s).1 = { s with
        cache := s.cache.insert tag [(cacheKey c i, .localised y tag)],
        broken := fun t k => if t = tag then false else s.broken t k } := by
    intro s hp
    rw [hkey]
    simp only [r, walk, syncThread, syncCall, syncOptions, Act.read, Act.atomic, Act.bind, Act.advance, if_true, Option.getD_some,
      syncLiteral, hnp, Bool.false_eq_true, if_false, hc, AMap.get_nil, Option.bind_none, hf', syncReturn, Option.isSome_none, storeStep,
      hp, store, not_false_eq_true]
  have hp1 : (walk 5 (l.share, p)).1.poisoned = false := by
    simp only [p, walk, syncThread, syncCall, syncOptions, Act.read, Act.atomic, Act.bind, Act.advance, if_true, Option.getD_some,
      syncFormat, hnp, Bool.false_eq_true, if_false, hc, AMap.get_nil, Option.bind_none, syncFormatMiss, hf, hx, hn, not_true,
      Option.isSome_none, storeStep, store, not_false_eq_true]
  have hp2 : ∀ s : Shared S, s.poisoned = false → ∀ m, AMap.get s.cache tag = some m → m.get (cacheKey c i) = some (.localised y tag) →
      ((walk 5 (l.share, p)).2.advance s).2 = .done [some (.err .neverReached)] := by
    intro s hs m hm hk
    simp only [p, walk, syncThread, syncCall, syncOptions, Act.read, Act.atomic, Act.bind, Act.advance, if_true, Option.getD_some,
      syncFormat, hnp, Bool.false_eq_true, if_false, hc, AMap.get_nil, Option.bind_none, syncFormatMiss, hf, hx, hn, not_true,
      Option.isSome_none, storeStep, store, not_false_eq_true, syncReuse, hs, hm, hk, List.nil_append]
  have step : ∀ (s : Shared S) (p : Act (Shared S) (List (Option (LocM P (Str × Str))))), Act.Solo s p (p.advance s).1 (p.advance s).2 :=
    fun s p => .more (.refl _ _)
  have h1 := solo_walk 4 l.share (syncThread L scriptOf [r] [])
  rw [hr1] at h1
  obtain ⟨schedule, hsch⟩ := ((((Act.Reach.refl l.share [p, syncThread L scriptOf [r] []]).solo
    (i := 1) rfl h1).solo (i := 0) rfl (solo_walk 5 _ _)).solo (i := 1) rfl (step _ _)).solo (i := 0) rfl (step _ _)
  refine ⟨r, schedule, ?_⟩
  rw [hsch]
  show some ((walk 5 (l.share, p)).2.advance _).2 = _
  rw [hr2 _ hp1]
  exact congrArg some (hp2 _ hp1 _ (AMap.get_insert_self _ _ _) (by simp [AMap.get_cons]))

end Verif.SyncLemmas
