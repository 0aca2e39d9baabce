import Verif.Lemmas.Interleave
import Verif.Lemmas.LocaliserCache
import Verif.Model.LocaliserSync
/-
Requests of several threads: each is answered as without cache, or panics.
-/
namespace Verif.SyncLemmas
open Verif Verif.Spec Verif.Props Verif.FormatLemmas Verif.LocaliserLemmas

variable {D F P S α : Type}

/-- An entry is present. -/
def Has (s : Shared S) (tag key : Str) : Prop := ∃ m e, AMap.get s.cache tag = some m ∧ m.get key = some e

/-- A formatter that panicked. -/
def Spoilt (L : LocEnv D F P) (uses : List Use) (tag key : Str) (e : CacheData) : Prop :=
  ∃ f f', e = .formatter f ∧ EntryOk L uses tag key (.formatter f')

/-- Every entry stands for a string, or is a formatter whose lock is poisoned. -/
def EntriesOk (L : LocEnv D F P) (uses : List Use) (s : Shared S) : Prop :=
  ∀ tag m, AMap.get s.cache tag = some m → ∀ key e, m.get key = some e →
    EntryOk L uses tag key e ∨ Spoilt L uses tag key e ∧ s.broken tag key = true

/-- The invariant. `W` says that nothing is wrong: all languages have entries and no lock is poisoned. -/
structure Inv (L : LocEnv D F P) (uses : List Use) (tag : Str) (fallback : Bool) (W : Prop) (s : Shared S) : Prop where
  entries : EntriesOk L uses s
  tag : s.tag = tag
  fallback : s.fallback = fallback
  poisoned : W → s.poisoned = false
  broken : W → ∀ t k, s.broken t k = false
  warm : W → ∀ u ∈ uses, (AMap.get s.cache u.tag).isSome = true

/-- What steps keep. -/
def Keeps (W : Prop) (s s' : Shared S) : Prop := W → ∀ tag key, Has s tag key → Has s' tag key

theorem keeps_trans (W : Prop) (a b c : Shared S) (h1 : Keeps W a b) (h2 : Keeps W b c) : Keeps W a c :=
  fun w t k h => h2 w t k (h1 w t k h)

theorem keeps_refl (W : Prop) (a : Shared S) : Keeps W a a := fun _ _ _ h => h

/-- The answer or, if something is wrong, a panic. -/
def Is (W : Prop) (x : LocM P α) (a : LocM P α) : Prop := a = x ∨ a = .panic ∧ ¬ W

section
variable {L : LocEnv D F P} {uses : List Use} {tag0 : Str} {fb0 : Bool} {W : Prop}

/-- Programs that give the answer. -/
abbrev Good (L : LocEnv D F P) (uses : List Use) (tag0 : Str) (fb0 : Bool) (W : Prop) (x : LocM P α)
    (p : Call S P α) (s : Shared S) : Prop :=
  p.Ok (Inv L uses tag0 fb0 W) (Keeps W) (Is W x) s

theorem has_insert {s s' : Shared S} {tag : Str} {m' : AMap Str CacheData} (hc : s'.cache = s.cache.insert tag m')
    (hm : ∀ m k e, AMap.get s.cache tag = some m → m.get k = some e → ∃ e', m'.get k = some e') (t k : Str)
    (h : Has s t k) : Has s' t k := by
  obtain ⟨m, e, h1, h2⟩ := h
  unfold Has
  rw [hc]
  simp only [AMap.get_insert]
  by_cases ht : tag = t
  · subst ht
    obtain ⟨e', he'⟩ := hm m k e h1 h2
    exact ⟨m', e', by simp, he'⟩
  · exact ⟨m, e, by simp [ht, h1], h2⟩

theorem get_insert_some {m : AMap Str CacheData} {key k : Str} {e e' : CacheData} (h : m.get k = some e) :
    ∃ x, (m.insert key e').get k = some x := by
  rw [AMap.get_insert]
  by_cases hk : key = k
  · exact ⟨e', by simp [hk]⟩
  · exact ⟨e, by simp [hk, h]⟩

theorem warm_insert {s : Shared S} {tag : Str} {m' : AMap Str CacheData} (h : ∀ u ∈ uses, (AMap.get s.cache u.tag).isSome = true) :
    ∀ u ∈ uses, (AMap.get (s.cache.insert tag m') u.tag).isSome = true := by
  intro u hu
  rw [AMap.get_insert]
  by_cases ht : tag = u.tag
  · simp [ht]
  · simp only [ht, if_false]; exact h u hu

/-- A formatter in the cache is used. -/
theorem use_good (hco : Coherent L.provider) (ht : Tame L uses) {u : Use} (hu : u ∈ uses) (hl : u.formatted = true)
    (values : AMap Str (PValue D F))
    (hx : W → (fetch L u.component u.identifier u.tag u.fallback >>= shown L values) ≠ .panic)
    {s : Shared S} (hi : Inv L uses tag0 fb0 W s) {m : AMap Str CacheData} (hg : AMap.get s.cache u.tag = some m)
    {f : Formatter} (hk : m.get (cacheKey u.component u.identifier) = some (.formatter f)) :
    let r := useFormatter (P := P) L.fmt s m u.tag (cacheKey u.component u.identifier) f values
    Inv L uses tag0 fb0 W r.1 ∧ Keeps W s r.1 ∧
      Good L uses tag0 fb0 W (fetch L u.component u.identifier u.tag u.fallback >>= shown L values) r.2 r.1 := by
  unfold useFormatter
  by_cases hb : s.broken u.tag (cacheKey u.component u.identifier) = true
  · simp only [hb, if_true]
    exact ⟨hi, keeps_refl _ _, .inr ⟨rfl, fun w => by rw [hi.broken w] at hb; cases hb⟩⟩
  · simp only [hb, Bool.false_eq_true, if_false]
    have he := (hi.entries _ _ hg _ _ hk).resolve_right (fun h => hb h.2)
    have he' := he
    obtain ⟨v, hv, h1, h2, h3, str, t, lang, f0, d, history, h4, h5, h6, h7, h8, h9, h10⟩ := he'
    obtain ⟨e1, e2⟩ := cacheKey_inj h3 (ht.slash u hu) (ht.slash v hv)
    have hans : (f.format L.fmt values).1.mapErr LocErr.formatter =
        (fetch L u.component u.identifier u.tag u.fallback >>= shown L values) := by
      have hfb : u.fallback = v.fallback := ht.fallback u hu v hv e1 e2 h2.symm hl h1
      rw [e1, e2, hfb, h4]
      have hs := ht.numbers v hv h1 t str t (fetch_string hco h4) d h8
      have := C22_history_is_irrelevant_partial L.fmt h8 h7 hs history [] h10 (by intro v hv; cases hv) values
      subst h9
      simp only [Outcome.bind_ok, shown, formatString, h5, if_false, h6, h7, this]
      rfl
    have hnew : (f.format L.fmt values).1 ≠ .panic →
        EntryOk L uses u.tag (cacheKey u.component u.identifier) (.formatter (f.format L.fmt values).2) := by
      intro hp
      subst h9
      refine ⟨v, hv, h1, h2, h3, str, t, lang, f0, d, history ++ [values], h4, h5, h6, h7, h8, ?_, ended_snoc h8 h7 h10 hp⟩
      rw [after_snoc]
    have hnp : W → (f.format L.fmt values).1 ≠ .panic := by
      intro w hp
      exact hx w (hans ▸ (mapErr_panic _ _).2 hp)
    have hpan : isPanic (f.format L.fmt values).1 = false →
        (f.format L.fmt values).1 ≠ .panic := by
      intro h hp; rw [hp] at h; cases h
    refine ⟨⟨?_, hi.tag, hi.fallback, hi.poisoned, ?_, ?_⟩, ?_, .inl hans⟩
    · intro tag m' hg' key e hk'
      have hg' : AMap.get (AMap.insert s.cache u.tag (m.insert (cacheKey u.component u.identifier)
        (.formatter (f.format L.fmt values).2))) tag = some m' := hg'
      rw [AMap.get_insert] at hg'
      by_cases htag : u.tag = tag
      · subst htag
        simp only [if_true] at hg'
        cases hg'
        rw [AMap.get_insert] at hk'
        by_cases hkey : cacheKey u.component u.identifier = key
        · subst hkey
          simp only [if_true] at hk'
          cases hk'
          cases hq : isPanic (f.format L.fmt values).1 with
          | true => exact .inr ⟨⟨_, f, rfl, he⟩, by simp⟩
          | false => exact .inl (hnew (hpan hq))
        · simp only [hkey, if_false] at hk'
          have := hi.entries _ _ hg _ _ hk'
          have hne : ¬ key = cacheKey u.component u.identifier := fun h => hkey h.symm
          simpa [hne] using this
      · simp only [htag, if_false] at hg'
        have hne : ¬ (tag = u.tag ∧ key = cacheKey u.component u.identifier) := fun h => htag h.1.symm
        simpa [hne] using hi.entries _ _ hg' _ _ hk'
    · intro w t' k'
      by_cases hne : t' = u.tag ∧ k' = cacheKey u.component u.identifier
      · simp only [hne, and_self, if_true]
        cases hq : isPanic (f.format L.fmt values).1 with
        | true =>
          cases hq' : (f.format L.fmt values).1 with
          | panic => exact absurd hq' (hnp w)
          | ok _ => rw [hq'] at hq; exact hq.symm
          | err _ => rw [hq'] at hq; exact hq.symm
        | false => rfl
      · simp only [hne, if_false]; exact hi.broken w _ _
    · intro w
      exact warm_insert (hi.warm w)
    · intro w t' k'
      refine has_insert (s' := { s with cache := _, broken := _ }) rfl ?_ t' k'
      intro m' k e hm' he
      rw [hg] at hm'
      cases hm'
      exact get_insert_some he

/-- An entry is put in the cache. -/
theorem store_good {x : LocM P α} {tag key : Str} {e : CacheData} (he : EntryOk L uses tag key e) {ex : Bool}
    (hex : W → ex = true) (hw : W → ∃ u ∈ uses, u.tag = tag) {rest : Call S P α} {s0 : Shared S}
    (hrest : ∀ s, Has s tag key → Good L uses tag0 fb0 W x rest s) :
    Good L uses tag0 fb0 W x (storeStep ex tag key e rest) s0 := by
  refine Act.Ok.atomic fun s _ hi => ?_
  by_cases hp : s.poisoned = true
  · simp only [hp, if_true]
    exact ⟨hi, keeps_refl _ _, .inr ⟨rfl, fun w => by rw [hi.poisoned w] at hp; cases hp⟩⟩
  · simp only [hp, Bool.false_eq_true, if_false]
    unfold store
    cases ex with
    | false =>
      have hnw : ¬ W := fun w => by cases hex w
      simp only [Bool.false_eq_true, not_false_eq_true, if_true]
      refine ⟨⟨?_, hi.tag, hi.fallback, fun w => absurd w hnw, fun w => absurd w hnw, fun w => absurd w hnw⟩,
        fun w => absurd w hnw, hrest _ ?_⟩
      · intro tag' m' hg' key' e' hk'
        simp only [AMap.get_insert] at hg'
        by_cases htag : tag = tag'
        · subst htag
          simp only [if_true] at hg'
          cases hg'
          exact .inl (entries_single he _ _ hk')
        · simp only [htag, if_false] at hg'
          have hne : ¬ tag' = tag := fun h => htag h.symm
          simp only [hne, if_false]
          exact hi.entries _ _ hg' _ _ hk'
      · exact ⟨_, e, AMap.get_insert_self _ _ _, by simp [AMap.get_cons]⟩
    | true =>
      simp only [not_true, if_false]
      cases hg : AMap.get s.cache tag with
      | none =>
        have hnw : ¬ W := by
          intro w
          obtain ⟨u, hu, hut⟩ := hw w
          have := hi.warm w u hu
          rw [hut, hg] at this
          cases this
        refine ⟨⟨hi.entries, hi.tag, hi.fallback, fun w => absurd w hnw, fun w => absurd w hnw, fun w => absurd w hnw⟩,
          fun w => absurd w hnw, .inr ⟨rfl, hnw⟩⟩
      | some m =>
        refine ⟨⟨?_, hi.tag, hi.fallback, hi.poisoned, ?_, ?_⟩, ?_, hrest _ ?_⟩
        · intro tag' m' hg' key' e' hk'
          simp only [AMap.get_insert] at hg'
          by_cases htag : tag = tag'
          · subst htag
            simp only [if_true] at hg'
            cases hg'
            rw [AMap.get_insert] at hk'
            by_cases hkey : key = key'
            · subst hkey
              simp only [if_true] at hk'
              cases hk'
              exact .inl he
            · simp only [hkey, if_false] at hk'
              have hne : ¬ key' = key := fun h => hkey h.symm
              simpa [hne] using hi.entries _ _ hg _ _ hk'
          · simp only [htag, if_false] at hg'
            have hne : ¬ (tag' = tag ∧ key' = key) := fun h => htag h.1.symm
            simp only [hne, if_false]
            exact hi.entries _ _ hg' _ _ hk'
        · intro w t' k'
          simp only
          by_cases hne : t' = tag ∧ k' = key
          · simp [hne]
          · simp only [hne, if_false]; exact hi.broken w _ _
        · intro w
          exact warm_insert (hi.warm w)
        · intro w t' k'
          refine has_insert (s' := { s with cache := _, broken := _ }) rfl ?_ t' k'
          intro m' k e hm' he
          rw [hg] at hm'
          cases hm'
          exact get_insert_some he
        · exact ⟨_, e, AMap.get_insert_self _ _ _, AMap.get_insert_self _ _ _⟩

theorem return_good (hexact : W → Exact L uses) {u : Use} (hu : u ∈ uses) {key s t : Str}
    (hf : fetch L u.component u.identifier u.tag u.fallback = .ok (s, t)) (he : EntryOk L uses t key (.localised s t))
    (ca : Bool) {ex : Bool} (hex : W → ex = true) (s0 : Shared S) :
    Good L uses tag0 fb0 W (.ok (s, t)) (syncReturn (P := P) ca ex key s t) s0 := by
  unfold syncReturn
  cases ca with
  | false => exact .inl rfl
  | true => exact store_good he hex (fun w => ⟨u, hu, (hexact w u hu s t (hf ▸ fetch_found L _ _ _ _)).symm⟩) fun s _ => .inl rfl

theorem literal_good (hco : Coherent L.provider) (ht : Tame L uses) (hexact : W → Exact L uses) {u : Use} (hu : u ∈ uses)
    (hl : u.formatted = false) (ca : Bool) (s0 : Shared S) :
    Good L uses tag0 fb0 W (fetch L u.component u.identifier u.tag u.fallback)
      (syncLiteral (P := P) L u.component u.identifier u.tag u.fallback ca) s0 := by
  refine Act.Ok.atomic fun s _ hi => ?_
  by_cases hp : s.poisoned = true
  · simp only [hp, if_true]
    exact ⟨hi, keeps_refl _ _, .inr ⟨rfl, fun w => by rw [hi.poisoned w] at hp; cases hp⟩⟩
  · simp only [hp, Bool.false_eq_true, if_false]
    have hmiss : ∀ ex, (W → ex = true) → Good L uses tag0 fb0 W (fetch L u.component u.identifier u.tag u.fallback)
        (match fetch L u.component u.identifier u.tag u.fallback with
        | .err e => .done (.err e)
        | .panic => .done .panic
        | .ok (str, t) => syncReturn ca ex (cacheKey u.component u.identifier) str t) s := by
      intro ex hex
      cases hf : fetch L u.component u.identifier u.tag u.fallback with
      | err e => exact .inl rfl
      | panic => exact .inl rfl
      | ok r => exact return_good hexact hu hf ⟨rfl, u, hu, rfl, fetch_string hco hf, by simp [hl]⟩ ca hex s
    cases hg : AMap.get s.cache u.tag with
    | none =>
      refine ⟨hi, keeps_refl _ _, hmiss _ fun w => ?_⟩
      have := hi.warm w u hu
      rw [hg] at this
      exact this
    | some m =>
      simp only [Option.bind_some]
      cases hk : m.get (cacheKey u.component u.identifier) with
      | none => exact ⟨hi, keeps_refl _ _, hmiss _ fun _ => rfl⟩
      | some e =>
        have he := hi.entries _ _ hg _ _ hk
        cases e with
        | localised str t =>
          obtain ⟨h1, v, hv, h2, h3, _⟩ := he.resolve_right (fun h => by obtain ⟨⟨f, _, hf, _⟩, _⟩ := h; cases hf)
          obtain ⟨h4, h5⟩ := cacheKey_inj h2 (ht.slash u hu) (ht.slash v hv)
          refine ⟨hi, keeps_refl _ _, .inl ?_⟩
          rw [h1, h4, h5, fetch_of_string h3]
        | formatter f =>
          exfalso
          have he : ∃ f', EntryOk L uses u.tag (cacheKey u.component u.identifier) (.formatter f') := by
            rcases he with he | ⟨⟨_, f', _, he⟩, _⟩
            · exact ⟨f, he⟩
            · exact ⟨f', he⟩
          obtain ⟨f', v, hv, h1, h2, h3, str, t, lang, f0, d, history, h4, h5, h6, h7, _⟩ := he
          obtain ⟨e1, e2⟩ := cacheKey_inj h3 (ht.slash u hu) (ht.slash v hv)
          rcases ht.kinds v hv u hu e1.symm e2.symm h1 hl t str t (fetch_string hco h4) with hp | hp
          · exact h5 hp
          · rw [hp] at h7; cases h7

/-- A cached string under the requested tag is returned as it is. -/
theorem cached_asIs (ht : Tame L uses) {u : Use} (hu : u ∈ uses) (hl : u.formatted = true) {str t : Str}
    (he : EntryOk L uses u.tag (cacheKey u.component u.identifier) (.localised str t)) :
    fetch L u.component u.identifier u.tag u.fallback = .ok (str, t) ∧ AsIs L str t := by
  obtain ⟨h1, v, hv, h2, h3, h4⟩ := he
  obtain ⟨e1, e2⟩ := cacheKey_inj h2 (ht.slash u hu) (ht.slash v hv)
  constructor
  · rw [h1, e1, e2, fetch_of_string h3]
  · cases hlv : v.formatted with
    | true => exact h4 hlv
    | false =>
      refine Plain.asIs (ht.kinds u hu v hv e1 e2 hl hlv t str t ?_) t
      rw [e1, e2]; exact h3

theorem reuse_good (hco : Coherent L.provider) (ht : Tame L uses) {u : Use} (hu : u ∈ uses) (hl : u.formatted = true)
    (values : AMap Str (PValue D F)) {str t : Str} (hf : fetch L u.component u.identifier u.tag u.fallback = .ok (str, t))
    (hs : str ≠ []) {f : Formatter} (hn : Formatter.tryNew L.fmt str t (L.icuLanguage t) = .ok f)
    (hx : W → shown L values (str, t) ≠ .panic) {s0 : Shared S}
    (hh : Has s0 u.tag (cacheKey u.component u.identifier)) :
    Good L uses tag0 fb0 W (shown L values (str, t))
      (syncReuse (P := P) L.fmt u.tag (cacheKey u.component u.identifier) values) s0 := by
  refine Act.Ok.atomic fun s hr hi => ?_
  by_cases hp : s.poisoned = true
  · simp only [hp, if_true]
    exact ⟨hi, keeps_refl _ _, .inr ⟨rfl, fun w => by rw [hi.poisoned w] at hp; cases hp⟩⟩
  · simp only [hp, Bool.false_eq_true, if_false]
    cases hg : AMap.get s.cache u.tag with
    | none =>
      refine ⟨hi, keeps_refl _ _, .inr ⟨rfl, fun w => ?_⟩⟩
      obtain ⟨m, e, h1, _⟩ := hr w _ _ hh
      rw [hg] at h1; cases h1
    | some m =>
      simp only
      cases hk : m.get (cacheKey u.component u.identifier) with
      | none =>
        refine ⟨hi, keeps_refl _ _, .inr ⟨rfl, fun w => ?_⟩⟩
        obtain ⟨m', e, h1, h2⟩ := hr w _ _ hh
        rw [hg] at h1; cases h1
        rw [hk] at h2; cases h2
      | some e =>
        cases e with
        | localised str' t' =>
          exfalso
          have he := (hi.entries _ _ hg _ _ hk).resolve_right (fun h => by obtain ⟨⟨f, _, hf, _⟩, _⟩ := h; cases hf)
          obtain ⟨h1, h2⟩ := cached_asIs ht hu hl he
          rw [hf] at h1
          cases h1
          rcases h2 with h2 | h2
          · exact hs h2
          · rw [hn] at h2; cases h2
        | formatter f' =>
          have := use_good (S := S) (W := W) (tag0 := tag0) (fb0 := fb0) hco ht hu hl values
            (by rw [hf]; exact hx) hi hg hk
          rw [hf] at this
          exact this

theorem format_good (hco : Coherent L.provider) (ht : Tame L uses) (hexact : W → Exact L uses) {u : Use} (hu : u ∈ uses)
    (hl : u.formatted = true) (values : AMap Str (PValue D F)) (ca : Bool)
    (hx : W → (fetch L u.component u.identifier u.tag u.fallback >>= shown L values) ≠ .panic) (s0 : Shared S) :
    Good L uses tag0 fb0 W (fetch L u.component u.identifier u.tag u.fallback >>= shown L values)
      (syncFormat (P := P) L u.component u.identifier values u.tag u.fallback ca) s0 := by
  refine Act.Ok.atomic fun s _ hi => ?_
  by_cases hp : s.poisoned = true
  · simp only [hp, if_true]
    exact ⟨hi, keeps_refl _ _, .inr ⟨rfl, fun w => by rw [hi.poisoned w] at hp; cases hp⟩⟩
  · simp only [hp, Bool.false_eq_true, if_false]
    have hmiss : ∀ ex, (W → ex = true) →
        Good L uses tag0 fb0 W (fetch L u.component u.identifier u.tag u.fallback >>= shown L values)
        (syncFormatMiss (P := P) L u.component u.identifier values u.tag u.fallback ca ex) s := by
      intro ex hex
      unfold syncFormatMiss
      cases hf : fetch L u.component u.identifier u.tag u.fallback with
      | err e => exact .inl rfl
      | panic => exact .inl rfl
      | ok r =>
        obtain ⟨str, t⟩ := r
        rw [hf] at hx
        simp only [Outcome.bind_ok] at hx ⊢
        have hret : AsIs L str t → Good L uses tag0 fb0 W (shown L values (str, t))
            (syncReturn (P := P) ca ex (cacheKey u.component u.identifier) str t) s := by
          intro ha
          rw [ha.shown]
          exact return_good hexact hu hf ⟨rfl, u, hu, rfl, fetch_string hco hf, fun _ => ha⟩ ca hex s
        by_cases hs : str = []
        · simp only [hs, if_true]
          rw [hs] at hret
          exact hret (.inl rfl)
        · simp only [hs, if_false]
          cases hn : Formatter.tryNew L.fmt str t (L.icuLanguage t) with
          | panic =>
            refine .inl ?_
            simp only [shown, formatString, hs, if_false, hn]
            rfl
          | err e =>
            cases e with
            | noGrammar => exact hret (.inr hn)
            | _ =>
              refine .inl ?_
              simp only [shown, formatString, hs, if_false, hn]
              rfl
          | ok f =>
            cases ca with
            | false =>
              refine .inl ?_
              simp [shown, formatString, hs, hn]
            | true =>
              simp only [not_true, if_false]
              cases hlang : L.icuLanguage t with
              | none => rw [hlang] at hn; exact absurd hn tryNew_none
              | some lang =>
                have hn' := hn
                rw [hlang] at hn'
                obtain ⟨d, hd⟩ := tryNew_reads hn'
                have hentry : EntryOk L uses u.tag (cacheKey u.component u.identifier) (.formatter f) :=
                  ⟨u, hu, hl, rfl, rfl, str, t, lang, f, d, [], hf, hs, hlang, hn', hd, rfl, by intro v hv; cases hv⟩
                exact store_good hentry hex (fun _ => ⟨u, hu, rfl⟩) fun s hh => reuse_good hco ht hu hl values hf hs hn hx hh
    cases hg : AMap.get s.cache u.tag with
    | none =>
      refine ⟨hi, keeps_refl _ _, hmiss _ fun w => ?_⟩
      have := hi.warm w u hu
      rw [hg] at this
      exact this
    | some m =>
      simp only [Option.bind_some]
      cases hk : m.get (cacheKey u.component u.identifier) with
      | none => exact ⟨hi, keeps_refl _ _, hmiss _ fun _ => rfl⟩
      | some e =>
        cases e with
        | localised str t =>
          have he := (hi.entries _ _ hg _ _ hk).resolve_right (fun h => by obtain ⟨⟨f, _, hf, _⟩, _⟩ := h; cases hf)
          obtain ⟨h1, h2⟩ := cached_asIs ht hu hl he
          refine ⟨hi, keeps_refl _ _, .inl ?_⟩
          rw [h1, Outcome.bind_ok, h2.shown]
        | formatter f => exact use_good hco ht hu hl values hx hi hg hk

mutual
theorem data_good (hco : Coherent L.provider) (ht : Tame L uses) (hexact : W → Exact L uses) (tag : Str)
    (fb ca : Bool) (c i : Str) (values : Option (List (Str × PValue D F)))
    (hu : ∀ u ∈ dataUses tag fb c i values, u ∈ uses) (hx : W → (actualData L tag fb false c i values []).1 ≠ .panic)
    (s0 : Shared S) :
    Good L uses tag0 fb0 W (actualData L tag fb false c i values []).1 (syncData (P := P) L tag fb ca c i values) s0 := by
  match values with
  | none =>
    simp only [actualData, actualLiteral_nil, syncData]
    exact literal_good hco ht hexact (u := ⟨c, i, tag, fb, false⟩) (hu _ (by simp [dataUses])) rfl ca s0
  | some vs =>
    have hn := resolveValues_nil L tag fb vs []
    have hv := values_good hco ht hexact tag fb ca vs (fun u hm => hu u (by simp [dataUses, hm])) [] (by
      intro w hp
      refine hx w ?_
      simp only [actualData]
      generalize resolveValues L tag fb false vs [] [] = y at hp ⊢
      obtain ⟨y1, y2⟩ := y
      simp only at hp
      subst hp
      rfl) s0
    simp only [actualData, syncData] at hx ⊢
    generalize resolveValues L tag fb false vs [] [] = y at hv hn hx ⊢
    obtain ⟨y1, y2⟩ := y
    simp only at hn
    subst hn
    refine Act.Ok.bind (keeps_trans W) (keeps_refl W) hv fun a s' _ ha => ?_
    rcases ha with ha | ⟨ha, hw⟩
    rotate_left
    · subst ha; exact .inr ⟨rfl, hw⟩
    · subst ha
      cases a with
      | ok m =>
        simp only [actualFormat_nil] at hx ⊢
        exact format_good hco ht hexact (u := ⟨c, i, tag, fb, true⟩) (hu _ (by simp [dataUses])) rfl m ca hx s'
      | err e => exact .inl rfl
      | panic => exact .inl rfl

theorem values_good (hco : Coherent L.provider) (ht : Tame L uses) (hexact : W → Exact L uses) (tag : Str)
    (fb ca : Bool) (values : List (Str × PValue D F)) (hu : ∀ u ∈ valueUses tag fb values, u ∈ uses)
    (acc : AMap Str (PValue D F)) (hx : W → (resolveValues L tag fb false values acc []).1 ≠ .panic) (s0 : Shared S) :
    Good L uses tag0 fb0 W (resolveValues L tag fb false values acc []).1
      (syncValues (P := P) L tag fb ca values acc) s0 := by
  match values with
  | [] => simp only [resolveValues, syncValues]; exact .inl rfl
  | (name, .localisationData c i vs) :: rest =>
    have hn := actualData_nil L tag fb c i vs
    have hd := data_good hco ht hexact tag fb ca c i vs (fun u hm => hu u (by simp [valueUses, hm])) (by
      intro w hp
      refine hx w ?_
      simp only [resolveValues]
      generalize actualData L tag fb false c i vs [] = y at hp ⊢
      obtain ⟨y1, y2⟩ := y
      simp only at hp
      subst hp
      rfl) s0
    simp only [resolveValues, syncValues] at hx ⊢
    generalize actualData L tag fb false c i vs [] = y at hd hn hx ⊢
    obtain ⟨y1, y2⟩ := y
    simp only at hn
    subst hn
    refine Act.Ok.bind (keeps_trans W) (keeps_refl W) hd fun a s' _ ha => ?_
    rcases ha with ha | ⟨ha, hw⟩
    rotate_left
    · subst ha; exact .inr ⟨rfl, hw⟩
    · subst ha
      match a with
      | .ok (s, t) => exact values_good hco ht hexact tag fb ca rest (fun u hm => hu u (by simp [valueUses, hm])) _ hx s'
      | .err e => exact .inl rfl
      | .panic => exact .inl rfl
  | (name, .string _) :: rest =>
    simp only [resolveValues, syncValues] at hx ⊢
    exact values_good hco ht hexact tag fb ca rest (fun u hm => hu u (by simp [valueUses, hm])) _ hx s0
  | (name, .integer _) :: rest =>
    simp only [resolveValues, syncValues] at hx ⊢
    exact values_good hco ht hexact tag fb ca rest (fun u hm => hu u (by simp [valueUses, hm])) _ hx s0
  | (name, .unsigned _) :: rest =>
    simp only [resolveValues, syncValues] at hx ⊢
    exact values_good hco ht hexact tag fb ca rest (fun u hm => hu u (by simp [valueUses, hm])) _ hx s0
  | (name, .float _) :: rest =>
    simp only [resolveValues, syncValues] at hx ⊢
    exact values_good hco ht hexact tag fb ca rest (fun u hm => hu u (by simp [valueUses, hm])) _ hx s0
  | (name, .taggedString _ _) :: rest =>
    simp only [resolveValues, syncValues] at hx ⊢
    exact values_good hco ht hexact tag fb ca rest (fun u hm => hu u (by simp [valueUses, hm])) _ hx s0
  | (name, .localised _ _) :: rest =>
    simp only [resolveValues, syncValues] at hx ⊢
    exact values_good hco ht hexact tag fb ca rest (fun u hm => hu u (by simp [valueUses, hm])) _ hx s0
  | (name, .fixedDecimal _) :: rest =>
    simp only [resolveValues, syncValues] at hx ⊢
    exact values_good hco ht hexact tag fb ca rest (fun u hm => hu u (by simp [valueUses, hm])) _ hx s0
  | (name, .dateTime _ _) :: rest =>
    simp only [resolveValues, syncValues] at hx ⊢
    exact values_good hco ht hexact tag fb ca rest (fun u hm => hu u (by simp [valueUses, hm])) _ hx s0
  | (name, .date _) :: rest =>
    simp only [resolveValues, syncValues] at hx ⊢
    exact values_good hco ht hexact tag fb ca rest (fun u hm => hu u (by simp [valueUses, hm])) _ hx s0
  | (name, .time _) :: rest =>
    simp only [resolveValues, syncValues] at hx ⊢
    exact values_good hco ht hexact tag fb ca rest (fun u hm => hu u (by simp [valueUses, hm])) _ hx s0
end


/-! ### Threads -/

theorem options_good {I : Shared S → Prop} {R : Shared S → Shared S → Prop} {Q : α → Prop} (hrefl : ∀ s, R s s)
    (htag : ∀ s, I s → s.tag = tag0) (hfb : ∀ s, I s → s.fallback = fb0) (tag : Option Str) (fb ca : Option Bool)
    {rest : Str → Bool → Bool → Act (Shared S) α}
    (h : ∀ c s, (rest (tag.getD tag0) (fb.getD fb0) c).Ok I R Q s) (s0 : Shared S) :
    (syncOptions tag fb ca rest).Ok I R Q s0 := by
  unfold syncOptions
  refine Act.Ok.atomic_bind fun s _ hi => ⟨hi, hrefl _, ?_⟩
  refine Act.Ok.atomic_bind fun s' _ hi' => ⟨hi', hrefl _, ?_⟩
  refine Act.Ok.atomic_bind fun s'' _ hi'' => ⟨hi'', hrefl _, ?_⟩
  simp only [Act.bind]
  rw [htag s hi, hfb s' hi']
  exact h _ _

theorem call_good (hco : Coherent L.provider) (ht : Tame L uses) (hexact : W → Exact L uses) (scriptOf : Str → S)
    (l : Localiser S) (r : Request D F) (hst : Steady r) (hu : ∀ u ∈ requestUses l.tag l.fallback r, u ∈ uses)
    (hx : W → plainAnswer L scriptOf l r ≠ some .panic) (s0 : Shared S) :
    (syncCall L scriptOf r).Ok (Inv L uses l.tag l.fallback W) (Keeps W)
      (fun a => a = plainAnswer L scriptOf l r ∨ a = some .panic ∧ ¬ W) s0 := by
  have hdone : ∀ (x : LocM P (Str × Str)) (p : Call S P (Str × Str)) s, Good L uses l.tag l.fallback W x p s →
      (p.bind fun r => (.done (some r) : Act (Shared S) _)).Ok (Inv L uses l.tag l.fallback W) (Keeps W)
        (fun a => a = some x ∨ a = some .panic ∧ ¬ W) s := by
    intro x p s h
    refine Act.Ok.bind (keeps_trans W) (keeps_refl W) h fun a s' _ ha => ?_
    rcases ha with ha | ⟨ha, hw⟩
    · exact .inl (by rw [ha])
    · exact .inr ⟨by rw [ha], hw⟩
  cases r with
  | format c i vs t fb ca =>
    refine options_good (keeps_refl W) (fun s h => h.tag) (fun s h => h.fallback) _ _ _ (fun ca s => ?_) s0
    simp only [plainAnswer, uncached, Localiser.call, Option.getD_some, actualFormat_nil] at hx ⊢
    exact hdone _ _ _ (format_good hco ht hexact (u := ⟨c, i, t.getD l.tag, fb.getD l.fallback, true⟩)
      (hu _ (by simp [requestUses])) rfl vs ca (fun w hp => hx w (by rw [hp])) s)
  | literal c i t fb ca =>
    refine options_good (keeps_refl W) (fun s h => h.tag) (fun s h => h.fallback) _ _ _ (fun ca s => ?_) s0
    simp only [plainAnswer, uncached, Localiser.call, Option.getD_some, actualLiteral_nil]
    exact hdone _ _ _ (literal_good hco ht hexact (u := ⟨c, i, t.getD l.tag, fb.getD l.fallback, false⟩)
      (hu _ (by simp [requestUses])) rfl ca s)
  | data c i vs t fb ca =>
    refine options_good (keeps_refl W) (fun s h => h.tag) (fun s h => h.fallback) _ _ _ (fun ca s => ?_) s0
    simp only [plainAnswer, uncached, Localiser.call, Option.getD_some] at hx ⊢
    exact hdone _ _ _ (data_good hco ht hexact _ _ ca c i vs (fun u hm => hu u hm) (fun w hp => hx w (by rw [hp])) s)
  | defaults t fb ca =>
    obtain ⟨rfl, rfl⟩ := hst
    cases ca with
    | none => exact .inl rfl
    | some b =>
      refine Act.Ok.atomic_bind fun s _ hi => ⟨?_, keeps_refl W s, Or.inl rfl⟩
      exact ⟨hi.entries, hi.tag, hi.fallback, hi.poisoned, hi.broken, hi.warm⟩

theorem thread_good (hco : Coherent L.provider) (ht : Tame L uses) (hexact : W → Exact L uses) (scriptOf : Str → S)
    (l : Localiser S) (calls : List (Request D F)) (hst : ∀ r ∈ calls, Steady r)
    (hu : ∀ r ∈ calls, ∀ u ∈ requestUses l.tag l.fallback r, u ∈ uses)
    (hx : W → ∀ r ∈ calls, plainAnswer L scriptOf l r ≠ some .panic) : ∀ answers (s0 : Shared S),
    (syncThread L scriptOf calls answers).Ok (Inv L uses l.tag l.fallback W) (Keeps W)
      (fun as => ∃ as', as = answers ++ as' ∧ Answers W (calls.map (plainAnswer L scriptOf l)) as') s0 := by
  induction calls with
  | nil => intro answers s0; exact ⟨[], by simp, .inl rfl⟩
  | cons r rest ih =>
    intro answers s0
    have hr : W → plainAnswer L scriptOf l r ≠ some .panic := fun w => hx w r (by simp)
    refine Act.Ok.bind (keeps_trans W) (keeps_refl W)
      (call_good hco ht hexact scriptOf l r (hst r (by simp)) (hu r (by simp)) hr s0) fun a s' _ ha => ?_
    have hgo : a = plainAnswer L scriptOf l r →
        (syncThread L scriptOf rest (answers ++ [a])).Ok (Inv L uses l.tag l.fallback W) (Keeps W)
        (fun as => ∃ as', as = answers ++ as' ∧ Answers W ((r :: rest).map (plainAnswer L scriptOf l)) as') s' := by
      intro ha
      refine Act.Ok.weaken (ih (fun q hq => hst q (by simp [hq])) (fun q hq => hu q (by simp [hq]))
        (fun w q hq => hx w q (by simp [hq])) _ s') ?_
      rintro as ⟨as', rfl, h⟩
      refine ⟨a :: as', by simp, ?_⟩
      rcases h with h | ⟨hw, n, hn, h⟩
      · exact .inl (by simp [h, ha])
      · exact .inr ⟨hw, n + 1, by simpa using hn, by simp [h, ha]⟩
    have hpan : a = some .panic → ¬ W → (∃ as', answers ++ [a] = answers ++ as' ∧
        Answers W ((r :: rest).map (plainAnswer L scriptOf l)) as') := by
      intro ha hw
      exact ⟨[a], rfl, .inr ⟨hw, 0, by simp, by simp [ha]⟩⟩
    match a, ha, hgo, hpan with
    | some .panic, ha, _, hpan =>
      refine hpan rfl fun w => ?_
      rcases ha with ha | ⟨_, hw⟩
      · exact hr w ha.symm
      · exact hw w
    | some (.ok x), ha, hgo, _ =>
      rcases ha with ha | ⟨h, _⟩
      · exact hgo ha
      · cases h
    | some (.err x), ha, hgo, _ =>
      rcases ha with ha | ⟨h, _⟩
      · exact hgo ha
      · cases h
    | none, ha, hgo, _ =>
      rcases ha with ha | ⟨h, _⟩
      · exact hgo ha
      · cases h
end

/-! ### One thread alone -/

theorem alone_done (a : α) (s : Shared S) : (Act.done a : Act (Shared S) α).alone s = (s, some a) := rfl

theorem isPanic_false {x : FmtM (Str × Str)} (h : x ≠ .panic) : isPanic x = false := by
  cases x <;> first | rfl | exact absurd rfl h

theorem alone_use (E : FmtEnv D F) (l : Localiser S) (m : AMap Str CacheData) (tag key : Str) (f : Formatter)
    (values : AMap Str (PValue D F)) (hp : (formatCached (P := P) E l.cache m tag key f values).1 ≠ .panic) :
    let r := useFormatter (P := P) E l.share m tag key f values
    r.2.alone r.1 = (({ l with cache := (formatCached (P := P) E l.cache m tag key f values).2 } : Localiser S).share,
      some (formatCached (P := P) E l.cache m tag key f values).1) := by
  have hp' : (f.format E values).1 ≠ .panic := fun h => hp ((mapErr_panic _ _).2 h)
  simp only [useFormatter, Localiser.share, Bool.false_eq_true, if_false, isPanic_false hp', Act.alone, ite_self]

theorem alone_storeStep (l : Localiser S) (ex : Bool) (tag key : Str) (e : CacheData) (rest : Call S P α) :
    (storeStep ex tag key e rest).alone l.share =
      if ¬ ex then rest.alone ({ l with cache := l.cache.insert tag [(key, e)] } : Localiser S).share
      else
        match AMap.get l.cache tag with
        | none => ({ l.share with poisoned := true }, some .panic)
        | some m => rest.alone ({ l with cache := l.cache.insert tag (m.insert key e) } : Localiser S).share := by
  rw [storeStep, Act.alone_atomic]
  simp only [Localiser.share, Bool.false_eq_true, if_false, store]
  cases ex with
  | false => simp [ite_self]
  | true =>
    simp only [not_true, if_false]
    cases AMap.get l.cache tag with
    | none => rfl
    | some m => simp [ite_self]

theorem alone_return (l : Localiser S) (ca ex : Bool) (key s t : Str)
    (hp : (returnString (P := P) l.cache ca ex key s t).1 ≠ .panic) :
    (syncReturn (P := P) ca ex key s t).alone l.share =
      (({ l with cache := (returnString (P := P) l.cache ca ex key s t).2 } : Localiser S).share,
        some (returnString (P := P) l.cache ca ex key s t).1) := by
  unfold syncReturn returnString addStringToCache at *
  cases ca with
  | false => rfl
  | true =>
    simp only [if_true] at hp ⊢
    rw [alone_storeStep]
    cases ex with
    | false => rfl
    | true =>
      simp only [not_true, if_false] at hp ⊢
      cases hg : AMap.get l.cache t with
      | none => rw [hg] at hp; exact absurd rfl hp
      | some m => rfl

theorem alone_literal (L : LocEnv D F P) (l : Localiser S) (c i tag : Str) (fb ca : Bool)
    (hp : (actualLiteral L l.cache c i tag fb ca).1 ≠ .panic) :
    (syncLiteral L c i tag fb ca).alone l.share =
      (({ l with cache := (actualLiteral L l.cache c i tag fb ca).2 } : Localiser S).share,
        some (actualLiteral L l.cache c i tag fb ca).1) := by
  rw [syncLiteral, Act.alone_atomic]
  have hc : l.share.cache = l.cache := rfl
  have hpo : l.share.poisoned = false := rfl
  simp only [hc, hpo, Bool.false_eq_true, if_false]
  unfold actualLiteral at hp ⊢
  dsimp only at hp ⊢
  generalize (AMap.get l.cache tag).bind (fun m => m.get (cacheKey c i)) = entry at hp ⊢
  match entry, hp with
  | some (.localised s t), _ => rfl
  | some (.formatter f), _ => rfl
  | none, hp =>
    simp only at hp ⊢
    cases hf : fetch L c i tag fb with
    | err e => rfl
    | panic => rw [hf] at hp; exact absurd rfl hp
    | ok r =>
      rw [hf] at hp
      exact alone_return l ca _ _ _ _ hp

theorem alone_reuse (E : FmtEnv D F) (l : Localiser S) (tag key : Str) (values : AMap Str (PValue D F))
    {m : AMap Str CacheData} {f : Formatter} (hg : AMap.get l.cache tag = some m) (hk : m.get key = some (.formatter f))
    (hp : (formatCached (P := P) E l.cache m tag key f values).1 ≠ .panic) :
    (syncReuse (P := P) E tag key values).alone l.share =
      (({ l with cache := (formatCached (P := P) E l.cache m tag key f values).2 } : Localiser S).share,
        some (formatCached (P := P) E l.cache m tag key f values).1) := by
  rw [syncReuse, Act.alone_atomic]
  have hc : l.share.cache = l.cache := rfl
  have hpo : l.share.poisoned = false := rfl
  simp only [hc, hpo, Bool.false_eq_true, if_false, hg, hk]
  exact alone_use E l m tag key f values hp

theorem alone_format (L : LocEnv D F P) (l : Localiser S) (c i : Str) (values : AMap Str (PValue D F)) (tag : Str)
    (fb ca : Bool) (hp : (actualFormat L l.cache c i values tag fb ca).1 ≠ .panic) :
    (syncFormat L c i values tag fb ca).alone l.share =
      (({ l with cache := (actualFormat L l.cache c i values tag fb ca).2 } : Localiser S).share,
        some (actualFormat L l.cache c i values tag fb ca).1) := by
  rw [syncFormat, Act.alone_atomic]
  have hc : l.share.cache = l.cache := rfl
  have hpo : l.share.poisoned = false := rfl
  simp only [hc, hpo, Bool.false_eq_true, if_false]
  unfold actualFormat at hp ⊢
  dsimp only at hp ⊢
  generalize he : (AMap.get l.cache tag).bind (fun m => (m.get (cacheKey c i)).map fun d => (m, d)) = entry at hp ⊢
  match entry, he, hp with
  | some (_, .localised s t), _, _ => rfl
  | some (m, .formatter f), _, hp => exact alone_use L.fmt l m tag _ f values hp
  | none, _, hp =>
    simp only [syncFormatMiss] at hp ⊢
    cases hf : fetch L c i tag fb with
    | err e => rfl
    | panic => rw [hf] at hp; exact absurd rfl hp
    | ok r =>
      obtain ⟨s, t⟩ := r
      rw [hf] at hp
      simp only at hp ⊢
      by_cases hs : s = []
      · simp only [hs, if_true] at hp ⊢
        exact alone_return l ca _ _ _ _ hp
      · simp only [hs, if_false] at hp ⊢
        cases hn : Formatter.tryNew L.fmt s t (L.icuLanguage t) with
        | panic => rw [hn] at hp; exact absurd rfl hp
        | err e =>
          rw [hn] at hp
          cases e with
          | noGrammar => exact alone_return l ca _ _ _ _ hp
          | _ => rfl
        | ok f =>
          rw [hn] at hp
          cases ca with
          | false => rfl
          | true =>
            simp only [not_true, if_false] at hp ⊢
            rw [alone_storeStep]
            unfold cacheFormatter at hp ⊢
            cases hg : AMap.get l.cache tag with
            | none =>
              rw [hg] at hp
              simp only [Option.isSome_none, Bool.false_eq_true, not_false_eq_true, if_true, AMap.get_insert_self,
                AMap.get_cons] at hp ⊢
              exact alone_reuse L.fmt { l with cache := _ } tag _ values (AMap.get_insert_self _ _ _)
                (by simp [AMap.get_cons]) hp
            | some m =>
              rw [hg] at hp
              simp only [Option.isSome_some, not_true, if_false, AMap.get_insert_self] at hp ⊢
              exact alone_reuse L.fmt { l with cache := _ } tag _ values (AMap.get_insert_self _ _ _)
                (AMap.get_insert_self _ _ _) hp

mutual
theorem alone_data (L : LocEnv D F P) (tag : Str) (fb ca : Bool) (c i : Str) (values : Option (List (Str × PValue D F)))
    (l : Localiser S) (hp : (actualData L tag fb ca c i values l.cache).1 ≠ .panic) :
    (syncData L tag fb ca c i values).alone l.share =
      (({ l with cache := (actualData L tag fb ca c i values l.cache).2 } : Localiser S).share,
        some (actualData L tag fb ca c i values l.cache).1) := by
  match values with
  | none =>
    simp only [actualData, syncData] at hp ⊢
    exact alone_literal L l c i tag fb ca hp
  | some vs =>
    have hv := alone_values L tag fb ca vs [] l
    simp only [actualData, syncData] at hp ⊢
    rw [Act.alone_bind]
    generalize resolveValues L tag fb ca vs [] l.cache = y at hv hp ⊢
    obtain ⟨y1, y2⟩ := y
    cases y1 with
    | ok m =>
      rw [hv (by simp)]
      exact alone_format L { l with cache := y2 } c i m tag fb ca hp
    | err e => rw [hv (by simp)]; rfl
    | panic => exact absurd rfl hp

theorem alone_values (L : LocEnv D F P) (tag : Str) (fb ca : Bool) (values : List (Str × PValue D F))
    (acc : AMap Str (PValue D F)) (l : Localiser S) (hp : (resolveValues L tag fb ca values acc l.cache).1 ≠ .panic) :
    (syncValues L tag fb ca values acc).alone l.share =
      (({ l with cache := (resolveValues L tag fb ca values acc l.cache).2 } : Localiser S).share,
        some (resolveValues L tag fb ca values acc l.cache).1) := by
  match values with
  | [] => simp only [resolveValues, syncValues]; rfl
  | (name, .localisationData c i vs) :: rest =>
    have hd := alone_data L tag fb ca c i vs l
    simp only [resolveValues, syncValues] at hp ⊢
    rw [Act.alone_bind]
    generalize actualData L tag fb ca c i vs l.cache = y at hd hp ⊢
    obtain ⟨y1, y2⟩ := y
    match y1, hd, hp with
    | .ok (s, t), hd, hp =>
      rw [hd (by simp)]
      exact alone_values L tag fb ca rest _ { l with cache := y2 } hp
    | .err e, hd, _ => rw [hd (by simp)]; rfl
    | .panic, _, hp => exact absurd rfl hp
  | (name, .string _) :: rest =>
    simp only [resolveValues, syncValues] at hp ⊢
    exact alone_values L tag fb ca rest _ l hp
  | (name, .integer _) :: rest =>
    simp only [resolveValues, syncValues] at hp ⊢
    exact alone_values L tag fb ca rest _ l hp
  | (name, .unsigned _) :: rest =>
    simp only [resolveValues, syncValues] at hp ⊢
    exact alone_values L tag fb ca rest _ l hp
  | (name, .float _) :: rest =>
    simp only [resolveValues, syncValues] at hp ⊢
    exact alone_values L tag fb ca rest _ l hp
  | (name, .taggedString _ _) :: rest =>
    simp only [resolveValues, syncValues] at hp ⊢
    exact alone_values L tag fb ca rest _ l hp
  | (name, .localised _ _) :: rest =>
    simp only [resolveValues, syncValues] at hp ⊢
    exact alone_values L tag fb ca rest _ l hp
  | (name, .fixedDecimal _) :: rest =>
    simp only [resolveValues, syncValues] at hp ⊢
    exact alone_values L tag fb ca rest _ l hp
  | (name, .dateTime _ _) :: rest =>
    simp only [resolveValues, syncValues] at hp ⊢
    exact alone_values L tag fb ca rest _ l hp
  | (name, .date _) :: rest =>
    simp only [resolveValues, syncValues] at hp ⊢
    exact alone_values L tag fb ca rest _ l hp
  | (name, .time _) :: rest =>
    simp only [resolveValues, syncValues] at hp ⊢
    exact alone_values L tag fb ca rest _ l hp
end

theorem alone_options (l : Localiser S) (tag : Option Str) (fb ca : Option Bool)
    (rest : Str → Bool → Bool → Act (Shared S) α) :
    (syncOptions tag fb ca rest).alone l.share =
      (rest (tag.getD l.tag) (fb.getD l.fallback) (ca.getD l.caching)).alone l.share := by
  simp [syncOptions, Act.read, Act.atomic, Act.bind, Act.alone, Localiser.share]

theorem alone_call (L : LocEnv D F P) (scriptOf : Str → S) (l : Localiser S) (r : Request D F)
    (hp : (l.call L scriptOf r).1 ≠ some .panic) :
    (syncCall L scriptOf r).alone l.share = ((l.call L scriptOf r).2.share, some (l.call L scriptOf r).1) := by
  cases r with
  | format c i vs t fb ca =>
    simp only [syncCall, alone_options, Localiser.call] at hp ⊢
    rw [Act.alone_bind_some (alone_format L l c i vs _ _ _ (fun h => hp (by rw [h])))]
    rfl
  | literal c i t fb ca =>
    simp only [syncCall, alone_options, Localiser.call] at hp ⊢
    rw [Act.alone_bind_some (alone_literal L l c i _ _ _ (fun h => hp (by rw [h])))]
    rfl
  | data c i vs t fb ca =>
    simp only [syncCall, alone_options, Localiser.call] at hp ⊢
    rw [Act.alone_bind_some (alone_data L _ _ _ c i vs l (fun h => hp (by rw [h])))]
    rfl
  | defaults t fb ca =>
    cases t <;> cases fb <;> cases ca <;> rfl

theorem alone_thread (L : LocEnv D F P) (scriptOf : Str → S) (calls : List (Request D F)) :
    ∀ (l : Localiser S) answers, NoPanic L scriptOf l calls →
      (syncThread L scriptOf calls answers).alone l.share =
        ((l.after L scriptOf calls).share, some (answers ++ answersOf L scriptOf l calls)) := by
  induction calls with
  | nil => intro l answers _; simp [syncThread, Act.alone, Localiser.after, answersOf]
  | cons r rest ih =>
    intro l answers hn
    rw [syncThread, Act.alone_bind_some (alone_call L scriptOf l r hn.1)]
    have := ih (l.call L scriptOf r).2 (answers ++ [(l.call L scriptOf r).1]) hn.2
    have hn1 := hn.1
    simp only [answersOf, Localiser.after, List.foldl_cons] at this ⊢
    rw [List.append_assoc] at this
    simp only [List.singleton_append] at this
    exact this

end Verif.SyncLemmas
