import Verif.Spec.Caching
import Verif.Lemmas.LocaliserCache
/-
What is cached stays cached and is used again.
-/
namespace Verif.LocaliserLemmas
open Verif Verif.Spec

variable {D F P S : Type}

/-! ### Entries -/

theorem cached_insert {cache : Cache} {v : Use} (h : Cached cache v) {tag : Str} {m' : AMap Str CacheData}
    (hm : ∀ m, AMap.get cache tag = some m → ∀ k e, m.get k = some e → ∃ e', m'.get k = some e') :
    Cached (AMap.insert cache tag m') v := by
  obtain ⟨m, e, h1, h2⟩ := h
  by_cases ht : tag = v.tag
  · subst ht
    obtain ⟨e', he'⟩ := hm m h1 _ e h2
    exact ⟨m', e', AMap.get_insert_self _ _ _, he'⟩
  · exact ⟨m, e, by rw [AMap.get_insert_ne _ _ ht, h1], h2⟩

theorem more_insert {m : AMap Str CacheData} (key : Str) (e' : CacheData) (k : Str) (e : CacheData) (h : m.get k = some e) :
    ∃ e'', (m.insert key e').get k = some e'' := by
  by_cases hk : key = k
  · exact ⟨e', by rw [hk, AMap.get_insert_self]⟩
  · exact ⟨e, by rw [AMap.get_insert_ne _ _ hk, h]⟩

theorem cached_put (cache : Cache) (tag : Str) (m : AMap Str CacheData) (u : Use) (ht : u.tag = tag) (e : CacheData) :
    Cached (AMap.insert cache tag (m.insert (cacheKey u.component u.identifier) e)) u :=
  ⟨_, e, by rw [ht, AMap.get_insert_self], AMap.get_insert_self _ _ _⟩

theorem formatCached_keeps {E : FmtEnv D F} {cache : Cache} {m : AMap Str CacheData} {tag key : Str}
    (hm : AMap.get cache tag = some m) (f : Formatter) (values : AMap Str (PValue D F)) {v : Use} (h : Cached cache v) :
    Cached (formatCached (P := P) E cache m tag key f values).2 v := by
  refine cached_insert h fun m' hm' k e he => ?_
  rw [hm] at hm'
  cases hm'
  exact more_insert _ _ _ _ he

theorem returnString_keeps {cache : Cache} (ca : Bool) {tag : Str} (key s : Str) {v : Use} (h : Cached cache v) :
    Cached (returnString (P := P) cache ca (AMap.get cache tag).isSome key s tag).2 v := by
  unfold returnString addStringToCache
  cases ca with
  | false => exact h
  | true =>
    cases hg : AMap.get cache tag with
    | none => exact cached_insert h fun m hm => by rw [hg] at hm; cases hm
    | some m =>
      refine cached_insert h fun m' hm' k e he => ?_
      rw [hg] at hm'
      cases hm'
      exact more_insert _ _ _ _ he

theorem returnString_caches (cache : Cache) (u : Use) (s : Str) :
    Cached (returnString (P := P) cache true (AMap.get cache u.tag).isSome (cacheKey u.component u.identifier) s u.tag).2 u := by
  unfold returnString addStringToCache
  cases hg : AMap.get cache u.tag with
  | none => exact ⟨_, .localised s u.tag, AMap.get_insert_self _ _ _, by simp [AMap.get]⟩
  | some m => exact cached_put _ _ _ _ rfl _

theorem cacheFormatter_entry (E : FmtEnv D F) (cache : Cache) (tag key : Str) (f : Formatter)
    (values : AMap Str (PValue D F)) :
    ∃ m', (∀ m, AMap.get cache tag = some m → ∀ k e, m.get k = some e → ∃ e', AMap.get m' k = some e') ∧
      (∃ e, AMap.get m' key = some e) ∧
      (cacheFormatter (P := P) E cache (AMap.get cache tag).isSome tag key f values).2 =
        AMap.insert (AMap.insert cache tag m') tag (m'.insert key (.formatter (f.format E values).2)) := by
  cases hg : AMap.get cache tag with
  | none =>
    refine ⟨[(key, .formatter f)], (fun m hm => (nomatch hm)), ⟨.formatter f, by simp [AMap.get]⟩, ?_⟩
    simp [cacheFormatter, AMap.get_insert_self, AMap.get, formatCached]
  | some m =>
    refine ⟨m.insert key (.formatter f), fun m' hm' k e he => ?_, ⟨_, AMap.get_insert_self _ _ _⟩, ?_⟩
    · cases hm'
      exact more_insert _ _ _ _ he
    · simp [cacheFormatter, hg, AMap.get_insert_self, formatCached]

theorem cacheFormatter_keeps (E : FmtEnv D F) (cache : Cache) (tag key : Str) (f : Formatter)
    (values : AMap Str (PValue D F)) {v : Use} (h : Cached cache v) :
    Cached (cacheFormatter (P := P) E cache (AMap.get cache tag).isSome tag key f values).2 v := by
  obtain ⟨m', h1, _, h3⟩ := cacheFormatter_entry (P := P) E cache tag key f values
  rw [h3]
  refine cached_insert (cached_insert h h1) fun m hm k e he => ?_
  rw [AMap.get_insert_self] at hm
  cases hm
  exact more_insert _ _ _ _ he

theorem cacheFormatter_caches (E : FmtEnv D F) (cache : Cache) (u : Use) (f : Formatter) (values : AMap Str (PValue D F)) :
    Cached (cacheFormatter (P := P) E cache (AMap.get cache u.tag).isSome u.tag (cacheKey u.component u.identifier) f values).2
      u := by
  obtain ⟨m', _, _, h3⟩ := cacheFormatter_entry (P := P) E cache u.tag (cacheKey u.component u.identifier) f values
  rw [h3]
  exact cached_put _ _ _ _ rfl _

/-! ### One string -/

/-- The string, if found, is found under the requested tag. -/
def ExactUse (L : LocEnv D F P) (u : Use) : Prop :=
  ∀ s t, Found L.provider u.component u.identifier u.tag u.fallback (.ok (s, t)) → t = u.tag

theorem exact_fetch {L : LocEnv D F P} {u : Use} (h : ExactUse L u) {s t : Str}
    (hf : fetch L u.component u.identifier u.tag u.fallback = .ok (s, t)) : t = u.tag := by
  refine h s t ?_
  rw [← hf]
  exact fetch_found _ _ _ _ _

theorem literal_keeps {L : LocEnv D F P} {u : Use} (hx : ExactUse L u) (ca : Bool) {cache : Cache} {v : Use}
    (h : Cached cache v) : Cached (actualLiteral L cache u.component u.identifier u.tag u.fallback ca).2 v := by
  unfold actualLiteral
  simp only
  split
  · exact h
  · exact h
  · split
    · exact h
    · exact h
    · next s t hf =>
      rw [exact_fetch hx hf]
      exact returnString_keeps _ _ _ h

theorem format_keeps {L : LocEnv D F P} {u : Use} (hx : ExactUse L u) (ca : Bool) {cache : Cache}
    (values : AMap Str (PValue D F)) {v : Use} (h : Cached cache v) :
    Cached (actualFormat L cache u.component u.identifier values u.tag u.fallback ca).2 v := by
  unfold actualFormat
  simp only
  split
  · exact h
  · next m f he =>
    cases hg : AMap.get cache u.tag with
    | none => rw [hg] at he; cases he
    | some m' =>
      have : m = m' := by
        rw [hg] at he
        simp only [Option.bind_some, Option.map_eq_some_iff, Prod.mk.injEq] at he
        obtain ⟨_, _, rfl, _⟩ := he
        rfl
      rw [this]
      exact formatCached_keeps hg _ _ h
  · split
    · exact h
    · exact h
    · next s t hf =>
      have := exact_fetch hx hf
      subst this
      split
      · exact returnString_keeps _ _ _ h
      · split
        · exact returnString_keeps _ _ _ h
        · exact h
        · exact h
        · split
          · exact h
          · exact cacheFormatter_keeps _ _ _ _ _ _ h

theorem literal_caches {L : LocEnv D F P} {u : Use} (hx : ExactUse L u) {cache : Cache} {x : Str × Str}
    (h : (actualLiteral L cache u.component u.identifier u.tag u.fallback true).1 = .ok x) :
    Cached (actualLiteral L cache u.component u.identifier u.tag u.fallback true).2 u := by
  unfold actualLiteral at h ⊢
  simp only at h ⊢
  split at h
  · next s t he =>
    cases hg : AMap.get cache u.tag with
    | none => rw [hg] at he; cases he
    | some m => exact ⟨m, _, hg, by rw [hg] at he; exact he⟩
  · cases h
  · next he =>
    split at h
    · cases h
    · cases h
    · next s t hf =>
      rw [exact_fetch hx hf]
      exact returnString_caches _ _ _

theorem format_caches {L : LocEnv D F P} {u : Use} (hx : ExactUse L u) {cache : Cache} {values : AMap Str (PValue D F)}
    {x : Str × Str} (h : (actualFormat L cache u.component u.identifier values u.tag u.fallback true).1 = .ok x) :
    Cached (actualFormat L cache u.component u.identifier values u.tag u.fallback true).2 u := by
  have hold : ∀ {m d}, (AMap.get cache u.tag).bind (fun m => (m.get (cacheKey u.component u.identifier)).map fun d => (m, d)) =
      some (m, d) → Cached cache u := by
    intro m d he
    cases hg : AMap.get cache u.tag with
    | none => rw [hg] at he; cases he
    | some m' =>
      rw [hg] at he
      simp only [Option.bind_some, Option.map_eq_some_iff, Prod.mk.injEq] at he
      obtain ⟨e, h1, _⟩ := he
      exact ⟨m', e, hg, h1⟩
  by_cases hc : Cached cache u
  · exact format_keeps hx true values hc
  · unfold actualFormat at h ⊢
    simp only at h ⊢
    split at h
    · next he => exact absurd (hold he) hc
    · next he => exact absurd (hold he) hc
    · split at h
      · cases h
      · cases h
      · next s t hf =>
        have := exact_fetch hx hf
        subst this
        split at h
        · next hs => rw [if_pos hs]; exact returnString_caches _ _ _
        · next hs =>
          rw [if_neg hs]
          split at h
          · exact returnString_caches _ _ _
          · cases h
          · cases h
          · simp only [not_true, if_false]
            exact cacheFormatter_caches _ _ _ _ _

/-! ### Without the provider -/

theorem literal_alone {L : LocEnv D F P} (provider : Provider P) {u : Use} {cache : Cache} (h : Cached cache u) (ca : Bool) :
    actualLiteral { L with provider := provider } cache u.component u.identifier u.tag u.fallback ca =
      actualLiteral L cache u.component u.identifier u.tag u.fallback ca ∧
    ∀ v, Cached cache v → Cached (actualLiteral L cache u.component u.identifier u.tag u.fallback ca).2 v := by
  obtain ⟨m, e, h1, h2⟩ := h
  unfold actualLiteral
  simp only [h1, Option.bind_some, h2]
  cases e <;> exact ⟨rfl, fun v hv => hv⟩

theorem format_alone {L : LocEnv D F P} (provider : Provider P) {u : Use} {cache : Cache} (h : Cached cache u) (ca : Bool)
    (values : AMap Str (PValue D F)) :
    actualFormat { L with provider := provider } cache u.component u.identifier values u.tag u.fallback ca =
      actualFormat L cache u.component u.identifier values u.tag u.fallback ca ∧
    ∀ v, Cached cache v → Cached (actualFormat L cache u.component u.identifier values u.tag u.fallback ca).2 v := by
  obtain ⟨m, e, h1, h2⟩ := h
  unfold actualFormat
  simp only [h1, Option.bind_some, h2, Option.map_some]
  cases e with
  | localised => exact ⟨rfl, fun v hv => hv⟩
  | formatter f => exact ⟨rfl, fun v hv => formatCached_keeps h1 _ _ hv⟩

mutual
theorem data_alone {L : LocEnv D F P} (provider : Provider P) (tag : Str) (fb ca : Bool) (uses : List Use) (c i : Str)
    (values : Option (List (Str × PValue D F))) (hu : ∀ u ∈ dataUses tag fb c i values, u ∈ uses) (cache : Cache)
    (h : ∀ u ∈ uses, Cached cache u) :
    actualData { L with provider := provider } tag fb ca c i values cache = actualData L tag fb ca c i values cache ∧
      ∀ u ∈ uses, Cached (actualData L tag fb ca c i values cache).2 u := by
  match values with
  | none =>
    have := literal_alone (L := L) provider (h ⟨c, i, tag, fb, false⟩ (hu _ (by simp [dataUses]))) ca
    simp only [actualData]
    exact ⟨this.1, fun u hm => this.2 u (h u hm)⟩
  | some vs =>
    obtain ⟨e, hv⟩ := values_alone provider tag fb ca uses vs (fun u hm => hu u (by simp [dataUses, hm])) [] cache h
    simp only [actualData]
    rw [e]
    generalize resolveValues L tag fb ca vs [] cache = x at hv ⊢
    obtain ⟨x1, x2⟩ := x
    cases x1 with
    | ok m =>
      have := format_alone (L := L) provider (hv ⟨c, i, tag, fb, true⟩ (hu _ (by simp [dataUses]))) ca m
      exact ⟨this.1, fun u hm => this.2 u (hv u hm)⟩
    | err e => exact ⟨rfl, hv⟩
    | panic => exact ⟨rfl, hv⟩

theorem values_alone {L : LocEnv D F P} (provider : Provider P) (tag : Str) (fb ca : Bool) (uses : List Use)
    (values : List (Str × PValue D F)) (hu : ∀ u ∈ valueUses tag fb values, u ∈ uses) (acc : AMap Str (PValue D F))
    (cache : Cache) (h : ∀ u ∈ uses, Cached cache u) :
    resolveValues { L with provider := provider } tag fb ca values acc cache = resolveValues L tag fb ca values acc cache ∧
      ∀ u ∈ uses, Cached (resolveValues L tag fb ca values acc cache).2 u := by
  match values with
  | [] => exact ⟨by simp only [resolveValues], by simpa only [resolveValues] using h⟩
  | (name, .localisationData c i vs) :: rest =>
    obtain ⟨e, hd⟩ := data_alone (L := L) provider tag fb ca uses c i vs (fun u hm => hu u (by simp [valueUses, hm])) cache h
    simp only [resolveValues]
    rw [e]
    generalize actualData L tag fb ca c i vs cache = x at hd ⊢
    obtain ⟨x1, x2⟩ := x
    cases x1 with
    | ok r =>
      obtain ⟨s, t⟩ := r
      exact values_alone provider tag fb ca uses rest (fun u hm => hu u (by simp [valueUses, hm])) _ _ hd
    | err e => exact ⟨rfl, hd⟩
    | panic => exact ⟨rfl, hd⟩
  | (name, .string _) :: rest | (name, .integer _) :: rest | (name, .unsigned _) :: rest | (name, .float _) :: rest
  | (name, .taggedString _ _) :: rest | (name, .localised _ _) :: rest | (name, .fixedDecimal _) :: rest
  | (name, .dateTime _ _) :: rest | (name, .date _) :: rest | (name, .time _) :: rest =>
    simp only [resolveValues]
    exact values_alone provider tag fb ca uses rest (fun u hm => hu u (by simp [valueUses, hm])) _ _ h
end

/-! ### Data -/

mutual
theorem data_caches {L : LocEnv D F P} (tag : Str) (fb : Bool) (c i : Str) (values : Option (List (Str × PValue D F)))
    (hx : ∀ u ∈ dataUses tag fb c i values, ExactUse L u) (cache : Cache) {x : Str × Str}
    (h : (actualData L tag fb true c i values cache).1 = .ok x) :
    ∀ u ∈ dataUses tag fb c i values, Cached (actualData L tag fb true c i values cache).2 u := by
  match values with
  | none =>
    simp only [actualData] at h ⊢
    intro u hu
    simp only [dataUses, List.mem_singleton] at hu
    subst hu
    exact literal_caches (u := ⟨c, i, tag, fb, false⟩) (hx _ (by simp [dataUses])) h
  | some vs =>
    have hv := fun x => values_caches (L := L) (x := x) tag fb vs (fun u hm => hx u (by simp [dataUses, hm])) [] cache
    simp only [actualData] at h ⊢
    generalize resolveValues L tag fb true vs [] cache = y at h hv ⊢
    obtain ⟨y1, y2⟩ := y
    cases y1 with
    | err e => cases h
    | panic => cases h
    | ok m =>
      have hself : ExactUse L ⟨c, i, tag, fb, true⟩ := hx _ (by simp [dataUses])
      intro u hu
      simp only [dataUses, List.mem_append, List.mem_singleton] at hu
      rcases hu with hu | rfl
      · exact format_keeps hself true m (hv m rfl u hu)
      · exact format_caches hself h

theorem values_caches {L : LocEnv D F P} (tag : Str) (fb : Bool) (values : List (Str × PValue D F))
    (hx : ∀ u ∈ valueUses tag fb values, ExactUse L u) (acc : AMap Str (PValue D F)) (cache : Cache)
    {x : AMap Str (PValue D F)} (h : (resolveValues L tag fb true values acc cache).1 = .ok x) :
    ∀ u ∈ valueUses tag fb values, Cached (resolveValues L tag fb true values acc cache).2 u := by
  match values with
  | [] => intro u hu; simp [valueUses] at hu
  | (name, .localisationData c i vs) :: rest =>
    have hd := fun x => data_caches (L := L) (x := x) tag fb c i vs (fun u hm => hx u (by simp [valueUses, hm])) cache
    simp only [resolveValues] at h ⊢
    generalize actualData L tag fb true c i vs cache = y at h hd ⊢
    obtain ⟨y1, y2⟩ := y
    cases y1 with
    | err e => cases h
    | panic => cases h
    | ok r =>
      obtain ⟨s, t⟩ := r
      have hr := values_caches (L := L) tag fb rest (fun u hm => hx u (by simp [valueUses, hm])) _ _ h
      intro u hu
      simp only [valueUses, List.mem_append] at hu
      rcases hu with hu | hu
      · exact values_inv (fun cache => Cached cache u) tag fb true (valueUses tag fb rest)
          (fun v hv cache hc => literal_keeps (hx v (by simp [valueUses, hv])) true hc)
          (fun v hv cache vs hc => format_keeps (hx v (by simp [valueUses, hv])) true vs hc) rest (fun _ h => h) _ _
          (hd (s, t) rfl u hu)
      · exact hr u hu
  | (name, .string _) :: rest | (name, .integer _) :: rest | (name, .unsigned _) :: rest | (name, .float _) :: rest
  | (name, .taggedString _ _) :: rest | (name, .localised _ _) :: rest | (name, .fixedDecimal _) :: rest
  | (name, .dateTime _ _) :: rest | (name, .date _) :: rest | (name, .time _) :: rest =>
    simp only [resolveValues] at h ⊢
    intro u hu
    simp only [valueUses] at hu
    exact values_caches tag fb rest (fun u hm => hx u (by simpa [valueUses] using hm)) _ _ h u hu
end

/-! ### Requests -/

theorem call_keeps {L : LocEnv D F P} (scriptOf : Str → S) (l : Localiser S) (r : Request D F)
    (hx : ∀ u ∈ requestUses l.tag l.fallback r, ExactUse L u) {v : Use} (h : Cached l.cache v) :
    Cached (l.call L scriptOf r).2.cache v := by
  cases r with
  | format c i vs t fb ca => exact format_keeps (u := ⟨c, i, t.getD l.tag, fb.getD l.fallback, true⟩) (hx _ (by simp [requestUses])) _ vs h
  | literal c i t fb ca => exact literal_keeps (u := ⟨c, i, t.getD l.tag, fb.getD l.fallback, false⟩) (hx _ (by simp [requestUses])) _ h
  | data c i vs t fb ca =>
    exact data_inv (fun cache => Cached cache v) _ _ _ _ (fun u hu cache hc => literal_keeps (hx u hu) _ hc)
      (fun u hu cache vs hc => format_keeps (hx u hu) _ vs hc) c i vs (fun _ h => h) _ h
  | defaults t fb ca =>
    have : (l.setDefaults scriptOf t fb ca).cache = l.cache := by
      unfold Localiser.setDefaults
      cases t <;> cases fb <;> cases ca <;> rfl
    simp only [Localiser.call, this]
    exact h

theorem history_keeps {L : LocEnv D F P} (scriptOf : Str → S) : ∀ (calls : List (Request D F)) (l : Localiser S),
    (∀ u ∈ callsUses l.tag l.fallback calls, ExactUse L u) → ∀ {v : Use}, Cached l.cache v →
    Cached (l.after L scriptOf calls).cache v
  | [], _, _, _, h => h
  | r :: rest, l, hx, v, h => by
    rw [call_defaults L scriptOf] at hx
    exact history_keeps scriptOf rest _ (fun u hu => hx u (List.mem_append_right _ hu))
      (call_keeps scriptOf l r (fun u hu => hx u (List.mem_append_left _ hu)) h)

theorem call_caches {L : LocEnv D F P} (scriptOf : Str → S) (l : Localiser S) (r : Request D F)
    (hx : ∀ u ∈ requestUses l.tag l.fallback r, ExactUse L u) (hc : WithCaching l.caching r) {x : Str × Str}
    (h : (l.call L scriptOf r).1 = some (.ok x)) :
    ∀ u ∈ requestUses l.tag l.fallback r, Cached (l.call L scriptOf r).2.cache u := by
  intro u hu
  cases r with
  | format c i vs t fb ca =>
    simp only [WithCaching] at hc
    simp only [Localiser.call, hc] at h ⊢
    simp only [requestUses, List.mem_singleton] at hu
    subst hu
    exact format_caches (u := ⟨c, i, t.getD l.tag, fb.getD l.fallback, true⟩) (hx _ (by simp [requestUses])) (Option.some.inj h)
  | literal c i t fb ca =>
    simp only [WithCaching] at hc
    simp only [Localiser.call, hc] at h ⊢
    simp only [requestUses, List.mem_singleton] at hu
    subst hu
    exact literal_caches (u := ⟨c, i, t.getD l.tag, fb.getD l.fallback, false⟩) (hx _ (by simp [requestUses])) (Option.some.inj h)
  | data c i vs t fb ca =>
    simp only [WithCaching] at hc
    simp only [Localiser.call, hc] at h ⊢
    exact data_caches _ _ c i vs hx _ (Option.some.inj h) u hu
  | defaults t fb ca => cases hc

end Verif.LocaliserLemmas
