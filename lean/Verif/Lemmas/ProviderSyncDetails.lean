import Verif.Lemmas.ProviderSync
/-
Lemmas on the details that threads share.
-/
namespace Verif.ProviderLemmas
open Verif Verif.Spec Verif.Act

variable {E α β : Type} {S : Store → Prop} {C : AMap Str ComponentDetails → Prop} {D : RepositoryDetails → Prop}
variable {canon : Str → Except E Str} {p : Sqlite} {st : Store}

/-! ### With a store that does not change -/

theorem oneString_gives (hv : Current p) (c i tag : Str) (exact : Bool) :
    Gives (· = st) C D (p.oneString canon st c i tag exact) (p.oneStringSync canon c i tag exact) := by
  unfold Sqlite.oneString Sqlite.oneStringSync
  cases p.components.get c with
  | none => exact gives_now _
  | some files =>
    refine Gives.bind (gives_askIf (findStrings_gives hv c i tag _ _ _)) fun first _ => ?_
    split
    · exact gives_pure _
    · exact Gives.bind (gives_askIf (findStrings_gives hv c i tag _ _ _)) fun second _ => gives_pure _

theorem strings_gives (hv : Current p) (c i tag : Str) :
    Gives (· = st) C D (p.strings canon st c i tag) (p.stringsSync canon c i tag) := by
  unfold Sqlite.strings Sqlite.stringsSync
  cases p.components.get c with
  | none => exact gives_now _
  | some files =>
    refine Gives.bind (gives_askIf (findStrings_gives hv c i tag _ _ _)) fun first _ => ?_
    split
    · exact gives_pure _
    · exact gives_askIf (findStrings_gives hv c i tag _ _ _)

theorem componentLanguages_gives (hv : Current p) (c : Str) (files : Bool × Bool) (repo : AMap Str LanguageData) :
    Gives (· = st) C D (p.componentLanguages canon st c files repo) (p.componentLanguagesSync canon c files repo) :=
  Gives.bind (gives_askIf (languages_gives hv c _)) fun _ _ =>
    Gives.bind (gives_askIf (languages_gives hv c _)) fun _ _ => gives_pure _

theorem languageData_gives (hv : Current p) (c : Str) (files : Bool × Bool) (tag : Str) :
    Gives (· = st) C D (p.languageData (E := E) st c files tag) (p.languageDataSync c files tag) :=
  Gives.bind (gives_askIf (contributors_gives hv c tag _)) fun _ _ =>
    Gives.bind (gives_askIf (contributors_gives hv c tag _)) fun _ _ =>
      Gives.bind (gives_askIf (count_gives hv c tag _)) fun _ _ =>
        Gives.bind (gives_askIf (count_gives hv c tag _)) fun _ _ => gives_pure _

theorem countLanguages_gives (hv : Current p) (c : Str) (files : Bool × Bool) :
    ∀ (tags : List Str) (own : ComponentDetails) (repo : RepositoryDetails),
    Gives (· = st) C D (p.countLanguages (E := E) st c files tags own repo) (p.countLanguagesSync c files tags own repo) := by
  intro tags
  induction tags with
  | nil => intro own repo; exact gives_now _
  | cons t tags ih =>
    intro own repo
    exact Gives.bind (gives_now _) fun _ _ => Gives.bind (languageData_gives hv c files t) fun _ _ =>
      Gives.bind (gives_now _) fun _ _ => ih _ _

theorem buildComponent_gives (hv : Current p) (c : Str) (files : Bool × Bool) (repo : RepositoryDetails) :
    Gives (· = st) C D (p.buildComponent canon st c files repo) (p.buildComponentSync canon c files repo) := by
  unfold Sqlite.buildComponent Sqlite.buildComponentSync
  refine Gives.bind (gives_now _) fun und _ => ?_
  refine Gives.bind (componentLanguages_gives hv c files _) fun x _ => ?_
  obtain ⟨ls, own, all⟩ := x
  refine Gives.bind (gives_askIf (defaultLanguage_gives hv c _)) fun first _ => ?_
  refine Gives.bind (gives_askIf (defaultLanguage_gives hv c _)) fun d _ => ?_
  cases d with
  | none => exact gives_now _
  | some d =>
    simp only
    split
    · exact gives_now _
    · exact Gives.bind (countLanguages_gives hv c files _ _ _) fun details _ =>
        Gives.bind (gives_now _) fun _ _ => gives_pure _

theorem buildComponents_gives (hv : Current p) :
    ∀ (rest : List (Str × Bool × Bool)) (done : AMap Str ComponentDetails) (repo : RepositoryDetails),
    Gives (· = st) C D (p.buildComponents canon st rest done repo) (p.buildComponentsSync canon rest done repo) := by
  intro rest
  induction rest with
  | nil => intro done repo; exact gives_now _
  | cons a rest ih =>
    intro done repo
    exact Gives.bind (buildComponent_gives hv a.1 a.2 repo) fun _ _ => ih _ _

/-- Both cells are set. -/
def Filled (s : ProvState) : Prop := s.components.isSome = true ∧ s.repository.isSome = true

theorem setDetails_yields {m : AMap Str ComponentDetails} {r : RepositoryDetails} (hC : C m) (hD : D r) :
    Yields S C D (fun x s => x = (.ok () : ProvM E Unit) ∧ Filled s) (setDetails m r) := by
  intro s _
  refine Leads.atomic fun t _ hi => ⟨⟨hi.sound, hi.queries, hi.store, fun m' h => ?_, hi.repository⟩,
    ⟨fun _ h => h, fun m' h => ?_, fun _ h => h⟩, Leads.atomic fun u hu hui =>
      ⟨⟨hui.sound, hui.queries, hui.store, hui.components, fun r' h => ?_⟩, ⟨fun _ h => h, fun _ h => h, fun r' h => ?_⟩, ?_⟩⟩
  · cases hc : t.components with
    | none => simp only [hc] at h; cases h; exact hC
    | some x => simp only [hc] at h; cases h; exact hi.components _ hc
  · simp only [h]; rfl
  · cases hc : u.repository with
    | none => simp only [hc] at h; cases h; exact hD
    | some x => simp only [hc] at h; cases h; exact hui.repository _ hc
  · simp only [h]; rfl
  · refine ⟨rfl, ?_, ?_⟩
    · cases hc : t.components with
      | none => have := hu.components m (by simp only [hc]; rfl); simp only [this]; rfl
      | some x => have := hu.components x (by simp only [hc]; rfl); simp only [this]; rfl
    · simp only
      cases u.repository <;> rfl

/-- What `buildCache` gives when the cells are written. -/
def built (x : ProvM E (AMap Str ComponentDetails × RepositoryDetails)) : ProvM E Unit := x >>= fun _ => .ok ()

theorem buildCache_yields (hv : Current p)
    (hC : ∀ m r, p.buildCache canon st = .ok (m, r) → C m ∧ D r) :
    Yields (· = st) C D (fun x s => x = built (p.buildCache canon st) ∧ (x = .ok () → Filled s)) (p.buildCacheSync canon) := by
  refine yields_bind (buildComponents_gives (canon := canon) (st := st) hv p.components []
    { languages := [], default := none, total := 0, components := [], contributors := [] }) fun x s hi hq => ?_
  rw [hq]
  cases hr : p.buildComponents canon st p.components []
    { languages := [], default := none, total := 0, components := [], contributors := [] } with
  | err e => exact ⟨by unfold Sqlite.buildCache; rw [hr]; rfl, fun h => by cases h⟩
  | panic => exact ⟨by unfold Sqlite.buildCache; rw [hr]; rfl, fun h => by cases h⟩
  | ok y =>
    obtain ⟨m, r⟩ := y
    have hb : p.buildCache canon st = (match r.default with
        | none => pure (m, r)
        | some d => do
          let _ ← Outcome.unwrap (r.languages.get d)
          pure (m, r)) := by
      unfold Sqlite.buildCache
      rw [hr]
      rfl
    rw [hb] at hC ⊢
    simp only
    cases hd : r.default with
    | none =>
      simp only [hd] at hC ⊢
      exact (setDetails_yields (hC m r rfl).1 (hC m r rfl).2 s hi).weaken fun x s h => ⟨h.1, fun _ => h.2⟩
    | some d =>
      simp only [hd] at hC ⊢
      cases hg : r.languages.get d with
      | none => exact ⟨rfl, fun h => by cases h⟩
      | some v =>
        simp only [hg] at hC
        exact (setDetails_yields (hC m r rfl).1 (hC m r rfl).2 s hi).weaken fun x s h => ⟨h.1, fun _ => h.2⟩

/-- The details of all components that a store gives. -/
def allOf (canon : Str → Except E Str) (p : Sqlite) (st : Store) : ProvM E (AMap Str ComponentDetails) :=
  p.buildCache canon st >>= fun x => .ok x.1

/-- The details of the repository that a store gives. -/
def repositoryOf (canon : Str → Except E Str) (p : Sqlite) (st : Store) : ProvM E RepositoryDetails :=
  p.buildCache canon st >>= fun x => .ok x.2

theorem allDetails_gives (hv : Current p) (hD : ∀ m r, p.buildCache canon st = .ok (m, r) → D r) :
    Gives (· = st) (fun m => allOf canon p st = .ok m) D (allOf canon p st) (p.allDetails canon) := by
  intro s _
  refine Leads.atomic fun t _ hi => ?_
  cases hc : t.components with
  | some m => exact ⟨hi, Rel.refl _, (hi.components m hc).symm⟩
  | none =>
    refine ⟨hi, Rel.refl _, ?_⟩
    refine yields_bind (buildCache_yields hv fun m r h => ⟨by rw [allOf, h]; rfl, hD m r h⟩) (fun x u hu hx => ?_) t hi
    cases hb : p.buildCache canon st with
    | err e =>
      rw [hb] at hx; obtain ⟨hx, _⟩ := hx; subst hx
      show _ = _
      rw [allOf, hb]; rfl
    | panic =>
      rw [hb] at hx; obtain ⟨hx, _⟩ := hx; subst hx
      show _ = _
      rw [allOf, hb]; rfl
    | ok y =>
      rw [hb] at hx; obtain ⟨hx, hf⟩ := hx; subst hx
      refine Leads.atomic fun w hw hwi => ⟨hwi, Rel.refl _, ?_⟩
      obtain ⟨m, hm⟩ := Option.isSome_iff_exists.1 (hf rfl).1
      have hm' := hw.components m hm
      simp only [hm']
      exact (hwi.components m hm').symm

theorem repositoryDetails_gives (hv : Current p) (hC : ∀ m r, p.buildCache canon st = .ok (m, r) → C m) :
    Gives (· = st) C (fun r => repositoryOf canon p st = .ok r) (repositoryOf canon p st) (p.repositoryDetailsSync canon) := by
  intro s _
  refine Leads.atomic fun t _ hi => ?_
  cases hc : t.repository with
  | some m => exact ⟨hi, Rel.refl _, (hi.repository m hc).symm⟩
  | none =>
    refine ⟨hi, Rel.refl _, ?_⟩
    refine yields_bind (buildCache_yields hv fun m r h => ⟨hC m r h, by rw [repositoryOf, h]; rfl⟩) (fun x u hu hx => ?_) t hi
    cases hb : p.buildCache canon st with
    | err e =>
      rw [hb] at hx; obtain ⟨hx, _⟩ := hx; subst hx
      show _ = _
      rw [repositoryOf, hb]; rfl
    | panic =>
      rw [hb] at hx; obtain ⟨hx, _⟩ := hx; subst hx
      show _ = _
      rw [repositoryOf, hb]; rfl
    | ok y =>
      rw [hb] at hx; obtain ⟨hx, hf⟩ := hx; subst hx
      refine Leads.atomic fun w hw hwi => ⟨hwi, Rel.refl _, ?_⟩
      obtain ⟨m, hm⟩ := Option.isSome_iff_exists.1 (hf rfl).2
      have hm' := hw.repository m hm
      simp only [hm']
      exact (hwi.repository m hm').symm

/-- The details of one component. -/
def detailsOf (c : Str) (all : AMap Str ComponentDetails) : ProvM E ComponentDetails :=
  match all.get c with
  | none => .err (.componentNotFound c)
  | some d => .ok d

theorem componentDetails_gives (hv : Current p) (hD : ∀ m r, p.buildCache canon st = .ok (m, r) → D r) (c : Str) :
    Gives (· = st) (fun m => allOf canon p st = .ok m) D (allOf canon p st >>= detailsOf c)
      (p.componentDetailsSync canon c) := by
  refine Gives.bind (allDetails_gives hv hD) fun all _ => ?_
  unfold detailsOf
  cases AMap.get all c with
  | none => exact gives_now _
  | some d => exact gives_pure _

theorem identifierDetails_gives (hv : Current p) (hD : ∀ m r, p.buildCache canon st = .ok (m, r) → D r) (c i : Str) :
    Gives (· = st) (fun m => allOf canon p st = .ok m) D
      (allOf canon p st >>= fun all => p.identifierDetails canon st all c i) (p.identifierDetailsSync canon c i) := by
  refine Gives.bind (allDetails_gives hv hD) fun all _ => ?_
  unfold Sqlite.identifierDetails
  cases AMap.get all c with
  | none => exact gives_now _
  | some d =>
    exact Gives.bind (identifierLanguages_gives hv c i _) fun _ _ =>
      Gives.bind (gives_askIf (identifierLanguages_gives hv c i _)) fun _ _ => gives_pure _

/-! ### With a store that changes -/

theorem findLoop_safe {text name c i : Str} {exact : Bool} :
    ∀ (n : Nat) (tag : Str), tag.length ≤ n →
    Safe S C D (fun _ => True) (findLoopSync canon text name c i exact tag) := by
  intro n
  induction n with
  | zero =>
    intro tag hn
    have : tag = [] := List.eq_nil_of_length_eq_zero (by omega)
    subst this
    rw [findLoopSync]
    exact safe_now (by simp) fun _ _ => trivial
  | succ n ih =>
    intro tag hn
    rw [findLoopSync]
    by_cases ht : tag = []
    · simp only [ht, if_true]; exact safe_now (by simp) fun _ _ => trivial
    · simp only [ht, if_false]
      refine Safe.bind (query_safe _ _) fun rows _ => ?_
      refine Safe.bind (P := fun _ => True) (safe_now (readRows_ne_panic canon _) fun _ _ => trivial) fun strings _ => ?_
      split
      · exact safe_now (by simp) fun _ _ => trivial
      · have hlen : ∀ before, rsplitBefore '-' (if exact then tag else tag ++ ['%']) = some before →
            before.length ≤ n := by
          intro before h'
          cases exact with
          | true => have := rsplitBefore_length (by simpa using h'); omega
          | false =>
            have h' : rsplitBefore '-' (tag ++ ['%']) = some before := by simpa using h'
            rw [rsplitBefore_snoc (by decide)] at h'
            have := rsplitBefore_length h'
            omega
        generalize hb : rsplitBefore '-' (if exact then tag else tag ++ ['%']) = b
        cases b with
        | none => exact safe_now (by simp) fun _ _ => trivial
        | some before => exact ih before (hlen before hb)

theorem findStrings_safe (hc : Connected p) (hv : Current p) (c i tag : Str) (aio one exact : Bool) :
    Safe S C D (fun _ => True) (p.findStringsSync canon c i tag aio one exact) :=
  with_text_safe hc hv (pattern_text one exact aio) fun _ =>
    Safe.bind (query_safe _ _) fun _ _ => findLoop_safe _ tag (Nat.le_refl _)

theorem languages_safe (hc : Connected p) (hv : Current p) (c : Str) (aio : Bool) :
    Safe S C D (fun _ => True) (p.languagesSync canon c aio) :=
  with_text_safe hc hv (languages_text aio) fun _ =>
    Safe.bind (query_safe _ _) fun _ _ => safe_now (askTags_ne_panic canon _) fun _ _ => trivial

theorem identifierLanguages_safe (hc : Connected p) (hv : Current p) (c i : Str) (aio : Bool) :
    Safe S C D (fun _ => True) (p.identifierLanguagesSync canon c i aio) :=
  with_text_safe hc hv (identifier_text aio) fun _ =>
    Safe.bind (query_safe _ _) fun _ _ => safe_now (askTags_ne_panic canon _) fun _ _ => trivial

theorem contributors_safe (hc : Connected p) (hv : Current p) (c tag : Str) (aio : Bool) :
    Safe S C D (fun _ => True) (p.contributorsSync (E := E) c tag aio) :=
  with_text_safe hc hv (contributors_text aio) fun _ => query_safe _ _

theorem count_safe (hc : Connected p) (hv : Current p) (c tag : Str) (aio : Bool) :
    Safe S C D (fun _ => True) (p.countSync (E := E) c tag aio) :=
  with_text_safe hc hv (count_text aio) fun _ => query_safe _ _

theorem defaultLanguage_safe (hc : Connected p) (hv : Current p) (c : Str) (aio : Bool) :
    Safe S C D (fun _ => True) (p.defaultLanguageSync canon c aio) :=
  with_text_safe hc hv (default_text aio) fun _ =>
    Safe.bind (query_safe _ _) fun _ _ => Safe.bind (P := fun _ => True)
      (safe_now (askTags_ne_panic canon _) fun _ _ => trivial) fun _ _ => safe_pure trivial

theorem oneString_safe (hc : Connected p) (hv : Current p) (c i tag : Str) (exact : Bool) :
    Safe S C D (fun _ => True) (p.oneStringSync canon c i tag exact) := by
  unfold Sqlite.oneStringSync
  split
  · exact safe_now (by simp) fun _ _ => trivial
  · refine Safe.bind (safe_askIf (findStrings_safe hc hv c i tag _ _ _) trivial) fun first _ => ?_
    split
    · exact safe_pure trivial
    · exact Safe.bind (safe_askIf (findStrings_safe hc hv c i tag _ _ _) trivial) fun second _ => safe_pure trivial

theorem strings_safe (hc : Connected p) (hv : Current p) (c i tag : Str) :
    Safe S C D (fun _ => True) (p.stringsSync canon c i tag) := by
  unfold Sqlite.stringsSync
  split
  · exact safe_now (by simp) fun _ _ => trivial
  · refine Safe.bind (safe_askIf (findStrings_safe hc hv c i tag _ _ _) trivial) fun first _ => ?_
    split
    · exact safe_pure trivial
    · exact safe_askIf (findStrings_safe hc hv c i tag _ _ _) trivial

theorem languageData_safe (hc : Connected p) (hv : Current p) (c : Str) (files : Bool × Bool) (tag : Str) :
    Safe S C D (fun _ => True) (p.languageDataSync (E := E) c files tag) :=
  Safe.bind (safe_askIf (contributors_safe hc hv c tag _) trivial) fun _ _ =>
    Safe.bind (safe_askIf (contributors_safe hc hv c tag _) trivial) fun _ _ =>
      Safe.bind (safe_askIf (count_safe hc hv c tag _) trivial) fun _ _ =>
        Safe.bind (safe_askIf (count_safe hc hv c tag _) trivial) fun _ _ => safe_pure trivial

/-- The languages that a component is found to have are those of its map and are in the map of the repository. -/
def Listed (repo : AMap Str LanguageData) (x : List Str × AMap Str LanguageData × AMap Str LanguageData) : Prop :=
  (∀ t, t ∈ x.2.1.keys ↔ t ∈ x.1) ∧ (∀ t ∈ x.1, t ∈ x.2.2.keys) ∧ ∀ t ∈ repo.keys, t ∈ x.2.2.keys

theorem componentLanguages_safe (hc : Connected p) (hv : Current p) (c : Str) (files : Bool × Bool)
    (repo : AMap Str LanguageData) : Safe S C D (Listed repo) (p.componentLanguagesSync canon c files repo) := by
  refine Safe.bind (safe_askIf (languages_safe hc hv c _) trivial) fun first _ => ?_
  refine Safe.bind (safe_askIf (languages_safe hc hv c _) trivial) fun second _ => safe_pure ⟨fun t => ?_, fun t ht => ?_, fun t ht => ?_⟩
  · obtain ⟨a1, a2, a3⟩ := fold_insert first [] (by simp [AMap.keys]) (by simp)
    obtain ⟨b1, b2, b3⟩ := fold_insert ((union first second).drop first.length) _ a1 a2
    rw [b3, a3]
    have : union first second = first ++ (union first second).drop first.length := by
      obtain ⟨r, hr⟩ := union_prefix second first
      rw [← hr]; simp
    simp only [AMap.keys, List.map_nil, List.not_mem_nil, false_or]
    constructor
    · intro h; rw [this]; exact List.mem_append.2 h
    · intro h; rw [this] at h; exact List.mem_append.1 h
  · simp only
    rw [(fold_addNew second _).2.1, (fold_addNew first _).2.1]
    simp only [mem_union] at ht
    rcases ht with h | h
    · exact .inl (.inr h)
    · exact .inr h
  · simp only
    rw [(fold_addNew second _).2.1, (fold_addNew first _).2.1]
    exact .inl (.inl ht)

theorem countLanguages_safe (hc : Connected p) (hv : Current p) (c : Str) (files : Bool × Bool) :
    ∀ (tags : List Str) (own : ComponentDetails) (repo : RepositoryDetails), (∀ t ∈ tags, t ∈ own.languages.keys) →
    (∀ t ∈ tags, t ∈ repo.languages.keys) →
    Safe S C D (fun x => (∀ t ∈ own.languages.keys, t ∈ x.1.languages.keys) ∧
      (∀ t ∈ repo.languages.keys, t ∈ x.2.languages.keys) ∧ x.2.default = repo.default)
      (p.countLanguagesSync (E := E) c files tags own repo) := by
  intro tags
  induction tags with
  | nil =>
    intro own repo _ _
    exact safe_now (by simp) fun _ h => by cases h; exact ⟨fun _ h => h, fun _ h => h, rfl⟩
  | cons t tags ih =>
    intro own repo h1 h2
    obtain ⟨v, hv'⟩ := (AMap.mem_keys_iff _ _).1 (h1 t (by simp))
    obtain ⟨w, hw⟩ := (AMap.mem_keys_iff _ _).1 (h2 t (by simp))
    refine Safe.bind (P := fun _ => True) (safe_now (by rw [hv']; simp) fun _ _ => trivial) fun _ _ => ?_
    refine Safe.bind (languageData_safe hc hv c files t) fun d _ => ?_
    refine Safe.bind (P := fun _ => True) (safe_now (by rw [hw]; simp) fun _ _ => trivial) fun shared _ => ?_
    refine (ih _ _ (fun t' ht' => (AMap.mem_keys_insert _ _ _ _).2 (.inr (h1 t' (by simp [ht']))))
      fun t' ht' => (AMap.mem_keys_insert _ _ _ _).2 (.inr (h2 t' (by simp [ht'])))).weaken fun x hx => ?_
    exact ⟨fun t' ht' => hx.1 t' ((AMap.mem_keys_insert _ _ _ _).2 (.inr ht')),
      fun t' ht' => hx.2.1 t' ((AMap.mem_keys_insert _ _ _ _).2 (.inr ht')), hx.2.2⟩

/-- The default language of the repository is one of its languages. -/
def DefaultListed (r : RepositoryDetails) : Prop := ∀ d, r.default = some d → d ∈ r.languages.keys

/-- The default language of a component is one of its languages. -/
def OwnDefault (d : ComponentDetails) : Prop := d.default ∈ d.languages.keys

theorem buildComponent_safe (hc : Connected p) (hv : Current p) (c : Str) (files : Bool × Bool) (repo : RepositoryDetails)
    (hr : DefaultListed repo) :
    Safe S C D (fun x => OwnDefault x.1 ∧ DefaultListed x.2) (p.buildComponentSync canon c files repo) := by
  unfold Sqlite.buildComponentSync
  refine Safe.bind (P := fun _ => True) (safe_now (askTag_ne_panic canon _) fun _ _ => trivial) fun und _ => ?_
  refine Safe.bind (componentLanguages_safe hc hv c files _) fun x hx => ?_
  obtain ⟨ls, own, all⟩ := x
  obtain ⟨h1, h2, h3⟩ := hx
  refine Safe.bind (safe_askIf (defaultLanguage_safe hc hv c _) trivial) fun first _ => ?_
  refine Safe.bind (safe_askIf (defaultLanguage_safe hc hv c _) trivial) fun d _ => ?_
  cases d with
  | none => exact safe_now (by simp) fun _ h => by cases h
  | some d =>
    simp only
    split
    · exact safe_now (by simp) fun _ h => by cases h
    · next hdef =>
      have hd0 : d ∈ own.keys := by
        rw [AMap.mem_keys_iff]
        cases hg : own.get d with
        | none => simp [hg] at hdef
        | some v => exact ⟨v, rfl⟩
      refine Safe.bind (countLanguages_safe hc hv c files _ _ _ (fun t ht => (h1 t).2 ht) fun t ht => h2 t ht)
        fun details hx => ?_
      have hd1 := hx.1 d hd0
      obtain ⟨v, hv'⟩ := (AMap.mem_keys_iff _ _).1 hd1
      refine Safe.bind (P := fun _ => True) (safe_now (by simp only [hv']; simp) fun _ _ => trivial) fun _ _ => ?_
      refine safe_pure ⟨hd1, fun d' hd' => ?_⟩
      simp only [hx.2.2] at hd'
      refine hx.2.1 d' ?_
      split at hd'
      · cases hd'; exact h2 _ ((h1 _).1 hd0)
      · exact h3 _ (hr d' hd')

theorem buildComponents_safe (hc : Connected p) (hv : Current p) :
    ∀ (rest : List (Str × Bool × Bool)) (done : AMap Str ComponentDetails) (repo : RepositoryDetails),
    (∀ k d, done.get k = some d → OwnDefault d) → DefaultListed repo →
    Safe S C D (fun x => (∀ k d, x.1.get k = some d → OwnDefault d) ∧ DefaultListed x.2 ∧
      ∀ k, k ∈ x.1.keys ↔ k ∈ done.keys ∨ k ∈ AMap.keys rest) (p.buildComponentsSync canon rest done repo) := by
  intro rest
  induction rest with
  | nil =>
    intro done repo h1 h2
    exact safe_now (by simp) fun _ h => by cases h; exact ⟨h1, h2, fun k => by simp [AMap.keys]⟩
  | cons a rest ih =>
    intro done repo h1 h2
    refine Safe.bind (buildComponent_safe hc hv a.1 a.2 repo h2) fun x hx => ?_
    refine (ih (AMap.insert done a.1 x.1) x.2 (fun k d hk => ?_) hx.2).weaken fun y hy => ⟨hy.1, hy.2.1, fun k => ?_⟩
    · rw [AMap.get_insert] at hk
      split at hk
      · cases hk; exact hx.1
      · exact h1 k d hk
    · rw [hy.2.2, AMap.mem_keys_insert]
      simp only [AMap.keys, List.map_cons, List.mem_cons]
      constructor
      · rintro ((rfl | h) | h)
        · exact .inr (.inl rfl)
        · exact .inl h
        · exact .inr (.inr h)
      · rintro (h | h | h)
        · exact .inl (.inr h)
        · exact .inl (.inl h)
        · exact .inr h

/-- What is known of the details of all components, from whatever stores they come. -/
def Complete (p : Sqlite) (m : AMap Str ComponentDetails) : Prop :=
  (∀ k, k ∈ m.keys ↔ k ∈ p.components.keys) ∧ ∀ k d, m.get k = some d → OwnDefault d

theorem buildCache_safe (hc : Connected p) (hv : Current p) :
    Yields S (Complete p) DefaultListed (fun (x : ProvM E Unit) s => x ≠ .panic ∧ (x = .ok () → Filled s))
      (p.buildCacheSync canon) := by
  refine yields_bind (buildComponents_safe hc hv p.components []
    { languages := [], default := none, total := 0, components := [], contributors := [] }
    (fun k d h => by simp [AMap.get] at h) (fun d h => by cases h)) fun x s hi hq => ?_
  cases x with
  | err e => exact ⟨by simp, fun h => by cases h⟩
  | panic => exact absurd rfl hq.1
  | ok y =>
    obtain ⟨m, r⟩ := y
    obtain ⟨h1, h2, h3⟩ := hq.2 _ rfl
    have hm : Complete p m := ⟨fun k => by simpa [AMap.keys] using h3 k, h1⟩
    simp only
    cases hd : r.default with
    | none =>
      simp only
      exact (setDetails_yields hm h2 s hi).weaken fun x s h => ⟨by rw [h.1]; simp, fun _ => h.2⟩
    | some d =>
      simp only
      obtain ⟨v, hv'⟩ := (AMap.mem_keys_iff _ _).1 (h2 d hd)
      simp only [hv']
      exact (setDetails_yields hm h2 s hi).weaken fun x s h => ⟨by rw [h.1]; simp, fun _ => h.2⟩

theorem allDetails_safe (hc : Connected p) (hv : Current p) :
    Yields S (Complete p) DefaultListed (fun (x : ProvM E _) s => x ≠ .panic ∧ ∀ m, x = .ok m → s.components = some m)
      (p.allDetails canon) := by
  intro s _
  refine Leads.atomic fun t _ hi => ?_
  cases hc' : t.components with
  | some m => exact ⟨hi, Rel.refl _, by simp, fun m' h => by cases h; exact hc'⟩
  | none =>
    refine ⟨hi, Rel.refl _, ?_⟩
    refine yields_bind (buildCache_safe hc hv) (fun x u hu hx => ?_) t hi
    cases x with
    | err e => exact ⟨by simp, fun m h => by cases h⟩
    | panic => exact absurd rfl hx.1
    | ok y =>
      refine Leads.atomic fun w hw hwi => ⟨hwi, Rel.refl _, ?_⟩
      obtain ⟨m, hm⟩ := Option.isSome_iff_exists.1 (hx.2 rfl).1
      have hm' := hw.components m hm
      simp only [hm']
      exact ⟨by simp, fun m' h => by cases h; exact hm'⟩

theorem repositoryDetails_safe (hc : Connected p) (hv : Current p) :
    Yields S (Complete p) DefaultListed (fun (x : ProvM E _) s => x ≠ .panic ∧ ∀ r, x = .ok r → s.repository = some r)
      (p.repositoryDetailsSync canon) := by
  intro s _
  refine Leads.atomic fun t _ hi => ?_
  cases hc' : t.repository with
  | some m => exact ⟨hi, Rel.refl _, by simp, fun m' h => by cases h; exact hc'⟩
  | none =>
    refine ⟨hi, Rel.refl _, ?_⟩
    refine yields_bind (buildCache_safe hc hv) (fun x u hu hx => ?_) t hi
    cases x with
    | err e => exact ⟨by simp, fun m h => by cases h⟩
    | panic => exact absurd rfl hx.1
    | ok y =>
      refine Leads.atomic fun w hw hwi => ⟨hwi, Rel.refl _, ?_⟩
      obtain ⟨m, hm⟩ := Option.isSome_iff_exists.1 (hx.2 rfl).2
      have hm' := hw.repository m hm
      simp only [hm']
      exact ⟨by simp, fun m' h => by cases h; exact hm'⟩

end Verif.ProviderLemmas
