import Verif.Lemmas.ProviderOrder
/-
The errors of one component, whatever was found out about others before.
-/
namespace Verif.ProviderLemmas
open Verif Verif.Spec

variable {E : Type} {canon : Str → Except E Str} {p p' : Sqlite} {st : Store} {c : Str} {files : Bool × Bool}

/-- The second fails alike, or panics. -/
def FailsToo {ε α β : Type} (x : Outcome ε α) (y : Outcome ε β) : Prop := ∀ e, x = .err e → y = .err e ∨ y = .panic

theorem FailsToo.bind {ε α β γ : Type} {x : Outcome ε α} {f : α → Outcome ε β} {g : α → Outcome ε γ}
    (h : ∀ a, x = .ok a → FailsToo (f a) (g a)) : FailsToo (x >>= f) (x >>= g) := by
  intro e he
  cases x with
  | ok a => exact h a rfl e he
  | err e' => cases he; exact .inl rfl
  | panic => cases he

/-- What is taken out of two maps. -/
theorem FailsToo.unwrap {ε α α' β γ : Type} {x : Option α} {y : Option α'} {f : α → Outcome ε β} {g : α' → Outcome ε γ}
    (h : ∀ a b, x = some a → y = some b → FailsToo (f a) (g b)) : FailsToo (Outcome.unwrap x >>= f) (Outcome.unwrap y >>= g) := by
  intro e he
  cases x with
  | none => cases he
  | some a =>
    cases y with
    | none => exact .inr rfl
    | some b => exact h a b rfl rfl e he

theorem FailsToo.ok {ε α β : Type} (a : α) (y : Outcome ε β) : FailsToo (Outcome.ok a) y := fun _ h => by cases h

theorem FailsToo.err {ε α β : Type} (e : ε) : FailsToo (Outcome.err e : Outcome ε α) (Outcome.err e : Outcome ε β) :=
  fun _ h => by cases h; exact .inl rfl

theorem countLanguages_fails : ∀ (tags : List Str) (own : ComponentDetails) (repo repo' : RepositoryDetails),
    FailsToo (p.countLanguages (E := E) st c files tags own repo) (p.countLanguages (E := E) st c files tags own repo') := by
  intro tags
  induction tags with
  | nil => intro own repo repo'; exact .ok _ _
  | cons t tags ih =>
    intro own repo repo'
    unfold Sqlite.countLanguages
    exact .bind fun _ _ => .bind fun _ _ => .unwrap fun _ _ _ _ => ih _ _ _

/-- The languages of a component do not depend on those of the repository. -/
theorem componentLanguages_repo (m m' : AMap Str LanguageData) :
    (∀ e, p.componentLanguages canon st c files m = .err e → p.componentLanguages canon st c files m' = .err e) ∧
    ∀ a, p.componentLanguages canon st c files m = .ok a →
      ∃ b, p.componentLanguages canon st c files m' = .ok b ∧ b.1 = a.1 ∧ b.2.1 = a.2.1 := by
  unfold Sqlite.componentLanguages
  cases askIf files.1 (p.languages canon st c true) [] with
  | err e => exact ⟨fun _ h => h, fun _ h => by cases h⟩
  | panic => exact ⟨fun _ h => h, fun _ h => by cases h⟩
  | ok first =>
    cases h2 : askIf files.2 (p.languages canon st c false) [] with
    | err e => exact ⟨fun _ h => h, fun _ h => by cases h⟩
    | panic => exact ⟨fun _ h => h, fun _ h => by cases h⟩
    | ok second => 
      refine ⟨fun e h => ?_, fun a h => ?_⟩
      · cases h
      · cases h; exact ⟨_, rfl, rfl, rfl⟩

theorem buildComponent_fails (repo repo' : RepositoryDetails) :
    FailsToo (p.buildComponent canon st c files repo) (p.buildComponent canon st c files repo') := by
  unfold Sqlite.buildComponent
  refine .bind fun und _ => ?_
  obtain ⟨h1, h2⟩ := componentLanguages_repo (canon := canon) (p := p) (st := st) (c := c) (files := files)
    repo.languages repo'.languages
  intro e he0
  rcases bind_eq_err he0 with he | ⟨⟨ls, own, all⟩, ha, he⟩
  · left
    show (p.componentLanguages canon st c files repo'.languages >>= _) = _
    rw [h1 e he]; rfl
  obtain ⟨⟨ls', own', all'⟩, hb, q1, q2⟩ := h2 _ ha
  simp only at q1 q2
  subst q1 q2
  show (p.componentLanguages canon st c files repo'.languages >>= _) = _ ∨
    (p.componentLanguages canon st c files repo'.languages >>= _) = _
  rw [hb]
  simp only at he
  clear he0
  revert he
  revert e
  change FailsToo _ _
  refine FailsToo.bind (fun first _ => FailsToo.bind fun d _ => ?_)
  cases d with
  | none => exact .err _
  | some d =>
    simp only
    split
    · exact .err _
    · intro e he
      rcases bind_eq_err he with he | ⟨x, _, he⟩
      · rcases countLanguages_fails _ _ _ _ e he with h | h
        · exact .inl (by rw [h]; rfl)
        · exact .inr (by rw [h]; rfl)
      · rcases bind_eq_err he with he | ⟨_, _, he⟩
        · unfold Outcome.unwrap at he; split at he <;> cases he
        · cases he

/-- The error of a component does not depend on what was found out before. -/
theorem buildComponent_error (hc : Connected p) {repo : RepositoryDetails} {e : ProvErr E}
    (h : p.buildComponent canon st c files repo = .err e) (repo' : RepositoryDetails) :
    p.buildComponent canon st c files repo' = .err e :=
  (buildComponent_fails repo repo' e h).resolve_right (buildComponent_ne_panic hc st c files repo')

/-- What is known before the first component. -/
def noRepository : RepositoryDetails := { languages := [], default := none, total := 0, components := [], contributors := [] }

theorem buildComponents_first (hc : Connected p) :
    ∀ {rest : List (Str × Bool × Bool)} {done : AMap Str ComponentDetails} {repo : RepositoryDetails} {e : ProvErr E},
    p.buildComponents canon st rest done repo = .err e →
      ∃ y ∈ rest, p.buildComponent canon st y.1 y.2 noRepository = .err e := by
  intro rest
  induction rest with
  | nil => intro _ _ _ h; cases h
  | cons a rest ih =>
    intro done repo e h
    unfold Sqlite.buildComponents at h
    rcases bind_eq_err h with h | ⟨⟨own, repo1⟩, _, h⟩
    · exact ⟨a, List.mem_cons_self, buildComponent_error hc h _⟩
    · obtain ⟨y, hy, hf⟩ := ih h
      exact ⟨y, by simp [hy], hf⟩

/-- The error of the loop is that of a component. -/
theorem buildCache_first (hc : Connected p) {e : ProvErr E} (h : p.buildCache canon st = .err e) :
    ∃ y ∈ p.components, p.buildComponent canon st y.1 y.2 noRepository = .err e := by
  unfold Sqlite.buildCache at h
  rcases bind_eq_err h with h | ⟨⟨details, repo⟩, _, h⟩
  · exact buildComponents_first hc h
  · simp only at h
    split at h
    · cases h
    · rcases bind_eq_err h with h | ⟨_, _, h⟩
      · unfold Outcome.unwrap at h; split at h <;> cases h
      · cases h

/-- If the first component fails, so does everything. -/
theorem buildCache_head {c : Str} {files : Bool × Bool} {rest : AMap Str (Bool × Bool)} (hp : p.components = (c, files) :: rest)
    {e : ProvErr E} (h : p.buildComponent canon st c files noRepository = .err e) : p.buildCache canon st = .err e := by
  unfold Sqlite.buildCache
  rw [hp]
  unfold Sqlite.buildComponents
  show ((p.buildComponent canon st c files noRepository >>= _) >>= _) = _
  rw [h]; rfl

/-- The provider with one component only. -/
def onlyComponent (p : Sqlite) (c : Str) (files : Bool × Bool) : Sqlite := { p with components := [(c, files)] }

theorem connection_only (h : p.components.get c = some files) (aio : Bool) :
    (onlyComponent p c files).connection (E := E) c aio = p.connection c aio := by
  unfold Sqlite.connection onlyComponent
  simp only [h]
  simp [AMap.get]

theorem countLanguages_only (h : p.components.get c = some files) :
    ∀ (tags : List Str) (own : ComponentDetails) (repo : RepositoryDetails),
    (onlyComponent p c files).countLanguages (E := E) st c files tags own repo = p.countLanguages st c files tags own repo := by
  intro tags
  induction tags with
  | nil => intro _ _; rfl
  | cons t tags ih =>
    intro own repo
    unfold Sqlite.countLanguages
    simp only [ih, Sqlite.languageData, Sqlite.contributors, Sqlite.count, connection_only h]

theorem buildComponent_only (h : p.components.get c = some files) (repo : RepositoryDetails) :
    (onlyComponent p c files).buildComponent canon st c files repo = p.buildComponent canon st c files repo := by
  unfold Sqlite.buildComponent
  simp only [countLanguages_only h, Sqlite.componentLanguages, Sqlite.languages, Sqlite.defaultLanguage, connection_only h]

theorem connected_only (hc : Connected p) (h : p.components.get c = some files) : Connected (onlyComponent p c files) := by
  have key : ∀ d v, (onlyComponent p c files).components.get d = some v → d = c ∧ v = files := by
    intro d v hg
    have := AMap.mem_of_get hg
    simpa [onlyComponent] using this
  refine ⟨fun d v hg hv => ?_, fun d v hg hv => ?_⟩
  · obtain ⟨rfl, rfl⟩ := key d v hg
    exact hc.shared _ _ h hv
  · obtain ⟨rfl, rfl⟩ := key d v hg
    exact hc.own _ _ h hv

/-- The components in another order, this one first. -/
theorem order_with_first {y : Str × Bool × Bool} (hy : y ∈ p.components) :
    ∃ p', SameSqlite p p' ∧ ∃ rest, p'.components = y :: rest :=
  ⟨{ p with components := y :: p.components.erase y }, ⟨List.perm_cons_erase hy, .refl _⟩, _, rfl⟩

/-- Exactly the errors of the single components can be returned. -/
theorem buildCache_possible (hc : Connected p) (hk : p.components.keys.Nodup) (hk' : p.connections.keys.Nodup)
    (e : ProvErr E) : (∃ p', SameSqlite p p' ∧ p'.buildCache canon st = .err e) ↔
      ∃ c files, p.components.get c = some files ∧ (onlyComponent p c files).buildCache canon st = .err e := by
  constructor
  · rintro ⟨p', hs, h⟩
    have hcon := connection_same (E := E) hs hk hk'
    have hc' : Connected p' := by
      refine ⟨fun c v hg hv => ?_, fun c v hg hv => ?_⟩
      · rw [← get_perm hs.connections hk']
        rw [← get_perm hs.components hk] at hg
        exact hc.shared c v hg hv
      · rw [← get_perm hs.connections hk']
        rw [← get_perm hs.components hk] at hg
        exact hc.own c v hg hv
    obtain ⟨⟨c, files⟩, hy, hf⟩ := buildCache_first hc' h
    have hg := AMap.get_of_mem hk (hs.components.mem_iff.2 hy)
    refine ⟨c, files, hg, buildCache_head rfl ?_⟩
    rw [buildComponent_only hg, ← buildComponent_same hcon]
    exact hf
  · rintro ⟨c, files, hg, h⟩
    obtain ⟨p', hs, rest, hp⟩ := order_with_first (AMap.mem_of_get hg)
    obtain ⟨⟨d, fs⟩, hy, hf⟩ := buildCache_first (connected_only hc hg) h
    obtain ⟨rfl, rfl⟩ : d = c ∧ fs = files := by simpa [onlyComponent] using hy
    refine ⟨p', hs, buildCache_head hp ?_⟩
    rw [buildComponent_same (connection_same (E := E) hs hk hk'), ← buildComponent_only hg]
    exact hf

end Verif.ProviderLemmas
