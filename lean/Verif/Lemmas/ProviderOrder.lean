import Verif.Lemmas.ProviderUsable
/-
The order in which the components are walked.
-/
namespace Verif.ProviderLemmas
open Verif Verif.Spec

variable {E : Type} {canon : Str → Except E Str} {p p' : Sqlite} {st : Store} {c : Str} {files : Bool × Bool}

theorem get_perm {κ ν : Type} [DecidableEq κ] {m m' : AMap κ ν} (h : m.Perm m') (hn : m.keys.Nodup) (k : κ) :
    m.get k = m'.get k := by
  have hn' : m'.keys.Nodup := ((h.map Prod.fst).nodup_iff).1 hn
  cases hg : m.get k with
  | some v => exact (AMap.get_of_mem hn' (h.mem_iff.1 (AMap.mem_of_get hg))).symm
  | none =>
    cases hg' : m'.get k with
    | none => rfl
    | some v => rw [AMap.get_of_mem hn (h.mem_iff.2 (AMap.mem_of_get hg'))] at hg; cases hg

theorem sum_perm {l l' : List Nat} (h : l.Perm l') : l.sum = l'.sum := by
  induction h with
  | nil => rfl
  | cons x _ ih => simp [ih]
  | swap x y l => simp; omega
  | trans _ _ i1 i2 => rw [i1, i2]

/-- Nothing but the databases of a component matters. -/
theorem connection_same (h : SameSqlite p p') (hk : p.components.keys.Nodup) (hk' : p.connections.keys.Nodup) :
    Sqlite.connection (E := E) p' = Sqlite.connection p := by
  funext c aio
  unfold Sqlite.connection
  rw [get_perm h.components hk c, get_perm h.connections hk' allInOne, get_perm h.connections hk' c]

theorem countLanguages_same (h : Sqlite.connection (E := E) p' = Sqlite.connection p) :
    ∀ (tags : List Str) (own : ComponentDetails) (repo : RepositoryDetails),
    p'.countLanguages (E := E) st c files tags own repo = p.countLanguages st c files tags own repo := by
  intro tags
  induction tags with
  | nil => intro _ _; rfl
  | cons t tags ih =>
    intro own repo
    unfold Sqlite.countLanguages
    simp only [ih, Sqlite.languageData, Sqlite.contributors, Sqlite.count, h]

theorem buildComponent_same (h : Sqlite.connection (E := E) p' = Sqlite.connection p) (repo : RepositoryDetails) :
    p'.buildComponent canon st c files repo = p.buildComponent canon st c files repo := by
  unfold Sqlite.buildComponent
  simp only [countLanguages_same h, Sqlite.componentLanguages, Sqlite.languages, Sqlite.defaultLanguage, h]

theorem buildComponents_same (h : Sqlite.connection (E := E) p' = Sqlite.connection p) :
    ∀ (rest : List (Str × Bool × Bool)) (done : AMap Str ComponentDetails) (repo : RepositoryDetails),
    p'.buildComponents canon st rest done repo = p.buildComponents canon st rest done repo := by
  intro rest
  induction rest with
  | nil => intro _ _; rfl
  | cons a rest ih =>
    obtain ⟨c, files⟩ := a
    intro done repo
    unfold Sqlite.buildComponents
    simp only [buildComponent_same h, ih]

/-! ### What one component adds -/

/-- The strings of the language in the component. -/
def stringsIn (p : Sqlite) (st : Store) (c : Str) (files : Bool × Bool) (t : Str) : Nat :=
  match p.languageData (E := Unit) st c files t with
  | .ok d => d.count
  | _ => 0

/-- Errors of the registry do not occur. -/
theorem languageData_any {t : Str} {d : LanguageData} (h : p.languageData (E := E) st c files t = .ok d) :
    stringsIn p st c files t = d.count := by
  have : p.languageData (E := Unit) st c files t = .ok d := by
    have conn : ∀ aio {n : Str}, p.connection (E := E) c aio = .ok n → p.connection (E := Unit) c aio = .ok n := by
      intro aio n hx
      unfold Sqlite.connection at hx ⊢
      cases hg : p.components.get c with
      | none => rw [hg] at hx; cases hx
      | some v =>
        rw [hg] at hx
        simp only at hx ⊢
        split at hx
        · next ha =>
          rw [if_pos ha]
          cases hq : p.connections.get allInOne with
          | none => rw [hq] at hx; cases hx
          | some w => rw [hq] at hx; simpa using hx
        · next ha =>
          rw [if_neg ha]
          split at hx
          · next hb =>
            rw [if_pos hb]
            cases hq : p.connections.get c with
            | none => rw [hq] at hx; cases hx
            | some w => rw [hq] at hx; simpa using hx
          · cases hx
    have contr : ∀ aio {x : List Str}, p.contributors (E := E) st c t aio = .ok x →
        p.contributors (E := Unit) st c t aio = .ok x := by
      intro aio x hx
      obtain ⟨n, h1, hx⟩ := bind_eq_ok hx
      obtain ⟨rows, h2, hx⟩ := bind_eq_ok hx
      unfold Sqlite.contributors
      rw [conn aio h1, Outcome.bind_ok, readTable_ok.1 h2]
      simpa [readTable] using hx
    have cnt : ∀ aio {x : Nat}, p.count (E := E) st c t aio = .ok x → p.count (E := Unit) st c t aio = .ok x := by
      intro aio x hx
      obtain ⟨n, h1, hx⟩ := bind_eq_ok hx
      obtain ⟨rows, h2, hx⟩ := bind_eq_ok hx
      unfold Sqlite.count
      rw [conn aio h1, Outcome.bind_ok, readTable_ok.1 h2]
      simpa [readTable] using hx
    have ai : ∀ {α : Type} {b : Bool} {x : ProvM E α} {x' : ProvM Unit α} {y z : α}, (∀ {w}, x = .ok w → x' = .ok w) →
        askIf b x y = .ok z → askIf b x' y = .ok z := by
      intro α b x x' y z hw hz
      unfold askIf at hz ⊢
      cases b with
      | true => exact hw hz
      | false => simpa using hz
    obtain ⟨x1, h1, h⟩ := bind_eq_ok h
    obtain ⟨x2, h2, h⟩ := bind_eq_ok h
    obtain ⟨x3, h3, h⟩ := bind_eq_ok h
    obtain ⟨x4, h4, h⟩ := bind_eq_ok h
    unfold Sqlite.languageData
    rw [ai (fun {w} => contr _) h1, Outcome.bind_ok, ai (fun {w} => contr _) h2, Outcome.bind_ok,
      ai (fun {w} => cnt _) h3, Outcome.bind_ok, ai (fun {w} => cnt _) h4, Outcome.bind_ok]
    simpa using h
  rw [stringsIn, this]

/-- The loop over the languages adds the same to each repository. -/
theorem countLanguages_adds : ∀ {tags : List Str} {own own' : ComponentDetails} {repo repo' : RepositoryDetails},
    p.countLanguages (E := E) st c files tags own repo = .ok (own', repo') →
    repo'.total = repo.total + (tags.map (stringsIn p st c files)).sum ∧
    ∀ t, languageCount repo'.languages t =
      languageCount repo.languages t + ((tags.filter fun t' => t' = t).map (stringsIn p st c files)).sum := by
  intro tags
  induction tags with
  | nil => intro own own' repo repo' h; cases h; simp
  | cons tag tags ih =>
    intro own own' repo repo' h
    unfold Sqlite.countLanguages at h
    obtain ⟨v, hv, h⟩ := bind_eq_ok h
    obtain ⟨d, hd, h⟩ := bind_eq_ok h
    obtain ⟨w, hw, h⟩ := bind_eq_ok h
    have hw : repo.languages.get tag = some w := by
      unfold Outcome.unwrap at hw; split at hw
      · next e => cases hw; exact e
      · cases hw
    obtain ⟨i1, i2⟩ := ih h
    have hs := languageData_any hd
    refine ⟨by rw [i1]; simp [hs]; omega, fun t => ?_⟩
    rw [i2]
    simp only [languageCount_insert, List.filter_cons]
    by_cases ht : tag = t
    · subst ht
      simp [languageCount, hw, hs]
      omega
    · simp [ht]

theorem countLanguages_own : ∀ {tags : List Str} {own own1 own2 : ComponentDetails}
    {repo1 repo1' repo2 repo2' : RepositoryDetails},
    p.countLanguages (E := E) st c files tags own repo1 = .ok (own1, repo1') →
    p.countLanguages (E := E) st c files tags own repo2 = .ok (own2, repo2') → own1 = own2 := by
  intro tags
  induction tags with
  | nil => intro own own1 own2 repo1 repo1' repo2 repo2' h1 h2; cases h1; cases h2; rfl
  | cons tag tags ih =>
    intro own own1 own2 repo1 repo1' repo2 repo2' h1 h2
    unfold Sqlite.countLanguages at h1 h2
    obtain ⟨v, _, h1⟩ := bind_eq_ok h1
    obtain ⟨d, hd, h1⟩ := bind_eq_ok h1
    obtain ⟨w, _, h1⟩ := bind_eq_ok h1
    obtain ⟨v2, _, h2⟩ := bind_eq_ok h2
    obtain ⟨d2, hd2, h2⟩ := bind_eq_ok h2
    obtain ⟨w2, _, h2⟩ := bind_eq_ok h2
    rw [hd] at hd2; cases hd2
    exact ih h1 h2

/-- The languages of a component in the order in which they are counted. -/
def languagesOf (canon : Str → Except E Str) (p : Sqlite) (st : Store) (c : Str) (files : Bool × Bool) : List Str :=
  match askIf files.1 (p.languages canon st c true) [], askIf files.2 (p.languages canon st c false) [] with
  | .ok first, .ok second => union first second
  | _, _ => []

theorem buildComponent_adds {repo repo' : RepositoryDetails} {own : ComponentDetails}
    (h : p.buildComponent canon st c files repo = .ok (own, repo')) :
    repo'.total = repo.total + ((languagesOf canon p st c files).map (stringsIn p st c files)).sum ∧
    (∀ t, languageCount repo'.languages t = languageCount repo.languages t +
      (((languagesOf canon p st c files).filter fun t' => t' = t).map (stringsIn p st c files)).sum) ∧
    (repo.contributors.Nodup → repo'.contributors.Nodup) := by
  unfold Sqlite.buildComponent at h
  obtain ⟨und, h1, h⟩ := bind_eq_ok h
  obtain ⟨⟨ls, own0, all⟩, h2, h⟩ := bind_eq_ok h
  obtain ⟨f, h3, h⟩ := bind_eq_ok h
  obtain ⟨def?, h4, h⟩ := bind_eq_ok h
  simp only at h
  cases def? with
  | none => cases h
  | some d =>
    simp only at h
    split at h
    · cases h
    · obtain ⟨⟨own1, repo1⟩, h5, h⟩ := bind_eq_ok h
      obtain ⟨w, h6, h⟩ := bind_eq_ok h
      cases h
      obtain ⟨first, second, a1, a2, a3, _, _, _, a7⟩ := componentLanguages_ok h2
      have hl : languagesOf canon p st c files = ls := by rw [languagesOf, a1, a2, a3]
      obtain ⟨b1, b2⟩ := countLanguages_adds h5
      obtain ⟨c1, _⟩ := fold_addNew first repo.languages
      obtain ⟨e1, _⟩ := fold_addNew second (first.foldl addNew repo.languages)
      rw [← a7] at e1
      rw [hl]
      refine ⟨b1, fun t => by rw [b2, e1, c1], ?_⟩
      have : ∀ {tags : List Str} {own own' : ComponentDetails} {r r' : RepositoryDetails},
          p.countLanguages (E := E) st c files tags own r = .ok (own', r') → r.contributors.Nodup → r'.contributors.Nodup := by
        intro tags
        induction tags with
        | nil => intro own own' r r' h; cases h; exact id
        | cons tag tags ih =>
          intro own own' r r' h hn
          unfold Sqlite.countLanguages at h
          obtain ⟨v, _, h⟩ := bind_eq_ok h
          obtain ⟨d, _, h⟩ := bind_eq_ok h
          obtain ⟨w, _, h⟩ := bind_eq_ok h
          exact ih h (nodup_union _ _ hn)
      exact fun hn => this h5 hn

theorem buildComponent_own {repo1 repo1' repo2 repo2' : RepositoryDetails} {own1 own2 : ComponentDetails}
    (h1 : p.buildComponent canon st c files repo1 = .ok (own1, repo1'))
    (h2 : p.buildComponent canon st c files repo2 = .ok (own2, repo2')) : own1 = own2 := by
  unfold Sqlite.buildComponent at h1 h2
  obtain ⟨und, a1, h1⟩ := bind_eq_ok h1
  obtain ⟨und', a1', h2⟩ := bind_eq_ok h2
  rw [a1] at a1'; cases a1'
  obtain ⟨⟨ls, own0, all⟩, a2, h1⟩ := bind_eq_ok h1
  obtain ⟨⟨ls', own0', all'⟩, a2', h2⟩ := bind_eq_ok h2
  obtain ⟨f, a3, h1⟩ := bind_eq_ok h1
  obtain ⟨f', a3', h2⟩ := bind_eq_ok h2
  rw [a3] at a3'; cases a3'
  obtain ⟨d, a4, h1⟩ := bind_eq_ok h1
  obtain ⟨d', a4', h2⟩ := bind_eq_ok h2
  rw [a4] at a4'; cases a4'
  have hl : ls' = ls ∧ own0' = own0 := by
    unfold Sqlite.componentLanguages at a2 a2'
    obtain ⟨first, b1, a2⟩ := bind_eq_ok a2
    obtain ⟨first', b1', a2'⟩ := bind_eq_ok a2'
    rw [b1] at b1'; cases b1'
    obtain ⟨second, b2, a2⟩ := bind_eq_ok a2
    obtain ⟨second', b2', a2'⟩ := bind_eq_ok a2'
    rw [b2] at b2'; cases b2'
    cases a2; cases a2'
    exact ⟨rfl, rfl⟩
  obtain ⟨rfl, rfl⟩ := hl
  cases d with
  | none => cases h1
  | some d =>
    simp only at h1 h2
    split at h1
    · cases h1
    · next hdef =>
      rw [if_neg hdef] at h2
      obtain ⟨⟨own1, r1⟩, a5, h1⟩ := bind_eq_ok h1
      obtain ⟨⟨own2, r2⟩, a5', h2⟩ := bind_eq_ok h2
      obtain ⟨_, _, h1⟩ := bind_eq_ok h1
      obtain ⟨_, _, h2⟩ := bind_eq_ok h2
      cases h1; cases h2
      rw [countLanguages_own a5 a5']

/-! ### All components -/

theorem buildComponents_adds : ∀ {rest : List (Str × Bool × Bool)} {done details : AMap Str ComponentDetails}
    {repo repo' : RepositoryDetails}, p.buildComponents canon st rest done repo = .ok (details, repo') →
    repo'.total = repo.total +
      (rest.map fun y => ((languagesOf canon p st y.1 y.2).map (stringsIn p st y.1 y.2)).sum).sum ∧
    (∀ t, languageCount repo'.languages t = languageCount repo.languages t + (rest.map fun y =>
      (((languagesOf canon p st y.1 y.2).filter fun t' => t' = t).map (stringsIn p st y.1 y.2)).sum).sum) ∧
    (repo.contributors.Nodup → repo'.contributors.Nodup) ∧
    ∀ c own, details.get c = some own → done.get c = some own ∨
      ∃ files, (c, files) ∈ rest ∧ ∃ r r', p.buildComponent canon st c files r = .ok (own, r') := by
  intro rest
  induction rest with
  | nil => intro done details repo repo' h; cases h; simp
  | cons a rest ih =>
    obtain ⟨c, files⟩ := a
    intro done details repo repo' h
    unfold Sqlite.buildComponents at h
    obtain ⟨⟨own, repo1⟩, h1, h⟩ := bind_eq_ok h
    obtain ⟨i1, i2, i3, i4⟩ := ih h
    obtain ⟨b1, b2, b3⟩ := buildComponent_adds h1
    refine ⟨by rw [i1, b1]; simp; omega, fun t => by rw [i2, b2]; simp; omega, fun hn => i3 (b3 hn), fun c' own' hg => ?_⟩
    rcases i4 c' own' hg with hd | ⟨files', hm, r, r', hb⟩
    · rw [AMap.get_insert] at hd
      by_cases hc : c = c'
      · subst hc
        simp at hd
        subst hd
        exact .inr ⟨files, List.mem_cons_self, _, _, h1⟩
      · rw [if_neg hc] at hd
        exact .inl hd
    · exact .inr ⟨files', List.mem_cons_of_mem _ hm, r, r', hb⟩

theorem buildCache_same (hk : p.components.keys.Nodup) (hk' : p.connections.keys.Nodup)
    (h : SameSqlite p p') {details details' : AMap Str ComponentDetails} {repo repo' : RepositoryDetails}
    (h1 : p.buildCache canon st = .ok (details, repo)) (h2 : p'.buildCache canon st = .ok (details', repo')) :
    (∀ c, details.get c = details'.get c) ∧ SameRepository repo repo' := by
  have hconn := connection_same (E := E) h hk hk'
  have hn' : p'.components.keys.Nodup := ((h.components.map Prod.fst).nodup_iff).1 hk
  obtain ⟨c1, k1, _⟩ := buildCache_ok hk h1
  obtain ⟨c2, k2, _⟩ := buildCache_ok hn' h2
  have run : ∀ {q : Sqlite} {d : AMap Str ComponentDetails} {r : RepositoryDetails}, q.buildCache canon st = .ok (d, r) →
      q.buildComponents canon st q.components []
        { languages := [], default := none, total := 0, components := [], contributors := [] } = .ok (d, r) := by
    intro q d r hq
    unfold Sqlite.buildCache at hq
    obtain ⟨⟨d', r'⟩, hr, hq⟩ := bind_eq_ok hq
    simp only at hq
    split at hq
    · cases hq; exact hr
    · obtain ⟨_, _, hq⟩ := bind_eq_ok hq
      cases hq; exact hr
  have r1 := run h1
  have r2 := run h2
  rw [buildComponents_same hconn] at r2
  obtain ⟨t1, l1, n1, o1⟩ := buildComponents_adds r1
  obtain ⟨t2, l2, n2, o2⟩ := buildComponents_adds r2
  have hkeys : ∀ c, c ∈ details.keys ↔ c ∈ details'.keys := fun c => by
    rw [k1, k2]; exact (h.components.map Prod.fst).mem_iff
  have hget : ∀ c, details.get c = details'.get c := by
    intro c
    cases g1 : details.get c with
    | none =>
      symm
      rw [AMap.get_eq_none_iff] at g1 ⊢
      exact fun hm => g1 ((hkeys c).2 hm)
    | some own =>
      obtain ⟨own', g2⟩ := (AMap.mem_keys_iff _ _).1 ((hkeys c).1 ((AMap.mem_keys_iff _ _).2 ⟨own, g1⟩))
      rw [g2]
      rcases o1 c own g1 with g | ⟨files, m1, ra, ra', b1⟩
      · cases g
      rcases o2 c own' g2 with g | ⟨files', m2, rb, rb', b2⟩
      · cases g
      have hf : files' = files := by
        have e1 := AMap.get_of_mem hk m1
        have e2 := AMap.get_of_mem hk (h.components.mem_iff.2 m2)
        rw [e1] at e2; exact (Option.some.inj e2).symm
      subst hf
      rw [buildComponent_own b1 b2]
  refine ⟨hget, ?_, ?_, ?_, ?_, ?_⟩
  · intro t
    have hmem : t ∈ repo.languages.keys ↔ t ∈ repo'.languages.keys := by
      rw [c1.languages, c2.languages]
      have hd : details.keys.Nodup := by rw [k1]; exact hk
      have hd' : details'.keys.Nodup := by rw [k2]; exact hn'
      constructor
      · rintro ⟨x, hx, ht⟩
        refine ⟨x, AMap.mem_of_get ?_, ht⟩
        rw [← hget]; exact AMap.get_of_mem hd hx
      · rintro ⟨x, hx, ht⟩
        refine ⟨x, AMap.mem_of_get ?_, ht⟩
        rw [hget]; exact AMap.get_of_mem hd' hx
    have hcount : languageCount repo.languages t = languageCount repo'.languages t := by
      rw [l1, l2]
      congr 1
      exact sum_perm (h.components.map _)
    cases g1 : repo.languages.get t with
    | none =>
      symm
      rw [AMap.get_eq_none_iff] at g1 ⊢
      exact fun hm => g1 (hmem.2 hm)
    | some d =>
      obtain ⟨d', g2⟩ := (AMap.mem_keys_iff _ _).1 (hmem.1 ((AMap.mem_keys_iff _ _).2 ⟨d, g1⟩))
      have e1 := c1.empty _ (AMap.mem_of_get g1)
      have e2 := c2.empty _ (AMap.mem_of_get g2)
      rw [languageCount, languageCount, g1, g2] at hcount
      obtain ⟨n, l⟩ := d
      obtain ⟨n', l'⟩ := d'
      simp only at e1 e2 hcount
      subst e1 e2 hcount
      exact g2.symm
  · rw [c1.default, c2.default, hget]
  · rw [t1, t2]
    congr 1
    exact sum_perm (h.components.map _)
  · rw [c1.components, c2.components, k1, k2]
    exact h.components.map _
  · refine (List.perm_ext_iff_of_nodup (n1 (by simp)) (n2 (by simp))).2 fun y => ?_
    have hd : details.keys.Nodup := by rw [k1]; exact hk
    have hd' : details'.keys.Nodup := by rw [k2]; exact hn'
    rw [c1.contributors, c2.contributors]
    constructor
    · rintro ⟨x, hx, ht⟩
      refine ⟨x, AMap.mem_of_get ?_, ht⟩
      rw [← hget]; exact AMap.get_of_mem hd hx
    · rintro ⟨x, hx, ht⟩
      refine ⟨x, AMap.mem_of_get ?_, ht⟩
      rw [hget]; exact AMap.get_of_mem hd' hx

end Verif.ProviderLemmas
