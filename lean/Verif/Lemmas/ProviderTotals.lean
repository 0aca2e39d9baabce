import Verif.Lemmas.ProviderDetails
/-
Helper lemmas: the totals of the details, also if a language is counted twice.
-/
namespace Verif.ProviderLemmas
open Verif Verif.Spec

variable {E : Type}

/-! ### Sums over lists with repetitions -/

/-- The sum over a list with repetitions is that over its elements exactly if the repeated ones add nothing. -/
theorem sum_repeated (f : Str → Nat) : ∀ (ls keys : List Str), keys.Nodup → (∀ t, t ∈ keys ↔ t ∈ ls) →
    (keys.map f).sum ≤ (ls.map f).sum ∧ ((ls.map f).sum = (keys.map f).sum ↔ ∀ t, 2 ≤ ls.count t → f t = 0) := by
  intro ls
  induction ls with
  | nil =>
    intro keys _ hk
    have : keys = [] := List.eq_nil_iff_forall_not_mem.2 fun t ht => by simpa using (hk t).1 ht
    subst this
    simp
  | cons a ls ih =>
    intro keys hn hk
    by_cases ha : a ∈ ls
    · obtain ⟨h1, h2⟩ := ih keys hn fun t => by
        rw [hk, List.mem_cons]
        exact ⟨fun h => h.elim (fun e => e ▸ ha) id, .inr⟩
      simp only [List.map_cons, List.sum_cons]
      refine ⟨by omega, ?_⟩
      constructor
      · intro he t ht
        have hfa : f a = 0 := by omega
        by_cases hta : a = t
        · exact hta ▸ hfa
        · rw [List.count_cons, if_neg (by simpa using hta)] at ht
          exact h2.1 (by omega) t ht
      · intro hall
        have hfa : f a = 0 := hall a (by
          rw [List.count_cons_self]
          have := List.count_pos_iff.2 ha
          omega)
        have := h2.2 fun t ht => hall t (by rw [List.count_cons]; omega)
        omega
    · have hak : a ∈ keys := (hk a).2 (by simp)
      have hperm := List.perm_cons_erase hak
      obtain ⟨h1, h2⟩ := ih (keys.erase a) (hn.erase a) fun t => by
        rw [hn.mem_erase_iff, hk, List.mem_cons]
        constructor
        · rintro ⟨h1, h2 | h2⟩
          · exact absurd h2 h1
          · exact h2
        · intro h
          exact ⟨fun e => ha (e ▸ h), .inr h⟩
      have hsum : (keys.map f).sum = f a + ((keys.erase a).map f).sum := by
        have := (hperm.map f).sum_nat
        simpa using this
      simp only [List.map_cons, List.sum_cons]
      rw [hsum]
      refine ⟨by omega, ?_⟩
      have hcount : ∀ t, 2 ≤ (a :: ls).count t ↔ 2 ≤ ls.count t := by
        intro t
        by_cases hta : a = t
        · subst hta
          rw [List.count_cons_self, List.count_eq_zero.2 ha]
          omega
        · rw [List.count_cons, if_neg (by simpa using hta)]; exact Iff.rfl
      simp only [hcount]
      rw [← h2]
      omega

/-- An element is repeated in the answers exactly if it is the answer for two different tags. -/
theorem askTags_repeated {canon : Str → Except E Str} (t : Str) : ∀ {ts xs : List Str}, askTags canon ts = .ok xs →
    ts.Nodup → (2 ≤ xs.count t ↔ ∃ q ∈ ts, ∃ q' ∈ ts, q ≠ q' ∧ canon q = .ok t ∧ canon q' = .ok t) := by
  intro ts
  induction ts with
  | nil => intro xs h _; cases h; simp
  | cons q ts ih =>
    intro xs h hn
    rw [List.nodup_cons] at hn
    unfold askTags at h
    obtain ⟨x, h1, h⟩ := bind_eq_ok h
    obtain ⟨xs', h2, h⟩ := bind_eq_ok h
    cases h
    have hx : canon q = .ok x := by
      unfold askTag at h1
      split at h1
      · next e => cases h1; exact e
      · cases h1
    have ih := ih h2 hn.2
    have hmem := askTags_ok h2
    by_cases hxt : x = t
    · subst hxt
      rw [List.count_cons_self]
      constructor
      · intro hc
        have : x ∈ xs' := List.count_pos_iff.1 (by omega)
        obtain ⟨q', hq', hcq⟩ := (hmem x).1 this
        exact ⟨q, by simp, q', by simp [hq'], fun e => hn.1 (e ▸ hq'), hx, hcq⟩
      · rintro ⟨q1, hq1, q2, hq2, hne, hc1, hc2⟩
        have : ∃ q' ∈ ts, canon q' = .ok x := by
          rcases List.mem_cons.1 hq1 with rfl | h1
          · rcases List.mem_cons.1 hq2 with rfl | h2
            · exact absurd rfl hne
            · exact ⟨q2, h2, hc2⟩
          · exact ⟨q1, h1, hc1⟩
        have := List.count_pos_iff.2 ((hmem x).2 this)
        omega
    · rw [List.count_cons, if_neg (by simpa using hxt), Nat.add_zero, ih]
      have hq : canon q ≠ .ok t := by rw [hx]; exact fun e => hxt (Except.ok.inj e)
      constructor
      · rintro ⟨q1, hq1, q2, hq2, r⟩
        exact ⟨q1, by simp [hq1], q2, by simp [hq2], r⟩
      · rintro ⟨q1, hq1, q2, hq2, hne, hc1, hc2⟩
        refine ⟨q1, ?_, q2, ?_, hne, hc1, hc2⟩
        · rcases List.mem_cons.1 hq1 with rfl | h1
          · exact absurd hc1 hq
          · exact h1
        · rcases List.mem_cons.1 hq2 with rfl | h1
          · exact absurd hc2 hq
          · exact h1

/-- Uniting adds no repetition. -/
theorem count_union (t : Str) : ∀ (new l : List Str), (2 ≤ (union l new).count t ↔ 2 ≤ l.count t) := by
  intro new
  induction new with
  | nil => intro l; exact Iff.rfl
  | cons a new ih =>
    intro l
    have : union l (a :: new) = union (if a ∈ l then l else l ++ [a]) new := rfl
    rw [this, ih]
    by_cases ha : a ∈ l
    · simp [ha]
    · rw [if_neg ha, List.count_append]
      by_cases hta : a = t
      · subst hta
        rw [List.count_eq_zero.2 ha]
        simp
      · simp [hta]

/-! ### One component -/

/-- The count of a language of a component. -/
def countOf (E : Type) (p : Sqlite) (st : Store) (c : Str) (files : Bool × Bool) (t : Str) : Nat :=
  match p.languageData (E := E) st c files t with
  | .ok d => d.count
  | _ => 0

theorem countLanguages_totals {p : Sqlite} {st : Store} {c : Str} {files : Bool × Bool} :
    ∀ {tags : List Str} {own : ComponentDetails} {repo : RepositoryDetails} {own' : ComponentDetails}
      {repo' : RepositoryDetails}, p.countLanguages (E := E) st c files tags own repo = .ok (own', repo') →
    own'.total = own.total + (tags.map (countOf E p st c files)).sum ∧
    repo'.total = repo.total + (tags.map (countOf E p st c files)).sum ∧
    ∀ t, languageCount repo'.languages t = languageCount repo.languages t + tags.count t * countOf E p st c files t := by
  intro tags
  induction tags with
  | nil => intro own repo own' repo' h; cases h; simp
  | cons t tags ih =>
    intro own repo own' repo' h
    unfold Sqlite.countLanguages at h
    obtain ⟨v, hv, h⟩ := bind_eq_ok h
    obtain ⟨d, hd, h⟩ := bind_eq_ok h
    obtain ⟨w, hw, h⟩ := bind_eq_ok h
    have hw : repo.languages.get t = some w := by
      unfold Outcome.unwrap at hw; split at hw
      · next e => cases hw; exact e
      · cases hw
    obtain ⟨i1, i2, i3⟩ := ih h
    have hcount : countOf E p st c files t = d.count := by simp [countOf, hd]
    refine ⟨?_, ?_, fun t' => ?_⟩
    · rw [i1, List.map_cons, List.sum_cons, hcount]; simp only; omega
    · rw [i2, List.map_cons, List.sum_cons, hcount]; simp only; omega
    · rw [i3, languageCount_insert]
      by_cases e : t = t'
      · subst e
        have hwc : languageCount repo.languages t = w.count := by simp [languageCount, hw]
        rw [if_pos rfl, List.count_cons_self, hwc, hcount, Nat.add_mul, Nat.one_mul]
        simp only
        omega
      · rw [if_neg e, List.count_cons, if_neg (by simpa using e), Nat.add_zero]

/-- The counts of one component: never too small, and right exactly if no merged language has strings. -/
structure Totals (canon : Str → Except E Str) (p : Sqlite) (st : Store) (c : Str) (own : ComponentDetails)
    (repo repo' : RepositoryDetails) : Prop where
  least : sumCounts own.languages ≤ own.total
  exact : own.total = sumCounts own.languages ↔ ∀ t, Merged canon p st c t → languageCount own.languages t = 0
  total : repo'.total = repo.total + own.total
  each : ∀ t, languageCount repo.languages t + languageCount own.languages t ≤ languageCount repo'.languages t ∧
    (languageCount repo'.languages t = languageCount repo.languages t + languageCount own.languages t ↔
      (Merged canon p st c t → languageCount own.languages t = 0))

theorem sumCounts_keys {m : AMap Str LanguageData} (hn : m.keys.Nodup) :
    sumCounts m = (m.keys.map (languageCount m)).sum := by
  unfold sumCounts AMap.keys
  rw [List.map_map]
  congr 1
  apply List.map_congr_left
  intro x hx
  have := AMap.get_of_mem hn (k := x.1) (v := x.2) hx
  simp [languageCount, this]

theorem languages_repeated {canon : Str → Except E Str} {p : Sqlite} (hc : Connected p) {st : Store} {c : Str}
    {files : Bool × Bool} (hcomp : p.components.get c = some files) {first : List Str}
    (h : askIf files.1 (p.languages canon st c true) [] = .ok first) (t : Str) :
    2 ≤ first.count t ↔ Merged canon p st c t := by
  unfold askIf at h
  split at h
  · next hf =>
    unfold Sqlite.languages at h
    rw [connection_shared hc hcomp hf, Outcome.bind_ok] at h
    obtain ⟨rows, h1, h2⟩ := bind_eq_ok h
    have h1 : (st allInOne).contributor = .ok rows := by
      unfold readTable at h1
      split at h1
      · next e => cases h1; exact e
      · cases h1
    rw [askTags_repeated t h2 (nodup_distinct _)]
    have hsel : ∀ q, q ∈ selectLanguages rows c ↔ ∃ r ∈ rows, r.component = c ∧ r.tag = q := by
      intro q
      unfold selectLanguages
      rw [mem_distinct, List.mem_map]
      constructor
      · rintro ⟨r, hr, rfl⟩
        have := List.mem_filter.1 hr
        exact ⟨r, this.1, by simpa using this.2, rfl⟩
      · rintro ⟨r, hr, hrc, rfl⟩
        exact ⟨r, List.mem_filter.2 ⟨hr, by simpa using hrc⟩, rfl⟩
    constructor
    · rintro ⟨q, hq, q', hq', hne, hc1, hc2⟩
      obtain ⟨r, hr, hrc, rfl⟩ := (hsel q).1 hq
      obtain ⟨r', hr', hrc', rfl⟩ := (hsel q').1 hq'
      exact ⟨⟨files, hcomp, hf⟩, rows, h1, r, hr, r', hr', hrc, hrc', hne, hc1, hc2⟩
    · rintro ⟨_, rows', hrows', r, hr, r', hr', hrc, hrc', hne, hc1, hc2⟩
      rw [h1] at hrows'; cases hrows'
      exact ⟨r.tag, (hsel _).2 ⟨r, hr, hrc, rfl⟩, r'.tag, (hsel _).2 ⟨r', hr', hrc', rfl⟩, hne, hc1, hc2⟩
  · next hf =>
    cases h
    constructor
    · intro h; simp at h
    · rintro ⟨⟨files', hf', hf1⟩, _⟩
      rw [hcomp] at hf'; cases hf'
      exact absurd hf1 hf

theorem buildComponent_totals {canon : Str → Except E Str} {p : Sqlite} (hc : Connected p) {st : Store} {c : Str}
    {files : Bool × Bool} (hcomp : p.components.get c = some files) {repo repo' : RepositoryDetails} {own : ComponentDetails}
    (h : p.buildComponent canon st c files repo = .ok (own, repo')) : Totals canon p st c own repo repo' := by
  have hbuilt := (buildComponent_ok h).1
  unfold Sqlite.buildComponent at h
  obtain ⟨und, h1, h⟩ := bind_eq_ok h
  obtain ⟨⟨ls, own0, all⟩, h2, h⟩ := bind_eq_ok h
  obtain ⟨f, h3, h⟩ := bind_eq_ok h
  obtain ⟨def?, h4, h⟩ := bind_eq_ok h
  simp only at h
  cases def? with
  | none => cases h
  | some d =>
    simp only at h
    split at h
    · cases h
    · obtain ⟨⟨own1, repo1⟩, h5, h⟩ := bind_eq_ok h
      obtain ⟨w, h6, h⟩ := bind_eq_ok h
      cases h
      obtain ⟨first, second, a1, a2, a3, a4, a5, a6, a7⟩ := componentLanguages_ok h2
      obtain ⟨b1, b2, b3⟩ := countLanguages_totals h5
      simp only at b1 b2 b3
      obtain ⟨_, _, k3, _⟩ := countLanguages_ok h5
      simp only at k3
      have hkeys : ∀ t, t ∈ own1.languages.keys ↔ t ∈ ls := fun t => by rw [k3, a6]
      obtain ⟨c1, _⟩ := fold_addNew first repo.languages
      obtain ⟨e1, _⟩ := fold_addNew second (first.foldl addNew repo.languages)
      rw [← a7] at e1
      have hmerge : ∀ t, 2 ≤ ls.count t ↔ Merged canon p st c t := by
        intro t
        rw [a3, count_union, languages_repeated hc hcomp a1]
      have hcnt : ∀ t, t ∈ ls → languageCount own1.languages t = countOf E p st c files t := by
        intro t ht
        obtain ⟨dd, hd1, hd2⟩ := hbuilt.data t ((hkeys t).2 ht)
        simp only at hd2
        simp [languageCount, countOf, hd1, hd2]
      have hsum : sumCounts own1.languages = (own1.languages.keys.map (countOf E p st c files)).sum := by
        rw [sumCounts_keys hbuilt.nodup]
        congr 1
        exact List.map_congr_left fun t ht => hcnt t ((hkeys t).1 ht)
      obtain ⟨s1, s2⟩ := sum_repeated (countOf E p st c files) ls own1.languages.keys hbuilt.nodup hkeys
      have hzero : ∀ t, 2 ≤ ls.count t → t ∈ ls := fun t ht => List.count_pos_iff.1 (by omega)
      refine ⟨?_, ?_, ?_, fun t => ?_⟩
      · simp only [hsum, b1]; omega
      · simp only [hsum, b1, Nat.zero_add]
        rw [s2]
        constructor
        · intro hall t ht
          have h2 := (hmerge t).2 ht
          rw [hcnt t (hzero t h2)]
          exact hall t h2
        · intro hall t ht
          rw [← hcnt t (hzero t ht)]
          exact hall t ((hmerge t).1 ht)
      · simp only [b1, b2]; omega
      · have hb := b3 t
        rw [e1, c1] at hb
        simp only
        by_cases ht : t ∈ ls
        · have hpos := List.count_pos_iff.2 ht
          rw [hb, hcnt t ht]
          generalize countOf E p st c files t = n at *
          generalize hm : ls.count t = m at *
          have hmul : n ≤ m * n := Nat.le_mul_of_pos_left n hpos
          refine ⟨by omega, ?_⟩
          rw [← hmerge t, hm]
          constructor
          · intro he h2
            have : 2 * n ≤ m * n := Nat.mul_le_mul_right n h2
            omega
          · intro hall
            by_cases h2 : 2 ≤ m
            · rw [hall h2]; simp
            · have : m = 1 := by omega
              rw [this]; simp
        · have h0 : languageCount own1.languages t = 0 := by
            have : own1.languages.get t = none := (AMap.get_eq_none_iff _ _).2 fun hk => ht ((hkeys t).1 hk)
            simp [languageCount, this]
          rw [hb, h0, List.count_eq_zero.2 ht]
          simp

/-! ### All components -/

/-- The counts after some components. -/
structure AllTotals (canon : Str → Except E Str) (p : Sqlite) (st : Store) (done : AMap Str ComponentDetails)
    (repo : RepositoryDetails) : Prop where
  own : ∀ x ∈ done, sumCounts x.2.languages ≤ x.2.total ∧
    (x.2.total = sumCounts x.2.languages ↔ ∀ t, Merged canon p st x.1 t → languageCount x.2.languages t = 0)
  total : repo.total = (done.map fun x => x.2.total).sum
  each : ∀ t, (done.map fun x => languageCount x.2.languages t).sum ≤ languageCount repo.languages t ∧
    (languageCount repo.languages t = (done.map fun x => languageCount x.2.languages t).sum ↔
      ∀ x ∈ done, Merged canon p st x.1 t → languageCount x.2.languages t = 0)

theorem buildComponents_totals {canon : Str → Except E Str} {p : Sqlite} (hc : Connected p) {st : Store}
    (hk : p.components.keys.Nodup) :
    ∀ {rest : List (Str × Bool × Bool)} {done details : AMap Str ComponentDetails} {repo repo' : RepositoryDetails},
    p.buildComponents canon st rest done repo = .ok (details, repo') → (∀ x ∈ rest, x ∈ p.components) →
    (done.keys ++ AMap.keys rest).Nodup → AllTotals canon p st done repo → AllTotals canon p st details repo' := by
  intro rest
  induction rest with
  | nil => intro done details repo repo' h _ _ hcol; cases h; exact hcol
  | cons a rest ih =>
    obtain ⟨c, files⟩ := a
    intro done details repo repo' h hsub hn hcol
    unfold Sqlite.buildComponents at h
    obtain ⟨⟨own, repo1⟩, h1, h⟩ := bind_eq_ok h
    simp only at h
    have hT := buildComponent_totals hc (AMap.get_of_mem hk (hsub _ (by simp))) h1
    have hnew : c ∉ done.keys := by
      intro hm
      rw [List.nodup_append] at hn
      exact hn.2.2 c hm c (by simp [AMap.keys]) rfl
    rw [AMap.keys_insert_not_mem _ hnew] at h
    have hkeys : AMap.keys (done ++ [(c, own)]) = done.keys ++ [c] := by simp [AMap.keys]
    refine ih h (fun x hx => hsub x (by simp [hx])) (by rw [hkeys, List.append_assoc]; exact hn) ⟨?_, ?_, fun t => ?_⟩
    · intro x hx
      rcases List.mem_append.1 hx with hx | hx
      · exact hcol.own x hx
      · simp at hx; subst hx; exact ⟨hT.least, hT.exact⟩
    · rw [hT.total, hcol.total]; simp
    · obtain ⟨h1, h2⟩ := hcol.each t
      obtain ⟨h3, h4⟩ := hT.each t
      simp only [List.map_append, List.map_cons, List.map_nil, List.sum_append, List.sum_cons, List.sum_nil, Nat.add_zero]
      refine ⟨by omega, ?_⟩
      constructor
      · intro he x hx
        have e1 := h2.1 (by omega)
        have e2 := h4.1 (by omega)
        rcases List.mem_append.1 hx with hx | hx
        · exact e1 x hx
        · simp at hx; subst hx; exact e2
      · intro hall
        have e1 := h2.2 fun x hx => hall x (by simp [hx])
        have e2 := h4.2 (hall (c, own) (by simp))
        omega

theorem buildCache_totals {canon : Str → Except E Str} {p : Sqlite} (hc : Connected p) {st : Store}
    (hk : p.components.keys.Nodup) {details : AMap Str ComponentDetails} {repo : RepositoryDetails}
    (h : p.buildCache canon st = .ok (details, repo)) : AllTotals canon p st details repo := by
  unfold Sqlite.buildCache at h
  obtain ⟨⟨details', repo'⟩, h1, h⟩ := bind_eq_ok h
  simp only at h
  have hr : details' = details ∧ repo' = repo := by
    split at h
    · cases h; exact ⟨rfl, rfl⟩
    · obtain ⟨_, _, h⟩ := bind_eq_ok h
      cases h; exact ⟨rfl, rfl⟩
  obtain ⟨rfl, rfl⟩ := hr
  exact buildComponents_totals hc hk h1 (fun x hx => hx) (by simpa [AMap.keys] using hk)
    ⟨by simp, by simp, by simp [languageCount]⟩

end Verif.ProviderLemmas
