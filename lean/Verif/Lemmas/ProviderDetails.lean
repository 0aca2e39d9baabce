import Verif.Lemmas.Provider
/-
Lemmas on the details of components and of the repository.
-/
namespace Verif.ProviderLemmas
open Verif Verif.Spec

variable {E : Type} {α β ε : Type}

theorem bind_eq_ok {x : Outcome ε α} {f : α → Outcome ε β} {b : β} (h : (x >>= f) = .ok b) :
    ∃ a, x = .ok a ∧ f a = .ok b := by
  cases x with
  | ok a => exact ⟨a, rfl, h⟩
  | err e => cases h
  | panic => cases h

theorem bind_ne_panic {x : Outcome ε α} {f : α → Outcome ε β} (hx : x ≠ .panic) (hf : ∀ a, x = .ok a → f a ≠ .panic) :
    (x >>= f) ≠ .panic := by
  cases x with
  | ok a => exact hf a rfl
  | err e => simp
  | panic => exact absurd rfl hx

theorem askIf_ne_panic {b : Bool} {x : ProvM E α} {y : α} (hx : x ≠ .panic) : askIf b x y ≠ .panic := by
  unfold askIf
  split
  · exact hx
  · simp

/-! ### Nothing panics -/

theorem connection_ne_panic {p : Sqlite} (hc : Connected p) (c : Str) (aio : Bool) :
    p.connection (E := E) c aio ≠ .panic := by
  unfold Sqlite.connection
  split
  · simp
  · next v h =>
    split
    · next ha =>
      have := hc.shared c v h (by simp only [Bool.and_eq_true] at ha; exact ha.2)
      obtain ⟨w, hw⟩ := Option.isSome_iff_exists.1 this
      simp [hw]
    · split
      · next hv =>
        have := hc.own c v h hv
        obtain ⟨w, hw⟩ := Option.isSome_iff_exists.1 this
        simp [hw]
      · simp

theorem readTable_ne_panic (t : Except Nat α) : readTable (E := E) t ≠ .panic := by
  unfold readTable; split <;> simp

theorem askTag_ne_panic (canon : Str → Except E Str) (t : Str) : askTag canon t ≠ .panic := by
  unfold askTag; split <;> simp

theorem askTags_ne_panic (canon : Str → Except E Str) (ts : List Str) : askTags canon ts ≠ .panic := by
  induction ts with
  | nil => simp [askTags]
  | cons t ts ih =>
    exact bind_ne_panic (askTag_ne_panic canon t) fun _ _ => bind_ne_panic ih fun _ _ => by simp

theorem readRows_ne_panic (canon : Str → Except E Str) (rows : List (Str × Str)) : readRows canon rows ≠ .panic := by
  induction rows with
  | nil => simp [readRows]
  | cons t ts ih =>
    exact bind_ne_panic (askTag_ne_panic canon _) fun _ _ => bind_ne_panic ih fun _ _ => by simp

theorem findLoop_ne_panic (canon : Str → Except E Str) (rows : List PatternRow) (c i : Str) (one exact : Bool) :
    ∀ (n : Nat) (tag : Str), tag.length ≤ n → findLoop canon rows c i one exact tag ≠ .panic := by
  intro n
  induction n with
  | zero =>
    intro tag hn
    have : tag = [] := by simpa using hn
    subst this
    rw [findLoop]
    simp
  | succ n ih =>
    intro tag hn
    rw [findLoop]
    split
    · simp
    · next hne =>
      simp only
      split
      · simp
      · next h => exact absurd h (readRows_ne_panic canon _)
      · split
        · simp
        · split
          · simp
          · next b h =>
            apply ih
            have : b.length < tag.length := by
              cases exact with
              | true => exact rsplitBefore_length (by simpa using h)
              | false =>
                have h' : rsplitBefore '-' (tag ++ ['%']) = some b := by simpa using h
                rw [rsplitBefore_snoc (by decide)] at h'
                exact rsplitBefore_length h'
            omega

theorem findStrings_ne_panic {p : Sqlite} (hc : Connected p) (canon : Str → Except E Str) (st : Store) (c i tag : Str)
    (aio one exact : Bool) : p.findStrings canon st c i tag aio one exact ≠ .panic :=
  bind_ne_panic (connection_ne_panic hc c aio) fun _ _ => bind_ne_panic (readTable_ne_panic _) fun _ _ =>
    findLoop_ne_panic canon _ c i one exact _ tag (Nat.le_refl _)

theorem languages_ne_panic {p : Sqlite} (hc : Connected p) (canon : Str → Except E Str) (st : Store) (c : Str)
    (aio : Bool) : p.languages canon st c aio ≠ .panic :=
  bind_ne_panic (connection_ne_panic hc c aio) fun _ _ => bind_ne_panic (readTable_ne_panic _) fun _ _ =>
    askTags_ne_panic canon _

theorem identifierLanguages_ne_panic {p : Sqlite} (hc : Connected p) (canon : Str → Except E Str) (st : Store) (c i : Str)
    (aio : Bool) : p.identifierLanguages canon st c i aio ≠ .panic :=
  bind_ne_panic (connection_ne_panic hc c aio) fun _ _ => bind_ne_panic (readTable_ne_panic _) fun _ _ =>
    askTags_ne_panic canon _

theorem contributors_ne_panic {p : Sqlite} (hc : Connected p) (st : Store) (c tag : Str)
    (aio : Bool) : p.contributors (E := E) st c tag aio ≠ .panic :=
  bind_ne_panic (connection_ne_panic hc c aio) fun _ _ => bind_ne_panic (readTable_ne_panic _) fun _ _ => by simp

theorem count_ne_panic {p : Sqlite} (hc : Connected p) (st : Store) (c tag : Str)
    (aio : Bool) : p.count (E := E) st c tag aio ≠ .panic :=
  bind_ne_panic (connection_ne_panic hc c aio) fun _ _ => bind_ne_panic (readTable_ne_panic _) fun _ _ => by simp

theorem defaultLanguage_ne_panic {p : Sqlite} (hc : Connected p) (canon : Str → Except E Str) (st : Store) (c : Str)
    (aio : Bool) : p.defaultLanguage canon st c aio ≠ .panic :=
  bind_ne_panic (connection_ne_panic hc c aio) fun _ _ => bind_ne_panic (readTable_ne_panic _) fun _ _ =>
    bind_ne_panic (askTags_ne_panic canon _) fun _ _ => by simp

theorem oneString_ne_panic {p : Sqlite} (hc : Connected p) (canon : Str → Except E Str) (st : Store) (c i tag : Str)
    (exact : Bool) : p.oneString canon st c i tag exact ≠ .panic := by
  unfold Sqlite.oneString
  split
  · simp
  · refine bind_ne_panic (askIf_ne_panic (findStrings_ne_panic hc canon st c i tag _ _ _)) fun _ _ => ?_
    split
    · simp
    · exact bind_ne_panic (askIf_ne_panic (findStrings_ne_panic hc canon st c i tag _ _ _)) fun _ _ => by simp

theorem strings_ne_panic {p : Sqlite} (hc : Connected p) (canon : Str → Except E Str) (st : Store) (c i tag : Str) :
    p.strings canon st c i tag ≠ .panic := by
  unfold Sqlite.strings
  split
  · simp
  · refine bind_ne_panic (askIf_ne_panic (findStrings_ne_panic hc canon st c i tag _ _ _)) fun _ _ => ?_
    split
    · simp
    · exact askIf_ne_panic (findStrings_ne_panic hc canon st c i tag _ _ _)

theorem identifierDetails_ne_panic {p : Sqlite} (hc : Connected p) (canon : Str → Except E Str) (st : Store)
    (details : AMap Str ComponentDetails) (c i : Str) : p.identifierDetails canon st details c i ≠ .panic := by
  unfold Sqlite.identifierDetails
  split
  · simp
  · refine bind_ne_panic (identifierLanguages_ne_panic hc canon st c i true) fun _ _ => ?_
    exact bind_ne_panic (askIf_ne_panic (identifierLanguages_ne_panic hc canon st c i false)) fun _ _ => by simp

theorem languageData_ne_panic {p : Sqlite} (hc : Connected p) (st : Store) (c : Str) (files : Bool × Bool) (tag : Str) :
    p.languageData (E := E) st c files tag ≠ .panic :=
  bind_ne_panic (askIf_ne_panic (contributors_ne_panic hc st c tag _)) fun _ _ =>
    bind_ne_panic (askIf_ne_panic (contributors_ne_panic hc st c tag _)) fun _ _ =>
      bind_ne_panic (askIf_ne_panic (count_ne_panic hc st c tag _)) fun _ _ =>
        bind_ne_panic (askIf_ne_panic (count_ne_panic hc st c tag _)) fun _ _ => by simp

theorem countLanguages_ne_panic {p : Sqlite} (hc : Connected p) (st : Store) (c : Str) (files : Bool × Bool) :
    ∀ (tags : List Str) (own : ComponentDetails) (repo : RepositoryDetails), (∀ t ∈ tags, t ∈ own.languages.keys) →
    (∀ t ∈ tags, t ∈ repo.languages.keys) → p.countLanguages (E := E) st c files tags own repo ≠ .panic := by
  intro tags
  induction tags with
  | nil => intro own repo _ _; simp [Sqlite.countLanguages]
  | cons t tags ih =>
    intro own repo h1 h2
    obtain ⟨v, hv⟩ := (AMap.mem_keys_iff _ _).1 (h1 t (by simp))
    obtain ⟨w, hw⟩ := (AMap.mem_keys_iff _ _).1 (h2 t (by simp))
    unfold Sqlite.countLanguages
    simp only [hv, hw, Outcome.unwrap_some, Outcome.bind_ok]
    refine bind_ne_panic (languageData_ne_panic hc st c files t) fun d _ => ?_
    exact ih _ _ (fun t' ht' => (AMap.mem_keys_insert _ _ _ _).2 (.inr (h1 t' (by simp [ht']))))
      fun t' ht' => (AMap.mem_keys_insert _ _ _ _).2 (.inr (h2 t' (by simp [ht'])))

/-! ### Lists of languages -/

theorem mem_union : ∀ (new l : List Str) (x : Str), x ∈ union l new ↔ x ∈ l ∨ x ∈ new := by
  intro new
  induction new with
  | nil => intro l x; simp [union]
  | cons y new ih =>
    intro l x
    have : union l (y :: new) = union (if y ∈ l then l else l ++ [y]) new := rfl
    rw [this, ih]
    split
    · next hy =>
      constructor
      · rintro (h | h)
        · exact .inl h
        · exact .inr (by simp [h])
      · rintro (h | h)
        · exact .inl h
        · rcases List.mem_cons.1 h with rfl | h
          · exact .inl hy
          · exact .inr h
    · simp only [List.mem_append, List.mem_cons, List.not_mem_nil, or_false]
      rw [or_assoc]

theorem nodup_union : ∀ (new l : List Str), l.Nodup → (union l new).Nodup := by
  intro new
  induction new with
  | nil => intro l h; exact h
  | cons y new ih =>
    intro l h
    have : union l (y :: new) = union (if y ∈ l then l else l ++ [y]) new := rfl
    rw [this]
    apply ih
    split
    · exact h
    · next hy =>
      rw [List.nodup_append]
      refine ⟨h, by simp, ?_⟩
      intro a ha b hb
      simp at hb
      subst hb
      rintro rfl
      exact hy ha

theorem mem_distinct (l : List Str) (x : Str) : x ∈ distinct l ↔ x ∈ l := by
  unfold distinct; rw [mem_union]; simp

theorem union_prefix : ∀ (new l : List Str), l <+: union l new := by
  intro new
  induction new with
  | nil => intro l; exact List.prefix_refl _
  | cons y new ih =>
    intro l
    have : union l (y :: new) = union (if y ∈ l then l else l ++ [y]) new := rfl
    rw [this]
    split
    · exact ih l
    · exact (List.prefix_append l [y]).trans (ih _)

theorem askTags_ok {canon : Str → Except E Str} : ∀ {ts xs : List Str}, askTags canon ts = .ok xs →
    ∀ x, x ∈ xs ↔ ∃ t ∈ ts, canon t = .ok x := by
  intro ts
  induction ts with
  | nil => intro xs h x; cases h; simp
  | cons t ts ih =>
    intro xs h x
    obtain ⟨a, h1, h2⟩ := bind_eq_ok h
    obtain ⟨as, h3, h4⟩ := bind_eq_ok h2
    cases h4
    have ha : canon t = .ok a := by
      unfold askTag at h1
      split at h1
      · next e => cases h1; exact e
      · cases h1
    rw [List.mem_cons, ih h3]
    constructor
    · rintro (rfl | ⟨t', h5, h6⟩)
      · exact ⟨t, by simp, ha⟩
      · exact ⟨t', by simp [h5], h6⟩
    · rintro ⟨t', h5, h6⟩
      rcases List.mem_cons.1 h5 with rfl | h5
      · rw [ha] at h6; cases h6; exact .inl rfl
      · exact .inr ⟨t', h5, h6⟩

theorem askTags_nodup {canon : Str → Except E Str} : ∀ {ts xs : List Str}, askTags canon ts = .ok xs → ts.Nodup →
    (∀ t ∈ ts, ∀ t' ∈ ts, ∀ x, canon t = .ok x → canon t' = .ok x → t = t') → xs.Nodup := by
  intro ts
  induction ts with
  | nil => intro xs h _ _; cases h; simp
  | cons t ts ih =>
    intro xs h hn hi
    obtain ⟨a, h1, h2⟩ := bind_eq_ok h
    obtain ⟨as, h3, h4⟩ := bind_eq_ok h2
    cases h4
    have ha : canon t = .ok a := by
      unfold askTag at h1
      split at h1
      · next e => cases h1; exact e
      · cases h1
    rw [List.nodup_cons] at hn ⊢
    refine ⟨fun hm => ?_, ih h3 hn.2 fun t ht t' ht' => hi t (by simp [ht]) t' (by simp [ht'])⟩
    obtain ⟨t', h5, h6⟩ := (askTags_ok h3 a).1 hm
    have := hi t (by simp) t' (by simp [h5]) a ha h6
    subst this
    exact hn.1 h5

theorem nodup_distinct (l : List Str) : (distinct l).Nodup := nodup_union l [] (by simp)

/-! ### Maps of languages -/

theorem sumCounts_insert (m : AMap Str LanguageData) (t : Str) (d : LanguageData) :
    sumCounts (m.insert t d) + languageCount m t = sumCounts m + d.count := by
  induction m with
  | nil => simp [sumCounts, languageCount, AMap.insert, AMap.get]
  | cons a m ih =>
    obtain ⟨k, v⟩ := a
    unfold AMap.insert
    by_cases hk : k = t
    · simp only [hk, if_true]
      simp only [sumCounts, languageCount, AMap.get_cons, if_true, List.map_cons, List.sum_cons]
      omega
    · simp only [hk, if_false]
      have : languageCount ((k, v) :: m) t = languageCount m t := by simp [languageCount, AMap.get_cons, hk]
      rw [this]
      simp only [sumCounts, List.map_cons, List.sum_cons] at ih ⊢
      omega

theorem languageCount_insert (m : AMap Str LanguageData) (t : Str) (d : LanguageData) (t' : Str) :
    languageCount (m.insert t d) t' = if t = t' then d.count else languageCount m t' := by
  unfold languageCount
  rw [AMap.get_insert]
  by_cases h : t = t' <;> simp [h]

theorem fold_insert : ∀ (ts : List Str) (m : AMap Str LanguageData), m.keys.Nodup → (∀ x ∈ m, x.2 = noData) →
    let m' := ts.foldl (fun m t => AMap.insert m t noData) m
    m'.keys.Nodup ∧ (∀ x ∈ m', x.2 = noData) ∧ ∀ t, t ∈ m'.keys ↔ t ∈ m.keys ∨ t ∈ ts := by
  intro ts
  induction ts with
  | nil => intro m h1 h2; exact ⟨h1, h2, fun t => by simp⟩
  | cons t ts ih =>
    intro m h1 h2
    have h3 : ∀ x ∈ AMap.insert m t noData, x.2 = noData := by
      intro x hx
      have := (AMap.mem_iff_get (AMap.nodup_insert t noData h1) x.1 x.2).1 hx
      rw [AMap.get_insert] at this
      split at this
      · exact (Option.some.inj this).symm
      · exact h2 (x.1, x.2) (AMap.mem_of_get this)
    obtain ⟨h4, h5, h6⟩ := ih _ (AMap.nodup_insert t noData h1) h3
    refine ⟨h4, h5, fun t' => ?_⟩
    rw [List.foldl_cons, h6, AMap.mem_keys_insert, List.mem_cons]
    constructor
    · rintro ((h | h) | h)
      · exact .inr (.inl h)
      · exact .inl h
      · exact .inr (.inr h)
    · rintro (h | h | h)
      · exact .inl (.inr h)
      · exact .inl (.inl h)
      · exact .inr h

theorem noData_counts {m : AMap Str LanguageData} (h : ∀ x ∈ m, x.2 = noData) :
    sumCounts m = 0 ∧ ∀ t, languageCount m t = 0 := by
  constructor
  · induction m with
    | nil => rfl
    | cons a m ih =>
      have h1 := ih fun x hx => h x (by simp [hx])
      have h2 := h a (by simp)
      simp only [sumCounts, List.map_cons, List.sum_cons, h2] at h1 ⊢
      rw [h1]
      rfl
  · intro t
    unfold languageCount
    split
    · next d hd =>
      have := h _ (AMap.mem_of_get hd)
      simp only at this
      rw [this]
      rfl
    · rfl

theorem fold_addNew : ∀ (ts : List Str) (m : AMap Str LanguageData),
    (∀ t, languageCount (ts.foldl addNew m) t = languageCount m t) ∧
    (∀ t, t ∈ (ts.foldl addNew m).keys ↔ t ∈ m.keys ∨ t ∈ ts) ∧ (m.keys.Nodup → (ts.foldl addNew m).keys.Nodup) ∧
    ((∀ x ∈ m, x.2.contributors = []) → ∀ x ∈ ts.foldl addNew m, x.2.contributors = []) := by
  intro ts
  induction ts with
  | nil => intro m; exact ⟨fun _ => rfl, fun t => by simp, fun h => h, fun h => h⟩
  | cons t ts ih =>
    intro m
    obtain ⟨h1, h2, h3, h4⟩ := ih (addNew m t)
    rw [List.foldl_cons]
    cases hg : m.get t with
    | some d =>
      have ha : addNew m t = m := by simp [addNew, hg]
      rw [ha] at h1 h2 h3 h4 ⊢
      refine ⟨h1, fun t' => ?_, h3, h4⟩
      rw [h2, List.mem_cons]
      constructor
      · rintro (h | h)
        · exact .inl h
        · exact .inr (.inr h)
      · rintro (h | rfl | h)
        · exact .inl h
        · exact .inl ((AMap.mem_keys_iff _ _).2 ⟨d, hg⟩)
        · exact .inr h
    | none =>
      have ha : addNew m t = AMap.insert m t noData := by simp [addNew, hg]
      rw [ha] at h1 h2 h3 h4 ⊢
      have hk := (AMap.get_eq_none_iff _ _).1 hg
      refine ⟨fun t' => ?_, fun t' => ?_, fun h => h3 (AMap.nodup_insert _ _ h), fun h => h4 fun x hx => ?_⟩
      · rw [h1, languageCount_insert]
        split
        · next e => subst e; simp [languageCount, hg, noData]
        · rfl
      · rw [h2, AMap.mem_keys_insert, List.mem_cons]
        constructor
        · rintro ((h | h) | h)
          · exact .inr (.inl h)
          · exact .inl h
          · exact .inr (.inr h)
        · rintro (h | h | h)
          · exact .inl (.inr h)
          · exact .inl (.inl h)
          · exact .inr h
      · rw [AMap.keys_insert_not_mem _ hk] at hx
        rcases List.mem_append.1 hx with hx | hx
        · exact h x hx
        · simp at hx; subst hx; rfl

/-! ### One component -/

/-- What `componentLanguages` gives. -/
theorem componentLanguages_ok {canon : Str → Except E Str} {p : Sqlite} {st : Store} {c : Str} {files : Bool × Bool}
    {repo : AMap Str LanguageData} {ls : List Str} {own all : AMap Str LanguageData}
    (h : p.componentLanguages canon st c files repo = .ok (ls, own, all)) :
    ∃ first second, askIf files.1 (p.languages canon st c true) [] = .ok first ∧
      askIf files.2 (p.languages canon st c false) [] = .ok second ∧ ls = union first second ∧
      own.keys.Nodup ∧ (∀ x ∈ own, x.2 = noData) ∧ (∀ t, t ∈ own.keys ↔ t ∈ ls) ∧
      all = second.foldl addNew (first.foldl addNew repo) := by
  unfold Sqlite.componentLanguages at h
  obtain ⟨first, h1, h⟩ := bind_eq_ok h
  obtain ⟨second, h2, h⟩ := bind_eq_ok h
  cases h
  obtain ⟨a1, a2, a3⟩ := fold_insert first [] (by simp [AMap.keys]) (by simp)
  obtain ⟨b1, b2, b3⟩ := fold_insert ((union first second).drop first.length) _ a1 a2
  refine ⟨first, second, h1, h2, rfl, b1, b2, fun t => ?_, rfl⟩
  rw [b3, a3]
  have : union first second = first ++ (union first second).drop first.length := by
    obtain ⟨r, hr⟩ := union_prefix second first
    rw [← hr]; simp
  simp only [AMap.keys, List.map_nil, List.not_mem_nil, false_or]
  constructor
  · intro h; rw [this]; exact List.mem_append.2 h
  · intro h; rw [this] at h; exact List.mem_append.1 h

/-- What the loop over the languages changes. -/
theorem countLanguages_ok {p : Sqlite} {st : Store} {c : Str} {files : Bool × Bool} :
    ∀ {tags : List Str} {own : ComponentDetails} {repo : RepositoryDetails} {own' : ComponentDetails}
      {repo' : RepositoryDetails}, p.countLanguages (E := E) st c files tags own repo = .ok (own', repo') →
    (own.languages.keys.Nodup → own'.languages.keys.Nodup) ∧
    (repo.languages.keys.Nodup → repo'.languages.keys.Nodup) ∧
    (∀ t, t ∈ own'.languages.keys ↔ t ∈ own.languages.keys) ∧ (∀ t, t ∈ repo'.languages.keys ↔ t ∈ repo.languages.keys) ∧
    (∀ t ∈ tags, ∃ d, p.languageData (E := E) st c files t = .ok d ∧ own'.languages.get t = some d) ∧
    (∀ t, t ∉ tags → own'.languages.get t = own.languages.get t) ∧
    own'.default = own.default ∧ repo'.default = repo.default ∧ repo'.components = repo.components ∧
    (∀ x, x ∈ repo'.contributors ↔ x ∈ repo.contributors ∨
      ∃ t ∈ tags, ∃ d, p.languageData (E := E) st c files t = .ok d ∧ x ∈ d.contributors) ∧
    ((repo.languages.keys.Nodup → (∀ x ∈ repo.languages, x.2.contributors = []) →
      ∀ x ∈ repo'.languages, x.2.contributors = [])) ∧
    (tags.Nodup → (∀ t ∈ tags, languageCount own.languages t = 0) →
      ∃ n, own'.total = own.total + n ∧ repo'.total = repo.total + n ∧
        sumCounts own'.languages = sumCounts own.languages + n ∧
        ∀ t, languageCount repo'.languages t + languageCount own.languages t =
          languageCount repo.languages t + languageCount own'.languages t) := by
  intro tags
  induction tags with
  | nil =>
    intro own repo own' repo' h
    cases h
    refine ⟨fun h => h, fun h => h, fun _ => .rfl, fun _ => .rfl, by simp, fun _ _ => rfl, rfl, rfl, rfl, fun x => by simp,
      fun _ h => h, fun _ _ => ⟨0, rfl, rfl, rfl, fun _ => rfl⟩⟩
  | cons t tags ih =>
    intro own repo own' repo' h
    unfold Sqlite.countLanguages at h
    obtain ⟨v, hv, h⟩ := bind_eq_ok h
    obtain ⟨d, hd, h⟩ := bind_eq_ok h
    obtain ⟨w, hw, h⟩ := bind_eq_ok h
    have hv : own.languages.get t = some v := by
      unfold Outcome.unwrap at hv; split at hv
      · next e => cases hv; exact e
      · cases hv
    have hw : repo.languages.get t = some w := by
      unfold Outcome.unwrap at hw; split at hw
      · next e => cases hw; exact e
      · cases hw
    obtain ⟨i1, i1', i2, i3, i4, i5, i6, i7, i8, i9, i10, i11⟩ := ih h
    have kv := (AMap.mem_keys_iff _ _).2 ⟨v, hv⟩
    have kw := (AMap.mem_keys_iff _ _).2 ⟨w, hw⟩
    refine ⟨fun h => i1 (AMap.nodup_insert _ _ h), fun h => i1' (AMap.nodup_insert _ _ h), fun t' => ?_, fun t' => ?_,
      fun t' ht' => ?_, fun t' ht' => ?_, i6, i7, i8, fun x => ?_, fun hn hx => i10 (AMap.nodup_insert _ _ hn) ?_,
      fun hn hz => ?_⟩
    · rw [i2, AMap.keys_insert_mem _ kv]
    · rw [i3, AMap.keys_insert_mem _ kw]
    · by_cases hm : t' ∈ tags
      · exact i4 t' hm
      · rcases List.mem_cons.1 ht' with rfl | ht'
        · exact ⟨d, hd, by rw [i5 _ hm]; exact AMap.get_insert_self _ _ _⟩
        · exact absurd ht' hm
    · rw [List.mem_cons, not_or] at ht'
      rw [i5 t' ht'.2]
      exact AMap.get_insert_ne _ _ fun e => ht'.1 e.symm
    · rw [i9, mem_union]
      constructor
      · rintro ((h | h) | ⟨t', h1, h2⟩)
        · exact .inl h
        · exact .inr ⟨t, by simp, d, hd, h⟩
        · exact .inr ⟨t', by simp [h1], h2⟩
      · rintro (h | ⟨t', h1, d', h2, h3⟩)
        · exact .inl (.inl h)
        · rcases List.mem_cons.1 h1 with rfl | h1
          · rw [hd] at h2; cases h2; exact .inl (.inr h3)
          · exact .inr ⟨t', h1, d', h2, h3⟩
    · intro x hx'
      have hg := (AMap.mem_iff_get (AMap.nodup_insert t _ hn) x.1 x.2).1 hx'
      rw [AMap.get_insert] at hg
      split at hg
      · rw [← Option.some.inj hg]; exact hx (t, w) (AMap.mem_of_get hw)
      · exact hx (x.1, x.2) (AMap.mem_of_get hg)
    · rw [List.nodup_cons] at hn
      obtain ⟨n, j1, j2, j3, j4⟩ := i11 hn.2 fun t' ht' => by
        rw [languageCount_insert, if_neg (by rintro rfl; exact hn.1 ht')]
        exact hz t' (by simp [ht'])
      have z := hz t (by simp)
      refine ⟨d.count + n, by rw [j1]; simp only; omega, by rw [j2]; simp only; omega, ?_, fun t' => ?_⟩
      · rw [j3]
        simp only
        have := sumCounts_insert own.languages t d
        omega
      · have := j4 t'
        rw [languageCount_insert, languageCount_insert] at this
        have hwc : languageCount repo.languages t = w.count := by simp [languageCount, hw]
        by_cases e : t = t'
        · subst e
          simp only [if_true] at this
          omega
        · simp only [e, if_false] at this
          exact this

/-- What is known about the details of one component. -/
structure Built (canon : Str → Except E Str) (p : Sqlite) (st : Store) (c : Str) (files : Bool × Bool)
    (own : ComponentDetails) : Prop where
  nodup : own.languages.keys.Nodup
  languages : ∃ first second, askIf files.1 (p.languages canon st c true) [] = .ok first ∧
    askIf files.2 (p.languages canon st c false) [] = .ok second ∧
    ∀ t, t ∈ own.languages.keys ↔ t ∈ first ∨ t ∈ second
  data : ∀ t ∈ own.languages.keys, ∃ d, p.languageData (E := E) st c files t = .ok d ∧ own.languages.get t = some d
  default : own.default ∈ own.languages.keys
  defaultFrom : ∃ first, askIf files.1 (p.defaultLanguage canon st c true) none = .ok first ∧
    askIf (first.isNone && files.2) (p.defaultLanguage canon st c false) first = .ok (some own.default)

theorem languages_nodup {canon : Str → Except E Str} {p : Sqlite} (hc : Connected p) {st : Store} (hd : TagsDiffer canon st)
    {c : Str} {files : Bool × Bool} (hcomp : p.components.get c = some files) {first : List Str}
    (h : askIf files.1 (p.languages canon st c true) [] = .ok first) : first.Nodup := by
  unfold askIf at h
  split at h
  · next hf =>
    unfold Sqlite.languages at h
    rw [connection_shared hc hcomp hf, Outcome.bind_ok] at h
    obtain ⟨rows, h1, h2⟩ := bind_eq_ok h
    have h1 : (st allInOne).contributor = .ok rows := by
      unfold readTable at h1
      split at h1
      · next e => cases h1; exact e
      · cases h1
    refine askTags_nodup h2 (nodup_distinct _) fun t ht t' ht' x hx hx' => ?_
    unfold selectLanguages at ht ht'
    rw [mem_distinct, List.mem_map] at ht ht'
    obtain ⟨r, hr, rfl⟩ := ht
    obtain ⟨r', hr', rfl⟩ := ht'
    exact hd rows h1 r (List.mem_filter.1 hr).1 r' (List.mem_filter.1 hr').1 x hx hx'
  · cases h; simp

theorem buildComponent_ok {canon : Str → Except E Str} {p : Sqlite} {st : Store} {c : Str} {files : Bool × Bool}
    {repo repo' : RepositoryDetails} {own : ComponentDetails}
    (h : p.buildComponent canon st c files repo = .ok (own, repo')) :
    Built canon p st c files own ∧ (repo.languages.keys.Nodup → repo'.languages.keys.Nodup) ∧
    (∀ t, t ∈ repo'.languages.keys ↔ t ∈ repo.languages.keys ∨ t ∈ own.languages.keys) ∧
    repo'.components = repo.components ++ [c] ∧
    repo'.default = (if c = "application".toList then some own.default else repo.default) ∧
    (∀ x, x ∈ repo'.contributors ↔ x ∈ repo.contributors ∨
      ∃ t d, own.languages.get t = some d ∧ x ∈ d.contributors) ∧
    (repo.languages.keys.Nodup → (∀ x ∈ repo.languages, x.2.contributors = []) →
      ∀ x ∈ repo'.languages, x.2.contributors = []) ∧
    (Connected p → TagsDiffer canon st → p.components.get c = some files →
      own.total = sumCounts own.languages ∧ repo'.total = repo.total + own.total ∧
      ∀ t, languageCount repo'.languages t = languageCount repo.languages t + languageCount own.languages t) := by
  unfold Sqlite.buildComponent at h
  obtain ⟨und, h1, h⟩ := bind_eq_ok h
  obtain ⟨⟨ls, own0, all⟩, h2, h⟩ := bind_eq_ok h
  obtain ⟨f, h3, h⟩ := bind_eq_ok h
  obtain ⟨def?, h4, h⟩ := bind_eq_ok h
  simp only at h
  cases def? with
  | none => cases h
  | some d =>
    simp only at h
    split at h
    · cases h
    · next hdef =>
      obtain ⟨⟨own1, repo1⟩, h5, h⟩ := bind_eq_ok h
      obtain ⟨w, h6, h⟩ := bind_eq_ok h
      cases h
      obtain ⟨first, second, a1, a2, a3, a4, a5, a6, a7⟩ := componentLanguages_ok h2
      obtain ⟨b1, b1', b2, b3, b4, b5, b6, b7, b8, b9, b10, b11⟩ := countLanguages_ok h5
      simp only at b1 b1' b2 b3 b5 b7 b8 b9 b10 b11
      obtain ⟨c1, c2, c3, c4⟩ := fold_addNew first repo.languages
      obtain ⟨e1, e2, e3, e4⟩ := fold_addNew second (first.foldl addNew repo.languages)
      rw [← a7] at e1 e2 e3 e4
      have hd0 : d ∈ own0.keys := by
        rw [AMap.mem_keys_iff]
        cases hg : own0.get d with
        | none => simp [hg] at hdef
        | some v => exact ⟨v, rfl⟩
      have hkeys : ∀ t, t ∈ own1.languages.keys ↔ t ∈ ls := fun t => by rw [b2, a6]
      refine ⟨⟨b1 a4, ⟨first, second, a1, a2, fun t => ?_⟩, fun t ht => b4 t ((hkeys t).1 ht), (b2 d).2 hd0, f, h3, h4⟩,
        fun hn => b1' (e3 (c3 hn)), fun t => ?_, b8, b7, fun x => ?_, fun hn hx => b10 (e3 (c3 hn)) (e4 (c4 hx)), ?_⟩
      · rw [hkeys, a3, mem_union]
      · rw [b3, e2, c2, hkeys, a3, mem_union, or_assoc]
      · rw [b9]
        constructor
        · rintro (h | ⟨t, h1, d', h2, h3⟩)
          · exact .inl h
          · obtain ⟨d'', h4, h5⟩ := b4 t h1
            rw [h2] at h4; cases h4
            exact .inr ⟨t, d', h5, h3⟩
        · rintro (h | ⟨t, d', h1, h2⟩)
          · exact .inl h
          · have ht : t ∈ ls := (hkeys t).1 ((AMap.mem_keys_iff _ _).2 ⟨d', h1⟩)
            obtain ⟨d'', h4, h5⟩ := b4 t ht
            rw [h1] at h5; cases h5
            exact .inr ⟨t, ht, d', h4, h2⟩
      · intro hc hd hcomp
        have hls : ls.Nodup := by rw [a3]; exact nodup_union _ _ (languages_nodup hc hd hcomp a1)
        obtain ⟨z1, z2⟩ := noData_counts a5
        obtain ⟨n, m1, m2, m3, m4⟩ := b11 hls fun t _ => z2 t
        refine ⟨by rw [m1, m3, z1], by rw [m2, m1]; omega, fun t => ?_⟩
        have := m4 t
        rw [z2, e1, c1] at this
        exact this

/-- What is known after some components. -/
structure Collected (canon : Str → Except E Str) (p : Sqlite) (st : Store) (done : AMap Str ComponentDetails)
    (repo : RepositoryDetails) : Prop where
  built : ∀ x ∈ done, ∃ files, (x.1, files) ∈ p.components ∧ Built canon p st x.1 files x.2
  nodup : repo.languages.keys.Nodup
  components : repo.components = done.keys
  languages : ∀ t, t ∈ repo.languages.keys ↔ ∃ x ∈ done, t ∈ x.2.languages.keys
  contributors : ∀ y, y ∈ repo.contributors ↔ ∃ x ∈ done, ∃ t d, x.2.languages.get t = some d ∧ y ∈ d.contributors
  empty : ∀ x ∈ repo.languages, x.2.contributors = []
  default : repo.default = (done.get "application".toList).map (·.default)

/-- What is known about the counts. -/
structure Counted (done : AMap Str ComponentDetails) (repo : RepositoryDetails) : Prop where
  own : ∀ x ∈ done, x.2.total = sumCounts x.2.languages
  total : repo.total = (done.map fun x => x.2.total).sum
  each : ∀ t, languageCount repo.languages t = (done.map fun x => languageCount x.2.languages t).sum

theorem get_append {κ ν : Type} [DecidableEq κ] (m : AMap κ ν) (k : κ) (v : ν) (k' : κ) :
    AMap.get (m ++ [(k, v)]) k' = (match AMap.get m k' with
      | some w => some w
      | none => if k = k' then some v else none) := by
  induction m with
  | nil => simp [AMap.get]
  | cons a m ih =>
    obtain ⟨k2, v2⟩ := a
    rw [List.cons_append, AMap.get_cons, AMap.get_cons, ih]
    by_cases h : k2 = k' <;> simp [h]

theorem buildComponents_ok {canon : Str → Except E Str} {p : Sqlite} {st : Store} (hk : p.components.keys.Nodup) :
    ∀ {rest : List (Str × Bool × Bool)} {done details : AMap Str ComponentDetails} {repo repo' : RepositoryDetails},
    p.buildComponents canon st rest done repo = .ok (details, repo') → (∀ x ∈ rest, x ∈ p.components) →
    (done.keys ++ AMap.keys rest).Nodup → Collected canon p st done repo →
    Collected canon p st details repo' ∧ details.keys = done.keys ++ AMap.keys rest ∧
      (Connected p → TagsDiffer canon st → Counted done repo → Counted details repo') := by
  intro rest
  induction rest with
  | nil =>
    intro done details repo repo' h _ _ hcol
    cases h
    exact ⟨hcol, by simp [AMap.keys], fun _ _ h => h⟩
  | cons a rest ih =>
    obtain ⟨c, files⟩ := a
    intro done details repo repo' h hsub hn hcol
    unfold Sqlite.buildComponents at h
    obtain ⟨⟨own, repo1⟩, h1, h⟩ := bind_eq_ok h
    simp only at h
    obtain ⟨b1, b2, b3, b4, b5, b6, b7, b8⟩ := buildComponent_ok h1
    have hnew : c ∉ done.keys := by
      intro hm
      rw [List.nodup_append] at hn
      exact hn.2.2 c hm c (by simp [AMap.keys]) rfl
    rw [AMap.keys_insert_not_mem _ hnew] at h
    have hkeys : AMap.keys (done ++ [(c, own)]) = done.keys ++ [c] := by simp [AMap.keys]
    have hcol1 : Collected canon p st (done ++ [(c, own)]) repo1 := by
      refine ⟨fun x hx => ?_, b2 hcol.nodup, ?_, fun t => ?_, fun y => ?_, b7 hcol.nodup hcol.empty, ?_⟩
      · rcases List.mem_append.1 hx with hx | hx
        · exact hcol.built x hx
        · simp at hx; subst hx
          exact ⟨files, hsub _ (by simp), b1⟩
      · rw [b4, hcol.components, hkeys]
      · rw [b3, hcol.languages]
        constructor
        · rintro (⟨x, hx, h⟩ | h)
          · exact ⟨x, by simp [hx], h⟩
          · exact ⟨(c, own), by simp, h⟩
        · rintro ⟨x, hx, h⟩
          rcases List.mem_append.1 hx with hx | hx
          · exact .inl ⟨x, hx, h⟩
          · simp at hx; subst hx; exact .inr h
      · rw [b6, hcol.contributors]
        constructor
        · rintro (⟨x, hx, h⟩ | h)
          · exact ⟨x, by simp [hx], h⟩
          · exact ⟨(c, own), by simp, h⟩
        · rintro ⟨x, hx, h⟩
          rcases List.mem_append.1 hx with hx | hx
          · exact .inl ⟨x, hx, h⟩
          · simp at hx; subst hx; exact .inr h
      · rw [b5, hcol.default, get_append]
        by_cases ha : c = "application".toList
        · subst ha
          rw [(AMap.get_eq_none_iff done _).2 hnew, if_pos rfl, if_pos rfl]
          rfl
        · rw [if_neg ha, if_neg ha]
          cases AMap.get done "application".toList <;> rfl
    have hn1 : (AMap.keys (done ++ [(c, own)]) ++ AMap.keys rest).Nodup := by
      rw [hkeys, List.append_assoc]
      exact hn
    obtain ⟨i1, i2, i3⟩ := ih h (fun x hx => hsub x (by simp [hx])) hn1 hcol1
    refine ⟨i1, by rw [i2, hkeys, List.append_assoc]; rfl, fun hc hd hcnt => i3 hc hd ?_⟩
    obtain ⟨d1, d2, d3⟩ := b8 hc hd (AMap.get_of_mem hk (hsub _ (by simp)))
    refine ⟨fun x hx => ?_, ?_, fun t => ?_⟩
    · rcases List.mem_append.1 hx with hx | hx
      · exact hcnt.own x hx
      · simp at hx; subst hx; exact d1
    · rw [d2, hcnt.total]; simp
    · rw [d3, hcnt.each]; simp

theorem buildCache_ok {canon : Str → Except E Str} {p : Sqlite} {st : Store} (hk : p.components.keys.Nodup)
    {details : AMap Str ComponentDetails} {repo : RepositoryDetails} (h : p.buildCache canon st = .ok (details, repo)) :
    Collected canon p st details repo ∧ details.keys = p.components.keys ∧
      (Connected p → TagsDiffer canon st → Counted details repo) := by
  unfold Sqlite.buildCache at h
  obtain ⟨⟨details', repo'⟩, h1, h⟩ := bind_eq_ok h
  simp only at h
  have hr : details' = details ∧ repo' = repo := by
    split at h
    · cases h; exact ⟨rfl, rfl⟩
    · obtain ⟨_, _, h⟩ := bind_eq_ok h
      cases h; exact ⟨rfl, rfl⟩
  obtain ⟨rfl, rfl⟩ := hr
  have := buildComponents_ok hk h1 (fun x hx => hx) (by simpa [AMap.keys] using hk)
    ⟨by simp, by simp [AMap.keys], rfl, by simp [AMap.keys], by simp, by simp, rfl⟩
  obtain ⟨a, b, c⟩ := this
  exact ⟨a, by simpa [AMap.keys] using b, fun hc hd => c hc hd ⟨by simp, by simp, by simp [languageCount]⟩⟩

/-! ### Building the details does not panic -/

theorem buildComponent_ne_panic {canon : Str → Except E Str} {p : Sqlite} (hc : Connected p) (st : Store) (c : Str)
    (files : Bool × Bool) (repo : RepositoryDetails) : p.buildComponent canon st c files repo ≠ .panic := by
  unfold Sqlite.buildComponent
  refine bind_ne_panic (askTag_ne_panic canon _) fun und _ => ?_
  refine bind_ne_panic ?_ fun x hx => ?_
  · exact bind_ne_panic (askIf_ne_panic (languages_ne_panic hc canon st c _)) fun _ _ =>
      bind_ne_panic (askIf_ne_panic (languages_ne_panic hc canon st c _)) fun _ _ => by simp
  · obtain ⟨ls, own0, all⟩ := x
    obtain ⟨first, second, a1, a2, a3, a4, a5, a6, a7⟩ := componentLanguages_ok hx
    refine bind_ne_panic (askIf_ne_panic (defaultLanguage_ne_panic hc canon st c _)) fun f _ => ?_
    refine bind_ne_panic (askIf_ne_panic (defaultLanguage_ne_panic hc canon st c _)) fun d _ => ?_
    cases d with
    | none => simp
    | some d =>
      simp only
      split
      · simp
      · next hdef =>
        have hd0 : d ∈ own0.keys := by
          rw [AMap.mem_keys_iff]
          cases hg : own0.get d with
          | none => simp [hg] at hdef
          | some v => exact ⟨v, rfl⟩
        refine bind_ne_panic (countLanguages_ne_panic hc st c files _ _ _ (fun t ht => (a6 t).2 ht) fun t ht => ?_)
          fun y hy => ?_
        · rw [a7, (fold_addNew second _).2.1, (fold_addNew first _).2.1]
          rw [a3, mem_union] at ht
          rcases ht with h | h
          · exact .inl (.inr h)
          · exact .inr h
        · obtain ⟨own1, repo1⟩ := y
          have := ((countLanguages_ok hy).2.2.1 d).2 hd0
          obtain ⟨v, hv⟩ := (AMap.mem_keys_iff _ _).1 this
          simp [hv]

theorem buildComponents_ne_panic {canon : Str → Except E Str} {p : Sqlite} (hc : Connected p) (st : Store) :
    ∀ (rest : List (Str × Bool × Bool)) (done : AMap Str ComponentDetails) (repo : RepositoryDetails),
    p.buildComponents canon st rest done repo ≠ .panic := by
  intro rest
  induction rest with
  | nil => intro done repo; simp [Sqlite.buildComponents]
  | cons a rest ih =>
    intro done repo
    exact bind_ne_panic (buildComponent_ne_panic hc st a.1 a.2 repo) fun x _ => ih _ _

theorem buildCache_ne_panic {canon : Str → Except E Str} {p : Sqlite} (hc : Connected p) (hk : p.components.keys.Nodup)
    (st : Store) : p.buildCache canon st ≠ .panic := by
  refine bind_ne_panic (buildComponents_ne_panic hc st _ _ _) fun x hx => ?_
  obtain ⟨details, repo⟩ := x
  have hcol := (buildComponents_ok hk hx (fun x hx => hx) (by simpa [AMap.keys] using hk)
    ⟨by simp, by simp [AMap.keys], rfl, by simp [AMap.keys], by simp, by simp, rfl⟩).1
  simp only
  split
  · simp
  · next d hd =>
    have hdef := hcol.default
    rw [hd] at hdef
    cases hg : AMap.get details "application".toList with
    | none => rw [hg] at hdef; cases hdef
    | some own =>
      rw [hg] at hdef
      have hm := AMap.mem_of_get hg
      obtain ⟨_, _, hb⟩ := hcol.built _ hm
      have he : d = own.default := by simpa using hdef
      have := (hcol.languages d).2 ⟨_, hm, by rw [he]; exact hb.default⟩
      obtain ⟨v, hv⟩ := (AMap.mem_keys_iff _ _).1 this
      simp [hv]

end Verif.ProviderLemmas
