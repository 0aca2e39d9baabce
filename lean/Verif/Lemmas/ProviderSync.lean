import Verif.Lemmas.ProviderDetails
import Verif.Lemmas.InterleaveState
import Verif.Model.ProviderSync
/-
Lemmas on a provider that several threads share.
-/
namespace Verif.ProviderLemmas
open Verif Verif.Spec Verif.Act

variable {E α β : Type}

/-- The key and the text of each query. -/
def texts : List (Str × Str) :=
  ([false, true].flatMap fun one => [false, true].flatMap fun exact => [false, true].map fun aio =>
    (queryKey "Pattern" [(exact, "Exact"), (aio, "Aio"), (one, "One")], patternText one exact)) ++
  [false, true].flatMap fun aio => [(queryKey "Languages" [(aio, "Aio")], languagesText),
    (queryKey "Identifier" [(aio, "Aio")], identifierText), (queryKey "Contributors" [(aio, "Aio")], contributorsText),
    (queryKey "Count" [(aio, "Aio")], countText), (queryKey "Default" [(aio, "Aio")], defaultText)]

theorem texts_unique : ∀ x ∈ texts, ∀ y ∈ texts, x.1 = y.1 → x.2 = y.2 := by decide +kernel

theorem pattern_text (one exact aio : Bool) :
    (queryKey "Pattern" [(exact, "Exact"), (aio, "Aio"), (one, "One")], patternText one exact) ∈ texts := by
  cases one <;> cases exact <;> cases aio <;> decide +kernel

theorem languages_text (aio : Bool) : (queryKey "Languages" [(aio, "Aio")], languagesText) ∈ texts := by
  cases aio <;> decide +kernel

theorem identifier_text (aio : Bool) : (queryKey "Identifier" [(aio, "Aio")], identifierText) ∈ texts := by
  cases aio <;> decide +kernel

theorem contributors_text (aio : Bool) : (queryKey "Contributors" [(aio, "Aio")], contributorsText) ∈ texts := by
  cases aio <;> decide +kernel

theorem count_text (aio : Bool) : (queryKey "Count" [(aio, "Aio")], countText) ∈ texts := by
  cases aio <;> decide +kernel

theorem default_text (aio : Bool) : (queryKey "Default" [(aio, "Aio")], defaultText) ∈ texts := by
  cases aio <;> decide +kernel

/-- What holds of the shared state: of the store `S`, of the stored details `C` and `D`. -/
structure Inv (S : Store → Prop) (C : AMap Str ComponentDetails → Prop) (D : RepositoryDetails → Prop) (s : ProvState) :
    Prop where
  sound : s.poisoned = false
  queries : ∀ key text, s.queries.get key = some text → (key, text) ∈ texts
  store : S s.store
  components : ∀ m, s.components = some m → C m
  repository : ∀ r, s.repository = some r → D r

/-- What no step undoes. -/
structure Rel (a b : ProvState) : Prop where
  queries : ∀ key, (a.queries.get key).isSome = true → (b.queries.get key).isSome = true
  components : ∀ m, a.components = some m → b.components = some m
  repository : ∀ r, a.repository = some r → b.repository = some r

theorem Rel.refl (a : ProvState) : Rel a a := ⟨fun _ h => h, fun _ h => h, fun _ h => h⟩

theorem Rel.trans (a b c : ProvState) (h : Rel a b) (h' : Rel b c) : Rel a c :=
  ⟨fun k x => h'.queries k (h.queries k x), fun m x => h'.components m (h.components m x),
    fun r x => h'.repository r (h.repository r x)⟩

variable {S : Store → Prop} {C : AMap Str ComponentDetails → Prop} {D : RepositoryDetails → Prop}

/-- From every state in which the invariant holds, the program keeps it and its result and the state then meet `Q`. -/
def Yields (S : Store → Prop) (C : AMap Str ComponentDetails → Prop) (D : RepositoryDetails → Prop)
    (Q : α → ProvState → Prop) (p : Act ProvState α) : Prop :=
  ∀ s, Inv S C D s → p.Leads (Inv S C D) Rel Q s

/-- The result is this. -/
abbrev Gives (S : Store → Prop) (C : AMap Str ComponentDetails → Prop) (D : RepositoryDetails → Prop)
    (x : ProvM E α) (p : Prog E α) : Prop := Yields S C D (fun r _ => r = x) p

/-- There is no panic, and a result meets `P`. -/
abbrev Safe (S : Store → Prop) (C : AMap Str ComponentDetails → Prop) (D : RepositoryDetails → Prop)
    (P : α → Prop) (p : Prog E α) : Prop := Yields S C D (fun r _ => r ≠ .panic ∧ ∀ a, r = .ok a → P a) p

theorem yields_bind {Q : α → ProvState → Prop} {Q' : β → ProvState → Prop} {p : Act ProvState α} {f : α → Act ProvState β}
    (h : Yields S C D Q p) (hf : ∀ a s, Inv S C D s → Q a s → (f a).Leads (Inv S C D) Rel Q' s) :
    Yields S C D Q' (Act.bind p f) :=
  fun s hs => (h s hs).bind Rel.trans Rel.refl hs fun a s' _ hi hq => hf a s' hi hq

theorem Gives.bind {x : ProvM E α} {f : α → ProvM E β} {p : Prog E α} {g : α → Prog E β} (h : Gives S C D x p)
    (hf : ∀ a, x = .ok a → Gives S C D (f a) (g a)) : Gives S C D (x >>= f) (p >>= g) := by
  refine yields_bind h fun r s hi hq => ?_
  subst hq
  cases hr : r with
  | ok a => exact hf a hr s hi
  | err e => exact rfl
  | panic => exact rfl

theorem Safe.bind {P : α → Prop} {P' : β → Prop} {p : Prog E α} {g : α → Prog E β} (h : Safe S C D P p)
    (hf : ∀ a, P a → Safe S C D P' (g a)) : Safe S C D P' (p >>= g) := by
  refine yields_bind h fun r s hi hq => ?_
  cases hr : r with
  | ok a => exact hf a (hq.2 a hr) s hi
  | err e => exact ⟨by simp, fun a h => by cases h⟩
  | panic => exact absurd hr hq.1

theorem Safe.weaken {P P' : α → Prop} {p : Prog E α} (h : Safe S C D P p) (hp : ∀ a, P a → P' a) : Safe S C D P' p :=
  fun s hs => (h s hs).weaken fun _ _ hq => ⟨hq.1, fun a ha => hp a (hq.2 a ha)⟩

theorem gives_now (x : ProvM E α) : Gives S C D x (Prog.now x) := fun _ _ => rfl

theorem safe_now {P : α → Prop} {x : ProvM E α} (hx : x ≠ .panic) (hp : ∀ a, x = .ok a → P a) :
    Safe S C D P (Prog.now x) := fun _ _ => ⟨hx, hp⟩

theorem gives_pure (a : α) : Gives S C D (.ok a : ProvM E α) (pure a) := fun _ _ => rfl

theorem safe_pure {P : α → Prop} {a : α} (h : P a) : Safe S C D P (pure a : Prog E α) :=
  fun _ _ => ⟨by simp, fun _ e => by cases e; exact h⟩

theorem gives_askIf {b : Bool} {x : ProvM E α} {p : Prog E α} {y : α} (h : Gives S C D x p) :
    Gives S C D (askIf b x y) (Prog.askIf b p y) := by
  unfold askIf Prog.askIf
  split
  · exact h
  · exact gives_now _

theorem safe_askIf {P : α → Prop} {b : Bool} {p : Prog E α} {y : α} (h : Safe S C D P p) (hy : P y) :
    Safe S C D P (Prog.askIf b p y) := by
  unfold Prog.askIf
  split
  · exact h
  · exact safe_now (by simp) fun _ e => by cases e; exact hy

/-! ### Query texts -/

theorem queryText_yields {key text : Str} (h : (key, text) ∈ texts) : Gives S C D (.ok text : ProvM E Str)
    (queryText key (.ok text)) := by
  intro s _
  refine Leads.atomic fun t _ hi => ?_
  simp only [hi.sound, Bool.false_eq_true, if_false]
  cases hg : t.queries.get key with
  | some text' =>
    have := texts_unique _ (hi.queries _ _ hg) _ h rfl
    simp only at this
    subst this
    exact ⟨hi, Rel.refl _, rfl⟩
  | none =>
    refine ⟨hi, Rel.refl _, Leads.atomic fun u _ hu => ?_⟩
    simp only [hu.sound, Bool.false_eq_true, if_false]
    refine ⟨⟨rfl, fun k x hk => ?_, hu.store, hu.components, hu.repository⟩, ⟨fun k hk => ?_, fun _ h => h, fun _ h => h⟩,
      Leads.atomic fun v hv hvi => ?_⟩
    · simp only [AMap.get_insert] at hk
      split at hk
      · next e => cases hk; rw [← e]; exact h
      · exact hu.queries k x hk
    · simp only [AMap.get_insert]
      split
      · rfl
      · exact hk
    · simp only [hvi.sound, Bool.false_eq_true, if_false]
      have hs := hv.queries key (by simp [AMap.get_insert])
      obtain ⟨x, hx⟩ := Option.isSome_iff_exists.1 hs
      refine ⟨hvi, Rel.refl _, ?_⟩
      rw [hx]
      have := texts_unique _ (hvi.queries _ _ hx) _ h rfl
      simp only at this
      subst this
      exact rfl

/-- Every database has the version for which there are queries. -/
def Current (p : Sqlite) : Prop := ∀ name v, p.connections.get name = some v → v = "1.0".toList

theorem connectionVersion_eq {p : Sqlite} (hv : Current p) (c : Str) (aio : Bool) :
    p.connectionVersion (E := E) c aio = (do let name ← p.connection c aio; pure (name, "1.0".toList)) := by
  unfold Sqlite.connectionVersion Sqlite.connection
  generalize p.components.get c = w
  match w with
  | none => rfl
  | some v =>
    simp only
    split
    · cases h : p.connections.get allInOne with
      | none => rfl
      | some v => rw [hv _ v h]; rfl
    · split
      · cases h : p.connections.get c with
        | none => rfl
        | some v => rw [hv _ v h]; rfl
      · rfl

theorem query_gives {st : Store} (name : Str) (run : Database → Except Nat α) :
    Gives (· = st) C D (readTable (run (st name)) : ProvM E α) (Prog.query name run) := by
  intro s _
  refine Leads.atomic fun t _ hi => ⟨hi, Rel.refl _, ?_⟩
  rw [hi.store]
  exact rfl

theorem query_safe (name : Str) (run : Database → Except Nat α) :
    Safe S C D (fun _ => True) (Prog.query name run : Prog E α) := by
  intro s _
  exact Leads.atomic fun t _ hi => ⟨hi, Rel.refl _, readTable_ne_panic _, fun _ _ => trivial⟩

/-- A query with its connection and its text. -/
theorem with_text {p : Sqlite} (hv : Current p) {c key text : Str} {aio : Bool} (h : (key, text) ∈ texts)
    {x : Str → ProvM E α} {q : Str × Str → Str → Prog E α}
    (hq : ∀ name, p.connection (E := E) c aio = .ok name → Gives S C D (x name) (q (name, "1.0".toList) text)) :
    Gives S C D (p.connection c aio >>= x)
      (Prog.now (p.connectionVersion c aio) >>= fun nv => queryText key (forVersion nv.2 text) >>= fun t => q nv t) := by
  rw [connectionVersion_eq hv]
  cases hc : p.connection (E := E) c aio with
  | ok name =>
    have := Gives.bind (gives_now (S := S) (C := C) (D := D) (.ok (name, "1.0".toList) : ProvM E (Str × Str)))
      (f := fun nv => x nv.1) (g := fun nv => queryText key (forVersion nv.2 text) >>= fun t => q nv t) (fun a ha => by
        cases ha
        have h2 := Gives.bind (queryText_yields (E := E) (S := S) (C := C) (D := D) h) (f := fun _ => x name)
          (g := fun t => q (name, "1.0".toList) t) (fun t ht => by cases ht; exact hq name hc)
        simpa [forVersion] using h2)
    simpa using this
  | err e => exact gives_now (.err e)
  | panic => exact gives_now .panic

theorem with_text_safe {p : Sqlite} (hc : Connected p) (hv : Current p) {c key text : Str} {aio : Bool} (h : (key, text) ∈ texts)
    {P : α → Prop} {q : Str × Str → Str → Prog E α} (hq : ∀ name, Safe S C D P (q name text)) :
    Safe S C D P
      (Prog.now (p.connectionVersion c aio) >>= fun nv => queryText key (forVersion nv.2 text) >>= fun t => q nv t) := by
  refine Safe.bind (P := fun nv => nv.2 = "1.0".toList) (safe_now ?_ ?_) ?_
  · rw [connectionVersion_eq hv]
    exact bind_ne_panic (connection_ne_panic hc c aio) fun _ _ => by simp
  · intro a ha
    rw [connectionVersion_eq hv] at ha
    obtain ⟨n, _, h2⟩ := bind_eq_ok ha
    cases h2
    rfl
  · intro nv hnv
    rw [hnv]
    refine Safe.bind (P := fun t => t = text) ?_ fun t ht => by rw [ht]; exact hq _
    intro s hs
    have : (forVersion "1.0".toList text : ProvM E Str) = .ok text := by simp [forVersion]
    rw [this]
    exact (queryText_yields h s hs).weaken fun r s hr => by subst hr; exact ⟨by simp, fun a ha => by cases ha; rfl⟩

/-! ### The texts are the queries -/

theorem runPattern_eq (db : Database) (one exact : Bool) (i tag c : Str) :
    runPattern (patternText one exact) db i tag c = db.pattern.map fun rows => selectPattern rows one exact i tag c := by
  have h1 : patternText true true ≠ patternText true false := by decide +kernel
  have h2 : patternText true true ≠ patternText false true := by decide +kernel
  have h3 : patternText true true ≠ patternText false false := by decide +kernel
  have h4 : patternText true false ≠ patternText false true := by decide +kernel
  have h5 : patternText true false ≠ patternText false false := by decide +kernel
  have h6 : patternText false true ≠ patternText false false := by decide +kernel
  unfold runPattern
  cases db.pattern with
  | error e => rfl
  | ok rows =>
    cases one <;> cases exact
    · simp only [Bind.bind, Except.bind, h3.symm, h5.symm, h6.symm, if_false, if_true]; rfl
    · simp only [Bind.bind, Except.bind, h2.symm, h4.symm, if_false, if_true]; rfl
    · simp only [Bind.bind, Except.bind, h1.symm, if_false, if_true]; rfl
    · simp only [Bind.bind, Except.bind, if_true]; rfl

theorem readTable_map (t : Except Nat α) (f : α → β) :
    (readTable (t.map f) : ProvM E β) = (do let a ← readTable t; pure (f a)) := by
  cases t <;> rfl

/-! ### The queries give what they give without cache -/

variable {canon : Str → Except E Str} {p : Sqlite} {st : Store}

theorem findLoop_gives {name c i : Str} {one exact : Bool} {rows : List PatternRow} (hr : (st name).pattern = .ok rows) :
    ∀ (n : Nat) (tag : Str), tag.length ≤ n → Gives (· = st) C D (findLoop canon rows c i one exact tag)
      (findLoopSync canon (patternText one exact) name c i exact tag) := by
  intro n
  induction n with
  | zero =>
    intro tag hn
    have : tag = [] := List.eq_nil_of_length_eq_zero (by omega)
    subst this
    rw [findLoop, findLoopSync]
    exact gives_now _
  | succ n ih =>
    intro tag hn
    rw [findLoop, findLoopSync]
    by_cases ht : tag = []
    · simp only [ht, if_true]; exact gives_now _
    · simp only [ht, if_false]
      have hq := query_gives (E := E) (C := C) (D := D) (st := st) name
        (fun db => runPattern (patternText one exact) db i (if exact then tag else tag ++ ['%']) c)
      rw [runPattern_eq, hr] at hq
      have hstep := Gives.bind hq
        (f := fun x => readRows canon x >>= fun strings =>
          if strings ≠ [] then .ok strings
          else match rsplitBefore '-' (if exact then tag else tag ++ ['%']) with
            | none => .ok []
            | some before => findLoop canon rows c i one exact before)
        (g := fun x => Prog.after (Prog.now (readRows canon x)) fun strings =>
          if strings ≠ [] then Prog.now (.ok strings)
          else
            match _h : rsplitBefore '-' (if exact then tag else tag ++ ['%']) with
            | none => Prog.now (.ok [])
            | some before => findLoopSync canon (patternText one exact) name c i exact before)
        (fun x hx => ?_)
      · refine cast (congrArg (fun z => Gives (· = st) C D z _) ?_) hstep
        simp only [Except.map, readTable, Outcome.bind_ok]
        cases readRows canon (selectPattern rows one exact i (if exact then tag else tag ++ ['%']) c) with
        | err e => rfl
        | panic => rfl
        | ok strings =>
          simp only [Outcome.bind_ok]
          split
          · rfl
          · cases rsplitBefore '-' (if exact then tag else tag ++ ['%']) <;> rfl
      · refine Gives.bind (gives_now _) fun strings _ => ?_
        split
        · exact gives_now _
        · generalize hb : rsplitBefore '-' (if exact then tag else tag ++ ['%']) = b
          have hlen : ∀ before, rsplitBefore '-' (if exact then tag else tag ++ ['%']) = some before →
              before.length ≤ n := by
            intro before h'
            cases exact with
            | true => have := rsplitBefore_length (by simpa using h'); omega
            | false =>
              have h' : rsplitBefore '-' (tag ++ ['%']) = some before := by simpa using h'
              rw [rsplitBefore_snoc (by decide)] at h'
              have := rsplitBefore_length h'
              omega
          cases b with
          | none => exact gives_now _
          | some before => exact ih before (hlen before hb)

theorem findStrings_gives (hv : Current p) (c i tag : Str) (aio one exact : Bool) :
    Gives (· = st) C D (p.findStrings canon st c i tag aio one exact) (p.findStringsSync canon c i tag aio one exact) := by
  unfold Sqlite.findStrings Sqlite.findStringsSync
  refine with_text hv (pattern_text one exact aio) fun name _ => ?_
  have hq := query_gives (E := E) (C := C) (D := D) (st := st) name (fun db => db.pattern.map fun _ => ())
  rw [readTable_map] at hq
  cases hr : (st name).pattern with
  | error e =>
    rw [hr] at hq
    exact Gives.bind hq (f := fun _ => .err (.sql e)) fun _ h => by cases h
  | ok rows =>
    rw [hr] at hq
    exact Gives.bind hq (f := fun _ => findLoop canon rows c i one exact tag) fun _ _ =>
      findLoop_gives hr _ tag (Nat.le_refl _)

theorem query_map {γ : Type} {name : Str} {run : Database → Except Nat α} (t : Database → Except Nat γ) (f : γ → α)
    (h : ∀ db, run db = (t db).map f) :
    Gives (· = st) C D (readTable (t (st name)) >>= fun a => pure (f a) : ProvM E α) (Prog.query name run) := by
  have hq := query_gives (E := E) (C := C) (D := D) (st := st) name run
  rw [h, readTable_map] at hq
  exact hq

theorem query_then {γ : Type} {name : Str} {run : Database → Except Nat α} (t : Database → Except Nat γ) (f : γ → α)
    (h : ∀ db, run db = (t db).map f) {x : α → ProvM E β} {q : α → Prog E β} (hx : ∀ a, Gives (· = st) C D (x a) (q a)) :
    Gives (· = st) C D (readTable (t (st name)) >>= fun a => x (f a)) (Prog.query name run >>= q) := by
  have := Gives.bind (query_map (E := E) (C := C) (D := D) (st := st) (name := name) t f h) (f := x) fun a _ => hx a
  cases hr : t (st name) <;> rw [hr] at this <;> exact this

theorem languages_gives (hv : Current p) (c : Str) (aio : Bool) :
    Gives (· = st) C D (p.languages canon st c aio) (p.languagesSync canon c aio) :=
  with_text hv (languages_text aio) fun _ _ =>
    query_then (fun db => db.contributor) (fun rows => selectLanguages rows c)
      (fun db => by unfold runLanguages; cases db.contributor <;> rfl) fun _ => gives_now _

theorem identifierLanguages_gives (hv : Current p) (c i : Str) (aio : Bool) :
    Gives (· = st) C D (p.identifierLanguages canon st c i aio) (p.identifierLanguagesSync canon c i aio) :=
  with_text hv (identifier_text aio) fun _ _ =>
    query_then (fun db => db.pattern) (fun rows => selectIdentifierLanguages rows i c)
      (fun db => by unfold runIdentifier; cases db.pattern <;> rfl) fun _ => gives_now _

theorem contributors_gives (hv : Current p) (c tag : Str) (aio : Bool) :
    Gives (· = st) C D (p.contributors (E := E) st c tag aio) (p.contributorsSync c tag aio) :=
  with_text hv (contributors_text aio) fun _ _ =>
    query_map (fun db => db.contributor) (fun rows => selectContributors rows tag c)
      (fun db => by unfold runContributors; cases db.contributor <;> rfl)

theorem count_gives (hv : Current p) (c tag : Str) (aio : Bool) :
    Gives (· = st) C D (p.count (E := E) st c tag aio) (p.countSync c tag aio) :=
  with_text hv (count_text aio) fun _ _ =>
    query_map (fun db => db.pattern) (fun rows => selectCount rows tag c)
      (fun db => by unfold runCount; cases db.pattern <;> rfl)

theorem defaultLanguage_gives (hv : Current p) (c : Str) (aio : Bool) :
    Gives (· = st) C D (p.defaultLanguage canon st c aio) (p.defaultLanguageSync canon c aio) :=
  with_text hv (default_text aio) fun _ _ =>
    query_then (x := fun x => askTags canon x >>= fun t => .ok t.getLast?) (fun db => db.component)
      (fun rows => selectDefault rows c) (fun db => by unfold runDefault; cases db.component <;> rfl) fun _ =>
      Gives.bind (gives_now _) fun _ _ => gives_pure _

end Verif.ProviderLemmas
