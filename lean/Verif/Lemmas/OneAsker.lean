import Verif.Lemmas.ProviderSyncThreads
import Verif.Spec.OneComputation
/-
A part of the state that only one thread changes.
-/
namespace Verif.Act
open Verif

variable {σ τ α β : Type} {f : σ → τ}

/-- No step changes this part of the state. -/
def Keeps (f : σ → τ) : Act σ α → Prop
  | .done _ => True
  | .step _ effect next => ∀ s, f (effect s) = f s ∧ (next s).Keeps f

theorem Keeps.bind {k : α → Act σ β} {p : Act σ α} : p.Keeps f → (∀ a, (k a).Keeps f) → (p.bind k).Keeps f := by
  induction p with
  | done a => intro _ h; exact h a
  | step ready effect next ih => intro h hk s; exact ⟨(h s).1, ih s (h s).2 hk⟩

theorem Keeps.atomic {g : σ → σ × Act σ α} (h : ∀ s, f (g s).1 = f s ∧ (g s).2.Keeps f) : (Act.atomic g).Keeps f := h

/-- What holds of a part of the state that nobody else changes: `I` at all times, `Q` at the end. -/
def Own (f : σ → τ) (I : τ → Prop) (Q : α → τ → Prop) : Act σ α → τ → Prop
  | .done a, v => I v ∧ Q a v
  | .step ready effect next, v => I v ∧ ∀ s, f s = v → ready s = true → (next s).Own f I Q (f (effect s))

variable {I : τ → Prop} {Q : α → τ → Prop}

theorem Own.now {p : Act σ α} {v : τ} (h : p.Own f I Q v) : I v := by
  cases p with
  | done a => exact h.1
  | step => exact h.1

theorem Own.bind {Q' : β → τ → Prop} {k : α → Act σ β} {p : Act σ α} : ∀ {v : τ}, p.Own f I Q v →
    (∀ a v, I v → Q a v → (k a).Own f I Q' v) → (p.bind k).Own f I Q' v := by
  induction p with
  | done a => intro v h hk; exact hk a v h.1 h.2
  | step ready effect next ih => intro v h hk; exact ⟨h.1, fun s hs hr => ih s (h.2 s hs hr) hk⟩

theorem Own.atomic {g : σ → σ × Act σ α} {v : τ} (hi : I v) (h : ∀ s, f s = v → (g s).2.Own f I Q (f (g s).1)) :
    (Act.atomic g).Own f I Q v := ⟨hi, fun s hs _ => h s hs⟩

theorem Own.weaken {Q' : α → τ → Prop} {p : Act σ α} : ∀ {v : τ}, p.Own f I Q v → (∀ a v, Q a v → Q' a v) →
    p.Own f I Q' v := by
  induction p with
  | done a => intro v h hq; exact ⟨h.1, hq a v h.2⟩
  | step ready effect next ih => intro v h hq; exact ⟨h.1, fun s hs hr => ih s (h.2 s hs hr) hq⟩

/-- A program that does not change this part of the state. -/
theorem Keeps.own {p : Act σ α} : ∀ {v : τ}, p.Keeps f → I v → (∀ a, p.CanEnd a → Q a v) → p.Own f I Q v := by
  induction p with
  | done a => intro v _ hi hq; exact ⟨hi, hq a rfl⟩
  | step ready effect next ih =>
    intro v hk hi hq
    refine ⟨hi, fun s hs hr => ?_⟩
    rw [(hk s).1, hs]
    exact ih s (hk s).2 hi fun a ha => hq a ⟨s, hr, ha⟩

/-- One thread owns the part, the others do not change it. -/
theorem own_run {i : Nat} (schedule : List Nat) : ∀ (s : σ) (threads : List (Act σ α)),
    (∀ q : Act σ α, threads[i]? = some q → q.Own f I Q (f s)) → (∀ j (q : Act σ α), j ≠ i → threads[j]? = some q → q.Keeps f) →
    ∀ q : Act σ α, (runThreads s threads schedule).2[i]? = some q → q.Own f I Q (f (runThreads s threads schedule).1) := by
  induction schedule with
  | nil => intro s threads h _; exact h
  | cons j rest ih =>
    intro s threads h hk
    simp only [runThreads]
    have key : (∀ q : Act σ α, (stepThread s threads j).2[i]? = some q → q.Own f I Q (f (stepThread s threads j).1)) ∧
        ∀ l (q : Act σ α), l ≠ i → (stepThread s threads j).2[l]? = some q → q.Keeps f := by
      unfold stepThread
      cases hp : threads[j]? with
      | none => exact ⟨h, hk⟩
      | some p =>
        have hlt : j < threads.length := by
          rcases Nat.lt_or_ge j threads.length with h | h
          · exact h
          · rw [List.getElem?_eq_none h] at hp; cases hp
        have get : ∀ l (q : Act σ α), (threads.set j (p.advance s).2)[l]? = some q →
            (j = l ∧ q = (p.advance s).2) ∨ (j ≠ l ∧ threads[l]? = some q) := by
          intro l q hq
          rw [List.getElem?_set] at hq
          by_cases hl : j = l
          · subst hl
            simp only [if_true, hlt, Option.some.injEq] at hq
            exact .inl ⟨rfl, hq.symm⟩
          · simp only [hl, if_false] at hq
            exact .inr ⟨hl, hq⟩
        have adv : j ≠ i → f (p.advance s).1 = f s ∧ (p.advance s).2.Keeps f := by
          intro hji
          have := hk j p hji hp
          cases p with
          | done a => exact ⟨rfl, trivial⟩
          | step ready effect next =>
            simp only [advance]
            split
            · exact this s
            · exact ⟨rfl, this⟩
        constructor
        · intro q hq
          simp only at hq ⊢
          rcases get i q hq with ⟨rfl, rfl⟩ | ⟨hji, hq⟩
          · have := h p hp
            cases p with
            | done a => exact this
            | step ready effect next =>
              simp only [advance]
              by_cases hr : ready s = true
              · simp only [hr, if_true]; exact this.2 s rfl hr
              · simp only [hr]; exact this
          · rw [(adv hji).1]; exact h q hq
        · intro l q hl hq
          rcases get l q hq with ⟨rfl, rfl⟩ | ⟨_, hq⟩
          · exact (adv hl).2
          · exact hk l q hl hq
    exact ih _ _ key.1 key.2

/-- Where the parts of a program may end. -/
theorem CanEnd.bind {k : α → Act σ β} {p : Act σ α} {b : β} : (p.bind k).CanEnd b → ∃ a, p.CanEnd a ∧ (k a).CanEnd b := by
  induction p with
  | done a => intro h; exact ⟨a, rfl, h⟩
  | step ready effect next ih =>
    rintro ⟨s, hr, h⟩
    obtain ⟨a, h1, h2⟩ := ih s h
    exact ⟨a, ⟨s, hr, h1⟩, h2⟩

/-- Every step keeps `I`. -/
def Preserves (I : σ → Prop) : Act σ α → Prop
  | .done _ => True
  | .step ready effect next => ∀ s, ready s = true → (I s → I (effect s)) ∧ (next s).Preserves I

theorem Preserves.bind {J : σ → Prop} {k : α → Act σ β} {p : Act σ α} : p.Preserves J → (∀ a, p.CanEnd a → (k a).Preserves J) →
    (p.bind k).Preserves J := by
  induction p with
  | done a => intro _ h; exact h a rfl
  | step ready effect next ih =>
    intro h hk s hr
    exact ⟨(h s hr).1, ih s (h s hr).2 fun a ha => hk a ⟨s, hr, ha⟩⟩

theorem Preserves.atomic {J : σ → Prop} {g : σ → σ × Act σ α} (h : ∀ s, (J s → J (g s).1) ∧ (g s).2.Preserves J) :
    (Act.atomic g).Preserves J := fun s _ => h s

theorem Keeps.preserves {J : τ → Prop} {p : Act σ α} : p.Keeps f → p.Preserves fun s => J (f s) := by
  induction p with
  | done a => intro _; exact trivial
  | step ready effect next ih =>
    intro h s _
    exact ⟨fun hj => by simp only [(h s).1]; exact hj, ih s (h s).2⟩

/-- Threads all of whose steps keep `I`. -/
theorem preserves_run {J : σ → Prop} (schedule : List Nat) : ∀ (s : σ) (threads : List (Act σ α)), J s →
    (∀ q ∈ threads, q.Preserves J) → J (runThreads s threads schedule).1 := by
  induction schedule with
  | nil => intro s threads h _; exact h
  | cons j rest ih =>
    intro s threads h hs
    simp only [runThreads]
    have key : J (stepThread s threads j).1 ∧ ∀ q ∈ (stepThread s threads j).2, q.Preserves J := by
      unfold stepThread
      cases hp : threads[j]? with
      | none => exact ⟨h, hs⟩
      | some p =>
        have hp' := hs p (List.mem_of_getElem? hp)
        have adv : J (p.advance s).1 ∧ (p.advance s).2.Preserves J := by
          cases p with
          | done a => exact ⟨h, trivial⟩
          | step ready effect next =>
            simp only [advance]
            by_cases hr : ready s = true
            · simp only [hr, if_true]; exact ⟨(hp' s hr).1 h, (hp' s hr).2⟩
            · simp only [hr]; exact ⟨h, hp'⟩
        refine ⟨adv.1, fun q hq => ?_⟩
        rcases List.mem_or_eq_of_mem_set hq with hq | rfl
        · exact hs q hq
        · exact adv.2
    exact ih _ _ key.1 key.2

end Verif.Act

namespace Verif.ProviderLemmas
open Verif Verif.Spec Verif.Act

variable {E : Type} {canon : Str → Except E Str} {p : Sqlite}

/-- The two once-cells. -/
def cells (s : ProvState) : Option (AMap Str ComponentDetails) × Option RepositoryDetails := (s.components, s.repository)

/-! ### What does not write the cells -/

theorem now_keeps {α : Type} (x : ProvM E α) : (Prog.now x).Keeps cells := trivial

theorem after_keeps {α β : Type} {a : Prog E α} {k : α → Prog E β} (h : a.Keeps cells) (hk : ∀ x, (k x).Keeps cells) :
    (a >>= k).Keeps cells := by
  refine Keeps.bind h fun r => ?_
  cases r with
  | ok x => exact hk x
  | err e => exact trivial
  | panic => exact trivial

theorem askIf_keeps {α : Type} {b : Bool} {a : Prog E α} {y : α} (h : a.Keeps cells) : (Prog.askIf b a y).Keeps cells := by
  unfold Prog.askIf
  split
  · exact h
  · exact trivial

theorem query_keeps {α : Type} (name : Str) (run : Database → Except Nat α) :
    (Prog.query name run : Prog E α).Keeps cells := Keeps.atomic fun _ => ⟨rfl, trivial⟩

theorem queryText_keeps (key : Str) (x : ProvM E Str) : (queryText key x).Keeps cells := by
  refine Keeps.atomic fun s => ?_
  split
  · exact ⟨rfl, trivial⟩
  · split
    · exact ⟨rfl, trivial⟩
    · refine ⟨rfl, Keeps.atomic fun s => ?_⟩
      split
      · exact ⟨rfl, trivial⟩
      · split
        · refine ⟨rfl, Keeps.atomic fun s => ?_⟩
          split <;> exact ⟨rfl, trivial⟩
        · exact ⟨rfl, trivial⟩

theorem findLoop_keeps (text name c i : Str) (exact : Bool) (tag : Str) :
    (findLoopSync canon text name c i exact tag).Keeps cells := by
  rw [findLoopSync.eq_def]
  split
  · exact trivial
  · refine after_keeps (query_keeps _ _) fun rows => after_keeps (now_keeps _) fun strings => ?_
    split
    · exact trivial
    · split
      · exact trivial
      · exact findLoop_keeps text name c i exact _
termination_by tag.length
decreasing_by
  rename_i h
  cases exact with
  | true => exact rsplitBefore_length (by simpa using h)
  | false =>
    simp only [Bool.false_eq_true, if_false] at h
    rw [rsplitBefore_snoc (by decide)] at h
    exact rsplitBefore_length h

theorem findStrings_keeps (c i tag : Str) (aio one exact : Bool) :
    (p.findStringsSync canon c i tag aio one exact).Keeps cells :=
  after_keeps (now_keeps _) fun _ => after_keeps (queryText_keeps _ _) fun _ => after_keeps (query_keeps _ _) fun _ =>
    findLoop_keeps _ _ _ _ _ _

theorem oneString_keeps (c i tag : Str) (exact : Bool) : (p.oneStringSync canon c i tag exact).Keeps cells := by
  unfold Sqlite.oneStringSync
  split
  · exact trivial
  · refine after_keeps (askIf_keeps (findStrings_keeps _ _ _ _ _ _)) fun first => ?_
    split
    · exact now_keeps _
    · exact after_keeps (askIf_keeps (findStrings_keeps _ _ _ _ _ _)) fun _ => now_keeps _

theorem strings_keeps (c i tag : Str) : (p.stringsSync canon c i tag).Keeps cells := by
  unfold Sqlite.stringsSync
  split
  · exact trivial
  · refine after_keeps (askIf_keeps (findStrings_keeps _ _ _ _ _ _)) fun first => ?_
    split
    · exact now_keeps _
    · exact askIf_keeps (findStrings_keeps _ _ _ _ _ _)

theorem languages_keeps (c : Str) (aio : Bool) : (p.languagesSync canon c aio).Keeps cells :=
  after_keeps (now_keeps _) fun _ => after_keeps (queryText_keeps _ _) fun _ => after_keeps (query_keeps _ _) fun _ => now_keeps _

theorem identifierLanguages_keeps (c i : Str) (aio : Bool) : (p.identifierLanguagesSync canon c i aio).Keeps cells :=
  after_keeps (now_keeps _) fun _ => after_keeps (queryText_keeps _ _) fun _ => after_keeps (query_keeps _ _) fun _ => now_keeps _

theorem contributors_keeps (c t : Str) (aio : Bool) : (p.contributorsSync (E := E) c t aio).Keeps cells :=
  after_keeps (now_keeps _) fun _ => after_keeps (queryText_keeps _ _) fun _ => query_keeps _ _

theorem count_keeps (c t : Str) (aio : Bool) : (p.countSync (E := E) c t aio).Keeps cells :=
  after_keeps (now_keeps _) fun _ => after_keeps (queryText_keeps _ _) fun _ => query_keeps _ _

theorem defaultLanguage_keeps (c : Str) (aio : Bool) : (p.defaultLanguageSync canon c aio).Keeps cells :=
  after_keeps (now_keeps _) fun _ => after_keeps (queryText_keeps _ _) fun _ => after_keeps (query_keeps _ _) fun _ =>
    after_keeps (now_keeps _) fun _ => now_keeps _

theorem countLanguages_keeps (c : Str) (files : Bool × Bool) : ∀ tags own repo,
    (p.countLanguagesSync (E := E) c files tags own repo).Keeps cells := by
  intro tags
  induction tags with
  | nil => intro own repo; exact trivial
  | cons t tags ih =>
    intro own repo
    refine after_keeps (now_keeps _) fun _ => after_keeps ?_ fun _ => after_keeps (now_keeps _) fun _ => ih _ _
    exact after_keeps (askIf_keeps (contributors_keeps c t _)) fun _ =>
      after_keeps (askIf_keeps (contributors_keeps c t _)) fun _ =>
      after_keeps (askIf_keeps (count_keeps c t _)) fun _ => after_keeps (askIf_keeps (count_keeps c t _)) fun _ => now_keeps _

theorem buildComponent_keeps (c : Str) (files : Bool × Bool) (repo : RepositoryDetails) :
    (p.buildComponentSync canon c files repo).Keeps cells := by
  refine after_keeps (now_keeps _) fun _ => after_keeps ?_ fun x => ?_
  · exact after_keeps (askIf_keeps (languages_keeps c _)) fun _ => after_keeps (askIf_keeps (languages_keeps c _)) fun _ => now_keeps _
  · refine after_keeps (askIf_keeps (defaultLanguage_keeps c _)) fun _ =>
      after_keeps (askIf_keeps (defaultLanguage_keeps c _)) fun d => ?_
    cases d with
    | none => exact trivial
    | some d =>
      simp only
      split
      · exact trivial
      · exact after_keeps (countLanguages_keeps c files _ _ _) fun _ => after_keeps (now_keeps _) fun _ => now_keeps _

theorem buildComponents_keeps : ∀ rest done repo, (p.buildComponentsSync canon rest done repo).Keeps cells := by
  intro rest
  induction rest with
  | nil => intro done repo; exact trivial
  | cons a rest ih => intro done repo; exact after_keeps (buildComponent_keeps a.1 a.2 repo) fun _ => ih _ _

theorem call_keeps {c : ProvCall} (h : ¬ NeedsDetails c) : (p.callSync canon c).Keeps cells := by
  cases c with
  | string c i t => exact after_keeps (oneString_keeps _ _ _ _) fun _ => now_keeps _
  | stringExactMatch c i t => exact after_keeps (oneString_keeps _ _ _ _) fun _ => now_keeps _
  | strings c i t => exact after_keeps (strings_keeps _ _ _) fun _ => now_keeps _
  | identifierDetails c i => exact (h trivial).elim
  | componentDetails c => exact (h trivial).elim
  | repositoryDetails => exact (h trivial).elim

theorem thread_keeps : ∀ (calls : List ProvCall) (rs : List (ProvM E ProvReply)), (∀ c ∈ calls, ¬ NeedsDetails c) →
    (p.thread canon calls rs).Keeps cells := by
  intro calls
  induction calls with
  | nil => intro rs _; exact trivial
  | cons c calls ih =>
    intro rs h
    refine Keeps.bind (call_keeps (h c (by simp))) fun r => ?_
    have hi := fun rs => ih rs fun c hc => h c (by simp [hc])
    cases r with
    | panic => exact trivial
    | ok x => exact hi _
    | err e => exact hi _

/-! ### The thread that writes them -/

/-- The cells between the calls of the only thread that needs the details. -/
def Both (canon : Str → Except E Str) (p : Sqlite) (v : Option (AMap Str ComponentDetails) × Option RepositoryDetails) :
    Prop := v = (none, none) ∨ ∃ m r, v = (some m, some r) ∧ OneComputation canon p m r

/-- The cells at all times. -/
def Never (canon : Str → Except E Str) (p : Sqlite) (v : Option (AMap Str ComponentDetails) × Option RepositoryDetails) :
    Prop := ∀ m r, v = (some m, some r) → OneComputation canon p m r

theorem Both.never {v} (h : Both canon p v) : Never canon p v := by
  intro m r e
  rcases h with h | ⟨m', r', h, h1⟩
  · rw [h] at e; cases e
  · rw [h] at e; cases e; exact h1

theorem after_own {α β : Type} {a : Prog E α} {k : α → Prog E β} {v}
    (h : a.Own cells (Never canon p) (fun _ v => Both canon p v) v)
    (hk : ∀ x v, Both canon p v → (k x).Own cells (Never canon p) (fun _ v => Both canon p v) v) :
    (a >>= k).Own cells (Never canon p) (fun _ v => Both canon p v) v := by
  refine Own.bind h fun r v hi hv => ?_
  cases r with
  | ok x => exact hk x v hv
  | err e => exact ⟨hi, hv⟩
  | panic => exact ⟨hi, hv⟩

theorem keeps_own {α : Type} {a : Prog E α} {v} (h : a.Keeps cells) (hv : Both canon p v) :
    a.Own cells (Never canon p) (fun _ v => Both canon p v) v :=
  h.own hv.never fun _ _ => hv

theorem setDetails_own {m : AMap Str ComponentDetails} {r : RepositoryDetails} (h : OneComputation canon p m r) :
    (setDetails (E := E) m r).Own cells (Never canon p) (fun _ v => Both canon p v) (none, none) := by
  refine Own.atomic (fun _ _ e => by cases e) fun s hs => Own.atomic ?_ fun t ht => ?_
  · intro m' r' e
    have h2 : s.repository = none := congrArg Prod.snd hs
    have := congrArg Prod.snd e
    simp only [cells, h2] at this
    cases this
  · have h1 : s.components = none := congrArg Prod.fst hs
    have h2 : s.repository = none := congrArg Prod.snd hs
    simp only [cells, h1, h2, Option.orElse] at ht
    have h3 : t.components = some m := congrArg Prod.fst ht
    have h4 : t.repository = none := congrArg Prod.snd ht
    have hb : Both canon p (some m, some r) := .inr ⟨m, r, rfl, h⟩
    simp only [cells, h3, h4, Option.orElse]
    exact ⟨hb.never, hb⟩

theorem buildCache_own : (p.buildCacheSync canon).Own cells (Never canon p) (fun _ v => Both canon p v) (none, none) := by
  have hn : Both canon p (none, none) := .inl rfl
  refine Own.bind (Q := fun a v => v = (none, none) ∧ ∀ m r, a = .ok (m, r) → OneComputation canon p m r)
    ((buildComponents_keeps _ _ _).own hn.never fun a ha => ⟨rfl, fun m r e => by subst e; exact ha⟩) ?_
  rintro a v hi ⟨rfl, h⟩
  cases a with
  | err e => exact ⟨hi, hn⟩
  | panic => exact ⟨hi, hn⟩
  | ok x =>
    obtain ⟨m, r⟩ := x
    have h1 := setDetails_own (h m r rfl)
    simp only
    split
    · exact h1
    · rename_i d _
      show ((Prog.now (Outcome.unwrap (r.languages.get d)) >>= fun _ => setDetails m r) : Prog E Unit).Own _ _ _ _
      cases r.languages.get d with
      | none => exact ⟨hi, hn⟩
      | some _ => exact h1

theorem allDetails_own {v} (h : Both canon p v) :
    (p.allDetails canon).Own cells (Never canon p) (fun _ v => Both canon p v) v := by
  refine Own.atomic h.never fun s hs => ?_
  subst hs
  split
  · exact ⟨h.never, h⟩
  · rename_i hn
    have : cells s = (none, none) := by
      rcases h with h | ⟨m, r, h, _⟩
      · exact h
      · have : s.components = some m := congrArg Prod.fst h
        rw [this] at hn; cases hn
    simp only
    rw [this]
    exact after_own buildCache_own fun _ v hv => Own.atomic hv.never fun s hs => by subst hs; exact ⟨hv.never, hv⟩

theorem repositoryDetails_own {v} (h : Both canon p v) :
    (p.repositoryDetailsSync canon).Own cells (Never canon p) (fun _ v => Both canon p v) v := by
  refine Own.atomic h.never fun s hs => ?_
  subst hs
  split
  · exact ⟨h.never, h⟩
  · rename_i hn
    have : cells s = (none, none) := by
      rcases h with h | ⟨m, r, h, _⟩
      · exact h
      · have : s.repository = some r := congrArg Prod.snd h
        rw [this] at hn; cases hn
    simp only
    rw [this]
    exact after_own buildCache_own fun _ v hv => Own.atomic hv.never fun s hs => by subst hs; exact ⟨hv.never, hv⟩

theorem call_own (c : ProvCall) {v} (h : Both canon p v) :
    (p.callSync canon c).Own cells (Never canon p) (fun _ v => Both canon p v) v := by
  by_cases hc : NeedsDetails c
  · cases c with
    | identifierDetails c i =>
      refine after_own (after_own (allDetails_own h) fun m v hv => ?_) fun _ v hv => keeps_own (now_keeps _) hv
      split
      · exact keeps_own (now_keeps _) hv
      · exact keeps_own (after_keeps (identifierLanguages_keeps _ _ _) fun _ =>
          after_keeps (askIf_keeps (identifierLanguages_keeps _ _ _)) fun _ => now_keeps _) hv
    | componentDetails c =>
      refine after_own (after_own (allDetails_own h) fun m v hv => ?_) fun _ v hv => keeps_own (now_keeps _) hv
      split <;> exact keeps_own (now_keeps _) hv
    | repositoryDetails =>
      exact after_own (repositoryDetails_own h) fun _ v hv => keeps_own (now_keeps _) hv
    | _ => exact hc.elim
  · exact keeps_own (call_keeps hc) h

theorem thread_own : ∀ (calls : List ProvCall) (rs : List (ProvM E ProvReply)) {v}, Both canon p v →
    (p.thread canon calls rs).Own cells (Never canon p) (fun _ v => Both canon p v) v := by
  intro calls
  induction calls with
  | nil => intro rs v hv; exact ⟨hv.never, hv⟩
  | cons c calls ih =>
    intro rs v hv
    refine Own.bind (call_own c hv) fun r v _ hv => ?_
    cases r with
    | panic => exact ⟨hv.never, hv⟩
    | ok x => exact ih _ hv
    | err e => exact ih _ hv

/-! ### Several threads that write them -/

/-- Each cell comes from a computation. -/
def Sourced (canon : Str → Except E Str) (p : Sqlite) (v : Option (AMap Str ComponentDetails) × Option RepositoryDetails) :
    Prop := (∀ m, v.1 = some m → ∃ r, OneComputation canon p m r) ∧ ∀ r, v.2 = some r → ∃ m, OneComputation canon p m r

theorem after_preserves {α β : Type} {J : ProvState → Prop} {a : Prog E α} {k : α → Prog E β} (h : a.Preserves J)
    (hk : ∀ x, a.CanEnd (.ok x) → (k x).Preserves J) : (a >>= k).Preserves J := by
  refine Preserves.bind h fun r hr => ?_
  cases r with
  | ok x => exact hk x hr
  | err e => exact trivial
  | panic => exact trivial

theorem setDetails_preserves {m : AMap Str ComponentDetails} {r : RepositoryDetails} (h : OneComputation canon p m r) :
    (setDetails (E := E) m r).Preserves fun s => Sourced canon p (cells s) := by
  refine Preserves.atomic fun s => ⟨fun hs => ⟨fun m' e => ?_, hs.2⟩, Preserves.atomic fun t => ⟨fun ht => ⟨ht.1, fun r' e => ?_⟩, trivial⟩⟩
  · cases hc : s.components with
    | none => simp only [cells, hc, Option.orElse] at e; cases e; exact ⟨r, h⟩
    | some x => simp only [cells, hc, Option.orElse] at e; cases e; exact hs.1 _ hc
  · cases hc : t.repository with
    | none => simp only [cells, hc, Option.orElse] at e; cases e; exact ⟨m, h⟩
    | some x => simp only [cells, hc, Option.orElse] at e; cases e; exact ht.2 _ hc

theorem buildCache_preserves : (p.buildCacheSync canon).Preserves fun s => Sourced canon p (cells s) := by
  refine after_preserves (buildComponents_keeps _ _ _).preserves fun x hx => ?_
  obtain ⟨m, r⟩ := x
  simp only
  split
  · exact setDetails_preserves hx
  · exact after_preserves trivial fun _ _ => setDetails_preserves hx

theorem call_preserves (c : ProvCall) : (p.callSync canon c).Preserves fun s => Sourced canon p (cells s) := by
  have hall : (p.allDetails canon).Preserves fun s => Sourced canon p (cells s) := by
    refine Preserves.atomic fun s => ?_
    split
    · exact ⟨id, trivial⟩
    · exact ⟨id, after_preserves buildCache_preserves fun _ _ => Preserves.atomic fun _ => ⟨id, trivial⟩⟩
  by_cases hc : NeedsDetails c
  · cases c with
    | identifierDetails c i =>
      refine after_preserves (after_preserves hall fun m _ => ?_) fun _ _ => trivial
      split
      · exact trivial
      · exact (after_keeps (identifierLanguages_keeps _ _ _) fun _ =>
          after_keeps (askIf_keeps (identifierLanguages_keeps _ _ _)) fun _ => now_keeps _).preserves
    | componentDetails c =>
      refine after_preserves (after_preserves hall fun m _ => ?_) fun _ _ => trivial
      split <;> exact trivial
    | repositoryDetails =>
      refine after_preserves (Preserves.atomic fun s => ?_) fun _ _ => trivial
      split
      · exact ⟨id, trivial⟩
      · exact ⟨id, after_preserves buildCache_preserves fun _ _ => Preserves.atomic fun _ => ⟨id, trivial⟩⟩
    | _ => exact hc.elim
  · exact (call_keeps hc).preserves

theorem thread_preserves : ∀ (calls : List ProvCall) (rs : List (ProvM E ProvReply)),
    (p.thread canon calls rs).Preserves fun s => Sourced canon p (cells s) := by
  intro calls
  induction calls with
  | nil => intro rs; exact trivial
  | cons c calls ih =>
    intro rs
    refine Preserves.bind (call_preserves c) fun r _ => ?_
    cases r with
    | panic => exact trivial
    | ok x => exact ih _
    | err e => exact ih _

/-! ### What one computation gives -/

theorem canEnd_after {α β : Type} {a : Prog E α} {k : α → Prog E β} {y : β} (h : (a >>= k).CanEnd (.ok y)) :
    ∃ x, a.CanEnd (.ok x) ∧ (k x).CanEnd (.ok y) := by
  obtain ⟨r, h1, h2⟩ := CanEnd.bind h
  cases r with
  | ok x => exact ⟨x, h1, h2⟩
  | err e => cases h2
  | panic => cases h2

theorem countLanguages_canEnd (c : Str) (files : Bool × Bool) : ∀ tags own repo own' repo',
    (p.countLanguagesSync (E := E) c files tags own repo).CanEnd (.ok (own', repo')) →
    repo'.components = repo.components ∧ repo'.total + own.total = repo.total + own'.total := by
  intro tags
  induction tags with
  | nil => intro own repo own' repo' h; cases h; exact ⟨rfl, rfl⟩
  | cons t tags ih =>
    intro own repo own' repo' h
    obtain ⟨_, _, h⟩ := canEnd_after h
    obtain ⟨data, _, h⟩ := canEnd_after h
    obtain ⟨shared, _, h⟩ := canEnd_after h
    obtain ⟨h1, h2⟩ := ih _ _ _ _ h
    refine ⟨h1, ?_⟩
    simp only at h2
    omega

theorem buildComponent_canEnd {c : Str} {files : Bool × Bool} {repo repo' : RepositoryDetails} {own : ComponentDetails}
    (h : (p.buildComponentSync canon c files repo).CanEnd (.ok (own, repo'))) :
    repo'.components = repo.components ++ [c] ∧ repo'.total = repo.total + own.total := by
  obtain ⟨_, _, h⟩ := canEnd_after h
  obtain ⟨x, _, h⟩ := canEnd_after h
  obtain ⟨_, _, h⟩ := canEnd_after h
  obtain ⟨d, _, h⟩ := canEnd_after h
  cases d with
  | none => cases h
  | some d =>
    simp only at h
    split at h
    · cases h
    · obtain ⟨y, h1, h⟩ := canEnd_after h
      obtain ⟨_, _, h⟩ := canEnd_after h
      cases h
      obtain ⟨h2, h3⟩ := countLanguages_canEnd _ _ _ _ _ _ _ h1
      simp only at h2 h3 ⊢
      exact ⟨h2, by omega⟩

theorem insert_absent {κ ν : Type} [DecidableEq κ] : ∀ (m : AMap κ ν) (k : κ) (v : ν), k ∉ m.keys →
    m.insert k v = m ++ [(k, v)]
  | [], _, _, _ => rfl
  | (k', v') :: rest, k, v, h => by
    simp only [AMap.keys, List.map_cons, List.mem_cons, not_or] at h
    unfold AMap.insert
    rw [if_neg (fun e => h.1 e.symm), insert_absent rest k v h.2]
    rfl

theorem buildComponents_canEnd : ∀ rest done repo m r, (rest.map Prod.fst).Nodup →
    (∀ c ∈ rest.map Prod.fst, c ∉ AMap.keys done) → Agree done repo →
    (p.buildComponentsSync canon rest done repo).CanEnd (.ok (m, r)) → Agree m r := by
  intro rest
  induction rest with
  | nil => intro done repo m r _ _ ha h; cases h; exact ha
  | cons a rest ih =>
    intro done repo m r hn hd ha h
    obtain ⟨⟨own, repo'⟩, h1, h⟩ := canEnd_after h
    obtain ⟨h2, h3⟩ := buildComponent_canEnd h1
    simp only [List.map_cons, List.nodup_cons] at hn
    have ha1 := hd a.1 (by simp)
    have h : (p.buildComponentsSync canon rest (done.insert a.1 own) repo').CanEnd (.ok (m, r)) := h
    rw [insert_absent _ _ _ ha1] at h
    refine ih _ _ m r hn.2 (fun c hc => ?_) ⟨?_, ?_⟩ h
    · simp only [AMap.keys, List.map_append, List.map_cons, List.map_nil, List.mem_append, List.mem_singleton, not_or]
      exact ⟨hd c (by simp [hc]), fun e => hn.1 (e ▸ hc)⟩
    · rw [h2, ha.components]
      simp [AMap.keys]
    · rw [h3, ha.total]
      simp

theorem one_agree {m : AMap Str ComponentDetails} {r : RepositoryDetails} (hk : p.components.keys.Nodup)
    (h : OneComputation canon p m r) : Agree m r :=
  buildComponents_canEnd p.components [] _ m r hk (fun _ _ h => by cases h) ⟨rfl, rfl⟩ h

end Verif.ProviderLemmas
