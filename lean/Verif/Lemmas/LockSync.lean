import Verif.Spec.LockSync
/-
Helper lemmas: threads that take locks in an order do not wait for each other.
-/
namespace Verif.LockLemmas
open Verif Verif.Spec

variable {σ α β : Type} {again : Bool}

/-- The order of the locks. -/
def rank : Cell → Nat
  | .cache => 0
  | .formatter _ _ => 1
  | .tag => 2
  | .script => 3
  | .fallback => 3
  | .caching => 3

/-- A lock that may be taken: above all those that are held, or, with `again`, to be read once more. -/
def Allowed (again : Bool) (held : List (Cell × Bool)) (c : Cell) (x : Bool) : Prop :=
  (∀ h ∈ held, rank h.1 < rank c) ∨ again = true ∧ x = false ∧ (c, false) ∈ held

/-- The code, which begins with the locks `held`: it takes locks only when allowed, releases the last first, keeps the
invariant, and ends with the locks `top` and a result that satisfies `Q`. -/
def Safe (again : Bool) (Inv : σ → Prop) (top : List (Cell × Bool)) (Q : α → Prop) : List (Cell × Bool) → Locking σ α → Prop
  | held, .done a => held = top ∧ Q a
  | held, .step effect next => ∀ s, Inv s → Inv (effect s) ∧ Safe again Inv top Q held (next s)
  | held, .acquire c x next => Allowed again held c x ∧ Safe again Inv top Q ((c, x) :: held) next
  | held, .release c x next => ∃ rest, held = (c, x) :: rest ∧ Safe again Inv top Q rest next

theorem Safe.bind {Inv : σ → Prop} {mid top : List (Cell × Bool)} {Q : α → Prop} {R : β → Prop} {k : α → Locking σ β}
    (hk : ∀ a, Q a → Safe again Inv top R mid (k a)) : ∀ {p : Locking σ α} {held}, Safe again Inv mid Q held p →
    Safe again Inv top R held (p.bind k)
  | .done a, held, h => by obtain ⟨rfl, hq⟩ := h; exact hk a hq
  | .step e n, held, h => fun s hs => ⟨(h s hs).1, Safe.bind hk (h s hs).2⟩
  | .acquire c x n, held, h => ⟨h.1, Safe.bind hk h.2⟩
  | .release c x n, held, h => by
    obtain ⟨rest, rfl, h⟩ := h
    exact ⟨rest, rfl, Safe.bind hk h⟩

theorem Safe.weaken {Inv : σ → Prop} {top : List (Cell × Bool)} {Q R : α → Prop} (hq : ∀ a, Q a → R a) :
    ∀ {p : Locking σ α} {held}, Safe again Inv top Q held p → Safe again Inv top R held p
  | .done a, held, h => ⟨h.1, hq _ h.2⟩
  | .step e n, held, h => fun s hs => ⟨(h s hs).1, Safe.weaken hq (h s hs).2⟩
  | .acquire c x n, held, h => ⟨h.1, Safe.weaken hq h.2⟩
  | .release c x n, held, h => by
    obtain ⟨rest, rfl, h⟩ := h
    exact ⟨rest, rfl, Safe.weaken hq h⟩

/-! ### No deadlock -/

/-- What is so for all threads all the time. -/
structure AllSafe (again : Bool) (Inv : σ → Prop) (s : σ) (threads : List (LockThread σ α)) : Prop where
  inv : Inv s
  each : ∀ t ∈ threads, Safe again Inv [] (fun _ => True) t.held t.prog
  apart : ∀ t ∈ threads, ∀ u ∈ threads, ∀ c, (c, true) ∈ t.held → (c, false) ∈ u.held → False

theorem advance_safe {Inv : σ → Prop} {s : σ} {t : LockThread σ α} (hs : Inv s)
    (h : Safe again Inv [] (fun _ => True) t.held t.prog) :
    Inv (t.advance s).1 ∧ Safe again Inv [] (fun _ => True) (t.advance s).2.held (t.advance s).2.prog := by
  obtain ⟨prog, held, waiting⟩ := t
  dsimp only at h
  cases prog with
  | done a => exact ⟨hs, h⟩
  | step e n => exact h s hs
  | acquire c x n =>
    unfold LockThread.advance
    dsimp only
    cases waiting with
    | true => exact ⟨hs, h.2⟩
    | false => exact ⟨hs, h⟩
  | release c x n =>
    obtain ⟨rest, rfl, h⟩ := h
    refine ⟨hs, ?_⟩
    show Safe again Inv [] (fun _ => True) (((c, x) :: rest).erase (c, x)) n
    rw [List.erase_cons_head]
    exact h

/-- What a thread holds after a step, it held before, or it was granted now. -/
theorem advance_held {policy : List (LockThread σ α) → Cell → Bool} {threads : List (LockThread σ α)} {s : σ}
    {t : LockThread σ α} (hr : t.ready policy threads = true) {h : Cell × Bool} (hm : h ∈ (t.advance s).2.held) :
    h ∈ t.held ∨ granted policy threads h.1 h.2 = true ∧ (t.advance s).2.held = h :: t.held := by
  obtain ⟨prog, held, waiting⟩ := t
  cases prog with
  | done a => exact .inl hm
  | step e n => exact .inl hm
  | acquire c x n =>
    cases waiting with
    | false => exact .inl hm
    | true =>
      rcases List.mem_cons.1 (show h ∈ (c, x) :: held from hm) with rfl | hm
      · exact .inr ⟨hr, rfl⟩
      · exact .inl hm
  | release c x n => exact .inl (List.mem_of_mem_erase (show h ∈ held.erase (c, x) from hm))

theorem granted_write {policy : List (LockThread σ α) → Cell → Bool} {threads : List (LockThread σ α)} {c : Cell}
    (h : granted policy threads c true = true) {t : LockThread σ α} (ht : t ∈ threads) {y : Bool} : (c, y) ∉ t.held := by
  intro hm
  simp only [granted, if_true, List.all_eq_true] at h
  have := h t ht _ hm
  simp at this

theorem granted_read {policy : List (LockThread σ α) → Cell → Bool} {threads : List (LockThread σ α)} {c : Cell}
    (h : granted policy threads c false = true) {t : LockThread σ α} (ht : t ∈ threads) : (c, true) ∉ t.held := by
  intro hm
  simp only [granted, Bool.false_eq_true, if_false, Bool.and_eq_true, List.all_eq_true] at h
  have := h.1 t ht
  simp [hm] at this

theorem lockStep_safe (policy : List (LockThread σ α) → Cell → Bool) {Inv : σ → Prop} {s : σ} {threads : List (LockThread σ α)}
    (h : AllSafe again Inv s threads) (i : Nat) :
    AllSafe again Inv (lockStep policy s threads i).1 (lockStep policy s threads i).2 := by
  unfold lockStep
  cases ht : threads[i]? with
  | none => exact h
  | some t =>
    dsimp only
    split
    · next hr =>
      have hm := List.mem_of_getElem? ht
      obtain ⟨h1, h2⟩ := advance_safe h.inv (h.each t hm)
      refine ⟨h1, fun t' ht' => ?_, fun t1 ht1 t2 ht2 c h3 h4 => ?_⟩
      · rcases List.mem_or_eq_of_mem_set ht' with h' | rfl
        · exact h.each t' h'
        · exact h2
      · have k1 : (∃ t1 ∈ threads, (c, true) ∈ t1.held) ∨ granted policy threads c true = true ∧ (t.advance s).2.held = (c, true) :: t.held := by
          rcases List.mem_or_eq_of_mem_set ht1 with h' | rfl
          · exact .inl ⟨t1, h', h3⟩
          · exact (advance_held hr h3).imp (fun h => ⟨t, hm, h⟩) id
        have k2 : (∃ t2 ∈ threads, (c, false) ∈ t2.held) ∨ granted policy threads c false = true ∧ (t.advance s).2.held = (c, false) :: t.held := by
          rcases List.mem_or_eq_of_mem_set ht2 with h' | rfl
          · exact .inl ⟨t2, h', h4⟩
          · exact (advance_held hr h4).imp (fun h => ⟨t, hm, h⟩) id
        rcases k1 with ⟨t1', m1, k1⟩ | ⟨k1, e1⟩
        · rcases k2 with ⟨t2', m2, k2⟩ | ⟨k2, e2⟩
          · exact h.apart t1' m1 t2' m2 c k1 k2
          · exact granted_read k2 m1 k1
        · rcases k2 with ⟨t2', m2, k2⟩ | ⟨k2, e2⟩
          · exact granted_write k1 m2 k2
          · rw [e1] at e2; cases e2
    · exact h

theorem lockRun_safe (policy : List (LockThread σ α) → Cell → Bool) {Inv : σ → Prop} (schedule : List Nat) : ∀ {s : σ}
    {threads : List (LockThread σ α)}, AllSafe again Inv s threads →
    AllSafe again Inv (lockRun policy s threads schedule).1 (lockRun policy s threads schedule).2 := by
  induction schedule with
  | nil => exact fun h => h
  | cons i rest ih => exact fun h => ih (lockStep_safe policy h i)

/-- A thread that cannot make a step. -/
theorem not_ready {policy : List (LockThread σ α) → Cell → Bool} {threads : List (LockThread σ α)} {t : LockThread σ α}
    (h : t.ready policy threads = false) : Finished t ∨
      ∃ c x n, t.prog = .acquire c x n ∧ t.waiting = true ∧ granted policy threads c x = false := by
  obtain ⟨prog, held, waiting⟩ := t
  cases prog with
  | done a => exact .inl ⟨a, rfl⟩
  | step e n => cases h
  | acquire c x n =>
    refine .inr ⟨c, x, n, rfl, ?_⟩
    cases waiting with
    | false => cases h
    | true => exact ⟨rfl, h⟩
  | release c x n => cases h

/-- If a lock is refused, somebody holds it. -/
theorem refused {policy : List (LockThread σ α) → Cell → Bool} {threads : List (LockThread σ α)}
    (hall : ∀ t ∈ threads, t.ready policy threads = false) {c : Cell} {x : Bool} (h : granted policy threads c x = false) :
    ∃ t ∈ threads, ∃ y, (c, y) ∈ t.held := by
  have write : granted policy threads c true = false → ∃ t ∈ threads, ∃ y, (c, y) ∈ t.held := by
    intro h
    simp only [granted, if_true] at h
    rw [List.all_eq_false] at h
    obtain ⟨t, ht, h⟩ := h
    rw [Bool.not_eq_true, List.all_eq_false] at h
    obtain ⟨⟨d, y⟩, hm, h⟩ := h
    have : d = c := by simpa using h
    subst this
    exact ⟨t, ht, y, hm⟩
  cases x with
  | true => exact write h
  | false =>
    simp only [granted, Bool.false_eq_true, if_false, Bool.and_eq_false_iff] at h
    rcases h with h | h
    · rw [List.all_eq_false] at h
      obtain ⟨t, ht, h⟩ := h
      exact ⟨t, ht, true, by simpa using h⟩
    · have h : threads.any (·.wantsToWrite c) = true := by
        simp only [Bool.not_eq_false', Bool.and_eq_true] at h
        exact h.2
      rw [List.any_eq_true] at h
      obtain ⟨t, ht, hw⟩ := h
      rcases not_ready (hall t ht) with ⟨a, ha⟩ | ⟨d, y, n, hp, hw', hg⟩
      · simp [LockThread.wantsToWrite, ha] at hw
      · unfold LockThread.wantsToWrite at hw
        rw [hp] at hw
        cases y with
        | false => cases hw
        | true =>
          have : d = c := by
            simp only [Bool.and_eq_true, beq_iff_eq] at hw
            exact hw.2
          subst this
          exact write hg

/-- A list with a bounded measure has a greatest element. -/
theorem greatest {β : Type} (f : β → Nat) : ∀ l : List β, l ≠ [] → ∃ b ∈ l, ∀ c ∈ l, f c ≤ f b
  | [], h => absurd rfl h
  | [b], _ => ⟨b, List.mem_singleton.2 rfl, fun c hc => by rw [List.mem_singleton.1 hc]; exact Nat.le_refl _⟩
  | b :: c :: l, _ => by
    obtain ⟨d, hd, h⟩ := greatest f (c :: l) (by simp)
    by_cases hb : f b ≤ f d
    · exact ⟨d, List.mem_cons_of_mem _ hd, List.forall_mem_cons.2 ⟨hb, h⟩⟩
    · exact ⟨b, List.mem_cons_self .., List.forall_mem_cons.2 ⟨Nat.le_refl _, fun e he => Nat.le_trans (h e he) (by omega)⟩⟩

/-- The rank of the lock that the thread wants. -/
def wanted (t : LockThread σ α) : Nat :=
  match t.prog with
  | .acquire c _ _ => rank c
  | _ => 0

/-- Readers never wait for writers that wait, if locks may be read again. -/
def Suits (again : Bool) (policy : List (LockThread σ α) → Cell → Bool) : Prop :=
  again = true → ∀ threads c, policy threads c = false

theorem no_deadlock {policy : List (LockThread σ α) → Cell → Bool} (hpol : Suits again policy) {Inv : σ → Prop} {s : σ}
    {threads : List (LockThread σ α)} (h : AllSafe again Inv s threads) : ¬ Deadlock policy threads := by
  classical
  rintro ⟨⟨t0, ht0, hf0⟩, hall⟩
  obtain ⟨t, ht, hmax⟩ := greatest wanted (threads.filter fun t => decide (¬ Finished t))
    (fun he => by
      have : t0 ∈ threads.filter fun t => decide (¬ Finished t) := List.mem_filter.2 ⟨ht0, by simpa using hf0⟩
      rw [he] at this; cases this)
  obtain ⟨htm, htf⟩ := List.mem_filter.1 ht
  have htf : ¬ Finished t := by simpa using htf
  rcases not_ready (hall t htm) with hf | ⟨c, x, n, hp, _, hg⟩
  · exact htf hf
  · obtain ⟨t', ht', y, hy⟩ := refused hall hg
    have hs := h.each t' ht'
    rcases not_ready (hall t' ht') with ⟨a, ha⟩ | ⟨d, z, m, hp', _, hg'⟩
    · rw [ha] at hs
      rw [hs.1] at hy
      cases hy
    · rw [hp'] at hs
      rcases hs.1 with h1 | ⟨ha, rfl, hd⟩
      · have h1 := h1 _ hy
        have h2 := hmax t' (List.mem_filter.2 ⟨ht', by
          rw [decide_eq_true_eq]
          rintro ⟨a, ha⟩
          rw [ha] at hp'; cases hp'⟩)
        simp only [wanted, hp, hp'] at h2
        dsimp only at h1
        omega
      · simp only [granted, Bool.false_eq_true, if_false, hpol ha, Bool.false_and, Bool.not_false, Bool.and_true] at hg'
        rw [List.all_eq_false] at hg'
        obtain ⟨u, hu, hg'⟩ := hg'
        exact h.apart u hu t' ht' d (by simpa using hg') hd

/-! ### Every thread ends -/

/-- One step of a thread that is not finished. -/
def Less (t' t : LockThread σ α) : Prop := ¬ Finished t ∧ ∃ s, t' = (t.advance s).2

theorem acc_thread : ∀ (p : Locking σ α) (held : List (Cell × Bool)) (w : Bool), Acc Less (⟨p, held, w⟩ : LockThread σ α)
  | .done a, held, w => ⟨_, fun _ h => absurd ⟨a, rfl⟩ h.1⟩
  | .step e n, held, w => ⟨_, by
      rintro _ ⟨_, s, rfl⟩
      exact acc_thread (n s) held w⟩
  | .acquire c x n, held, w => by
    have h1 : Acc Less (⟨.acquire c x n, held, true⟩ : LockThread σ α) := ⟨_, by
      rintro _ ⟨_, s, rfl⟩
      exact acc_thread n _ _⟩
    cases w with
    | true => exact h1
    | false => exact ⟨_, by
        rintro _ ⟨_, s, rfl⟩
        exact h1⟩
  | .release c x n, held, w => ⟨_, by
      rintro _ ⟨_, s, rfl⟩
      exact acc_thread n _ w⟩

/-- One step of one thread. -/
inductive LessAll : List (LockThread σ α) → List (LockThread σ α) → Prop
  | head {t' t l} : Less t' t → LessAll (t' :: l) (t :: l)
  | tail {t l' l} : LessAll l' l → LessAll (t :: l') (t :: l)

theorem acc_all : ∀ l : List (LockThread σ α), Acc LessAll l
  | [] => ⟨_, fun _ h => nomatch h⟩
  | t :: l => by
    have ht : Acc Less t := acc_thread t.prog t.held t.waiting
    have hl := acc_all l
    induction ht generalizing l with
    | intro t _ iht =>
      induction hl with
      | intro l hl ihl =>
        refine ⟨_, fun m hm => ?_⟩
        cases hm with
        | head h => exact iht _ h l ⟨l, hl⟩
        | tail h => exact ihl _ h

theorem lessAll_set : ∀ {l : List (LockThread σ α)} {i : Nat} {t t' : LockThread σ α}, l[i]? = some t → Less t' t →
    LessAll (l.set i t') l
  | [], _, _, _, h, _ => by cases h
  | u :: l, 0, t, t', h, hl => by cases h; exact .head hl
  | u :: l, i + 1, t, t', h, hl => .tail (lessAll_set (l := l) h hl)

theorem lockRun_append (policy : List (LockThread σ α) → Cell → Bool) (a b : List Nat) : ∀ (s : σ) (threads : List (LockThread σ α)),
    lockRun policy s threads (a ++ b) =
      lockRun policy (lockRun policy s threads a).1 (lockRun policy s threads a).2 b := by
  induction a with
  | nil => intro s threads; rfl
  | cons i a ih => intro s threads; exact ih _ _

theorem turns_add (policy : List (LockThread σ α) → Cell → Bool) (s : σ) (threads : List (LockThread σ α)) (schedule : Nat → Nat)
    (m n : Nat) : turns policy s threads schedule (m + n) =
      turns policy (turns policy s threads schedule m).1 (turns policy s threads schedule m).2 (fun k => schedule (m + k)) n := by
  unfold turns
  rw [← lockRun_append]
  congr 1
  rw [List.range_add, List.map_append, List.map_map]
  rfl

/-- A turn changes nothing, or it is a step. -/
theorem lockStep_cases (policy : List (LockThread σ α) → Cell → Bool) (s : σ) (threads : List (LockThread σ α)) (i : Nat) :
    lockStep policy s threads i = (s, threads) ∧ (∀ t, threads[i]? = some t → t.ready policy threads = false) ∨
      LessAll (lockStep policy s threads i).2 threads := by
  unfold lockStep
  cases ht : threads[i]? with
  | none => exact .inl ⟨rfl, fun _ h => nomatch h⟩
  | some t =>
    dsimp only
    cases hr : t.ready policy threads with
    | false => exact .inl ⟨rfl, fun _ h => by cases h; exact hr⟩
    | true =>
      refine .inr ?_
      rw [if_pos rfl]
      refine lessAll_set ht ⟨?_, s, rfl⟩
      rintro ⟨a, ha⟩
      simp [LockThread.ready, ha] at hr

theorem turns_succ (policy : List (LockThread σ α) → Cell → Bool) (s : σ) (threads : List (LockThread σ α)) (schedule : Nat → Nat)
    (n : Nat) : turns policy s threads schedule (n + 1) =
      lockStep policy (turns policy s threads schedule n).1 (turns policy s threads schedule n).2 (schedule n) := by
  rw [turns_add]; rfl

/-- If nothing changes in the first turns, the threads scheduled there cannot make a step. -/
theorem change_or_not (policy : List (LockThread σ α) → Cell → Bool) (s : σ) (threads : List (LockThread σ α)) (schedule : Nat → Nat) :
    ∀ n, (∃ m, m < n ∧ LessAll (turns policy s threads schedule (m + 1)).2 threads) ∨
      turns policy s threads schedule n = (s, threads) ∧
        ∀ m, m < n → ∀ t, threads[schedule m]? = some t → t.ready policy threads = false
  | 0 => .inr ⟨rfl, fun _ h => nomatch h⟩
  | n + 1 => by
    rcases change_or_not policy s threads schedule n with ⟨m, hm, h⟩ | ⟨h1, h2⟩
    · exact .inl ⟨m, by omega, h⟩
    · have e := turns_succ policy s threads schedule n
      rw [h1] at e
      rcases lockStep_cases policy s threads (schedule n) with ⟨h3, h4⟩ | h3
      · refine .inr ⟨e.trans h3, fun m hm => ?_⟩
        rcases Nat.lt_succ_iff_lt_or_eq.1 hm with h | rfl
        · exact h2 m h
        · exact h4
      · exact .inl ⟨n, by omega, by rw [e]; exact h3⟩

theorem turns_safe (policy : List (LockThread σ α) → Cell → Bool) {Inv : σ → Prop} {s : σ} {threads : List (LockThread σ α)}
    (h : AllSafe again Inv s threads) (schedule : Nat → Nat) (n : Nat) :
    AllSafe again Inv (turns policy s threads schedule n).1 (turns policy s threads schedule n).2 := lockRun_safe policy _ h

theorem lockStep_length (policy : List (LockThread σ α) → Cell → Bool) (s : σ) (threads : List (LockThread σ α)) (i : Nat) :
    (lockStep policy s threads i).2.length = threads.length := by
  unfold lockStep
  split
  · rfl
  · split
    · exact List.length_set
    · rfl

theorem lockRun_length (policy : List (LockThread σ α) → Cell → Bool) (schedule : List Nat) : ∀ (s : σ)
    (threads : List (LockThread σ α)), (lockRun policy s threads schedule).2.length = threads.length := by
  induction schedule with
  | nil => intro s threads; rfl
  | cons i rest ih => intro s threads; exact (ih _ _).trans (lockStep_length policy s threads i)

theorem all_end {policy : List (LockThread σ α) → Cell → Bool} (hpol : Suits again policy) {Inv : σ → Prop} {threads : List (LockThread σ α)} :
    ∀ {s : σ}, AllSafe again Inv s threads → ∀ {schedule : Nat → Nat}, Fair threads.length schedule →
      ∃ n, ∀ t ∈ (turns policy s threads schedule n).2, Finished t := by
  induction acc_all threads with
  | intro threads _ ih =>
    intro s h schedule hf
    by_cases hfin : ∀ t ∈ threads, Finished t
    · exact ⟨0, hfin⟩
    · have hex : ∃ t ∈ threads, ¬ Finished t := by
        apply Classical.byContradiction
        intro hn
        exact hfin fun t ht => Classical.byContradiction fun h => hn ⟨t, ht, h⟩
      have hready : ∃ t ∈ threads, t.ready policy threads = true := by
        apply Classical.byContradiction
        intro hn
        refine no_deadlock hpol h ⟨hex, fun t ht => ?_⟩
        rw [← Bool.not_eq_true]
        exact fun hr => hn ⟨t, ht, hr⟩
      obtain ⟨t, ht, hr⟩ := hready
      obtain ⟨i, hi⟩ := List.getElem?_of_mem ht
      obtain ⟨m, _, hm⟩ := hf i (List.getElem?_eq_some_iff.1 hi).1 0
      rcases change_or_not policy s threads schedule (m + 1) with ⟨k, _, hk⟩ | ⟨_, h2⟩
      · obtain ⟨n, hn⟩ := ih _ hk (turns_safe policy h schedule (k + 1)) (schedule := fun j => schedule (k + 1 + j)) (by
          intro i hi n
          rw [show (turns policy s threads schedule (k + 1)).2.length = threads.length from lockRun_length policy _ s threads] at hi
          obtain ⟨m, hm, he⟩ := hf i hi (k + 1 + n)
          refine ⟨m - (k + 1), by omega, ?_⟩
          show schedule (k + 1 + (m - (k + 1))) = i
          rw [show k + 1 + (m - (k + 1)) = m by omega]
          exact he)
        exact ⟨k + 1 + n, by rw [turns_add]; exact hn⟩
      · have := h2 m (by omega) t (by rw [hm]; exact hi)
        rw [hr] at this
        cases this

end Verif.LockLemmas
