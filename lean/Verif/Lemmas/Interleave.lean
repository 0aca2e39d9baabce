import Verif.Model.Interleave
/-
Reasoning about threads: what each thread keeps, whatever the others do.
-/
namespace Verif.Act

variable {σ α β : Type}

/-- From the state, and whatever others do within `R`, the program keeps the invariant `I`, stays within `R`, and its result
meets `Q`. -/
def Ok (I : σ → Prop) (R : σ → σ → Prop) (Q : α → Prop) : Act σ α → σ → Prop
  | .done a, _ => Q a
  | .step ready effect next, s0 => ∀ s, R s0 s → I s → ready s = true →
      I (effect s) ∧ R s (effect s) ∧ (next s).Ok I R Q (effect s)

variable {I : σ → Prop} {R : σ → σ → Prop} {Q : α → Prop}

theorem Ok.mono (htrans : ∀ a b c, R a b → R b c → R a c) {p : Act σ α} {s s' : σ} (h : p.Ok I R Q s) (hr : R s s') :
    p.Ok I R Q s' := by
  cases p with
  | done a => exact h
  | step ready effect next => exact fun t ht => h t (htrans _ _ _ hr ht)

theorem Ok.weaken {Q' : α → Prop} {p : Act σ α} : ∀ {s : σ}, p.Ok I R Q s → (∀ a, Q a → Q' a) → p.Ok I R Q' s := by
  induction p with
  | done a => intro s h hq; exact hq a h
  | step ready effect next ih =>
    intro s h hq t hr hi hready
    obtain ⟨h1, h2, h3⟩ := h t hr hi hready
    exact ⟨h1, h2, ih t h3 hq⟩

theorem Ok.bind (htrans : ∀ a b c, R a b → R b c → R a c) (hrefl : ∀ a, R a a) {Q' : β → Prop} {f : α → Act σ β}
    {p : Act σ α} : ∀ {s : σ}, p.Ok I R Q s → (∀ a s', R s s' → Q a → (f a).Ok I R Q' s') → (p.bind f).Ok I R Q' s := by
  induction p with
  | done a => intro s h hf; exact hf a s (hrefl s) h
  | step ready effect next ih =>
    intro s h hf t hr hi hready
    obtain ⟨h1, h2, h3⟩ := h t hr hi hready
    exact ⟨h1, h2, ih t h3 fun a s' hs' hq => hf a s' (htrans _ _ _ (htrans _ _ _ hr h2) hs') hq⟩

theorem Ok.atomic {f : σ → σ × Act σ α} {s : σ}
    (h : ∀ t, R s t → I t → I (f t).1 ∧ R t (f t).1 ∧ (f t).2.Ok I R Q (f t).1) : (Act.atomic f).Ok I R Q s :=
  fun t hr hi _ => h t hr hi

theorem Ok.atomic_bind {Q : β → Prop} {f : σ → σ × Act σ α} {g : α → Act σ β} {s : σ}
    (h : ∀ t, R s t → I t → I (f t).1 ∧ R t (f t).1 ∧ ((f t).2.bind g).Ok I R Q (f t).1) :
    ((Act.atomic f).bind g).Ok I R Q s :=
  fun t hr hi _ => h t hr hi

/-- Threads that keep the invariant keep it together. -/
theorem ok_run (htrans : ∀ a b c, R a b → R b c → R a c) (hrefl : ∀ a, R a a) (schedule : List Nat) :
    ∀ (s : σ) (threads : List (Act σ α)) (Q : Nat → α → Prop), I s →
      (∀ i (p : Act σ α), threads[i]? = some p → p.Ok I R (Q i) s) →
      I (runThreads s threads schedule).1 ∧ ∀ i (p : Act σ α), (runThreads s threads schedule).2[i]? = some p →
        p.Ok I R (Q i) (runThreads s threads schedule).1 := by
  induction schedule with
  | nil => intro s threads Q hi h; exact ⟨hi, h⟩
  | cons i rest ih =>
    intro s threads Q hi h
    simp only [runThreads]
    have hstep : I (stepThread s threads i).1 ∧ ∀ j (p : Act σ α), (stepThread s threads i).2[j]? = some p →
        p.Ok I R (Q j) (stepThread s threads i).1 := by
      unfold stepThread
      cases hp : threads[i]? with
      | none => exact ⟨hi, h⟩
      | some p =>
        have hok := h i p hp
        have hadv : I (p.advance s).1 ∧ R s (p.advance s).1 ∧ (p.advance s).2.Ok I R (Q i) (p.advance s).1 := by
          cases p with
          | done a => exact ⟨hi, hrefl _, hok⟩
          | step ready effect next =>
            simp only [advance]
            by_cases hr : ready s = true
            · simp only [hr, if_true]
              exact hok s (hrefl s) hi hr
            · simp only [hr]
              exact ⟨hi, hrefl _, hok⟩
        refine ⟨hadv.1, fun j q hq => ?_⟩
        simp only [List.getElem?_set] at hq
        by_cases hij : i = j
        · subst hij
          by_cases hlt : i < threads.length
          · simp only [if_true, hlt, Option.some.injEq] at hq
            subst hq
            exact hadv.2.2
          · simp [hlt] at hq
        · simp only [hij, if_false] at hq
          exact (h j q hq).mono htrans hadv.2.1
    exact ih _ _ Q hstep.1 hstep.2

/-! ### A program alone -/

/-- The program runs alone until it ends or waits. -/
def alone : Act σ α → σ → σ × Option α
  | .done a, s => (s, some a)
  | .step ready effect next, s => if ready s then (next s).alone (effect s) else (s, none)

theorem alone_bind (p : Act σ α) (f : α → Act σ β) : ∀ s, (p.bind f).alone s =
    match (p.alone s).2 with
    | some a => (f a).alone (p.alone s).1
    | none => ((p.alone s).1, none) := by
  induction p with
  | done a => intro s; rfl
  | step ready effect next ih =>
    intro s
    simp only [bind, alone]
    by_cases hr : ready s = true
    · simp only [hr, if_true]; exact ih s (effect s)
    · simp [hr]

theorem alone_bind_some {p : Act σ α} {f : α → Act σ β} {s s' : σ} {a : α} (h : p.alone s = (s', some a)) :
    (p.bind f).alone s = (f a).alone s' := by
  rw [alone_bind, h]

theorem alone_atomic (f : σ → σ × Act σ α) (s : σ) : (atomic f).alone s = (f s).2.alone (f s).1 := by
  simp [atomic, alone]

/-- A program that runs alone to its end is one thread with some schedule. -/
theorem alone_run (p : Act σ α) : ∀ s s' a, p.alone s = (s', some a) →
    ∃ n, runThreads s [p] (List.replicate n 0) = (s', [.done a]) := by
  induction p with
  | done a => intro s s' b h; cases h; exact ⟨0, rfl⟩
  | step ready effect next ih =>
    intro s s' a h
    simp only [alone] at h
    by_cases hr : ready s = true
    · simp only [hr, if_true] at h
      obtain ⟨n, hn⟩ := ih s _ _ _ h
      refine ⟨n + 1, ?_⟩
      simp only [List.replicate_succ, runThreads, stepThread, List.getElem?_cons_zero, advance, hr, if_true,
        List.set_cons_zero]
      exact hn
    · simp [hr] at h

/-- One of the programs is replaced by what follows one of its steps. -/
inductive Later : List (Act σ α) → List (Act σ α) → Prop
  | here {ready effect next} (s : σ) (ps) : Later (next s :: ps) (.step ready effect next :: ps)
  | there {ps qs} (p) : Later ps qs → Later (p :: ps) (p :: qs)

theorem acc_cons (p : Act σ α) : ∀ ps, Acc Later ps → Acc Later (p :: ps) := by
  induction p with
  | done a =>
    intro ps h
    induction h with
    | intro ps _ ih =>
      refine ⟨_, fun qs hq => ?_⟩
      cases hq with
      | there _ hq => exact ih _ hq
  | step ready effect next ihp =>
    intro ps h
    induction h with
    | intro ps hps ih =>
      refine ⟨_, fun qs hq => ?_⟩
      cases hq with
      | here s _ => exact ihp s _ ⟨_, hps⟩
      | there _ hq => exact ih _ hq

theorem acc_all (ps : List (Act σ α)) : Acc Later ps := by
  induction ps with
  | nil => exact ⟨_, fun qs hq => nomatch hq⟩
  | cons p ps ih => exact acc_cons p ps ih

theorem later_step {p : Act σ α} {s : σ} {threads : List (Act σ α)} : ∀ {i : Nat}, threads[i]? = some p → p.ready s = true →
    Later (threads.set i (p.advance s).2) threads := by
  induction threads with
  | nil => intro i h; simp at h
  | cons q qs ih =>
    intro i h hr
    cases i with
    | zero =>
      simp only [List.getElem?_cons_zero, Option.some.injEq] at h
      subst h
      cases q with
      | done a => cases hr
      | step ready effect next =>
        have hr' : ready s = true := hr
        simp only [advance, hr', if_true, List.set_cons_zero]
        exact .here s qs
    | succ i => exact .there q (ih (by simpa using h) hr)

theorem run_append (a b : List Nat) : ∀ (s : σ) (threads : List (Act σ α)),
    runThreads s threads (a ++ b) = runThreads (runThreads s threads a).1 (runThreads s threads a).2 b := by
  induction a with
  | nil => intro s threads; rfl
  | cons i rest ih => intro s threads; exact ih _ _

/-- Threads of which one can always make a step can be run to their ends. -/
theorem completes {C : σ → List (Act σ α) → Prop} (hstep : ∀ s threads i, C s threads →
      C (stepThread s threads i).1 (stepThread s threads i).2)
    (hprog : ∀ s threads, C s threads → (∀ p ∈ threads, p.result.isSome = true) ∨ ∃ p ∈ threads, p.ready s = true)
    (threads : List (Act σ α)) : ∀ s, C s threads →
    ∃ schedule, ∀ p ∈ (runThreads s threads schedule).2, p.result.isSome = true := by
  induction acc_all threads with
  | intro threads _ ih =>
    intro s hc
    rcases hprog s threads hc with h | ⟨p, hp, hr⟩
    · exact ⟨[], h⟩
    · obtain ⟨i, hi⟩ := List.mem_iff_getElem?.1 hp
      have h := hstep s threads i hc
      have e : stepThread s threads i = ((p.advance s).1, threads.set i (p.advance s).2) := by simp [stepThread, hi]
      rw [e] at h
      obtain ⟨schedule, hs⟩ := ih _ (later_step hi hr) _ h
      exact ⟨i :: schedule, by simpa only [runThreads, e] using hs⟩

theorem during_succ (s : σ) (threads : List (Act σ α)) (schedule : Nat → Nat) (n : Nat) :
    during s threads schedule (n + 1) =
      stepThread (during s threads schedule n).1 (during s threads schedule n).2 (schedule n) := by
  unfold during
  rw [List.range_succ, List.map_append, run_append]
  rfl

theorem set_same (threads : List (Act σ α)) : ∀ {i : Nat} {p : Act σ α}, threads[i]? = some p → threads.set i p = threads := by
  induction threads with
  | nil => intro i p _; rfl
  | cons q qs ih =>
    intro i p h
    cases i with
    | zero => simp at h; simp [h]
    | succ i => simp only [List.set_cons_succ]; rw [ih (by simpa using h)]

theorem idle_step {s : σ} {threads : List (Act σ α)} {i : Nat} (h : ∀ p, threads[i]? = some p → p.ready s = false) :
    stepThread s threads i = (s, threads) := by
  unfold stepThread
  cases hi : threads[i]? with
  | none => rfl
  | some p =>
    have hr := h p hi
    cases p with
    | done a =>
      simp only [advance]
      rw [set_same _ hi]
    | step ready effect next =>
      have hr' : ready s = false := hr
      simp only [advance, hr', Bool.false_eq_true, if_false]
      rw [set_same _ hi]

/-- If one of the threads can always make a step and no thread is left out for ever, all threads end. -/
theorem fair_ends {C : σ → List (Act σ α) → Prop} (hstep : ∀ s threads i, C s threads →
      C (stepThread s threads i).1 (stepThread s threads i).2)
    (hprog : ∀ s threads, C s threads → (∀ p ∈ threads, p.result.isSome = true) ∨ ∃ p ∈ threads, p.ready s = true)
    (s0 : σ) (threads0 : List (Act σ α)) (hc : C s0 threads0) (schedule : Nat → Nat)
    (hfair : ∀ i n, i < threads0.length → ∃ m, schedule (n + m) = i) :
    ∃ n, ∀ p ∈ (during s0 threads0 schedule n).2, p.result.isSome = true := by
  have hinv : ∀ n, C (during s0 threads0 schedule n).1 (during s0 threads0 schedule n).2 ∧
      (during s0 threads0 schedule n).2.length = threads0.length := by
    intro n
    induction n with
    | zero => exact ⟨hc, rfl⟩
    | succ n ih =>
      rw [during_succ]
      refine ⟨hstep _ _ _ ih.1, ?_⟩
      rw [← ih.2]
      unfold stepThread
      cases (during s0 threads0 schedule n).2[schedule n]? <;> simp
  have key : ∀ l, Acc (Later (σ := σ) (α := α)) l → ∀ n, (during s0 threads0 schedule n).2 = l →
      ∃ n, ∀ p ∈ (during s0 threads0 schedule n).2, p.result.isSome = true := by
    intro l hl
    induction hl with
    | intro l _ ih =>
      intro n hn
      rcases hprog _ _ (hinv n).1 with h | ⟨p, hp, hr⟩
      · exact ⟨n, h⟩
      · obtain ⟨i, hi⟩ := List.mem_iff_getElem?.1 hp
        obtain ⟨m, hm⟩ := hfair i n (by
          rw [← (hinv n).2]
          exact (List.getElem?_eq_some_iff.1 hi).1)
        have go : ∀ m n, (during s0 threads0 schedule n).2 = l → l[i]? = some p →
            p.ready (during s0 threads0 schedule n).1 = true → schedule (n + m) = i →
            ∃ n, ∀ p ∈ (during s0 threads0 schedule n).2, p.result.isSome = true := by
          intro m
          induction m with
          | zero =>
            intro n hn hi hr hm
            have hd := during_succ s0 threads0 schedule n
            rw [show schedule n = i from hm, hn, stepThread, hi] at hd
            exact ih _ (later_step hi hr) (n + 1) (by rw [hd])
          | succ m ihm =>
            intro n hn hi hr hm
            have hd := during_succ s0 threads0 schedule n
            by_cases hq : ∃ q, l[schedule n]? = some q ∧ q.ready (during s0 threads0 schedule n).1 = true
            · obtain ⟨q, hq1, hq2⟩ := hq
              rw [hn, stepThread, hq1] at hd
              exact ih _ (later_step hq1 hq2) (n + 1) (by rw [hd])
            · rw [hn, idle_step (fun q hq1 => by
                cases hb : q.ready (during s0 threads0 schedule n).1 with
                | false => rfl
                | true => exact absurd ⟨q, hq1, hb⟩ hq)] at hd
              exact ihm (n + 1) (by rw [hd]) hi (by rw [hd]; exact hr) (by rw [← hm]; congr 1; omega)
        exact go m n hn (hn ▸ hi) hr hm
  exact key _ (acc_all threads0) 0 rfl

end Verif.Act
