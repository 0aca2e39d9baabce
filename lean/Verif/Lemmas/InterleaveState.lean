import Verif.Lemmas.Interleave
/-
Reasoning about threads whose results are related to the state.
-/
namespace Verif.Act

variable {σ α β : Type}

/-- As `Ok`, but the result is related to the state: `Q` must be kept by what others do. -/
def Leads (I : σ → Prop) (R : σ → σ → Prop) (Q : α → σ → Prop) : Act σ α → σ → Prop
  | .done a, s => Q a s
  | .step ready effect next, s0 => ∀ s, R s0 s → I s → ready s = true →
      I (effect s) ∧ R s (effect s) ∧ (next s).Leads I R Q (effect s)

variable {I : σ → Prop} {R : σ → σ → Prop} {Q : α → σ → Prop}

theorem Leads.mono (htrans : ∀ a b c, R a b → R b c → R a c) (hQ : ∀ a s s', Q a s → R s s' → Q a s') {p : Act σ α}
    {s s' : σ} (h : p.Leads I R Q s) (hr : R s s') : p.Leads I R Q s' := by
  cases p with
  | done a => exact hQ a s s' h hr
  | step ready effect next => exact fun t ht => h t (htrans _ _ _ hr ht)

theorem Leads.weaken {Q' : α → σ → Prop} {p : Act σ α} : ∀ {s : σ}, p.Leads I R Q s → (∀ a s, Q a s → Q' a s) →
    p.Leads I R Q' s := by
  induction p with
  | done a => intro s h hq; exact hq a s h
  | step ready effect next ih =>
    intro s h hq t hr hi hready
    obtain ⟨h1, h2, h3⟩ := h t hr hi hready
    exact ⟨h1, h2, ih t h3 hq⟩

theorem Leads.and {Q' : α → σ → Prop} {p : Act σ α} : ∀ {s : σ}, p.Leads I R Q s → p.Leads I R Q' s →
    p.Leads I R (fun a s => Q a s ∧ Q' a s) s := by
  induction p with
  | done a => intro s h h'; exact ⟨h, h'⟩
  | step ready effect next ih =>
    intro s h h' t hr hi hready
    obtain ⟨h1, h2, h3⟩ := h t hr hi hready
    exact ⟨h1, h2, ih t h3 (h' t hr hi hready).2.2⟩

theorem Leads.bind (htrans : ∀ a b c, R a b → R b c → R a c) (hrefl : ∀ a, R a a) {Q' : β → σ → Prop} {f : α → Act σ β}
    {p : Act σ α} : ∀ {s : σ}, p.Leads I R Q s → I s → (∀ a s', R s s' → I s' → Q a s' → (f a).Leads I R Q' s') →
    (p.bind f).Leads I R Q' s := by
  induction p with
  | done a => intro s h hi hf; exact hf a s (hrefl s) hi h
  | step ready effect next ih =>
    intro s h hi hf t hr hi' hready
    obtain ⟨h1, h2, h3⟩ := h t hr hi' hready
    exact ⟨h1, h2, ih t h3 h1 fun a s' hs' hi'' hq => hf a s' (htrans _ _ _ (htrans _ _ _ hr h2) hs') hi'' hq⟩

theorem Leads.atomic {f : σ → σ × Act σ α} {s : σ}
    (h : ∀ t, R s t → I t → I (f t).1 ∧ R t (f t).1 ∧ (f t).2.Leads I R Q (f t).1) : (Act.atomic f).Leads I R Q s :=
  fun t hr hi _ => h t hr hi

/-- Threads that lead to their results do so together. -/
theorem leads_run (htrans : ∀ a b c, R a b → R b c → R a c) (hrefl : ∀ a, R a a) {Q : Nat → α → σ → Prop}
    (hQ : ∀ i a s s', Q i a s → R s s' → Q i a s') (schedule : List Nat) :
    ∀ (s : σ) (threads : List (Act σ α)), I s →
      (∀ i (p : Act σ α), threads[i]? = some p → p.Leads I R (Q i) s) →
      I (runThreads s threads schedule).1 ∧ R s (runThreads s threads schedule).1 ∧
      ∀ i (p : Act σ α), (runThreads s threads schedule).2[i]? = some p →
        p.Leads I R (Q i) (runThreads s threads schedule).1 := by
  induction schedule with
  | nil => intro s threads hi h; exact ⟨hi, hrefl s, h⟩
  | cons i rest ih =>
    intro s threads hi h
    simp only [runThreads]
    have hstep : I (stepThread s threads i).1 ∧ R s (stepThread s threads i).1 ∧
        ∀ j (p : Act σ α), (stepThread s threads i).2[j]? = some p → p.Leads I R (Q j) (stepThread s threads i).1 := by
      unfold stepThread
      cases hp : threads[i]? with
      | none => exact ⟨hi, hrefl s, h⟩
      | some p =>
        have hok := h i p hp
        have hadv : I (p.advance s).1 ∧ R s (p.advance s).1 ∧ (p.advance s).2.Leads I R (Q i) (p.advance s).1 := by
          cases p with
          | done a => exact ⟨hi, hrefl _, hok⟩
          | step ready effect next =>
            simp only [advance]
            by_cases hr : ready s = true
            · simp only [hr, if_true]
              exact hok s (hrefl s) hi hr
            · simp only [hr]
              exact ⟨hi, hrefl _, hok⟩
        refine ⟨hadv.1, hadv.2.1, fun j q hq => ?_⟩
        simp only [List.getElem?_set] at hq
        by_cases hij : i = j
        · subst hij
          by_cases hlt : i < threads.length
          · simp only [if_true, hlt, Option.some.injEq] at hq
            subst hq
            exact hadv.2.2
          · simp [hlt] at hq
        · simp only [hij, if_false] at hq
          exact (h j q hq).mono htrans (hQ j) hadv.2.1
    obtain ⟨h1, h2, h3⟩ := ih _ _ hstep.1 hstep.2.2
    exact ⟨h1, htrans _ _ _ hstep.2.1 h2, h3⟩

theorem run_length (schedule : List Nat) : ∀ (s : σ) (threads : List (Act σ α)),
    (runThreads s threads schedule).2.length = threads.length := by
  induction schedule with
  | nil => intro s threads; rfl
  | cons i rest ih =>
    intro s threads
    simp only [runThreads]
    rw [ih]
    unfold stepThread
    split
    · rfl
    · simp

/-! ### Programs that never wait -/

/-- Every step is always ready. -/
def Free : Act σ α → Prop
  | .done _ => True
  | .step ready _ next => (∀ s, ready s = true) ∧ ∀ s, (next s).Free

theorem Free.bind {f : α → Act σ β} {p : Act σ α} : p.Free → (∀ a, (f a).Free) → (p.bind f).Free := by
  induction p with
  | done a => intro _ h; exact h a
  | step ready effect next ih => intro h hf; exact ⟨h.1, fun s => ih s (h.2 s) hf⟩

theorem Free.atomic {f : σ → σ × Act σ α} (h : ∀ s, (f s).2.Free) : (Act.atomic f).Free := ⟨fun _ => rfl, h⟩

/-- A program that never waits and runs alone ends as it must. -/
theorem Leads.alone (hrefl : ∀ a, R a a) {p : Act σ α} : ∀ {s : σ}, p.Leads I R Q s → p.Free → I s →
    ∃ s' a, p.alone s = (s', some a) ∧ I s' ∧ Q a s' := by
  induction p with
  | done a => intro s h _ hi; exact ⟨s, a, rfl, hi, h⟩
  | step ready effect next ih =>
    intro s h hf hi
    obtain ⟨h1, h2, h3⟩ := h s (hrefl s) hi (hf.1 s)
    obtain ⟨s', a, h4, h5⟩ := ih s h3 (hf.2 s) h1
    exact ⟨s', a, by simp only [Act.alone, hf.1 s, if_true]; exact h4, h5⟩

end Verif.Act
