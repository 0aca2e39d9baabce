import Verif.Lemmas.IcuRace
import Verif.Lemmas.ProviderSyncThreads
/-
Two threads that ask for details, while the files change.
-/
namespace Verif.Act

variable {σ α β : Type}

/-- Some schedule leads to this state and these threads. -/
def Reach (s : σ) (threads : List (Act σ α)) (s' : σ) (threads' : List (Act σ α)) : Prop :=
  ∃ schedule, runThreads s threads schedule = (s', threads')

theorem Reach.refl (s : σ) (threads : List (Act σ α)) : Reach s threads s threads := ⟨[], rfl⟩

/-- One of the threads makes some steps. -/
theorem Reach.solo {s s' s'' : σ} {threads threads' : List (Act σ α)} {i : Nat} {p p' : Act σ α}
    (h : Reach s threads s' threads') (hi : threads'[i]? = some p) (hs : Solo s' p s'' p') :
    Reach s threads s'' (threads'.set i p') := by
  induction hs generalizing threads' with
  | refl s p =>
    have : threads'.set i p = threads' := by
      apply List.ext_getElem?
      intro j
      rw [List.getElem?_set]
      by_cases hj : i = j
      · subst hj
        rw [if_pos rfl, hi]
        rcases Nat.lt_or_ge i threads'.length with h' | h'
        · rw [if_pos h']
        · rw [List.getElem?_eq_none h'] at hi; cases hi
      · rw [if_neg hj]
    rw [this]
    exact h
  | @more s1 p1 s2 p2 _ ih =>
    have hlt : i < threads'.length := by
      rcases Nat.lt_or_ge i threads'.length with h' | h'
      · exact h'
      · rw [List.getElem?_eq_none h'] at hi; cases hi
    have step : Reach s threads (p1.advance s1).1 (threads'.set i (p1.advance s1).2) := by
      obtain ⟨schedule, h1⟩ := h
      refine ⟨schedule ++ [i], ?_⟩
      rw [run_append, h1]
      simp only [runThreads, stepThread, hi]
    have := ih step (by simp [hlt])
    rwa [List.set_set] at this

/-- A step that is always ready. -/
theorem solo_atomic (f : σ → σ × Act σ α) (s : σ) : Solo s (atomic f) (f s).1 (f s).2 := by
  refine .more ?_
  simp only [atomic, advance, if_true]
  exact .refl _ _

theorem solo_atomic_bind (f : σ → σ × Act σ α) (k : α → Act σ β) (s : σ) :
    Solo s ((atomic f).bind k) (f s).1 ((f s).2.bind k) := by
  refine .more ?_
  simp only [atomic, Act.bind, advance, if_true]
  exact .refl _ _

/-- As `Leads.alone`, with what no step undoes. -/
theorem Leads.alone_rel {I : σ → Prop} {R : σ → σ → Prop} {Q : α → σ → Prop} (hrefl : ∀ a, R a a)
    (htrans : ∀ a b c, R a b → R b c → R a c) {p : Act σ α} : ∀ {s : σ}, p.Leads I R Q s → p.Free → I s →
    ∃ s' a, p.alone s = (s', some a) ∧ I s' ∧ Q a s' ∧ R s s' := by
  induction p with
  | done a => intro s h _ hi; exact ⟨s, a, rfl, hi, h, hrefl s⟩
  | step ready effect next ih =>
    intro s h hf hi
    obtain ⟨h1, h2, h3⟩ := h s (hrefl s) hi (hf.1 s)
    obtain ⟨s', a, h4, h5, h6, h7⟩ := ih s h3 (hf.2 s) h1
    exact ⟨s', a, by simp only [Act.alone, hf.1 s, if_true]; exact h4, h5, h6, htrans _ _ _ h2 h7⟩

end Verif.Act

namespace Verif.ProviderLemmas
open Verif Verif.Spec Verif.Act

variable {E : Type} {canon : Str → Except E Str} {p : Sqlite}

/-- What a thread that asks for the details of a component still does when it knows all details. -/
def tellComponent (c : Str) (x : ProvM E (AMap Str ComponentDetails)) : Act ProvState (List (ProvM E ProvReply)) :=
  .done [x >>= detailsOf c >>= fun d => .ok (.component d)]

theorem thread_component (c : Str) : p.thread canon [.componentDetails c] [] =
    Act.bind (p.allDetails canon) (tellComponent c) := by
  show Act.bind (Act.bind (Act.bind (p.allDetails canon) _) _) _ = _
  refine (bind_assoc' (Act.bind (α := ProvM E (AMap Str ComponentDetails)) (p.allDetails canon) _) _ _).trans ?_
  refine (bind_assoc' (α := ProvM E (AMap Str ComponentDetails)) (p.allDetails canon) _ _).trans ?_
  refine congrArg (Act.bind (α := ProvM E (AMap Str ComponentDetails)) (p.allDetails canon)) ?_
  funext x
  cases x with
  | ok m =>
    simp only [tellComponent, detailsOf, Outcome.bind_ok]
    cases m.get c <;> rfl
  | err e => rfl
  | panic => rfl

theorem thread_repository : p.thread canon [.repositoryDetails] [] =
    Act.bind (p.callSync canon .repositoryDetails) fun x => .done [x] := by
  show Act.bind _ _ = _
  congr 1
  funext x
  cases x <;> rfl

/-- What follows the computation of the details. -/
def tellAfter (c : Str) (x : ProvM E Unit) : Act ProvState (List (ProvM E ProvReply)) :=
  match x with
  | .ok _ => Act.atomic fun s => (s, tellComponent c (Outcome.unwrap s.components))
  | .err e => tellComponent c (.err e)
  | .panic => tellComponent c .panic

theorem set_of_built {st : Store} {m : AMap Str ComponentDetails} {r : RepositoryDetails}
    (h : p.buildCache canon st = .ok (m, r)) :
    p.buildComponents canon st p.components []
      { languages := [], default := none, total := 0, components := [], contributors := [] } = .ok (m, r) ∧
    (r.default = none ∨ ∃ d v, r.default = some d ∧ r.languages.get d = some v) := by
  unfold Sqlite.buildCache at h
  obtain ⟨⟨m', r'⟩, h1, h2⟩ := bind_eq_ok h
  simp only at h2
  cases hd : r'.default with
  | none =>
    rw [hd] at h2
    cases h2
    exact ⟨h1, .inl hd⟩
  | some d =>
    rw [hd] at h2
    obtain ⟨v, h3, h4⟩ := bind_eq_ok h2
    cases h4
    cases hg : r.languages.get d with
    | none => rw [hg] at h3; cases h3
    | some v => exact ⟨h1, .inr ⟨d, v, hd, hg⟩⟩

/-- A thread that asks for details sets the first cell, if none is set. -/
theorem component_pauses (hv : Current p) {A : Store} {m : AMap Str ComponentDetails} {r : RepositoryDetails}
    (h : p.buildCache canon A = .ok (m, r)) (c : Str) (s : ProvState) (hs : Inv (· = A) (fun _ => False) (fun _ => False) s) :
    ∃ s', Inv (· = A) (· = m) (fun _ => False) s' ∧ s'.components = some m ∧
      Solo s (p.thread canon [.componentDetails c] []) s'
        (Act.bind (Act.atomic fun s => ({ s with repository := s.repository.orElse fun _ => some r },
          .done (.ok () : ProvM E Unit))) (tellAfter c)) := by
  obtain ⟨hb, hd⟩ := set_of_built h
  have hnone : ∀ s : ProvState, Inv (· = A) (fun _ => False) (fun _ => False) s → s.components = none := by
    intro s hs
    cases hc : s.components with
    | none => rfl
    | some m => exact (hs.components m hc).elim
  obtain ⟨s1, x, h1, hi1, hx⟩ := Act.Leads.alone Rel.refl (buildComponents_gives (canon := canon) (st := A)
    (C := fun _ => False) (D := fun _ => False) hv p.components []
    { languages := [], default := none, total := 0, components := [], contributors := [] } s hs)
    (buildComponents_free _ _ _) hs
  rw [hb] at hx
  subst hx
  refine ⟨{ s1 with components := some m }, ⟨hi1.sound, hi1.queries, hi1.store, fun _ h => by cases h; rfl, hi1.repository⟩,
    rfl, ?_⟩
  rw [thread_component]
  refine (solo_atomic_bind _ _ s).trans ?_
  simp only [hnone s hs]
  have e1 : Act.bind (Prog.after (p.buildCacheSync canon) fun _ =>
        (Act.atomic fun s => (s, .done (Outcome.unwrap s.components)) : Prog E (AMap Str ComponentDetails))) (tellComponent c) =
      Act.bind (p.buildCacheSync canon) (tellAfter c) := by
    show Act.bind (Act.bind _ _) _ = _
    refine (bind_assoc' (α := ProvM E Unit) (p.buildCacheSync canon) _ _).trans ?_
    refine congrArg (Act.bind (α := ProvM E Unit) (p.buildCacheSync canon)) ?_
    funext x
    cases x <;> rfl
  rw [e1]
  show Solo s (Act.bind (Act.bind (p.buildComponentsSync canon p.components [] _) _) _) _ _
  refine cast (congrArg (fun q => Solo s q _ _) (bind_assoc' (α := ProvM E (AMap Str ComponentDetails × RepositoryDetails))
    (p.buildComponentsSync canon p.components [] _) _ _).symm) ?_
  refine (solo_bind h1).trans ?_
  have e2 : ∀ (k : ProvM E Unit → Act ProvState (List (ProvM E ProvReply))),
      Solo s1 (Act.bind (setDetails m r) k) { s1 with components := some m }
        (Act.bind (Act.atomic fun s => ({ s with repository := s.repository.orElse fun _ => some r }, .done (.ok ()))) k) := by
    intro k
    refine (solo_atomic_bind _ _ s1).trans ?_
    simp only [hnone s1 hi1]
    exact .refl _ _
  rcases hd with hd | ⟨d, v, hd, hg⟩
  · simp only [hd]
    exact e2 _
  · simp only [hd, hg]
    exact e2 _

/-- The rest of that thread. -/
theorem component_resumes {m : AMap Str ComponentDetails} (r : RepositoryDetails) (c : Str) (s : ProvState)
    (hs : s.components = some m) :
    ∃ s', Solo s (Act.bind (Act.atomic fun s => ({ s with repository := s.repository.orElse fun _ => some r },
          .done (.ok () : ProvM E Unit))) (tellAfter c)) s'
      (.done [(detailsOf c m : ProvM E ComponentDetails) >>= fun d => .ok (.component d)]) := by
  refine ⟨{ s with repository := s.repository.orElse fun _ => some r }, (solo_atomic_bind _ _ s).trans
    ((solo_atomic (fun s => (s, tellComponent c (Outcome.unwrap s.components))) _).trans ?_)⟩
  simp only [hs]
  exact .refl _ _

/-- One thread is told of one content, the other of another. -/
theorem two_contents (hv : Current p) {A B : Store} {m m' : AMap Str ComponentDetails} {r r' : RepositoryDetails}
    (hA : p.buildCache canon A = .ok (m, r)) (hB : p.buildCache canon B = .ok (m', r')) (c : Str) :
    ∃ s', Reach (started A) [p.thread canon [.componentDetails c] [], changeFiles fun _ => B,
        p.thread canon [.repositoryDetails] []] s'
      [.done [(detailsOf c m : ProvM E ComponentDetails) >>= fun d => .ok (.component d)], .done [],
        .done [.ok (.repository r')]] := by
  have h0 : Inv (· = A) (fun _ => False) (fun _ => False) (started A) :=
    ⟨rfl, fun k t h => by simp [started] at h, rfl, fun m h => by simp [started] at h, fun r h => by simp [started] at h⟩
  obtain ⟨s1, hi1, hc1, hs1⟩ := component_pauses hv hA c (started A) h0
  have r1 := Reach.solo (i := 0) (Reach.refl (started A) [p.thread canon [.componentDetails c] [], changeFiles fun _ => B,
        p.thread canon [.repositoryDetails] []]) rfl hs1
  have r2 := Reach.solo (i := 1) r1 rfl (solo_atomic _ s1)
  have hi2 : Inv (· = B) (fun _ => True) (fun r => repositoryOf canon p B = .ok r) { s1 with store := B } :=
    ⟨hi1.sound, hi1.queries, rfl, fun _ _ => trivial, fun r h => (hi1.repository r h).elim⟩
  obtain ⟨s3, x, h3, _, hx, hrel⟩ := Act.Leads.alone_rel Rel.refl Rel.trans
    (repositoryCall_gives (canon := canon) (st := B) hv { s1 with store := B } hi2) repositoryCall_free hi2
  have hx' : x = .ok (.repository r') := by
    rw [hx]; simp only [reference, hB, Outcome.bind_ok]; rfl
  subst hx'
  have hs3 : Solo { s1 with store := B } (p.thread canon [.repositoryDetails] []) s3 (.done [.ok (.repository r')]) := by
    rw [thread_repository]
    exact solo_bind h3
  have r3 := Reach.solo (i := 2) r2 rfl hs3
  obtain ⟨s4, h4⟩ := component_resumes (E := E) r c s3 (hrel.components m hc1)
  exact ⟨s4, Reach.solo (i := 0) r3 rfl h4⟩

end Verif.ProviderLemmas
