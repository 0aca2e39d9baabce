import Verif.Lemmas.OneAsker
import Verif.Lemmas.TwoAskers
import Verif.Props.ProviderSync
/-
Property theorems for C56: when the details of the components and of the repository come from one computation.
-/
namespace Verif.Props
open Verif Verif.Spec Verif.ProviderLemmas

variable {E : Type} {canon : Str → Except E Str} {path : PathKind} {p : Sqlite}

/-- **C56, one asking thread.** If only one thread asks for details, whatever the other threads ask and however the files
change meanwhile, also while the details are computed: all its replies report the result of one computation, in which the
repository has the components and the strings of the components. Missing: several threads that ask for details
(`C56_violated`, with two). -/
theorem C56_one_asking_thread_partial (h : Sqlite.tryNew path = .ok p) (st : Store) (parties : List Party)
    (schedule : List Nat) {i : Nat} (hone : ∀ j calls, j ≠ i → parties[j]? = some (.asks calls) →
      ∀ c ∈ calls, ¬ NeedsDetails c)
    {calls : List ProvCall} (hi : parties[i]? = some (.asks calls)) {rs : List (ProvM E ProvReply)}
    (hr : (runThreads (started st) (parties.map (Party.program canon p)) schedule).2[i]? = some (.done rs)) :
    ∃ m r, (∀ (k : Nat) (call : ProvCall) (reply : ProvReply), calls[k]? = some call → rs[k]? = some (.ok reply) →
        Reports m r call reply) ∧
      ((∃ (k : Nat) (call : ProvCall) (reply : ProvReply), calls[k]? = some call ∧ NeedsDetails call ∧
        rs[k]? = some (.ok reply)) → OneComputation canon p m r ∧ Agree m r) := by
  obtain ⟨hc, hk, hv, _⟩ := C39_connections_available h
  have hrun := (run_tells (canon := canon) hc hv st parties schedule).2
  have hown := Act.own_run (f := cells) (I := Never canon p) (Q := fun _ v => Both canon p v) (i := i) schedule
    (started st) (parties.map (Party.program canon p)) (fun q hq => by
      simp only [List.getElem?_map, hi, Option.map_some, Option.some.injEq] at hq
      subst hq
      exact thread_own calls [] (.inl rfl)) (fun j q hj hq => by
      simp only [List.getElem?_map, Option.map_eq_some_iff] at hq
      obtain ⟨party, hp, rfl⟩ := hq
      cases party with
      | changes f => exact Act.Keeps.atomic fun _ => ⟨rfl, trivial⟩
      | asks calls' => exact thread_keeps calls' [] (hone j calls' hj hp)) _ hr
  have hb := hown.2
  generalize (runThreads (started st) (parties.map (Party.program canon p)) schedule).1 = s at hrun hb
  have get : ∀ (k : Nat) (call : ProvCall) (reply : ProvReply), calls[k]? = some call → rs[k]? = some (.ok reply) →
      Right call (.ok reply : ProvM E ProvReply) s := by
    intro k call reply hcall hreply
    obtain ⟨x, hx, ho⟩ := (hrun i _ hr calls hi).get hcall
    rw [hreply] at hx
    cases hx
    exact ho
  refine ⟨s.components.getD [], s.repository.getD ⟨[], none, 0, [], []⟩, fun k call reply hcall hreply => ?_, ?_⟩
  · have := (get k call reply hcall hreply).2 reply rfl
    cases call <;> cases reply <;> simp only [Reports] at this ⊢
    · obtain ⟨m, d, h1, h2⟩ := this
      rw [h1]; exact ⟨d, h2⟩
    · obtain ⟨m, h1, h2⟩ := this
      rw [h1]; exact h2
    · rw [this]; rfl
  · rintro ⟨k, call, reply, hcall, hd, hreply⟩
    have := (get k call reply hcall hreply).2 reply rfl
    rcases hb with hb | ⟨m, r, hb, ho⟩
    · have h1 : s.components = none := congrArg Prod.fst hb
      have h2 : s.repository = none := congrArg Prod.snd hb
      exfalso
      cases call <;> cases reply <;> simp only [NeedsDetails] at this hd
      · obtain ⟨m, d, h3, _⟩ := this
        rw [h1] at h3; cases h3
      · obtain ⟨m, h3, _⟩ := this
        rw [h1] at h3; cases h3
      · rw [h2] at this; cases this
    · have h1 : s.components = some m := congrArg Prod.fst hb
      have h2 : s.repository = some r := congrArg Prod.snd hb
      rw [h1, h2]
      exact ⟨ho, one_agree hk ho⟩

/-- **C56, several asking threads.** Whatever the threads ask and however the files change: what all threads are told of the
components is the result of one computation, and so is what all threads are told of the repository. Missing: that it is
the same computation (`C56_violated`). -/
theorem C56_each_from_a_computation_partial (h : Sqlite.tryNew path = .ok p) (st : Store) (parties : List Party)
    (schedule : List Nat) : ∃ (m : AMap Str ComponentDetails) (r : RepositoryDetails),
    ∀ (i : Nat) (calls : List ProvCall) (rs : List (ProvM E ProvReply)), parties[i]? = some (.asks calls) →
      (runThreads (started st) (parties.map (Party.program canon p)) schedule).2[i]? = some (.done rs) →
      ∀ (k : Nat) (call : ProvCall) (reply : ProvReply), calls[k]? = some call → rs[k]? = some (.ok reply) →
        Reports m r call reply ∧ (NeedsDetails call →
          match call with
          | .repositoryDetails => ∃ m', OneComputation canon p m' r ∧ Agree m' r
          | _ => ∃ r', OneComputation canon p m r' ∧ Agree m r') := by
  obtain ⟨hc, hk, hv, _⟩ := C39_connections_available h
  have hrun := (run_tells (canon := canon) hc hv st parties schedule).2
  have hsafe := Act.preserves_run (J := fun s => Sourced canon p (cells s)) schedule (started st)
    (parties.map (Party.program canon p)) ⟨(fun _ h => by cases h), (fun _ h => by cases h)⟩ (fun q hq => by
      obtain ⟨party, _, rfl⟩ := List.mem_map.1 hq
      cases party with
      | changes f => exact Act.Preserves.atomic fun _ => ⟨id, trivial⟩
      | asks calls => exact thread_preserves calls [])
  generalize (runThreads (started st) (parties.map (Party.program canon p)) schedule).1 = s at hrun hsafe
  refine ⟨s.components.getD [], s.repository.getD ⟨[], none, 0, [], []⟩, fun i calls rs hi hr k call reply hcall hreply => ?_⟩
  obtain ⟨x, hx, ho⟩ := (hrun i _ hr calls hi).get hcall
  rw [hreply] at hx
  cases hx
  have := ho.2 reply rfl
  cases call <;> cases reply <;> simp only [Reports, NeedsDetails] at this ⊢
  all_goals first
    | exact ⟨trivial, fun h => h.elim⟩
    | skip
  · obtain ⟨m, d, h1, h2⟩ := this
    rw [h1]
    obtain ⟨r, h3⟩ := hsafe.1 m h1
    exact ⟨⟨d, h2⟩, fun _ => ⟨r, h3, one_agree hk h3⟩⟩
  · obtain ⟨m, h1, h2⟩ := this
    rw [h1]
    obtain ⟨r, h3⟩ := hsafe.1 m h1
    exact ⟨h2, fun _ => ⟨r, h3, one_agree hk h3⟩⟩
  · obtain ⟨m, h3⟩ := hsafe.2 _ this
    rw [this]
    exact ⟨rfl, fun _ => ⟨m, h3, one_agree hk h3⟩⟩

/-- **C56, exactly when it can fail.** If the files change from one content to another, both with details, there is a schedule
in which a thread is told of a component what the first content gives, and another thread of the repository what the second
content gives. So the conditions of the theorems above cannot be weakened: with two threads that ask, the answers are sure
to agree only if the contents do. -/
theorem C56_any_two_contents (h : Sqlite.tryNew path = .ok p) {A B : Store} {m m' : AMap Str ComponentDetails}
    {r r' : RepositoryDetails} (hA : p.buildCache canon A = .ok (m, r)) (hB : p.buildCache canon B = .ok (m', r'))
    {c : Str} {d : ComponentDetails} (hd : m.get c = some d) :
    ∃ schedule, (runThreads (started A) ([.asks [.componentDetails c], .changes fun _ => B, .asks [.repositoryDetails]].map
        (Party.program canon p)) schedule).2 =
      [.done [.ok (.component d)], .done [], .done [.ok (.repository r')]] := by
  obtain ⟨_, _, hv, _⟩ := C39_connections_available h
  obtain ⟨s', schedule, hrun⟩ := two_contents hv hA hB c
  refine ⟨schedule, ?_⟩
  have := congrArg Prod.snd hrun
  simp only [detailsOf, hd] at this
  exact this

open DemoStore DemoShared in
/-- The two contents of `C56_violated` have details, and their totals differ. -/
example : Sqlite.tryNew demoPath = .ok opened ∧
    (match opened.buildCache DemoStore.canon before with
      | .ok x => (x.1.get app).map fun d => (d.total, x.2.total)
      | _ => none) = some (1, 1) ∧
    (match opened.buildCache DemoStore.canon after with
      | .ok x => (x.1.get app).map fun d => (d.total, x.2.total)
      | _ => none) = some (2, 2) := by
  exact ⟨demo_open, by decide +kernel, by decide +kernel⟩

open DemoStore DemoShared in
/-- The files change while the only thread that asks for details computes them, and another thread asks for a string. -/
example : Sqlite.tryNew demoPath = .ok opened ∧
    totals (demoRun before [.asks [.componentDetails app, .repositoryDetails], .asks [.string app greeting enZA],
        .changes fun _ => after]
      (List.replicate 12 0 ++ List.replicate 3 1 ++ [2] ++ List.replicate 20 1 ++ List.replicate 20 0)) =
        [some [some 2, some 2], some [none], some []] := by
  exact ⟨demo_open, by decide +kernel⟩

end Verif.Props
