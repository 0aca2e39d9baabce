import Verif.Lemmas.ProviderSyncThreads
import Verif.Props.ProviderOpen
import Verif.Props.ProviderDetails
/-
Properties of a provider that threads share.
-/
namespace Verif.Props
open Verif Verif.Spec Verif.ProviderLemmas

variable {E : Type} {canon : Str → Except E Str} {path : PathKind} {p : Sqlite}

/-! ### C41 -/

/-- Whatever the threads ask and however the files change: no call panics, every call gets its reply. -/
theorem C41_never_panics (h : Sqlite.tryNew path = .ok p) (st : Store) (parties : List Party) (schedule : List Nat)
    {i : Nat} {calls : List ProvCall} (hi : parties[i]? = some (.asks calls)) {rs : List (ProvM E ProvReply)}
    (hr : (runThreads (started st) (parties.map (Party.program canon p)) schedule).2[i]? = some (.done rs)) :
    rs.length = calls.length ∧ .panic ∉ rs := by
  obtain ⟨hc, _, hv, _⟩ := C39_connections_available h
  have := (run_tells hc hv st parties schedule).2 i _ hr calls hi
  constructor
  · generalize (runThreads (started st) (parties.map (Party.program canon p)) schedule).1 = s at this
    clear hr hi
    induction this with
    | nil => rfl
    | cons _ _ ih => simp [ih]
  · intro hm
    obtain ⟨_, _, ho⟩ := this.call hm
    exact ho.1 rfl

/-- There is one set of details, of the components and of the repository, that all successful requests of all threads
report, however the files change meanwhile. -/
theorem C41_one_set_of_details (h : Sqlite.tryNew path = .ok p) (st : Store) (parties : List Party) (schedule : List Nat) :
    ∃ (m : AMap Str ComponentDetails) (r : RepositoryDetails),
    ∀ (i : Nat) (calls : List ProvCall) (rs : List (ProvM E ProvReply)), parties[i]? = some (.asks calls) →
      (runThreads (started st) (parties.map (Party.program canon p)) schedule).2[i]? = some (.done rs) →
      ∀ (k : Nat) (call : ProvCall) (reply : ProvReply), calls[k]? = some call → rs[k]? = some (.ok reply) →
        Reports m r call reply := by
  obtain ⟨hc, _, hv, _⟩ := C39_connections_available h
  have hrun := (run_tells (canon := canon) hc hv st parties schedule).2
  generalize (runThreads (started st) (parties.map (Party.program canon p)) schedule).1 = s at hrun
  refine ⟨s.components.getD [], s.repository.getD ⟨[], none, 0, [], []⟩, fun i calls rs hi hr k call reply hk hreply => ?_⟩
  obtain ⟨x, hx, ho⟩ := (hrun i _ hr calls hi).get hk
  rw [hreply] at hx
  cases hx
  have := ho.2 reply rfl
  cases call <;> cases reply <;> simp only [Reports] at this ⊢
  · obtain ⟨m, d, h1, h2⟩ := this
    rw [h1]; exact ⟨d, h2⟩
  · obtain ⟨m, h1, h2⟩ := this
    rw [h1]; exact h2
  · rw [this]; rfl

/-- Once a request for details succeeded, every request for the same details that any thread begins later gets the same
reply, with whatever other requests and changes of the files before, meanwhile and after. -/
theorem C41_fixed_once_reported (h : Sqlite.tryNew path = .ok p) (st : Store) (parties : List Party) (schedule : List Nat)
    {i k : Nat} {calls : List ProvCall} {rs : List (ProvM E ProvReply)} {call : ProvCall} {reply : ProvReply}
    (hi : parties[i]? = some (.asks calls))
    (hr : (runThreads (started st) (parties.map (Party.program canon p)) schedule).2[i]? = some (.done rs))
    (hk : calls[k]? = some call) (hd : AsksDetails call) (hreply : rs[k]? = some (.ok reply))
    (later : List Party) (schedule' : List Nat)
    {j l : Nat} {calls' : List ProvCall} {rs' : List (ProvM E ProvReply)} (hj : later[j]? = some (.asks calls'))
    (hr' : (runThreads (runThreads (started st) (parties.map (Party.program canon p)) schedule).1
      ((runThreads (started st) (parties.map (Party.program canon p)) schedule).2 ++ later.map (Party.program canon p))
      schedule').2[parties.length + j]? = some (.done rs'))
    (hl : calls'[l]? = some call) : rs'[l]? = some (.ok reply) := by
  obtain ⟨hc, _, hv, _⟩ := C39_connections_available h
  obtain ⟨hinv, hrun⟩ := run_tells (canon := canon) hc hv st parties schedule
  have hlen : (runThreads (started st) (parties.map (Party.program canon p)) schedule).2.length = parties.length := by
    rw [Act.run_length]; simp
  generalize (runThreads (started st) (parties.map (Party.program canon p)) schedule) = run at hr hr' hinv hrun hlen
  obtain ⟨x, hx, ho⟩ := (hrun i _ hr calls hi).get hk
  rw [hreply] at hx
  cases hx
  have hright := ho.2 reply rfl
  -- what a later call leads to
  let Q : ProvCall → ProvM E ProvReply → ProvState → Prop := fun c r s => Right c r s ∧ (c = call → r = .ok reply)
  have hlater : ∀ (c : ProvCall) (s : ProvState), Inv (fun _ => True) (Complete p) DefaultListed s → Right call (.ok reply : ProvM E ProvReply) s →
      (p.callSync canon c).Leads (Inv (fun _ => True) (Complete p) DefaultListed) Rel (Q c) s := by
    intro c s hi hs
    have h1 := call_right (canon := canon) hc hv c s hi
    by_cases hcall : c = call
    · subst hcall
      have h2 : (p.callSync canon c).Leads (Inv (fun _ => True) (Complete p) DefaultListed) Rel
          (fun r _ => r = .ok reply) s := by
        have hs' := hs.2 reply rfl
        cases c <;> simp only [AsksDetails] at hd
        · cases reply <;> simp only at hs'
          obtain ⟨m, a, b⟩ := hs'
          exact componentDetails_set hi a b
        · cases reply <;> simp only at hs'
          exact repositoryDetails_set hi hs'
      exact (h1.and h2).weaken fun r s hq => ⟨hq.1, fun _ => hq.2⟩
    · exact h1.weaken fun r s hq => ⟨hq, fun e => absurd e hcall⟩
  have hthread : ∀ calls, (p.thread canon calls []).Leads (Inv (fun _ => True) (Complete p) DefaultListed) Rel
      (fun rs s => Replies (fun c r => Q c r s) calls rs) run.1 := fun calls =>
    thread_leads (S := fun _ => True) (C := Complete p) (D := DefaultListed) (p := p) (canon := canon)
      (Pre := Right call (.ok reply : ProvM E ProvReply)) (Q := Q) (fun _ _ h hr => h.stable hr)
      (fun _ _ _ _ h hr => ⟨h.1.stable hr, h.2⟩) (fun _ _ _ h => h.1.1) hlater calls [] [] run.1 hinv ho .nil
  have := (Act.leads_run (I := Inv (fun _ => True) (Complete p) DefaultListed) Rel.trans Rel.refl
    (Q := fun n (rs : List (ProvM E ProvReply)) s => ∀ j calls, n = parties.length + j → later[j]? = some (.asks calls) →
      Replies (fun c r => Q c r s) calls rs)
    (fun n rs s s' hq hr j calls hn hj => (hq j calls hn hj).imp fun _ _ h => ⟨h.1.stable hr, h.2⟩)
    schedule' run.1 (run.2 ++ later.map (Party.program canon p)) hinv (fun n q hq => by
      by_cases hn : n < parties.length
      · rw [List.getElem?_append_left (by omega)] at hq
        exact (hrun n q hq).weaken fun rs s _ j calls hj _ => by omega
      · rw [List.getElem?_append_right (by omega)] at hq
        simp only [List.getElem?_map, Option.map_eq_some_iff] at hq
        obtain ⟨party, hp, rfl⟩ := hq
        rw [hlen] at hp
        have hsub : ∀ j calls, n = parties.length + j → later[j]? = some (.asks calls) → party = .asks calls := by
          intro j calls hn hj
          rw [hn, Nat.add_sub_cancel_left, hj] at hp
          cases hp; rfl
        cases party with
        | changes f => exact changes_leads (fun _ => trivial) (fun s j calls hn hj => by cases hsub j calls hn hj) f _
        | asks calls =>
          exact (hthread calls).weaken fun rs s hrs j calls' hn hj => by cases hsub j calls' hn hj; exact hrs)).2.2
    (parties.length + j) _ hr' j calls' rfl hj
  obtain ⟨x, hx, hq⟩ := this.get hl
  rw [hx, hq.2 rfl]

/-- Whatever happened before, failed computations too: as long as no details are stored, a request for details that is not
disturbed gets what the files give now. -/
theorem C41_retry (h : Sqlite.tryNew path = .ok p) (st : Store) (parties : List Party) (schedule : List Nat)
    {s : ProvState} (hs : s = (runThreads (started st) (parties.map (Party.program canon p)) schedule).1) :
    (s.components = none → ∀ c, ∃ s', (p.callSync canon (.componentDetails c)).alone s =
      (s', some (reference canon p s.store (.componentDetails c)))) ∧
    (s.repository = none → ∃ s', (p.callSync canon .repositoryDetails).alone s =
      (s', some (reference canon p s.store .repositoryDetails))) := by
  obtain ⟨hc, _, hv, _⟩ := C39_connections_available h
  have hinv := (run_tells (canon := canon) hc hv st parties schedule).1
  rw [← hs] at hinv
  constructor
  · intro hn c
    have hi : Inv (· = s.store) (fun m => allOf canon p s.store = .ok m) (fun _ => True) s :=
      ⟨hinv.sound, hinv.queries, rfl, (fun m hm => by rw [hn] at hm; cases hm), fun _ _ => trivial⟩
    obtain ⟨s', a, h1, _, h2⟩ := Act.Leads.alone Rel.refl (componentCall_gives hv c s hi) (componentCall_free c) hi
    exact ⟨s', by rw [h1, h2]⟩
  · intro hn
    have hi : Inv (· = s.store) (fun _ => True) (fun r => repositoryOf canon p s.store = .ok r) s :=
      ⟨hinv.sound, hinv.queries, rfl, fun _ _ => trivial, fun m hm => by rw [hn] at hm; cases hm⟩
    obtain ⟨s', a, h1, _, h2⟩ := Act.Leads.alone Rel.refl (repositoryCall_gives hv s hi) repositoryCall_free hi
    exact ⟨s', by rw [h1, h2]⟩

/-! ### C54 -/

/-- As long as the files do not change, every reply of every thread is what a provider that nobody shares would answer. The
cache of query texts and the stored details make no difference. -/
theorem C54_replies_as_unshared (h : Sqlite.tryNew path = .ok p) (st : Store) (threads : List (List ProvCall))
    (schedule : List Nat) {i : Nat} {calls : List ProvCall} (hi : threads[i]? = some calls)
    {rs : List (ProvM E ProvReply)}
    (hr : (runThreads (started st) (threads.map fun c => p.thread canon c []) schedule).2[i]? = some (.done rs)) :
    rs = calls.map (reference canon p st) := by
  obtain ⟨hc, hk, hv, _⟩ := C39_connections_available h
  have hinv : Inv (· = st) (fun m => allOf canon p st = .ok m) (fun r => repositoryOf canon p st = .ok r) (started st) :=
    ⟨rfl, fun k t h => by simp [started] at h, rfl, fun m h => by simp [started] at h,
      fun r h => by simp [started] at h⟩
  have := (Act.leads_run (I := Inv (· = st) (fun m => allOf canon p st = .ok m) (fun r => repositoryOf canon p st = .ok r))
    Rel.trans Rel.refl
    (Q := fun n (rs : List (ProvM E ProvReply)) _ => ∀ calls, threads[n]? = some calls →
      Replies (fun c r => r = reference canon p st c) calls rs)
    (fun _ _ _ _ hq _ => hq) schedule (started st) (threads.map fun c => p.thread canon c []) hinv (fun n q hq => by
      simp only [List.getElem?_map, Option.map_eq_some_iff] at hq
      obtain ⟨calls, hp, rfl⟩ := hq
      have := thread_leads (S := (· = st)) (C := fun m => allOf canon p st = .ok m)
        (D := fun r => repositoryOf canon p st = .ok r) (p := p) (canon := canon) (Pre := fun _ => True)
        (Q := fun c r _ => r = reference canon p st c) (fun _ _ _ _ => trivial) (fun _ _ _ _ h _ => h)
        (fun c r _ h => by rw [h]; exact reference_ne_panic hc hk c)
        (fun c s hi _ => call_gives hv c s hi) calls [] [] (started st) hinv trivial .nil
      exact this.weaken fun rs s hrs calls' hcalls => by rw [hp] at hcalls; cases hcalls; exact hrs)).2.2 i _ hr calls hi
  clear hr hi
  induction this with
  | nil => rfl
  | cons h1 _ ih => simp [h1, ih]

/-! ### C56 -/

/-- As long as the files do not change, the details of the components and of the repository come from one computation: there
is one result of it that all replies to details requests report. What is missing: files that change between two computations
(`C56_violated`). -/
theorem C56_one_computation_partial (h : Sqlite.tryNew path = .ok p) (st : Store) (threads : List (List ProvCall))
    (schedule : List Nat) {i k : Nat} {calls : List ProvCall} (hi : threads[i]? = some calls) {call : ProvCall}
    (hk : calls[k]? = some call) (hd : AsksDetails call) {rs : List (ProvM E ProvReply)} {reply : ProvReply}
    (hr : (runThreads (started st) (threads.map fun c => p.thread canon c []) schedule).2[i]? = some (.done rs))
    (hreply : rs[k]? = some (.ok reply)) :
    ∃ m r, p.buildCache canon st = .ok (m, r) ∧ Reports m r call reply := by
  rw [C54_replies_as_unshared h st threads schedule hi hr, List.getElem?_map, hk] at hreply
  have he : reference canon p st call = .ok reply := by simpa using hreply
  cases call <;> simp only [AsksDetails] at hd
  · obtain ⟨⟨m, r⟩, h1, h2⟩ := bind_eq_ok he
    refine ⟨m, r, h1, ?_⟩
    simp only at h2
    split at h2
    · cases h2
    · next d hg => cases h2; exact hg
  · obtain ⟨⟨m, r⟩, h1, h2⟩ := bind_eq_ok he
    cases h2
    exact ⟨m, r, h1, rfl⟩

/-! ### Runs for the examples -/

namespace DemoShared
open DemoStore

/-- The total of the details in a reply. -/
def totalOf : ProvM Unit ProvReply → Option Nat
  | .ok (.component d) => some d.total
  | .ok (.repository d) => some d.total
  | _ => none

/-- The totals of each thread that is finished. -/
def totals (run : ProvState × List (Act ProvState (List (ProvM Unit ProvReply)))) : List (Option (List (Option Nat))) :=
  run.2.map fun q => q.result.map fun rs => rs.map totalOf

/-- One string. -/
def before : Store := fun _ => tables [row en hello] [writer en "Ann".toList]

/-- Two strings. -/
def after : Store := fun _ => tables [row en hello, row en howzit] [writer en "Ann".toList]

/-- No component has a default language. -/
def broken : Store := fun _ => { tables [row en hello] [writer en "Ann".toList] with component := .ok [] }

def demoPath : PathKind := .directory [DemoFiles.file "application" DemoFiles.shipped []]

def opened : Sqlite := { components := [(app, false, true)], connections := [(app, "1.0".toList)] }

theorem demo_open : Sqlite.tryNew demoPath = .ok opened := by decide +kernel

def demoRun (st : Store) (parties : List Party) (schedule : List Nat) :
    ProvState × List (Act ProvState (List (ProvM Unit ProvReply))) :=
  runThreads (started st) (parties.map (Party.program DemoStore.canon opened)) schedule

end DemoShared

open DemoStore DemoShared

/-- One thread stores the details of the components, the files change, another thread stores the details of the
repository: the repository has one component only, but two strings where the component has one. -/
theorem C56_violated : Sqlite.tryNew demoPath = .ok opened ∧
    totals (demoRun before [.asks [.componentDetails app], .asks [.repositoryDetails], .changes fun _ => after]
      (List.replicate 18 0 ++ [2] ++ List.replicate 20 1 ++ List.replicate 2 0)) =
        [some [some 1], some [some 2], some []] ∧
    ∀ st ∈ [before, after], ∀ m r, opened.buildCache DemoStore.canon st = .ok (m, r) →
      ∃ d, m.get app = some d ∧ d.total = r.total := by
  refine ⟨demo_open, by decide +kernel, fun st hst m r hb => ?_⟩
  rcases List.mem_cons.1 hst with rfl | hst
  · have : opened.buildCache DemoStore.canon before = .ok (m, r) := hb
    cases this
    exact ⟨_, rfl, rfl⟩
  · rcases List.mem_cons.1 hst with rfl | hst
    · have : opened.buildCache DemoStore.canon after = .ok (m, r) := hb
      cases this
      exact ⟨_, rfl, rfl⟩
    · simp at hst

/-- Two threads compute at the same time and the files change: both report the same. -/
example : totals (demoRun before [.asks [.componentDetails app], .asks [.componentDetails app], .changes fun _ => after]
      (List.replicate 10 0 ++ [2] ++ List.replicate 20 1 ++ List.replicate 20 0)) =
        [some [some 2], some [some 2], some []] := by decide +kernel

/-- After the change a later thread still gets what was reported. -/
example : totals (demoRun before [.asks [.componentDetails app, .repositoryDetails], .changes fun _ => after,
      .asks [.componentDetails app, .repositoryDetails]] (List.replicate 22 0 ++ [1] ++ List.replicate 22 2)) =
        [some [some 1, some 1], some [], some [some 1, some 1]] := by decide +kernel

/-- A computation fails, the files are repaired, and the thread asks again. -/
example : totals (demoRun broken [.asks [.componentDetails app, .componentDetails app], .changes fun _ => before]
      (List.replicate 10 0 ++ [1] ++ List.replicate 30 0)) = [some [none, some 1], some []] := by decide +kernel

/-- Two threads that share the provider get the strings. -/
example : (runThreads (started before) [opened.thread DemoStore.canon [.string app greeting enZA] [],
      opened.thread DemoStore.canon [.string app greeting en] []]
      (List.replicate 4 0 ++ List.replicate 10 1 ++ List.replicate 10 0)).2.map (fun q => q.result.map fun rs =>
        rs.map fun
          | .ok (.string x) => x
          | _ => none) = [some [some (hello, en)], some [some (hello, en)]] := by decide +kernel

end Verif.Props
