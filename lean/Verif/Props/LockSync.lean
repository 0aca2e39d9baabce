import Verif.Lemmas.LockCalls
import Verif.Lemmas.LockAlone
import Verif.Props.Reentry
/-
Property theorems C93: threads that share a localiser with the feature `sync`, and commands that call the localiser,
/repo/crates/localiser/src/localiser.rs.
-/
namespace Verif.Props
open Verif Verif.Spec Verif.ReentryLemmas Verif.LockLemmas

variable {D F P S : Type}

/-! ### C93: threads never wait forever -/

theorem any_asks (E : TalkEnv D F P) (f : Formatter) : Asks E Any f := .inr fun _ _ _ _ => any_requests _

theorem if_any {α : Type} {q : α → Prop} (h : ∀ a, q a) (t : FmtTalk D F P α) : Converses Any (IfOk q) t :=
  Converses.weaken (any_requests t) (fun _ h => h) fun _ _ a _ => h a

/-- **C93, immediate commands.** If no string of the provider has a delayed command (`{#name# …}`), then commands may ask for
everything: whatever any number of threads ask, in whatever order they get their turns, whether readers wait for waiting
writers or not, and whichever locks are poisoned, the threads never wait for each other forever, and each comes to its end.
Missing: delayed commands, see `C93_violated`. -/
theorem C93_immediate_commands_partial (L : TalkLocEnv D F P) (hL : NothingDelayed L) (scriptOf : Str → S) (depth : Nat)
    (s : LkState S) (hs : s.loc.cache = []) (requests : List (List (Request D F)))
    (policy : List (LockThread (LkState S) (List (Run (Answer P)))) → Cell → Bool) :
    NeverStuck policy L scriptOf depth s requests :=
  never_stuck (again := false) (p := fun _ => False) (R := Any) (K := true) (fun _ h => h.elim)
    (fun c i tag str t h => Converses.weaken (talkNew_not L.fmt (hL c i tag str t h) t _) (fun _ h => h)
      fun _ h f hf => ⟨fun _ => .inl (h f hf), any_asks _ _⟩)
    (.inl rfl) depth hs requests (fun _ _ _ _ => trivial) (fun h => nomatch h)

/-- **C93, commands that set the defaults.** If commands ask for nothing, or only for other defaults, then the same is so, with
delayed commands too. Missing: other commands, see `C93_violated`. -/
theorem C93_only_defaults_partial (L : TalkLocEnv D F P) (hL : CommandsAsk L.fmt OnlyDefaults) (scriptOf : Str → S) (depth : Nat)
    (s : LkState S) (hs : s.loc.cache = []) (requests : List (List (Request D F)))
    (policy : List (LockThread (LkState S) (List (Run (Answer P)))) → Cell → Bool) :
    NeverStuck policy L scriptOf depth s requests :=
  never_stuck (again := false) (p := OnlyDefaults) (R := Any) (K := true)
    (fun r h => by cases r <;> first | exact h.elim | exact ⟨trivial, .inr trivial⟩)
    (fun _ _ _ _ _ _ => if_any (fun _ => ⟨fun _ => .inr hL, any_asks _ _⟩) _)
    (.inl rfl) depth hs requests (fun _ _ _ _ => trivial) (fun h => nomatch h)

/-- **C93, commands of the other models,** such as those of this repository, which call nothing. Then threads never wait
forever. -/
theorem C93_commands_that_call_nothing (L : LocEnv D F P) (scriptOf : Str → S) (depth : Nat) (s : LkState S)
    (hs : s.loc.cache = []) (requests : List (List (Request D F)))
    (policy : List (LockThread (LkState S) (List (Run (Answer P)))) → Cell → Bool) :
    NeverStuck policy (talkLoc L) scriptOf depth s requests := by
  refine C93_only_defaults_partial (talkLoc L) (fun name c h ps => ?_) scriptOf depth s hs requests policy
  obtain ⟨f, _, rfl⟩ := Option.map_eq_some_iff.1 (show (L.fmt.commands.get name).map _ = some c from h)
  trivial

/-- **C93, harmless commands.** If readers never wait for writers that wait, then commands may also ask for strings as they
are, without caching. Missing: other commands, and locks where readers do wait, see `C93_violated`. -/
theorem C93_harmless_commands_partial (L : TalkLocEnv D F P) (hL : CommandsAsk L.fmt Harmless) (scriptOf : Str → S)
    (depth : Nat) (s : LkState S) (hs : s.loc.cache = []) (requests : List (List (Request D F)))
    (policy : List (LockThread (LkState S) (List (Run (Answer P)))) → Cell → Bool)
    (hp : ∀ threads c, policy threads c = false) : NeverStuck policy L scriptOf depth s requests :=
  never_stuck (again := true) (p := Harmless) (R := Any) (K := true) (fun _ h => ⟨h, .inl rfl⟩)
    (fun _ _ _ _ _ _ => if_any (fun _ => ⟨fun _ => .inr hL, any_asks _ _⟩) _)
    (.inl rfl) depth hs requests (fun _ _ _ _ => trivial) (fun _ => hp)

/-- **C93, without caching.** If neither the threads nor a command ask for caching, commands may ask for everything else.
Missing: caching, see `C93_violated`. -/
theorem C93_uncached_partial (L : TalkLocEnv D F P) (hL : CommandsAsk L.fmt Uncached) (scriptOf : Str → S) (depth : Nat)
    (s : LkState S) (hs : s.loc.cache = []) (requests : List (List (Request D F)))
    (hr : ∀ rs ∈ requests, ∀ r ∈ rs, Uncached r)
    (policy : List (LockThread (LkState S) (List (Run (Answer P)))) → Cell → Bool) :
    NeverStuck policy L scriptOf depth s requests :=
  never_stuck (again := false) (p := fun _ => False) (R := Uncached) (K := false) (fun _ h => h.elim)
    (fun _ _ _ str t _ => Converses.weaken (talkNew_asks L.fmt hL str t (L.icuLanguage t)) (fun _ h => h)
      fun _ _ f _ => ⟨(fun h => nomatch h), .inr hL⟩)
    (.inr fun _ h => h) depth hs requests hr (fun h => nomatch h)

/-- **C93, one thread, exactly.** A thread alone waits for itself forever with the feature `sync` exactly when the request
meets a borrowed cell without that feature (C77); otherwise the answer is the same, and the localiser afterwards. -/
theorem C93_alone (L : TalkLocEnv D F P) (scriptOf : Str → S) (depth : Nat) (r : Request D F) (l : Localiser S)
    (policy : List (LockThread (LkState S) (List (Run (Answer P)))) → Cell → Bool) :
    ((∃ schedule, Deadlock policy
        (lockRun policy ⟨l, fun _ => false⟩ [.start (lkThread L scriptOf depth [r] [])] schedule).2) ↔
      (reRequest L scriptOf depth r (.idle l)).1 = .conflict) ∧
    ((reRequest L scriptOf depth r (.idle l)).1 ≠ .conflict → ∃ schedule poisoned,
      lockRun policy ⟨l, fun _ => false⟩ [.start (lkThread L scriptOf depth [r] [])] schedule =
        (⟨(reRequest L scriptOf depth r (.idle l)).2.loc, poisoned⟩,
          [⟨.done [(reRequest L scriptOf depth r (.idle l)).1], [], false⟩])) := by
  rcases alone_request L scriptOf depth r l policy with ⟨h1, h2⟩ | ⟨h1, n, p, h2⟩
  · exact ⟨⟨fun _ => h1, fun _ => h2⟩, fun h => absurd h1 h⟩
  · exact ⟨⟨fun ⟨schedule, h⟩ => absurd h (ended h2 schedule), fun h => absurd h h1⟩, fun _ => ⟨_, p, h2⟩⟩

/-! ### Threads that wait forever -/

namespace DemoLocks

/-- The threads after a schedule; readers wait for waiting writers, or they do not. -/
def after (readersWait : Bool) (L : TalkLocEnv Nat Unit Unit) (requests : List (List (Request Nat Unit))) (schedule : List Nat) :
    List (LockThread (LkState Unit) (List (Run (Answer Unit)))) :=
  (lockRun (fun _ _ => readersWait) ⟨Demo.start true, fun _ => false⟩
    (requests.map fun rs => LockThread.start (lkThread L (fun _ => ()) 4 rs [])) schedule).2

/-- The thread has its result. -/
def isDone (t : LockThread (LkState Unit) (List (Run (Answer Unit)))) : Bool :=
  match t.prog with
  | .done _ => true
  | _ => false

theorem isDone_iff {t : LockThread (LkState Unit) (List (Run (Answer Unit)))} : isDone t = true ↔ Finished t := by
  obtain ⟨p, _, _⟩ := t
  cases p with
  | done a => exact ⟨fun _ => ⟨a, rfl⟩, fun _ => rfl⟩
  | _ => exact ⟨(fun h => nomatch h), (fun ⟨_, h⟩ => nomatch h)⟩

/-- `Deadlock`, decided. -/
def stuck (readersWait : Bool) (threads : List (LockThread (LkState Unit) (List (Run (Answer Unit))))) : Bool :=
  threads.any (fun t => !isDone t) && threads.all fun t => !t.ready (fun _ _ => readersWait) threads

theorem stuck_deadlock {readersWait : Bool} {threads : List (LockThread (LkState Unit) (List (Run (Answer Unit))))}
    (h : stuck readersWait threads = true) : Deadlock (fun _ _ => readersWait) threads := by
  unfold stuck at h
  rw [Bool.and_eq_true, List.any_eq_true, List.all_eq_true] at h
  obtain ⟨⟨t, ht, hd⟩, h⟩ := h
  refine ⟨⟨t, ht, fun hf => ?_⟩, fun t ht => by simpa using h t ht⟩
  rw [isDone_iff.2 hf] at hd
  cases hd

/-- The texts that the threads got; `none` for what is not a text. -/
def texts (threads : List (LockThread (LkState Unit) (List (Run (Answer Unit))))) : List (List (Option Str)) :=
  threads.map fun t => match t.prog with
    | .done answers => answers.map fun
      | .value (some (.ok (s, _))) => some s
      | _ => none
    | _ => []

end DemoLocks
open DemoReentry DemoLocks

/-- **C93 is violated.** A thread alone waits for itself forever if a delayed command asks for something to be cached, whatever
the policy (the first two). And if readers wait for waiting writers, two threads wait for each other forever even if the
command asks for no more than a string as it is, without caching, which never fails with one thread
(`C77_harmless_commands_partial`): the command wants to read the cache, whose read lock is held by its own thread already,
while the other thread waits to write (the last). -/
theorem C93_violated :
    Deadlock (fun _ _ => true) (after true (loc (Demo.lit "c" "bye")) [[Demo.fmt "c" "late" []]] (List.replicate 60 0)) ∧
    Deadlock (fun _ _ => false) (after false (loc (Demo.lit "c" "bye")) [[Demo.fmt "c" "late" []]] (List.replicate 60 0)) ∧
    CommandsAsk (loc plain).fmt Harmless ∧
    Deadlock (fun _ _ => true) (after true (loc plain) [[Demo.fmt "c" "late" []], [Demo.lit "c" "bye"]]
      (List.replicate 30 0 ++ List.replicate 30 1 ++ List.replicate 30 0)) := by
  refine ⟨stuck_deadlock ?_, stuck_deadlock ?_, plain_harmless, stuck_deadlock ?_⟩ <;> decide +kernel

/-- If readers do not wait, the same threads come to their end; they get their texts. -/
example : texts (after false (loc plain) [[Demo.fmt "c" "late" []], [Demo.lit "c" "bye"]]
    (List.replicate 30 0 ++ List.replicate 30 1 ++ List.replicate 60 0 ++ List.replicate 30 1)) =
      [[some "late: bye".toList], [some "bye".toList]] := by decide +kernel

/-- A command that sets the defaults. -/
def setsDefaults : Request Nat Unit := .defaults (some "de".toList) (some true) none

/-- The condition of `C93_only_defaults_partial` is met by a command that asks; here two threads take turns. -/
example : CommandsAsk (loc setsDefaults).fmt OnlyDefaults ∧
    texts (after true (loc setsDefaults) [[Demo.fmt "c" "late" []], [Demo.lit "c" "bye"]]
      ((List.range 200).map (· % 2))) = [[none], [some "bye".toList]] := by
  refine ⟨?_, by decide +kernel⟩
  intro name c h ps
  dsimp only [loc] at h
  split at h
  · cases h
    refine ⟨trivial, fun a => ?_⟩
    dsimp only
    split <;> trivial
  · cases h

/-- Two threads that take turns. -/
example : Fair 2 (· % 2) := fun i hi n => ⟨2 * n + i, by omega, by show (2 * n + i) % 2 = i; omega⟩

end Verif.Props
