import Verif.Model.LockSync
import Verif.Spec.Reentry
/-
Threads with locks, independent of what they compute.
-/
namespace Verif.Spec
open Verif

variable {σ α : Type}

/-- The thread has its result. -/
def Finished (t : LockThread σ α) : Prop := ∃ a, t.prog = .done a

/-- Not all threads are finished, but none of them can make a step: they wait for each other, or for themselves, forever. -/
def Deadlock (policy : List (LockThread σ α) → Cell → Bool) (threads : List (LockThread σ α)) : Prop :=
  (∃ t ∈ threads, ¬ Finished t) ∧ ∀ t ∈ threads, t.ready policy threads = false

/-- Each of so many threads gets its turn again and again. -/
def Fair (count : Nat) (schedule : Nat → Nat) : Prop := ∀ i, i < count → ∀ n, ∃ m, n ≤ m ∧ schedule m = i

/-- State and threads after the first `n` turns. -/
def turns (policy : List (LockThread σ α) → Cell → Bool) (s : σ) (threads : List (LockThread σ α)) (schedule : Nat → Nat) (n : Nat) :
    σ × List (LockThread σ α) := lockRun policy s threads ((List.range n).map schedule)

/-- Requests that set the defaults. -/
def OnlyDefaults {D F : Type} : Request D F → Prop
  | .defaults _ _ _ => True
  | _ => False

/-- Threads that make these requests, and begin with these locks poisoned, never wait for each other forever, and if each gets
its turn again and again, each of them ends. -/
def NeverStuck {D F P S : Type} (policy : List (LockThread (LkState S) (List (Run (Answer P)))) → Cell → Bool)
    (L : TalkLocEnv D F P) (scriptOf : Str → S) (depth : Nat) (s : LkState S) (requests : List (List (Request D F))) : Prop :=
  let threads := requests.map fun rs => LockThread.start (lkThread L scriptOf depth rs [])
  (∀ schedule, ¬ Deadlock policy (lockRun policy s threads schedule).2) ∧
    ∀ schedule, Fair requests.length schedule → ∃ n, ∀ t ∈ (turns policy s threads schedule n).2, Finished t

end Verif.Spec
