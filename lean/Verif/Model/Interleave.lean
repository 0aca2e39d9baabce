/-
Threads that share a state. A program is a sequence of atomic steps; a step waits until it is ready. A schedule chooses
which thread makes the next step.
-/
namespace Verif

/-- A program of a thread: `next` sees the state before the step. -/
inductive Act (σ α : Type) where
  | done (a : α)
  | step (ready : σ → Bool) (effect : σ → σ) (next : σ → Act σ α)

namespace Act
variable {σ α β : Type}

/-- One program after another. -/
def bind (p : Act σ α) (f : α → Act σ β) : Act σ β :=
  match p with
  | .done a => f a
  | .step ready effect next => .step ready effect fun s => (next s).bind f

/-- A step that is always ready. -/
def atomic (f : σ → σ × Act σ α) : Act σ α := .step (fun _ => true) (fun s => (f s).1) (fun s => (f s).2)

/-- Reading the state. -/
def read (f : σ → α) : Act σ α := atomic fun s => (s, .done (f s))

/-- One step of a program; a finished or waiting program does nothing. -/
def advance (p : Act σ α) (s : σ) : σ × Act σ α :=
  match p with
  | .done a => (s, .done a)
  | .step ready effect next => if ready s then (effect s, next s) else (s, .step ready effect next)

/-- The program can make a step. -/
def ready (s : σ) : Act σ α → Bool
  | .done _ => false
  | .step r _ _ => r s

/-- The result, if the program is finished. -/
def result : Act σ α → Option α
  | .done a => some a
  | .step _ _ _ => none

end Act

variable {σ α : Type}

/-- The thread with this number makes a step. -/
def stepThread (s : σ) (threads : List (Act σ α)) (i : Nat) : σ × List (Act σ α) :=
  match threads[i]? with
  | none => (s, threads)
  | some p => ((p.advance s).1, threads.set i (p.advance s).2)

/-- State and threads after a schedule. -/
def runThreads (s : σ) (threads : List (Act σ α)) : List Nat → σ × List (Act σ α)
  | [] => (s, threads)
  | i :: schedule => runThreads (stepThread s threads i).1 (stepThread s threads i).2 schedule

/-- State and threads after the first `n` steps of an endless schedule. -/
def during (s : σ) (threads : List (Act σ α)) (schedule : Nat → Nat) (n : Nat) : σ × List (Act σ α) :=
  runThreads s threads ((List.range n).map schedule)

end Verif
