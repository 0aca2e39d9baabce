import Verif.Model.Registry
/-
Interleaving semantics of `LanguageTagRegistry::tag` with the `sync` feature,
/repo/crates/utility/src/language.rs:157-232.

One step of a thread is one critical section (plus the thread-local computation following it). The lock of
`deprecated` is never held across steps, so it needs no state; the lock of `tags` is held across a step
boundary in one place: the temporary guard of the `if let` at line 194 lives until the end of the block
195-200, in which `deprecated` is locked. Lock poisoning cannot occur, as nothing panics inside a critical
section.
-/
namespace Verif

/-- Where a thread is inside `tag`. -/
inductive TagPc where
  /-- about to lock `tags` for the first lookup, line 165 -/
  | lookupTags
  /-- about to lock `deprecated` for the second lookup, line 176 -/
  | lookupDeprecated
  /-- canonicalised to `c` (line 181), about to lock `tags`, line 194 -/
  | lookupCanonical (c : Str)
  /-- holding the lock of `tags`, about to lock `deprecated` and insert the alias, lines 195-199 -/
  | insertAlias (h : TagRef)
  /-- new tag allocated (line 205), about to insert the alias into `deprecated`, lines 213-216 -/
  | insertDeprecated (h : TagRef)
  /-- about to insert the new tag into `tags`, lines 226-229 -/
  | insertTags (h : TagRef)
  deriving DecidableEq

/-- A thread: requests still to serve (the first one is in progress at `pc`) and answers so far. -/
structure TagThread (E : Type) where
  todo : List Str
  pc : TagPc
  done : List (Str × Except E TagRef)

/-- Shared registry, lock of `tags` (owner), and the threads. -/
structure TagSys (E : Type) where
  reg : Registry
  tagsLock : Option Nat
  threads : List (TagThread E)

variable {E : Type}

/-- Start: a registry, and every thread has a list of requests. -/
def TagSys.start (reg : Registry) (programs : List (List Str)) : TagSys E :=
  { reg := reg, tagsLock := none
    threads := programs.map fun p => { todo := p, pc := .lookupTags, done := [] } }

/-- The call in progress returns `a`. -/
def TagThread.finish (t : TagThread E) (q : Str) (a : Except E TagRef) : TagThread E :=
  { todo := t.todo.tail, pc := .lookupTags, done := t.done ++ [(q, a)] }

/-- Replace thread `i`. -/
def TagSys.setThread (s : TagSys E) (i : Nat) (t : TagThread E) : TagSys E :=
  { s with threads := s.threads.set i t }

/-- One step of thread `i`; `none` when it has nothing to do or must wait for a lock. -/
def TagSys.step (canon : Str → Except E Str) (s : TagSys E) (i : Nat) : Option (TagSys E) :=
  match s.threads[i]? with
  | none => none
  | some t =>
    match t.todo with
    | [] => none
    | q :: _ =>
      match t.pc with
      | .lookupTags =>
        if s.tagsLock.isSome then none
        else match s.reg.tags.get q with
          | some h => some (s.setThread i (t.finish q (.ok h)))
          | none => some (s.setThread i { t with pc := .lookupDeprecated })
      | .lookupDeprecated =>
        match s.reg.deprecated.get q with
        | some h => some (s.setThread i (t.finish q (.ok h)))
        | none =>
          match canon q with
          | .error e => some (s.setThread i (t.finish q (.error e)))
          | .ok c => some (s.setThread i { t with pc := .lookupCanonical c })
      | .lookupCanonical c =>
        if s.tagsLock.isSome then none
        else match s.reg.tags.get c with
          | some h => some ({ s with tagsLock := some i }.setThread i { t with pc := .insertAlias h })
          | none =>
            let h : TagRef := { addr := s.reg.nextAddr, text := c }
            let s := { s with reg := { s.reg with nextAddr := s.reg.nextAddr + 1 } }
            if q ≠ h.text then some (s.setThread i { t with pc := .insertDeprecated h })
            else some (s.setThread i { t with pc := .insertTags h })
      | .insertAlias h =>
        let s := { s with
          reg := { s.reg with deprecated := s.reg.deprecated.insert q h }
          tagsLock := none }
        some (s.setThread i (t.finish q (.ok h)))
      | .insertDeprecated h =>
        let s := { s with reg := { s.reg with deprecated := s.reg.deprecated.insert q h } }
        some (s.setThread i { t with pc := .insertTags h })
      | .insertTags h =>
        if s.tagsLock.isSome then none
        else
          let s := { s with reg := { s.reg with tags := s.reg.tags.insert h.text h } }
          some (s.setThread i (t.finish q (.ok h)))

/-- Run a schedule; scheduling a thread which cannot step is a no-op. -/
def TagSys.run (canon : Str → Except E Str) (s : TagSys E) (schedule : List Nat) : TagSys E :=
  schedule.foldl (fun s i => (s.step canon i).getD s) s

end Verif
