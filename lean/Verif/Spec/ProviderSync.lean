import Verif.Model.ProviderSync
/-
Words for the properties of a provider that threads share.
-/
namespace Verif.Spec
open Verif

/-- The state of a provider that was just opened. -/
def started (st : Store) : ProvState :=
  { store := st, queries := [], poisoned := false, components := none, repository := none }

/-- A thread that asks the provider, or a program that changes the files. -/
inductive Party where
  | asks (calls : List ProvCall)
  | changes (change : Store → Store)

/-- What it does. -/
def Party.program {E : Type} (canon : Str → Except E Str) (p : Sqlite) : Party → Act ProvState (List (ProvM E ProvReply))
  | .asks calls => p.thread canon calls []
  | .changes change => changeFiles change

/-- The call asks for the details of a component or of the repository. -/
def AsksDetails : ProvCall → Prop
  | .componentDetails _ => True
  | .repositoryDetails => True
  | _ => False

/-- What a provider that nobody shares answers from a store. -/
def reference {E : Type} (canon : Str → Except E Str) (p : Sqlite) (st : Store) : ProvCall → ProvM E ProvReply
  | .string c i t => do pure (.string (← p.string canon st c i t))
  | .stringExactMatch c i t => do pure (.string (← p.stringExactMatch canon st c i t))
  | .strings c i t => do pure (.strings (← p.strings canon st c i t))
  | .identifierDetails c i => do
    let details ← p.buildCache canon st
    let x ← p.identifierDetails canon st details.1 c i
    pure (.identifier x.1 x.2)
  | .componentDetails c => do
    let details ← p.buildCache canon st
    match details.1.get c with
    | none => .err (.componentNotFound c)
    | some d => pure (.component d)
  | .repositoryDetails => do
    let details ← p.buildCache canon st
    pure (.repository details.2)

/-- The reply says of details what these details are. -/
def Reports (components : AMap Str ComponentDetails) (repository : RepositoryDetails) : ProvCall → ProvReply → Prop
  | .string _ _ _, .string _ => True
  | .stringExactMatch _ _ _, .string _ => True
  | .strings _ _ _, .strings _ => True
  | .identifierDetails c _, .identifier _ default => ∃ d, components.get c = some d ∧ d.default = default
  | .componentDetails c, .component d => components.get c = some d
  | .repositoryDetails, .repository r => r = repository
  | _, _ => False

/-- The list has a reply for every call, and each is as said. -/
inductive Replies {E : Type} (ok : ProvCall → ProvM E ProvReply → Prop) : List ProvCall → List (ProvM E ProvReply) → Prop
  | nil : Replies ok [] []
  | cons {call reply calls replies} : ok call reply → Replies ok calls replies → Replies ok (call :: calls) (reply :: replies)

end Verif.Spec
