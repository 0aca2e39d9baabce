import Verif.Model.Reentry
/-
What commands may ask of the localiser.
-/
namespace Verif.Spec
open Verif

/-- All requests of the conversation satisfy `p`, whatever the answers are, and its results satisfy `q`. -/
def Converses {R A α : Type} (p : R → Prop) (q : α → Prop) : Talk R A α → Prop
  | .done a => q a
  | .ask r next => p r ∧ ∀ a, Converses p q (next a)

/-- Requests that neither cache nor format: a string as it is, without caching, and the defaults. -/
def Harmless {D F : Type} : Request D F → Prop
  | .literal _ _ _ _ caching => caching = some false
  | .data _ _ values _ _ caching => values = none ∧ caching = some false
  | .defaults _ _ _ => True
  | .format _ _ _ _ _ _ => False

/-- Requests without caching. -/
def Uncached {D F : Type} : Request D F → Prop
  | .format _ _ _ _ _ caching | .literal _ _ _ _ caching | .data _ _ _ _ _ caching => caching = some false
  | .defaults _ _ _ => True

/-- The node is a command whose second child is a number sign, so that it is delayed until a text is made
(crates/localiser/src/formatter.rs:1293-1300). -/
def Delayed (t : Tree) (i : Nat) : Prop :=
  ∃ command mark rest, t.children i = .ok (command :: mark :: rest) ∧ t.nodeType mark = .ok .numberSign

variable {D F P : Type}

/-- The environment of the other models, where commands call nothing. -/
def talkEnv (E : FmtEnv D F) : TalkEnv D F P :=
  ⟨E.icu, E.grammar, E.icu4x, fun name => (E.commands.get name).map fun f parameters => .done (f parameters)⟩

/-- The environment of the other models, where commands call nothing. -/
def talkLoc (L : LocEnv D F P) : TalkLocEnv D F P := ⟨talkEnv L.fmt, L.provider, L.icuLanguage⟩

/-- The result of a call in the other models. -/
def asRun : Option (LocM P (Str × Str)) → Run (Answer P)
  | some (.ok x) => .value (some (.ok x))
  | some (.err e) => .value (some (.error e))
  | some .panic => .panic
  | none => .value none

/-- All requests of all commands satisfy `p`, whatever the parameters and answers are. -/
def CommandsAsk (E : TalkEnv D F P) (p : Request D F → Prop) : Prop :=
  ∀ name c, E.commands name = some c → ∀ parameters, Converses p (fun _ => True) (c parameters)

/-- No string of the provider has a delayed command. -/
def NothingDelayed (L : TalkLocEnv D F P) : Prop :=
  ∀ component identifier tag s t, L.provider.string component identifier tag = .ok (some (s, t)) →
    ∀ tree, Tree.tryNew L.fmt.icu L.fmt.grammar s = .ok tree → ∀ i, ¬ Delayed tree i

end Verif.Spec
