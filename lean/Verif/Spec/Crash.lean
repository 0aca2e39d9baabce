import Verif.Spec.Endless
/-
Pattern strings and values for which a registered command panics: independent of the formatter, over the syntax (`Doc`).
-/
namespace Verif.Spec
open Verif

variable {D F : Type}

/-! ### Formatting -/

/-- The item is a delayed command, and the function registered for it panics on its name and the arguments. -/
inductive Bursts (E : FmtEnv D F) (values : AMap Str (PValue D F)) : Item → Prop
  | command (n h ps f) : E.commands.get n.str = some f →
      f (.string n.str :: ps.map fun p => argument values p.str) = .panic → Bursts E values (.cmd (.ident n :: .hash h :: ps))

/-- Showing a string with these items makes a command panic: the items before have texts, and then an item is such a
command, or shows a named string that makes a command panic. `before` are the named strings it may use, latest first. -/
inductive Crashes (E : FmtEnv D F) (lang : Str) (values : AMap Str (PValue D F)) : List Named → Str → List Item → Prop
  | here (before self front it back) : (∀ x ∈ front, HasText E lang values before self x) → Bursts E values it →
      Crashes E lang values before self (front ++ it :: back)
  | inside (before self front it back n later earlier) : (∀ x ∈ front, HasText E lang values before self x) →
      Picks E lang values it n.name → before = later ++ n :: earlier → Crashes E lang values earlier n.name n.items →
      Crashes E lang values before self (front ++ it :: back)

/-! ### Reading -/

/-- The item is an immediate command, and the function registered for it panics on its name and the arguments. -/
inductive ItemCrash (E : FmtEnv D F) : Item → Prop
  | command (n ps f) : (∀ h ps', ps ≠ .hash h :: ps') → E.commands.get n.str = some f →
      f (.string n.str :: ps.map fun p => .string p.str) = .panic → ItemCrash E (.cmd (.ident n :: ps))

/-- The first item that cannot be accepted is a command that panics. -/
def ItemsCrash (E : FmtEnv D F) (known : List Str) (items : List Item) : Prop :=
  ∃ front it back, items = front ++ it :: back ∧ (∀ x ∈ front, ItemOk E known x) ∧ ItemCrash E it

/-- In the first named string that cannot be accepted a command panics. -/
inductive GroupCrash (E : FmtEnv D F) : List Str → List Named → Prop
  | items (known n rest) : n.name ∉ known → ItemsCrash E known n.items → GroupCrash E known (n :: rest)
  | later (known n rest) : n.name ∉ known → (∀ it ∈ n.items, ItemOk E known it) →
      GroupCrash E (known ++ [n.name]) rest → GroupCrash E known (n :: rest)

/-- A command panics while the pattern string is read. -/
def DocCrash (E : FmtEnv D F) (d : Doc) : Prop :=
  GroupCrash E [mainName] d.named ∨
  GroupOk E [mainName] d.named ∧ ItemsCrash E (mainName :: d.named.map Named.name) d.main

end Verif.Spec
