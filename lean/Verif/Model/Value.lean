import Verif.Model.Iso
import Verif.Model.Map
/-
Values for placeholders and commands: /repo/crates/utility/src/types.rs, /repo/crates/localiser/src/command.rs.
-/
namespace Verif

/-- `PlaceholderValue`, crates/utility/src/types.rs:54-66, with `LocalisationData` (crates/utility/src/types.rs:25-29)
in place. `D` is `FixedDecimal` and `F` is `f64`; both are opaque. The bounds of `i128` and `u128` are dropped: such
numbers are only handed on. A tagged or localised string is its text and the text of its language tag. -/
inductive PValue (D F : Type) where
  | string (s : Str)
  | integer (i : Int)
  | unsigned (n : Nat)
  | float (f : F)
  | taggedString (s tag : Str)
  | localised (s tag : Str)
  | localisationData (component identifier : Str) (values : Option (List (Str × PValue D F)))
  | fixedDecimal (d : D)
  | dateTime (d : IsoDate) (t : IsoTime)
  | date (d : IsoDate)
  | time (t : IsoTime)

/-- `CommandError`, crates/localiser/src/error.rs:274-280. The payload of `Custom` is reduced to a number. -/
inductive CommandError where
  | custom (code : Nat)
  | alreadyExists (name : Str)
  | notFound (name : Str)
  | parameterMissing (name : Str) (index : Nat)
  | invalidType (name : Str) (index : Nat)
  deriving DecidableEq, Repr

/-- A command callback: `fn(Vec<PlaceholderValue>) -> Result<String, CommandError>`, which may also panic. -/
abbrev CommandFn (D F : Type) := List (PValue D F) → Outcome CommandError Str

/-- `CommandRegistry`, crates/localiser/src/command.rs:34-36. -/
abbrev CommandRegistry (D F : Type) := AMap Str (CommandFn D F)

variable {D F : Type}

/-- `CommandRegistry::insert`, crates/localiser/src/command.rs:94-110. -/
def CommandRegistry.insert (r : CommandRegistry D F) (name : Str) (f : CommandFn D F) :
    Except CommandError Unit × CommandRegistry D F :=
  if r.contains name then (.error (.alreadyExists name), r)
  else (.ok (), AMap.insert r name f)

/-- `CommandRegistry::command`, crates/localiser/src/command.rs:133-143. -/
def CommandRegistry.command (r : CommandRegistry D F) (name : Str) : Outcome CommandError (CommandFn D F) :=
  Outcome.okOr (.notFound name) (r.get name)

/-- `CommandRegistry::list`, crates/localiser/src/command.rs:161-163. -/
def CommandRegistry.list (r : CommandRegistry D F) : List Str := r.keys

/-- The parameter handling which `file_path` and `english_a_or_an` share; `parameters[0]` panics on an empty
vector. -/
def firstParameter (parameters : List (PValue D F)) : Outcome CommandError Str :=
  match parameters with
  | [] => .panic
  | p0 :: rest =>
    match p0 with
    | .string command =>
      match rest with
      | [] => .err (.parameterMissing command 1)
      | .string s :: _ => .ok s
      | _ :: _ => .err (.invalidType command 1)
    | _ => .err (.invalidType "command identifier".toList 0)

/-- `file_path`, crates/localiser/src/command.rs:179-201. `PathBuf::from_str` never fails and `Path::display` writes back a
path that came from a `str` unchanged. -/
def filePath : CommandFn D F := fun parameters => do
  let s ← firstParameter parameters
  pure s

/-- `english_a_or_an`, crates/localiser/src/command.rs:205-229. `chars.next().unwrap()` panics on an empty string. -/
def englishAOrAn : CommandFn D F := fun parameters => do
  let s ← firstParameter parameters
  match s with
  | [] => .panic
  | c :: _ => if c = 'a' ∨ c = 'e' ∨ c = 'i' ∨ c = 'o' ∨ c = 'u' then pure ['a', 'n'] else pure ['a']

end Verif
