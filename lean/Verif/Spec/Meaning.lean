import Verif.Spec.Format
import Verif.Spec.Written
/-
The meaning of pattern strings as they are thought of, without tokens, positions, spaces and backticks.
-/
namespace Verif.Spec
open Verif

variable {D F : Type}

/-- The meaning of a part of a string. -/
def evalPiece (E : FmtEnv D F) (lang : Str) (values : AMap Str (PValue D F)) (self : Str) (sub : Str → Store → Res)
    (p : Piece) (st : Store) : Res :=
  match p with
  | .text s => (some (.ok s), st)
  | .number => (some (.ok (st self)), st)
  | .placeholder id =>
    match (values.get id).bind textOf with
    | some s => (some (.ok s), st)
    | none => (some (.err ()), st)
  | .pattern id k sels =>
    match values.get id with
    | none => (some (.err ()), st)
    | some v =>
      let keys := sels.map Prod.fst
      if k = "decimal".toList then (some (showDecimal E.icu4x lang v), st)
      else if k = "date_time".toList then (some (showDateTime E.icu4x lang v), st)
      else if k = "ordinal".toList then
        evalPlural E.icu4x lang (E.icu4x.ordinal lang) (ordinalOf E.icu4x v) keys sub st
      else if k = "plural".toList then
        evalPlural E.icu4x lang (E.icu4x.cardinal lang) (numberOf E.icu4x v) keys sub st
      else evalSelect (textOf v) keys sub st
  | .command n true ps => (some (runCommand E n (.string n :: ps.map fun p => argument values p)), st)
  | .command n false ps => (some (runCommand E n (.string n :: ps.map fun p => .string p)), st)

/-- The meaning of the parts of a string. -/
def evalPieces (E : FmtEnv D F) (lang : Str) (values : AMap Str (PValue D F)) (self : Str) (sub : Str → Store → Res) :
    List Piece → Store → Res
  | [], st => (some (.ok []), st)
  | it :: rest, st =>
    match evalPiece E lang values self sub it st with
    | (some (.ok s), st) =>
      match evalPieces E lang values self sub rest st with
      | (some (.ok s'), st) => (some (.ok (s ++ s')), st)
      | r => r
    | r => r

/-- The meaning of named strings. -/
def evalNamedPieces (E : FmtEnv D F) (lang : Str) (values : AMap Str (PValue D F)) :
    List (Str × List Piece) → Str → Store → Res
  | [], _, st => (some (.err ()), st)
  | n :: before, name, st =>
    if n.1 = name then evalPieces E lang values name (evalNamedPieces E lang values before) n.2 st
    else evalNamedPieces E lang values before name st

/-- A part the formatter accepts. -/
def AcceptedPiece (E : FmtEnv D F) (known : List Str) : Piece → Prop
  | .text _ => True
  | .number => True
  | .placeholder _ => True
  | .pattern _ k sels =>
    (k = "decimal".toList ∨ k = "date_time".toList) ∧ sels = [] ∨
    (k = "ordinal".toList ∨ k = "plural".toList) ∧ (∀ key ∈ sels.map Prod.fst, IsCategory key ∧ key ∈ known) ∧
      "other".toList ∈ sels.map Prod.fst ∨
    k = "select".toList ∧ ∀ key ∈ sels.map Prod.fst, key ∈ known
  | .command _ true _ => True
  | .command n false ps => ∃ s, runCommand E n (.string n :: ps.map fun p => .string p) = .ok s

/-- Named strings the formatter accepts. -/
def AcceptedNamed (E : FmtEnv D F) : (known : List Str) → List (Str × List Piece) → Prop
  | _, [] => True
  | known, n :: rest => n.1 ∉ known ∧ (∀ p ∈ n.2, AcceptedPiece E known p) ∧ AcceptedNamed E (known ++ [n.1]) rest

/-- The formatter accepts the pattern string. -/
def Composition.Accepted (E : FmtEnv D F) (c : Composition) : Prop :=
  AcceptedNamed E [mainName] (c.named.getD []) ∧
    ∀ p ∈ c.main, AcceptedPiece E (mainName :: (c.named.getD []).map Prod.fst) p

/-- What is shown for the values when nothing was shown before; nothing if it never ends. -/
def Composition.shown (E : FmtEnv D F) (lang : Str) (values : AMap Str (PValue D F)) (c : Composition) :
    Option (Outcome Unit Str) :=
  (evalPieces E lang values mainName (evalNamedPieces E lang values (c.named.getD []).reverse) c.main Store.empty).1

end Verif.Spec
