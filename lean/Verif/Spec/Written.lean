import Verif.Spec.Documented
import Verif.Spec.Text
/-
Pattern strings as they are thought of: texts, number signs, placeholders and commands, without tokens, positions, spaces
and backticks; how they are written; and what is read from a string.
-/
namespace Verif.Spec
open Verif

/-- A part of a string. -/
inductive Piece where
  | text (s : Str)
  | number
  | placeholder (id : Str)
  | pattern (id keyword : Str) (selectors : List (Str × Str))
  | command (name : Str) (delayed : Bool) (parameters : List Str)
  deriving DecidableEq

/-- The main string and the named strings, if any are announced. -/
structure Composition where
  main : List Piece
  named : Option (List (Str × List Piece))
  deriving DecidableEq

/-! ### Writing -/

/-- How a part is written: texts with a backtick before each grammar character, the rest with single spaces. -/
def Piece.written : Piece → Str
  | .text s => escape s
  | .number => ['#']
  | .placeholder id => '{' :: id ++ ['}']
  | .pattern id keyword selectors =>
    '{' :: id ++ ' ' :: keyword ++ (selectors.flatMap fun s => ' ' :: s.1 ++ '#' :: s.2) ++ ['}']
  | .command name delayed parameters =>
    '{' :: '#' :: name ++ (if delayed then ['#'] else []) ++ (parameters.flatMap fun p => ' ' :: p) ++ ['}']

/-- How a sequence of parts is written. -/
def writtenPieces (ps : List Piece) : Str := ps.flatMap Piece.written

/-- How a named string is written. -/
def writtenNamed (n : Str × List Piece) : Str := '{' :: n.1 ++ ' ' :: writtenPieces n.2 ++ ['}']

/-- How a pattern string is written. -/
def Composition.written (c : Composition) : Str :=
  writtenPieces c.main ++
    match c.named with
    | none => []
    | some l => '#' :: l.flatMap writtenNamed

/-! ### What can be written -/

/-- Names are identifiers, texts are not empty, number signs are in named strings, a delayed command has a parameter. -/
def PieceOk (icu : Icu) (sub : Bool) : Piece → Prop
  | .text s => s ≠ []
  | .number => sub = true
  | .placeholder id => IsIdentifier icu id
  | .pattern id keyword selectors => IsIdentifier icu id ∧ IsIdentifier icu keyword ∧
      ∀ s ∈ selectors, IsIdentifier icu s.1 ∧ IsIdentifier icu s.2
  | .command name delayed parameters => IsIdentifier icu name ∧ (∀ p ∈ parameters, IsIdentifier icu p) ∧
      (delayed = true → parameters ≠ [])

/-- Two texts side by side are one text; two number signs side by side are not allowed. -/
def Apart : Piece → Piece → Prop
  | .text _, .text _ => False
  | .number, .number => False
  | _, _ => True

/-- No two neighbours that may not be. -/
def AllApart : List Piece → Prop
  | a :: b :: rest => Apart a b ∧ AllApart (b :: rest)
  | _ => True

/-- A named string begins with a number sign or a text that begins with an identifier. -/
def BeginsNamed (icu : Icu) : List Piece → Prop
  | .number :: _ => True
  | .text (c :: _) :: _ => icu.whiteSpace c = false ∧ icu.syn c = false
  | _ => False

/-- The identifiers of placeholders and patterns. -/
def pieceNames : List Piece → List Str
  | [] => []
  | .placeholder id :: rest => id :: pieceNames rest
  | .pattern id _ _ :: rest => id :: pieceNames rest
  | _ :: rest => pieceNames rest

/-- What can be written. -/
structure Composed (icu : Icu) (c : Composition) : Prop where
  main : (∀ p ∈ c.main, PieceOk icu false p) ∧ AllApart c.main
  named : ∀ n ∈ c.named.getD [], IsIdentifier icu n.1 ∧ (∀ p ∈ n.2, PieceOk icu true p) ∧ AllApart n.2 ∧ BeginsNamed icu n.2
  placeholders : (pieceNames c.main ++ ((c.named.getD []).map fun n => pieceNames n.2).flatten).Nodup
  names : ((c.named.getD []).map Prod.fst).Nodup

/-! ### Reading -/

/-- What an item of the syntax stands for. Commands begin with their name. -/
def Item.piece : Item → Piece
  | .text toks => .text (leafText toks)
  | .number _ => .number
  | .pat id none => .placeholder id.str
  | .pat id (some (k, sels)) => .pattern id.str k.str (pairs sels)
  | .cmd (.ident n :: .hash _ :: ps) => .command n.str true (ps.map Part.str)
  | .cmd (.ident n :: ps) => .command n.str false (ps.map Part.str)
  | .cmd _ => .command [] false []

/-- What a syntax stands for. -/
def Doc.composition (d : Doc) : Composition :=
  ⟨d.main.map Item.piece, d.group.map fun l => l.map fun n => (n.name, n.items.map Item.piece)⟩

end Verif.Spec
