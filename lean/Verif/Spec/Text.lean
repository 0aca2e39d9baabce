import Verif.Model.Localiser
/-
Texts and placeholders as a template is written by hand.
-/
namespace Verif.Spec
open Verif

/-- A backtick before each grammar character. -/
def escape (s : Str) : Str := s.flatMap fun c => if c ∈ patternGrammar then ['`', c] else [c]

/-- A template is a sequence of texts and placeholders. -/
inductive Seg where
  | text (s : Str)
  | hole (id : Str)
  deriving DecidableEq

/-- How a part of a template is written. -/
def Seg.source : Seg → Str
  | .text s => escape s
  | .hole id => '{' :: id ++ ['}']

/-- The pattern string of a template. -/
def source (segs : List Seg) : Str := segs.flatMap Seg.source

/-- The result: texts as they are, placeholders replaced. -/
def Seg.fill (val : Str → Str) : Seg → Str
  | .text s => s
  | .hole id => val id

def fill (val : Str → Str) (segs : List Seg) : Str := segs.flatMap (Seg.fill val)

/-- The placeholders. -/
def holes (segs : List Seg) : List Str := segs.flatMap fun
  | .text _ => []
  | .hole id => [id]

/-- An identifier is made of characters that are neither white space nor syntax. -/
def IsIdentifier (icu : Icu) (id : Str) : Prop :=
  id ≠ [] ∧ ∀ c ∈ id, icu.whiteSpace c = false ∧ icu.syn c = false

/-- What is assumed of the environment: the grammar of the localiser, whose characters are Pattern_Syntax and not
Pattern_White_Space. -/
structure Standard {D F : Type} (E : FmtEnv D F) : Prop where
  grammar : E.grammar = patternGrammar
  syn : ∀ c ∈ patternGrammar, E.icu.whiteSpace c = false ∧ E.icu.syn c = true

/-- The letters of the Latin alphabet and `_` are neither white space nor syntax, the space is white space. -/
structure Letters (icu : Icu) : Prop where
  letter : ∀ c ∈ "abcdefghijklmnopqrstuvwxyzABCDEFGHIJKLMNOPQRSTUVWXYZ_".toList,
    icu.whiteSpace c = false ∧ icu.syn c = false
  space : icu.whiteSpace ' ' = true

/-- Values that are texts, and the text of each. -/
inductive Shows {D F : Type} : PValue D F → Str → Prop
  | string (s) : Shows (.string s) s
  | taggedString (s tag) : Shows (.taggedString s tag) s
  | localised (s tag) : Shows (.localised s tag) s

end Verif.Spec
