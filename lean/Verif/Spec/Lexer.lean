import Verif.Model.Lexer
/-
Specification of tokenisation, independent of the iterator: the documented token classes
(crates/lexer/src/lexer.rs:45-61) and maximal runs.
-/
namespace Verif.Spec
open Verif

/-- The documented classes, as a relation. -/
inductive HasClass (icu : Icu) (grammar : Str) (c : Char) : TokenType → Prop
  | ws : icu.whiteSpace c = true → HasClass icu grammar c .whiteSpace
  | gr : icu.whiteSpace c = false → icu.syn c = true → c ∈ grammar → HasClass icu grammar c .grammar
  | sy : icu.whiteSpace c = false → icu.syn c = true → c ∉ grammar → HasClass icu grammar c .syn
  | id : icu.whiteSpace c = false → icu.syn c = false → HasClass icu grammar c .identifier

/-- May a token of class `a` be directly followed by one of class `b`? -/
def Separated (a b : TokenType) : Prop := a ≠ b ∨ a = .grammar

/-- `ws` is a correct tokenisation of `s`: the words concatenate to `s`, each is a non-empty run of one
class, grammar words are single characters, runs are maximal. -/
structure Tokenisation (icu : Icu) (grammar : Str) (s : Str) (ws : List (TokenType × Str)) : Prop where
  concat : (ws.map Prod.snd).flatten = s
  nonempty : ∀ w ∈ ws, w.2 ≠ []
  uniform : ∀ w ∈ ws, ∀ c ∈ w.2, HasClass icu grammar c w.1
  single : ∀ w ∈ ws, w.1 = .grammar → w.2.length = 1
  maximal : ∀ pre a b post, ws = pre ++ a :: b :: post → Separated a.1 b.1

/-- Positions of a token sequence: every token starts where the texts before it end. -/
def PositionsExact (icu : Icu) (toks : List Token) : Prop :=
  ∀ pre t post, toks = pre ++ t :: post →
    t.startByte = byteLen ((pre.map Token.string).flatten) ∧
    t.lengthBytes = byteLen t.string ∧
    t.endByte = t.startByte + t.lengthBytes ∧
    t.startCharacter = ((pre.map Token.string).flatten).length ∧
    t.lengthCharacters = t.string.length ∧
    t.lengthGraphemes = icu.breaks t.string - 1 ∧
    t.startGrapheme = (pre.map Token.lengthGraphemes).sum

end Verif.Spec
