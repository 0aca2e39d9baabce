/-
Model of the lexer crate: /repo/crates/lexer/src/lexer.rs.

Rust strings are modelled as lists of Unicode scalar values (`Char` is in both languages a Unicode
scalar value), byte counts are sums of UTF-8 sizes.
-/
namespace Verif

/-- A Rust `String`/`&str`: the sequence of its `char`s. -/
abbrev Str := List Char

/-- UTF-8 length of a string: `str::len`. -/
def byteLen (s : Str) : Nat := (s.map Char.utf8Size).sum

/-- The parts of `IcuDataProvider` the lexer uses, crates/lexer/src/icu.rs:78-87: the code point sets
`Pattern_White_Space` and `Pattern_Syntax`, and the number of boundaries which
`GraphemeClusterSegmenter::segment_str` reports for a string (`segment_str(..).count()`).
All three are parameters of the model. -/
structure Icu where
  whiteSpace : Char → Bool
  syn : Char → Bool
  breaks : Str → Nat

/-- crates/lexer/src/lexer.rs:65-70. -/
inductive TokenType where
  | whiteSpace | identifier | grammar | syn
  deriving DecidableEq, Repr

/-- crates/lexer/src/lexer.rs:81-91. -/
structure Token where
  string : Str
  tokenType : TokenType
  startByte : Nat
  startCharacter : Nat
  startGrapheme : Nat
  lengthBytes : Nat
  lengthCharacters : Nat
  lengthGraphemes : Nat
  endByte : Nat
  deriving DecidableEq, Repr

/-- crates/lexer/src/error.rs: the two ways creating a lexer fails. -/
inductive LexerError where
  | noGrammar | emptyString
  deriving DecidableEq, Repr

/-- crates/lexer/src/lexer.rs:100-113. The ICU provider is kept as a field, as in the code. -/
structure LexerIterator where
  endReached : Bool
  icu : Icu
  iterator : List (Nat × Char)
  grammar : Str
  startByte : Nat
  startCharacter : Nat
  lengthBytes : Nat
  tokenType : TokenType
  tokenString : Str
  tokenStartByte : Nat
  tokenStartCharacter : Nat
  tokenStartGrapheme : Nat

/-- `str::char_indices` starting at byte offset `b`. -/
def charIndices (b : Nat) : Str → List (Nat × Char)
  | [] => []
  | c :: cs => (b, c) :: charIndices (b + c.utf8Size) cs

/-- Classification of a character, crates/lexer/src/lexer.rs:135-149 (first character) and 169-191
(`token_type`); the two pieces of code are identical. -/
def charType (icu : Icu) (grammar : Str) (c : Char) : TokenType :=
  if icu.whiteSpace c then .whiteSpace
  else if icu.syn c then
    (if grammar.contains c then .grammar else .syn)
  else .identifier

/-- `LexerIterator::try_new`, crates/lexer/src/lexer.rs:120-165. -/
def LexerIterator.tryNew (string grammar : Str) (icu : Icu) : Except LexerError LexerIterator :=
  if grammar.isEmpty then .error .noGrammar
  else match charIndices 0 string with
    | [] => .error .emptyString
    | (_, c) :: rest => .ok {
        endReached := false
        icu := icu
        iterator := rest
        grammar := grammar
        lengthBytes := byteLen string
        tokenType := charType icu grammar c
        tokenString := [c]
        tokenStartByte := 0
        tokenStartCharacter := 0
        tokenStartGrapheme := 0
        startByte := 0
        startCharacter := 0 }

/-- `LexerIterator::token`, crates/lexer/src/lexer.rs:193-218: produce the pending token and start a
new one of the given type with the given character. -/
def LexerIterator.token (it : LexerIterator) (newType : TokenType) (c : Char) :
    Token × LexerIterator :=
  let lenGraphemes := it.icu.breaks it.tokenString - 1
  ({ string := it.tokenString
     tokenType := it.tokenType
     startByte := it.tokenStartByte
     startCharacter := it.tokenStartCharacter
     startGrapheme := it.tokenStartGrapheme
     lengthBytes := it.startByte - it.tokenStartByte
     lengthCharacters := it.startCharacter - it.tokenStartCharacter
     lengthGraphemes := lenGraphemes
     endByte := it.startByte },
   { it with
     tokenType := newType
     tokenStartByte := it.startByte
     tokenStartCharacter := it.startCharacter
     tokenStartGrapheme := it.tokenStartGrapheme + lenGraphemes
     tokenString := [c] })

/-- The `while let` loop of `next` followed by the final token, crates/lexer/src/lexer.rs:228-262.
`rest` is what the inner character iterator still holds. -/
def LexerIterator.scan (it : LexerIterator) : List (Nat × Char) → Token × LexerIterator
  | [] =>
    LexerIterator.token
      { it with
        iterator := []
        endReached := true
        startByte := it.lengthBytes
        startCharacter := it.startCharacter + 1 }
      .identifier ' '
  | (position, c) :: rest =>
    let it := { it with
      iterator := rest
      startByte := position
      startCharacter := it.startCharacter + 1 }
    match charType it.icu it.grammar c with
    | .whiteSpace =>
      if it.tokenType ≠ .whiteSpace then it.token .whiteSpace c
      else LexerIterator.scan { it with tokenString := it.tokenString ++ [c] } rest
    | .grammar => it.token .grammar c
    | .syn =>
      if it.tokenType ≠ .syn then it.token .syn c
      else LexerIterator.scan { it with tokenString := it.tokenString ++ [c] } rest
    | .identifier =>
      if it.tokenType ≠ .identifier then it.token .identifier c
      else LexerIterator.scan { it with tokenString := it.tokenString ++ [c] } rest

/-- `Iterator::next`, crates/lexer/src/lexer.rs:224-263. -/
def LexerIterator.next (it : LexerIterator) : Option Token × LexerIterator :=
  if it.endReached then (none, it)
  else
    let (t, it') := it.scan it.iterator
    (some t, it')

/-- The answers of `n` successive calls of `next`. -/
def LexerIterator.calls : Nat → LexerIterator → List (Option Token)
  | 0, _ => []
  | n + 1, it => (it.next).1 :: LexerIterator.calls n (it.next).2

/-- Iterating (`for token in lexer`) with at most `n` items. -/
def LexerIterator.collectN : Nat → LexerIterator → List Token
  | 0, _ => []
  | n + 1, it =>
    match it.next with
    | (none, _) => []
    | (some t, it') => t :: LexerIterator.collectN n it'

/-- Iterating to the end. That the bound (number of pending characters plus one) is enough is part of
property C04. -/
def LexerIterator.collect (it : LexerIterator) : List Token :=
  it.collectN (it.iterator.length + 1)

/-- All tokens of a string. -/
def lex (icu : Icu) (grammar string : Str) : Except LexerError (List Token) :=
  match LexerIterator.tryNew string grammar icu with
  | .error e => .error e
  | .ok it => .ok it.collect

end Verif
