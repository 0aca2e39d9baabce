import Verif.Spec.TreeShape
/-
Where a sequence of tokens stops being the beginning of a pattern string, in terms of the grammar only.
-/
namespace Verif.Spec
open Verif

/-- Some tokens can follow such that the whole is a pattern string. -/
def BeginsSentence (ts : List Token) : Prop := ∃ d more, Sentence d (ts ++ more)

/-- The tokens end in the group of named strings, outside of the named strings. -/
inductive InGroup : List Token → Prop
  | mk {items ts h named gs} : Content false 0 items ts → Gr '#' h → Group (ts.length + 1) named gs →
      InGroup (ts ++ h :: gs)

/-- The tokens end between the name and the content of a named string. -/
inductive BeforeContent : List Token → Prop
  | mk {pre o id w ws} : InGroup pre → Gr '{' o → id.tokenType = .identifier → w.tokenType = .whiteSpace → Blank ws →
      BeforeContent (pre ++ o :: id :: w :: ws)

/-- The tokens end in the main string (`String`), or in the content of a named string (`SubString`), outside of
placeholders and commands; with the content so far. -/
inductive InString : ParserState → List Item → List Token → Prop
  | main {items ts} : Content false 0 items ts → InString .string items ts
  | named {pre items body} : BeforeContent pre → Starts body → Content true pre.length items body →
      InString .subString items (pre ++ body)

/-- The tokens end after the keyword of a placeholder and some complete selectors. -/
inductive AfterKeyword : List Token → Prop
  | mk {st items ts o id ws k sels body} : InString st items ts → Gr '{' o → id.tokenType = .identifier →
      Blank ws → k.tokenType = .identifier → KwBody (ts.length + 3 + ws.length) sels body →
      AfterKeyword (ts ++ o :: id :: ws ++ k :: body)

/-- Where the tokens end; the state is the one which messages name for this place. -/
inductive Place : ParserState → List Token → Prop
  | text {st items ts} : InString st items ts → Place st ts
  /-- after the opening brace of a placeholder -/
  | opened {st items ts o} : InString st items ts → Gr '{' o → Place st (ts ++ [o])
  /-- after the identifier of a placeholder -/
  | pattern {st items ts o id ws} : InString st items ts → Gr '{' o → id.tokenType = .identifier → Blank ws →
      Place .pattern (ts ++ o :: id :: ws)
  | keyword {ts} : AfterKeyword ts → Place .keyword ts
  /-- after the first identifier of a selector -/
  | selector {ts a} : AfterKeyword ts → a.tokenType = .identifier → Place .keyword (ts ++ [a])
  /-- after the number sign of a selector -/
  | selectorHash {ts a h} : AfterKeyword ts → a.tokenType = .identifier → h.string = ['#'] →
      Place .keyword (ts ++ [a, h])
  /-- after the first number sign of a command -/
  | command {st items ts o h parts body} : InString st items ts → Gr '{' o → Gr '#' h →
      CmdBody (ts.length + 2) parts body → Place .command (ts ++ o :: h :: body)
  | group {ts} : InGroup ts → Place .namedGroup ts
  /-- after the opening brace of a named string -/
  | named {ts o} : InGroup ts → Gr '{' o → Place .namedString (ts ++ [o])
  | content {ts} : BeforeContent ts → Place .namedString ts

/-- Literal text was opened: a backtick directly after the opening brace of a placeholder, or inside a command.
The parser has no way to end it. -/
inductive Literal : List Token → Prop
  | placeholder {st items ts o q rest} : InString st items ts → Gr '{' o → Gr '`' q → Literal (ts ++ o :: q :: rest)
  | command {ts q rest} : Place .command ts → Gr '`' q → Literal (ts ++ q :: rest)

/-- The content of a named string starts with a syntax character, a brace or a backtick, of which the parser makes no
string. -/
inductive Spoilt : List Token → Prop
  | mk {ts t rest} : BeforeContent ts → t.tokenType = .syn ∨ Gr '{' t ∨ Gr '`' t → Spoilt (ts ++ t :: rest)

/-- Some tokens can follow such that the whole is a pattern string without repeated identifiers. -/
def BeginsUnique (ts : List Token) : Prop :=
  ∃ d more, Sentence d (ts ++ more) ∧ d.patNames.Nodup ∧ d.namedNames.Nodup

/-- After the beginning of a pattern string: a delayed command which ends without parameter or has a third number sign; or
a named string whose content starts with a syntax character or an escape, and goes on with anything but a closing
brace. -/
inductive Panics : List Token → Prop
  | delayed {st items ts o h parts body t rest} : InString st items ts → Gr '{' o → Gr '#' h →
      CmdBody (ts.length + 2) parts body → endsWithHash parts = true → BeginsUnique (ts ++ o :: h :: body) →
      Gr '}' t ∨ Gr '#' t → Panics (ts ++ o :: h :: body ++ t :: rest)
  | content {ts x t rest} : BeforeContent ts → BeginsUnique ts → BadStart x →
      t.tokenType ≠ .grammar ∨ t.string ∈ [['#'], ['{'], ['`']] → Panics (ts ++ x ++ t :: rest)

end Verif.Spec
