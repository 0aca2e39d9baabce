import Verif.Spec.Grammar
/-
Shapes of token sequences used to state when the parser panics and when it reports repeated identifiers.
-/
namespace Verif.Spec
open Verif

/-- At position `i` a brace is opened and followed by the identifier `x`. -/
def OpensAt (ts : List Token) (i : Nat) (x : Str) : Prop :=
  ∃ o id, ts[i]? = some o ∧ Gr '{' o ∧ ts[i + 1]? = some id ∧ id.tokenType = .identifier ∧ id.string = x

/-- A brace followed by the identifier `x` occurs at two positions. -/
def Twice (x : Str) (ts : List Token) : Prop := ∃ i j, i < j ∧ OpensAt ts i x ∧ OpensAt ts j x

/-- A delayed command without parameters, `{#name#}`, or with a third number sign, `{#name##`; spaces allowed. -/
def EmptyDelayed (ts : List Token) : Prop :=
  ∃ pre o h1 ws1 id ws2 h2 ws3 t post, ts = pre ++ o :: h1 :: ws1 ++ id :: ws2 ++ h2 :: ws3 ++ t :: post ∧
    Gr '{' o ∧ Gr '#' h1 ∧ Blank ws1 ∧ id.tokenType = .identifier ∧ Blank ws2 ∧ Gr '#' h2 ∧ Blank ws3 ∧
    (Gr '}' t ∨ Gr '#' t)

/-- A syntax character, or an escape with the escaped token. -/
inductive BadStart : List Token → Prop
  | syn {t : Token} : t.tokenType = .syn → BadStart [t]
  | escape {e t : Token} : Gr '`' e → BadStart [e, t]

/-- After an earlier number sign: `{name` and spaces, then a syntax character or an escaped token, then a token which is not grammar or one of
`#`, `{` and the backtick. -/
def BadNamed (ts : List Token) : Prop :=
  ∃ pre o id w ws x t post, ts = pre ++ o :: id :: w :: ws ++ x ++ t :: post ∧
    (∃ h ∈ pre, Gr '#' h) ∧ Gr '{' o ∧ id.tokenType = .identifier ∧ w.tokenType = .whiteSpace ∧ Blank ws ∧ BadStart x ∧
    (t.tokenType ≠ .grammar ∨ t.string ∈ [['#'], ['{'], ['`']])

/-- The only shapes on which the parser panics. -/
def PanicShape (ts : List Token) : Prop := EmptyDelayed ts ∨ BadNamed ts

end Verif.Spec
