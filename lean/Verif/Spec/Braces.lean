import Verif.Spec.SyntaxBlame
/-
What becomes of an opening brace of a pattern string, in terms of the grammar only.
-/
namespace Verif.Spec
open Verif

/-- The closing brace `c` of a placeholder, a command or a named string is in `rest`, which follows the opening brace
`o`, itself preceded by `pre`. -/
inductive Closed (pre : List Token) (o : Token) : List Token → Prop
  | placeholder {st items it inner c rest} : InString st items pre → Gr '}' c →
      Pattern pre.length it (o :: inner ++ [c]) → Closed pre o (inner ++ c :: rest)
  | named {id w ws items body c rest} : InGroup pre → id.tokenType = .identifier → w.tokenType = .whiteSpace →
      Blank ws → Starts body → Content true (pre.length + 3 + ws.length) items body → Gr '}' c →
      Closed pre o (id :: w :: ws ++ body ++ c :: rest)

/-- The tokens end with a backtick which makes the next token of a string literal. -/
inductive Escape : List Token → Prop
  | mk {st items ts e} : InString st items ts → Gr '`' e → Escape (ts ++ [e])

end Verif.Spec
