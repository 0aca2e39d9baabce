/-
Directions of scripts: /repo/crates/utility/src/script.rs.
-/
namespace Verif

/-- `Direction`, crates/utility/src/script.rs:4-10. -/
inductive Direction where
  | topToBottom | bottomToTop | leftToRight | rightToLeft
  deriving DecidableEq, Repr

/-- `ScriptDirection`, crates/utility/src/script.rs:24-34. -/
inductive ScriptDirection where
  | topToBottomLeftToRight | topToBottomRightToLeft | bottomToTopLeftToRight | bottomToTopRightToLeft
  | leftToRightTopToBottom | leftToRightBottomToTop | rightToLeftTopToBottom | rightToLeftBottomToTop
  deriving DecidableEq, Repr

namespace ScriptDirection

/-- `ScriptDirection::directions`, crates/utility/src/script.rs:37-64. -/
def directions : ScriptDirection → Direction × Direction
  | topToBottomLeftToRight => (.topToBottom, .leftToRight)
  | topToBottomRightToLeft => (.topToBottom, .rightToLeft)
  | bottomToTopLeftToRight => (.bottomToTop, .leftToRight)
  | bottomToTopRightToLeft => (.bottomToTop, .rightToLeft)
  | leftToRightTopToBottom => (.leftToRight, .topToBottom)
  | leftToRightBottomToTop => (.leftToRight, .bottomToTop)
  | rightToLeftTopToBottom => (.rightToLeft, .topToBottom)
  | rightToLeftBottomToTop => (.rightToLeft, .bottomToTop)

/-- `ScriptDirection::line`, crates/utility/src/script.rs:66-77. -/
def line : ScriptDirection → Direction
  | topToBottomLeftToRight => .topToBottom
  | topToBottomRightToLeft => .topToBottom
  | bottomToTopLeftToRight => .bottomToTop
  | bottomToTopRightToLeft => .bottomToTop
  | leftToRightTopToBottom => .leftToRight
  | leftToRightBottomToTop => .leftToRight
  | rightToLeftTopToBottom => .rightToLeft
  | rightToLeftBottomToTop => .rightToLeft

/-- `ScriptDirection::grapheme`, crates/utility/src/script.rs:79-90. -/
def grapheme : ScriptDirection → Direction
  | topToBottomLeftToRight => .leftToRight
  | topToBottomRightToLeft => .rightToLeft
  | bottomToTopLeftToRight => .leftToRight
  | bottomToTopRightToLeft => .rightToLeft
  | leftToRightTopToBottom => .topToBottom
  | leftToRightBottomToTop => .bottomToTop
  | rightToLeftTopToBottom => .topToBottom
  | rightToLeftBottomToTop => .bottomToTop

end ScriptDirection
end Verif
