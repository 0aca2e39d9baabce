import Verif.Model.Lexer
/-
A concrete instance of the ICU parameters, used only in examples and in witnesses of violations.
It agrees with ICU4X on the characters used there (ASCII).
-/
namespace Verif.Demo
open Verif

/-- ASCII part of Pattern_White_Space and Pattern_Syntax; one grapheme per character. -/
def icu : Icu where
  whiteSpace c := c == ' ' || ('\t' ≤ c && c ≤ '\r')
  syn c := ('!' ≤ c && c ≤ '/') || (':' ≤ c && c ≤ '@') || ('[' ≤ c && c ≤ '^') || c == '`' ||
    ('{' ≤ c && c ≤ '~')
  breaks s := s.length + 1

end Verif.Demo
