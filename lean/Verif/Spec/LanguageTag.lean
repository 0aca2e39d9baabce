import Verif.Model.LanguageTag
/-
Language identifiers as UTS #35 describes them, independent of the parser.
-/
namespace Verif.Spec
open Verif

/-- Letters of ASCII in lower case, `_` as `-`: what does not matter in a language tag. -/
def foldTag (q : Str) : Str := q.map fun c => if c = '_' then '-' else c.toLower

/-- `ps` are the parts of `q` between hyphens or underscores. -/
inductive PartsOf : Str → List Str → Prop
  | one {s} : (∀ c ∈ s, c ≠ '-' ∧ c ≠ '_') → PartsOf s [s]
  | more {s q ps} (c : Char) : (∀ c ∈ s, c ≠ '-' ∧ c ≠ '_') → c = '-' ∨ c = '_' → PartsOf q ps →
      PartsOf (s ++ c :: q) (s :: ps)

/-- ASCII letter. -/
def Letter (c : Char) : Prop := ('a' ≤ c ∧ c ≤ 'z') ∨ ('A' ≤ c ∧ c ≤ 'Z')

/-- ASCII digit. -/
def Digit (c : Char) : Prop := '0' ≤ c ∧ c ≤ '9'

/-- `unicode_language_subtag = alpha{2,3}` (without the reserved longer ones). -/
def LanguagePart (s : Str) : Prop := (s.length = 2 ∨ s.length = 3) ∧ ∀ c ∈ s, Letter c

/-- `unicode_script_subtag = alpha{4}`. -/
def ScriptPart (s : Str) : Prop := s.length = 4 ∧ ∀ c ∈ s, Letter c

/-- `unicode_region_subtag = (alpha{2} | digit{3})`. -/
def RegionPart (s : Str) : Prop := (s.length = 2 ∧ ∀ c ∈ s, Letter c) ∨ (s.length = 3 ∧ ∀ c ∈ s, Digit c)

/-- `unicode_variant_subtag = (alphanum{5,8} | digit alphanum{3})`. -/
def VariantPart (s : Str) : Prop :=
  (∀ c ∈ s, Letter c ∨ Digit c) ∧
    ((5 ≤ s.length ∧ s.length ≤ 8) ∨ (s.length = 4 ∧ ∃ c rest, s = c :: rest ∧ Digit c))

/-- `unicode_language_id = unicode_language_subtag (sep unicode_script_subtag)? (sep unicode_region_subtag)?
(sep unicode_variant_subtag)*`, no variant twice. -/
def WellFormedTag (q : Str) : Prop :=
  ∃ l : Str, ∃ s r : Option Str, ∃ vs : List Str, PartsOf q (l :: (s.toList ++ r.toList ++ vs)) ∧ LanguagePart l ∧
    (∀ x ∈ s, ScriptPart x) ∧ (∀ x ∈ r, RegionPart x) ∧ (∀ x ∈ vs, VariantPart x) ∧ (vs.map foldTag).Nodup

/-- The same language, and the same other parts in any order, regardless of letter case. -/
def SameParts (q q' : Str) : Prop :=
  ∃ l l' : Str, ∃ ps ps' : List Str, PartsOf q (l :: ps) ∧ PartsOf q' (l' :: ps') ∧ foldTag l = foldTag l' ∧
    (ps.map foldTag).Perm (ps'.map foldTag)

/-- An extension (or private use): a part of one character. -/
def HasExtension (q : Str) : Prop := ∃ ps, PartsOf q ps ∧ ∃ p ∈ ps, p.length = 1

/-- Canonical spelling: hyphens; language in lower, script in title, region in upper case; variants in lower case and in
order. -/
def CanonicalTag (t : Str) : Prop :=
  ∃ l : Str, ∃ s r : Option Str, ∃ vs : List Str, PartsOf t (l :: (s.toList ++ r.toList ++ vs)) ∧ '_' ∉ t ∧
    LanguagePart l ∧ (∀ x ∈ s, ScriptPart x) ∧ (∀ x ∈ r, RegionPart x) ∧ (∀ x ∈ vs, VariantPart x) ∧
    (∀ c ∈ l, ¬ c.isUpper) ∧ (∀ x ∈ s, ∃ c rest, x = c :: rest ∧ c.isUpper ∧ ∀ d ∈ rest, ¬ d.isUpper) ∧
    (∀ x ∈ r, ∀ c ∈ x, ¬ c.isLower) ∧ (∀ x ∈ vs, ∀ c ∈ x, ¬ c.isUpper) ∧ vs.Pairwise (· < ·)

end Verif.Spec
