import Verif.Model.Registry
/-
Language identifiers: `IcuLanguage::try_from_bytes` and `IcuLanguage::canonicalize`, called by
/repo/crates/utility/src/language.rs:70 and 181 (`IcuLanguage` is `icu_locid::LanguageIdentifier`, lines 8-12), and
`LanguageIdentifier::try_from_bytes`, called by /repo/crates/localiser/src/localiser.rs:1336.

The code of `icu_locid` 1.5 is not part of /repo. This is a reference model of what it documents: `unicode_language_id` of
UTS #35, section 3.2, with `-` or `_` as separator, a language of two or three letters, and canonical letter case and
order of the variants. Aliases are not replaced (crates/utility/src/language.rs:46-48 says the same).
-/
namespace Verif.Tag
open Verif

/-- `icu_locid::LanguageIdentifier`. -/
structure Identifier where
  language : Str
  script : Option Str
  region : Option Str
  variants : List Str
  deriving DecidableEq, Repr

/-- `icu_locid::ParserError`; extensions are only read by `Locale`. -/
inductive ParserError where
  | invalidLanguage | invalidSubtag
  deriving DecidableEq, Repr

/-- `-` or `_`. -/
def isSeparator (c : Char) : Bool := c = '-' ∨ c = '_'

/-- The parts between separators. -/
def subtags : Str → List Str
  | [] => [[]]
  | c :: rest =>
    if isSeparator c then [] :: subtags rest
    else
      match subtags rest with
      | [] => [[c]]
      | s :: ss => (c :: s) :: ss

def lower (s : Str) : Str := s.map Char.toLower
def upper (s : Str) : Str := s.map Char.toUpper
def title : Str → Str
  | [] => []
  | c :: rest => c.toUpper :: lower rest

def letters (s : Str) : Bool := s.all Char.isAlpha
def digits (s : Str) : Bool := s.all Char.isDigit
def alphanumeric (s : Str) : Bool := s.all Char.isAlphanum

/-- `Language::try_from_bytes`. -/
def language? (s : Str) : Option Str :=
  if (s.length = 2 ∨ s.length = 3) ∧ letters s then some (lower s) else none

/-- `Script::try_from_bytes`. -/
def script? (s : Str) : Option Str := if s.length = 4 ∧ letters s then some (title s) else none

/-- `Region::try_from_bytes`. -/
def region? (s : Str) : Option Str :=
  if (s.length = 2 ∧ letters s) ∨ (s.length = 3 ∧ digits s) then some (upper s) else none

/-- `Variant::try_from_bytes`. -/
def variant? (s : Str) : Option Str :=
  if ((5 ≤ s.length ∧ s.length ≤ 8) ∨ (s.length = 4 ∧ (s.take 1).all Char.isDigit)) ∧ alphanumeric s then some (lower s)
  else none

/-- Variants are kept in the order of their bytes; `none` for one that is there already. -/
def insertVariant (v : Str) : List Str → Option (List Str)
  | [] => some [v]
  | w :: ws => if v < w then some (v :: w :: ws) else if v = w then none else (insertVariant v ws).map (w :: ·)

/-- What the parser may still read. -/
inductive Position where
  | script | region | variant
  deriving DecidableEq, Repr

/-- The loop of the parser. -/
def parseRest : Position → Identifier → List Str → Except ParserError Identifier
  | _, x, [] => .ok x
  | .script, x, s :: rest =>
    match script? s with
    | some t => parseRest .region { x with script := some t } rest
    | none =>
      match region? s with
      | some t => parseRest .variant { x with region := some t } rest
      | none =>
        match variant? s with
        | some t => parseRest .variant { x with variants := [t] } rest
        | none => .error .invalidSubtag
  | .region, x, s :: rest =>
    match region? s with
    | some t => parseRest .variant { x with region := some t } rest
    | none =>
      match variant? s with
      | some t => parseRest .variant { x with variants := [t] } rest
      | none => .error .invalidSubtag
  | .variant, x, s :: rest =>
    match variant? s with
    | some t =>
      match insertVariant t x.variants with
      | some vs => parseRest .variant { x with variants := vs } rest
      | none => .error .invalidSubtag
    | none => .error .invalidSubtag

/-- `LanguageIdentifier::try_from_bytes`. -/
def parse (q : Str) : Except ParserError Identifier :=
  match subtags q with
  | [] => .error .invalidLanguage
  | s :: rest =>
    match language? s with
    | none => .error .invalidLanguage
    | some l => parseRest .script { language := l, script := none, region := none, variants := [] } rest

/-- The subtags of an identifier, in the order they are written. -/
def Identifier.parts (x : Identifier) : List Str :=
  x.language :: (x.script.toList ++ x.region.toList ++ x.variants)

/-- Subtags separated by hyphens. -/
def join : List Str → Str
  | [] => []
  | [s] => s
  | s :: ss => s ++ '-' :: join ss

/-- `Writeable for LanguageIdentifier`. -/
def Identifier.text (x : Identifier) : Str := join x.parts

/-- `LanguageIdentifier::canonicalize`. -/
def canonicalize (q : Str) : Except ParserError Str :=
  match parse q with
  | .ok x => .ok x.text
  | .error e => .error e

/-! ### Which type is used -/

/-- The features that crates/utility/Cargo.toml:24-26 declares. -/
inductive Feature where
  | sync | icuExtended
  deriving DecidableEq, Repr

/-- The names of the features. -/
def Feature.name : Feature → Str
  | .sync => "sync".toList
  | .icuExtended => "icu_extended".toList

/-- `cfg(feature = …)`. -/
def enabled (features : List Feature) (name : Str) : Bool := features.any fun f => f.name = name

/-- `IcuLanguage::canonicalize`, crates/utility/src/language.rs:8-12 and 181: the type is chosen by the feature `extend`,
which does not exist. `locale` is `Locale::canonicalize`. -/
def icuCanonicalize (features : List Feature) (locale : Str → Except ParserError Str) : Str → Except ParserError Str :=
  if enabled features "extend".toList then locale else canonicalize

end Verif.Tag
