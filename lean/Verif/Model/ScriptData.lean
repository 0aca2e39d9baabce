import Verif.Model.Script
import Verif.Model.LanguageTag
import Verif.Model.Outcome
import Verif.Model.Shipped
/-
Data of scripts: /repo/crates/localiser/src/script.rs, `ScriptData` of /repo/crates/utility/src/script.rs:107-138, and
`get_script_data` of /repo/crates/localiser/src/localiser.rs:1314-1352.
-/
namespace Verif.Scripts
open Verif

/-- `Category`, crates/utility/src/script.rs:108-117. -/
inductive Category where
  | logographic | alphabetic | abugida | abjad | syllabic | ideographic | special
  deriving DecidableEq, Repr

/-- `ScriptData`, crates/utility/src/script.rs:133-138. -/
structure ScriptData where
  category : Category
  directions : List ScriptDirection
  historic : Bool
  deriving DecidableEq, Repr

/-- The insertions of `DataProvider::new` in their order, crates/localiser/src/script.rs:12-1586. -/
def insertions : List (Str × ScriptData) := [
  (chars! "Adlm", ⟨.alphabetic, [.topToBottomRightToLeft], false⟩),
  (chars! "Aghb", ⟨.alphabetic, [.topToBottomLeftToRight], true⟩),
  (chars! "Ahom", ⟨.abugida, [.topToBottomLeftToRight], true⟩),
  (chars! "Arab", ⟨.abjad, [.topToBottomRightToLeft], false⟩),
  (chars! "Armi", ⟨.abjad, [.topToBottomRightToLeft], true⟩),
  (chars! "Armn", ⟨.alphabetic, [.topToBottomRightToLeft], false⟩),
  (chars! "Avst", ⟨.alphabetic, [.topToBottomRightToLeft], true⟩),
  (chars! "Bali", ⟨.abugida, [.topToBottomLeftToRight], false⟩),
  (chars! "Bamu", ⟨.syllabic, [.topToBottomLeftToRight], false⟩),
  (chars! "Bass", ⟨.alphabetic, [.topToBottomLeftToRight], true⟩),
  (chars! "Batk", ⟨.abugida, [.topToBottomLeftToRight], false⟩),
  (chars! "Beng", ⟨.abugida, [.topToBottomLeftToRight], false⟩),
  (chars! "Bhks", ⟨.abugida, [.topToBottomLeftToRight], true⟩),
  (chars! "Bopo", ⟨.alphabetic, [.topToBottomLeftToRight, .topToBottomRightToLeft], false⟩),
  (chars! "Brah", ⟨.abugida, [.topToBottomLeftToRight], true⟩),
  (chars! "Brai", ⟨.alphabetic, [.topToBottomLeftToRight], false⟩),
  (chars! "Bugi", ⟨.abugida, [.topToBottomLeftToRight], false⟩),
  (chars! "Buhd", ⟨.abugida, [.topToBottomLeftToRight], false⟩),
  (chars! "Cakm", ⟨.abugida, [.topToBottomLeftToRight], false⟩),
  (chars! "Cans", ⟨.abugida, [.topToBottomLeftToRight], false⟩),
  (chars! "Cari", ⟨.alphabetic, [.topToBottomLeftToRight, .topToBottomRightToLeft], true⟩),
  (chars! "Cham", ⟨.abugida, [.topToBottomLeftToRight], false⟩),
  (chars! "Cher", ⟨.syllabic, [.topToBottomLeftToRight], false⟩),
  (chars! "Chrs", ⟨.abjad, [.topToBottomRightToLeft], true⟩),
  (chars! "Copt", ⟨.alphabetic, [.topToBottomLeftToRight], true⟩),
  (chars! "Cpmn", ⟨.syllabic, [.topToBottomLeftToRight], true⟩),
  (chars! "Cprt", ⟨.syllabic, [.topToBottomRightToLeft], true⟩),
  (chars! "Cyrl", ⟨.alphabetic, [.topToBottomLeftToRight], false⟩),
  (chars! "Cyrs", ⟨.alphabetic, [.topToBottomLeftToRight], false⟩),
  (chars! "Deva", ⟨.abugida, [.topToBottomLeftToRight], false⟩),
  (chars! "Diak", ⟨.abugida, [.topToBottomLeftToRight], true⟩),
  (chars! "Dogr", ⟨.abugida, [.topToBottomLeftToRight], true⟩),
  (chars! "Dsrt", ⟨.alphabetic, [.topToBottomLeftToRight], false⟩),
  (chars! "Dupl", ⟨.special, [.topToBottomLeftToRight], false⟩),
  (chars! "Egyp", ⟨.logographic, [.topToBottomLeftToRight, .topToBottomRightToLeft], true⟩),
  (chars! "Elba", ⟨.alphabetic, [.topToBottomLeftToRight], true⟩),
  (chars! "Elym", ⟨.abjad, [.topToBottomRightToLeft], true⟩),
  (chars! "Ethi", ⟨.abugida, [.topToBottomLeftToRight], true⟩),
  (chars! "Gara", ⟨.alphabetic, [.topToBottomRightToLeft], false⟩),
  (chars! "Geok", ⟨.alphabetic, [.topToBottomLeftToRight], false⟩),
  (chars! "Geor", ⟨.alphabetic, [.topToBottomLeftToRight], false⟩),
  (chars! "Glag", ⟨.alphabetic, [.topToBottomLeftToRight], true⟩),
  (chars! "Gong", ⟨.abugida, [.topToBottomLeftToRight], false⟩),
  (chars! "Gonm", ⟨.abugida, [.topToBottomLeftToRight], false⟩),
  (chars! "Goth", ⟨.alphabetic, [.topToBottomLeftToRight], true⟩),
  (chars! "Gran", ⟨.abugida, [.topToBottomLeftToRight], false⟩),
  (chars! "Grek", ⟨.alphabetic, [.topToBottomLeftToRight, .topToBottomRightToLeft], false⟩),
  (chars! "Gujr", ⟨.abugida, [.topToBottomLeftToRight], false⟩),
  (chars! "Gukn", ⟨.abugida, [.topToBottomLeftToRight], false⟩),
  (chars! "Guru", ⟨.abugida, [.topToBottomLeftToRight], false⟩),
  (chars! "Hanb", ⟨.logographic, [.topToBottomLeftToRight, .topToBottomRightToLeft, .rightToLeftTopToBottom, .leftToRightTopToBottom], false⟩),
  (chars! "Hang", ⟨.alphabetic, [.rightToLeftTopToBottom, .topToBottomLeftToRight, .leftToRightTopToBottom], false⟩),
  (chars! "Hani", ⟨.logographic, [.rightToLeftTopToBottom, .topToBottomLeftToRight], false⟩),
  (chars! "Hano", ⟨.abugida, [.bottomToTopLeftToRight, .bottomToTopRightToLeft, .topToBottomLeftToRight], false⟩),
  (chars! "Hans", ⟨.logographic, [.rightToLeftTopToBottom, .topToBottomLeftToRight], false⟩),
  (chars! "Hant", ⟨.logographic, [.rightToLeftTopToBottom, .topToBottomLeftToRight], false⟩),
  (chars! "Hatr", ⟨.abjad, [.topToBottomRightToLeft], true⟩),
  (chars! "Hebr", ⟨.abjad, [.topToBottomRightToLeft], false⟩),
  (chars! "Hira", ⟨.syllabic, [.rightToLeftTopToBottom, .topToBottomLeftToRight], false⟩),
  (chars! "Hluw", ⟨.logographic, [.topToBottomLeftToRight, .topToBottomRightToLeft, .leftToRightTopToBottom], true⟩),
  (chars! "Hmng", ⟨.syllabic, [.topToBottomLeftToRight], false⟩),
  (chars! "Hmnp", ⟨.syllabic, [.topToBottomLeftToRight], false⟩),
  (chars! "Hikt", ⟨.syllabic, [.rightToLeftTopToBottom, .topToBottomLeftToRight], false⟩),
  (chars! "Hung", ⟨.alphabetic, [.topToBottomRightToLeft], true⟩),
  (chars! "Ital", ⟨.alphabetic, [.topToBottomRightToLeft, .topToBottomLeftToRight], true⟩),
  (chars! "Jamo", ⟨.alphabetic, [.rightToLeftTopToBottom, .topToBottomLeftToRight], false⟩),
  (chars! "Java", ⟨.abugida, [.topToBottomLeftToRight], false⟩),
  (chars! "Jpan", ⟨.syllabic, [.rightToLeftTopToBottom, .topToBottomLeftToRight], false⟩),
  (chars! "Kali", ⟨.alphabetic, [.topToBottomLeftToRight], false⟩),
  (chars! "Kana", ⟨.syllabic, [.rightToLeftTopToBottom, .topToBottomLeftToRight], false⟩),
  (chars! "Kawi", ⟨.abugida, [.topToBottomLeftToRight], true⟩),
  (chars! "Khar", ⟨.abugida, [.topToBottomRightToLeft], true⟩),
  (chars! "Khmr", ⟨.abugida, [.topToBottomLeftToRight], false⟩),
  (chars! "Khoj", ⟨.abugida, [.topToBottomRightToLeft], true⟩),
  (chars! "Kits", ⟨.logographic, [.rightToLeftTopToBottom], true⟩),
  (chars! "Knda", ⟨.abugida, [.topToBottomRightToLeft], true⟩),
  (chars! "Kore", ⟨.alphabetic, [.rightToLeftTopToBottom, .topToBottomLeftToRight, .leftToRightTopToBottom], false⟩),
  (chars! "Krai", ⟨.abugida, [.topToBottomLeftToRight], false⟩),
  (chars! "Kthi", ⟨.abugida, [.topToBottomRightToLeft], true⟩),
  (chars! "Lana", ⟨.abugida, [.topToBottomLeftToRight], false⟩),
  (chars! "Laoo", ⟨.abugida, [.topToBottomLeftToRight], false⟩),
  (chars! "Latf", ⟨.alphabetic, [.topToBottomLeftToRight], false⟩),
  (chars! "Latg", ⟨.alphabetic, [.topToBottomLeftToRight], false⟩),
  (chars! "Latn", ⟨.alphabetic, [.topToBottomLeftToRight], false⟩),
  (chars! "Lepc", ⟨.abugida, [.topToBottomLeftToRight], false⟩),
  (chars! "Limb", ⟨.abugida, [.topToBottomLeftToRight], false⟩),
  (chars! "Lina", ⟨.syllabic, [.topToBottomLeftToRight], true⟩),
  (chars! "Linb", ⟨.syllabic, [.topToBottomLeftToRight], true⟩),
  (chars! "Lisu", ⟨.alphabetic, [.topToBottomLeftToRight], false⟩),
  (chars! "Lyci", ⟨.alphabetic, [.topToBottomLeftToRight], true⟩),
  (chars! "Lydi", ⟨.alphabetic, [.topToBottomRightToLeft], true⟩),
  (chars! "Mahj", ⟨.abugida, [.topToBottomLeftToRight], true⟩),
  (chars! "Maka", ⟨.abugida, [.topToBottomLeftToRight], true⟩),
  (chars! "Mand", ⟨.alphabetic, [.topToBottomRightToLeft], false⟩),
  (chars! "Mani", ⟨.abjad, [.topToBottomRightToLeft], true⟩),
  (chars! "Marc", ⟨.abugida, [.topToBottomLeftToRight], true⟩),
  (chars! "Medf", ⟨.alphabetic, [.topToBottomLeftToRight], false⟩),
  (chars! "Mend", ⟨.syllabic, [.topToBottomRightToLeft], false⟩),
  (chars! "Merc", ⟨.abugida, [.topToBottomRightToLeft], true⟩),
  (chars! "Mero", ⟨.abugida, [.topToBottomRightToLeft], true⟩),
  (chars! "Mlym", ⟨.abugida, [.topToBottomLeftToRight], false⟩),
  (chars! "Modi", ⟨.abugida, [.topToBottomLeftToRight], true⟩),
  (chars! "Mong", ⟨.alphabetic, [.leftToRightTopToBottom, .topToBottomLeftToRight], false⟩),
  (chars! "Mroo", ⟨.alphabetic, [.topToBottomLeftToRight], false⟩),
  (chars! "Mtei", ⟨.abugida, [.topToBottomLeftToRight], false⟩),
  (chars! "Mult", ⟨.abugida, [.topToBottomLeftToRight], true⟩),
  (chars! "Mymr", ⟨.abugida, [.topToBottomLeftToRight], false⟩),
  (chars! "Nagm", ⟨.alphabetic, [.topToBottomLeftToRight], false⟩),
  (chars! "Nand", ⟨.abugida, [.topToBottomLeftToRight], true⟩),
  (chars! "Narb", ⟨.abjad, [.topToBottomRightToLeft], true⟩),
  (chars! "Nbat", ⟨.abjad, [.topToBottomRightToLeft], true⟩),
  (chars! "Newa", ⟨.abugida, [.topToBottomLeftToRight], true⟩),
  (chars! "Nkoo", ⟨.alphabetic, [.topToBottomRightToLeft], false⟩),
  (chars! "Nshu", ⟨.syllabic, [.rightToLeftTopToBottom], true⟩),
  (chars! "Ogam", ⟨.alphabetic, [.bottomToTopLeftToRight, .topToBottomLeftToRight], true⟩),
  (chars! "Olck", ⟨.alphabetic, [.topToBottomLeftToRight], false⟩),
  (chars! "Onao", ⟨.alphabetic, [.topToBottomLeftToRight], false⟩),
  (chars! "Orkh", ⟨.alphabetic, [.topToBottomRightToLeft], true⟩),
  (chars! "Orya", ⟨.abugida, [.topToBottomLeftToRight], false⟩),
  (chars! "Osge", ⟨.alphabetic, [.topToBottomLeftToRight], false⟩),
  (chars! "Osma", ⟨.alphabetic, [.topToBottomLeftToRight], true⟩),
  (chars! "Ougr", ⟨.alphabetic, [.leftToRightTopToBottom, .topToBottomRightToLeft], true⟩),
  (chars! "Palm", ⟨.abjad, [.topToBottomRightToLeft], true⟩),
  (chars! "Pauc", ⟨.alphabetic, [.topToBottomLeftToRight], true⟩),
  (chars! "Perm", ⟨.alphabetic, [.topToBottomLeftToRight], true⟩),
  (chars! "Phag", ⟨.alphabetic, [.leftToRightTopToBottom], true⟩),
  (chars! "Phli", ⟨.abjad, [.topToBottomRightToLeft], true⟩),
  (chars! "Phlp", ⟨.abjad, [.topToBottomRightToLeft], true⟩),
  (chars! "Phlv", ⟨.abjad, [.topToBottomRightToLeft], true⟩),
  (chars! "Phnx", ⟨.abjad, [.topToBottomRightToLeft], true⟩),
  (chars! "Plrd", ⟨.abugida, [.topToBottomLeftToRight], false⟩),
  (chars! "Prti", ⟨.abjad, [.topToBottomRightToLeft], true⟩),
  (chars! "Rjng", ⟨.abugida, [.topToBottomLeftToRight], false⟩),
  (chars! "Rohg", ⟨.alphabetic, [.topToBottomRightToLeft], false⟩),
  (chars! "Runr", ⟨.alphabetic, [.topToBottomLeftToRight, .topToBottomRightToLeft], true⟩),
  (chars! "Samr", ⟨.abjad, [.topToBottomRightToLeft], true⟩),
  (chars! "Sarb", ⟨.abjad, [.topToBottomRightToLeft], true⟩),
  (chars! "Saur", ⟨.abugida, [.topToBottomLeftToRight], false⟩),
  (chars! "Sgnw", ⟨.logographic, [.topToBottomLeftToRight, .leftToRightTopToBottom], false⟩),
  (chars! "Shaw", ⟨.alphabetic, [.topToBottomLeftToRight], false⟩),
  (chars! "Shrd", ⟨.abugida, [.topToBottomLeftToRight], false⟩),
  (chars! "Sidd", ⟨.abugida, [.topToBottomLeftToRight], true⟩),
  (chars! "Shrd", ⟨.abugida, [.topToBottomLeftToRight], false⟩),
  (chars! "Sind", ⟨.abugida, [.topToBottomLeftToRight], false⟩),
  (chars! "Sinh", ⟨.abugida, [.topToBottomLeftToRight], false⟩),
  (chars! "Sogd", ⟨.abjad, [.leftToRightTopToBottom, .topToBottomRightToLeft], true⟩),
  (chars! "Sogo", ⟨.abjad, [.leftToRightTopToBottom, .topToBottomRightToLeft], true⟩),
  (chars! "Sora", ⟨.alphabetic, [.topToBottomLeftToRight], false⟩),
  (chars! "Soyo", ⟨.abugida, [.topToBottomLeftToRight], true⟩),
  (chars! "Sund", ⟨.abugida, [.topToBottomLeftToRight], false⟩),
  (chars! "Sunu", ⟨.alphabetic, [.topToBottomLeftToRight], false⟩),
  (chars! "Sylo", ⟨.abugida, [.topToBottomLeftToRight], false⟩),
  (chars! "Syrc", ⟨.abjad, [.topToBottomRightToLeft], false⟩),
  (chars! "Syre", ⟨.abjad, [.topToBottomRightToLeft], false⟩),
  (chars! "Syrj", ⟨.abjad, [.topToBottomRightToLeft], false⟩),
  (chars! "Syrn", ⟨.abjad, [.topToBottomRightToLeft], false⟩),
  (chars! "Tagb", ⟨.abugida, [.topToBottomLeftToRight], false⟩),
  (chars! "Takr", ⟨.abugida, [.topToBottomLeftToRight], false⟩),
  (chars! "Tale", ⟨.abugida, [.topToBottomLeftToRight], false⟩),
  (chars! "Talu", ⟨.abugida, [.topToBottomLeftToRight], false⟩),
  (chars! "Taml", ⟨.abugida, [.topToBottomLeftToRight], false⟩),
  (chars! "Tang", ⟨.logographic, [.rightToLeftTopToBottom, .topToBottomLeftToRight], true⟩),
  (chars! "Tavt", ⟨.abugida, [.topToBottomLeftToRight], false⟩),
  (chars! "Tayo", ⟨.abugida, [.rightToLeftTopToBottom, .topToBottomLeftToRight], true⟩),
  (chars! "Telu", ⟨.abugida, [.topToBottomLeftToRight], false⟩),
  (chars! "Tfng", ⟨.abjad, [.rightToLeftBottomToTop, .rightToLeftTopToBottom, .bottomToTopRightToLeft, .topToBottomRightToLeft, .topToBottomLeftToRight], false⟩),
  (chars! "Tglg", ⟨.abugida, [.topToBottomLeftToRight], false⟩),
  (chars! "Thaa", ⟨.abugida, [.topToBottomRightToLeft], false⟩),
  (chars! "Thai", ⟨.abugida, [.topToBottomLeftToRight], false⟩),
  (chars! "Tibt", ⟨.abugida, [.topToBottomLeftToRight], false⟩),
  (chars! "Tirh", ⟨.abugida, [.topToBottomLeftToRight], false⟩),
  (chars! "Tnsa", ⟨.alphabetic, [.topToBottomLeftToRight], false⟩),
  (chars! "Todr", ⟨.alphabetic, [.topToBottomRightToLeft], false⟩),
  (chars! "Toto", ⟨.alphabetic, [.topToBottomLeftToRight], false⟩),
  (chars! "Tutg", ⟨.abugida, [.topToBottomLeftToRight], false⟩),
  (chars! "Ugar", ⟨.abjad, [.topToBottomLeftToRight], true⟩),
  (chars! "Vaii", ⟨.syllabic, [.topToBottomLeftToRight], false⟩),
  (chars! "Vith", ⟨.alphabetic, [.topToBottomLeftToRight], true⟩),
  (chars! "Wara", ⟨.alphabetic, [.topToBottomLeftToRight], false⟩),
  (chars! "Wcho", ⟨.alphabetic, [.topToBottomLeftToRight], false⟩),
  (chars! "Xpeo", ⟨.syllabic, [.topToBottomLeftToRight], true⟩),
  (chars! "Xsux", ⟨.logographic, [.topToBottomLeftToRight], true⟩),
  (chars! "Yezi", ⟨.abjad, [.topToBottomRightToLeft], false⟩),
  (chars! "Yezi", ⟨.syllabic, [.topToBottomRightToLeft], false⟩),
  (chars! "Zand", ⟨.abugida, [.topToBottomLeftToRight], true⟩)]

/-- `DataProvider::new`, crates/localiser/src/script.rs:12-1587. -/
def provider : AMap Str ScriptData := insertions.foldl (fun m e => m.insert e.1 e.2) []

/-- `LocaleExpander::maximize`, icu_locid_transform: whether the identifier was modified, and what it is then. -/
abbrev Expander := Tag.Identifier → Bool × Tag.Identifier

/-- `get_script_data`, crates/localiser/src/localiser.rs:1314-1352. `parse` is `Locale::try_from_bytes` (of which only the
identifier is used) or `LanguageIdentifier::try_from_bytes`; the two variants for the feature `icu_extended` do the same. -/
def getScriptData (parse : Str → Option Tag.Identifier) (expander : Expander) (table : AMap Str ScriptData) (tag : Str) :
    Outcome Unit (Option ScriptData) := do
  let x ← Outcome.unwrap (parse tag)
  match x.script with
  | some s => pure (table.get s)
  | none =>
    match expander x with
    | (true, y) => do
      let s ← Outcome.unwrap y.script
      pure (table.get s)
    | (false, _) => pure none

end Verif.Scripts
