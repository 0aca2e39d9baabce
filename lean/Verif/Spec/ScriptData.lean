import Verif.Model.ScriptData
/-
Scripts, independent of the table: which codes there are, and which are written from right to left.
-/
namespace Verif.Spec
open Verif Verif.Scripts

/-- The code has these data: of several insertions the last counts. -/
def Entry (insertions : List (Str × ScriptData)) (code : Str) (d : ScriptData) : Prop :=
  ∃ before later, insertions = before ++ (code, d) :: later ∧ ∀ e ∈ later, e.1 ≠ code

/-- The expander knows the likely scripts: it modifies an identifier without script exactly if a likely script is known,
and then adds that script. -/
def KnowsLikely (expander : Expander) (likely : Tag.Identifier → Option Str) : Prop :=
  ∀ x, x.script = none →
    match likely x with
    | some s => (expander x).1 = true ∧ (expander x).2.script = some s
    | none => (expander x).1 = false

/-- The script of a language identifier: the one it names, else the likely one. -/
inductive HasScript (likely : Tag.Identifier → Option Str) (x : Tag.Identifier) (s : Str) : Prop
  | named : x.script = some s → HasScript likely x s
  | likely : x.script = none → likely x = some s → HasScript likely x s

/-- ISO 15924, the registered codes of scripts (without those for private use, `Qaaa` to `Qabx`). -/
def registered : List Str := [
  chars! "Adlm", chars! "Afak", chars! "Aghb", chars! "Ahom", chars! "Arab", chars! "Aran", chars! "Armi",
  chars! "Armn", chars! "Avst", chars! "Bali", chars! "Bamu", chars! "Bass", chars! "Batk", chars! "Beng",
  chars! "Berf", chars! "Bhks", chars! "Blis", chars! "Bopo", chars! "Brah", chars! "Brai", chars! "Bugi",
  chars! "Buhd", chars! "Cakm", chars! "Cans", chars! "Cari", chars! "Cham", chars! "Cher", chars! "Chis",
  chars! "Chrs", chars! "Cirt", chars! "Copt", chars! "Cpmn", chars! "Cprt", chars! "Cyrl", chars! "Cyrs",
  chars! "Deva", chars! "Diak", chars! "Dogr", chars! "Dsrt", chars! "Dupl", chars! "Egyd", chars! "Egyh",
  chars! "Egyp", chars! "Elba", chars! "Elym", chars! "Ethi", chars! "Gara", chars! "Geok", chars! "Geor",
  chars! "Glag", chars! "Gong", chars! "Gonm", chars! "Goth", chars! "Gran", chars! "Grek", chars! "Gujr",
  chars! "Gukh", chars! "Guru", chars! "Hanb", chars! "Hang", chars! "Hani", chars! "Hano", chars! "Hans",
  chars! "Hant", chars! "Hatr", chars! "Hebr", chars! "Hira", chars! "Hluw", chars! "Hmng", chars! "Hmnp",
  chars! "Hntl", chars! "Hrkt", chars! "Hung", chars! "Inds", chars! "Ital", chars! "Jamo", chars! "Java",
  chars! "Jpan", chars! "Jurc", chars! "Kali", chars! "Kana", chars! "Kawi", chars! "Khar", chars! "Khmr",
  chars! "Khoj", chars! "Kitl", chars! "Kits", chars! "Knda", chars! "Kore", chars! "Kpel", chars! "Krai",
  chars! "Kthi", chars! "Lana", chars! "Laoo", chars! "Latf", chars! "Latg", chars! "Latn", chars! "Leke",
  chars! "Lepc", chars! "Limb", chars! "Lina", chars! "Linb", chars! "Lisu", chars! "Loma", chars! "Lyci",
  chars! "Lydi", chars! "Mahj", chars! "Maka", chars! "Mand", chars! "Mani", chars! "Marc", chars! "Maya",
  chars! "Medf", chars! "Mend", chars! "Merc", chars! "Mero", chars! "Mlym", chars! "Modi", chars! "Mong",
  chars! "Moon", chars! "Mroo", chars! "Mtei", chars! "Mult", chars! "Mymr", chars! "Nagm", chars! "Nand",
  chars! "Narb", chars! "Nbat", chars! "Newa", chars! "Nkdb", chars! "Nkgb", chars! "Nkoo", chars! "Nshu",
  chars! "Ogam", chars! "Olck", chars! "Onao", chars! "Orkh", chars! "Orya", chars! "Osge", chars! "Osma",
  chars! "Ougr", chars! "Palm", chars! "Pauc", chars! "Pcun", chars! "Pelm", chars! "Perm", chars! "Phag",
  chars! "Phli", chars! "Phlp", chars! "Phlv", chars! "Phnx", chars! "Piqd", chars! "Plrd", chars! "Prti",
  chars! "Psin", chars! "Ranj", chars! "Rjng", chars! "Rohg", chars! "Roro", chars! "Runr", chars! "Samr",
  chars! "Sara", chars! "Sarb", chars! "Saur", chars! "Seal", chars! "Sgnw", chars! "Shaw", chars! "Shrd",
  chars! "Shui", chars! "Sidd", chars! "Sidt", chars! "Sind", chars! "Sinh", chars! "Sogd", chars! "Sogo",
  chars! "Sora", chars! "Soyo", chars! "Sund", chars! "Sunu", chars! "Sylo", chars! "Syrc", chars! "Syre",
  chars! "Syrj", chars! "Syrn", chars! "Tagb", chars! "Takr", chars! "Tale", chars! "Talu", chars! "Taml",
  chars! "Tang", chars! "Tavt", chars! "Tayo", chars! "Telu", chars! "Teng", chars! "Tfng", chars! "Tglg",
  chars! "Thaa", chars! "Thai", chars! "Tibt", chars! "Tirh", chars! "Tnsa", chars! "Todr", chars! "Tols",
  chars! "Toto", chars! "Tutg", chars! "Ugar", chars! "Vaii", chars! "Visp", chars! "Vith", chars! "Wara",
  chars! "Wcho", chars! "Wole", chars! "Xpeo", chars! "Xsux", chars! "Yezi", chars! "Yiii", chars! "Zanb",
  chars! "Zinh", chars! "Zmth", chars! "Zsye", chars! "Zsym", chars! "Zxxx", chars! "Zyyy", chars! "Zzzz"]

/-- The scripts that are written from right to left (the strong letters of which have bidirectional class R or AL in the
Unicode character database; the variants of Arabic, Syriac and Pahlavi included). -/
def rightToLeft : List Str := [
  chars! "Adlm", chars! "Arab", chars! "Aran", chars! "Armi", chars! "Avst", chars! "Chrs", chars! "Cprt",
  chars! "Elym", chars! "Gara", chars! "Hatr", chars! "Hebr", chars! "Hung", chars! "Khar", chars! "Lydi",
  chars! "Mand", chars! "Mani", chars! "Mend", chars! "Merc", chars! "Mero", chars! "Narb", chars! "Nbat",
  chars! "Nkoo", chars! "Orkh", chars! "Ougr", chars! "Palm", chars! "Phli", chars! "Phlp", chars! "Phlv",
  chars! "Phnx", chars! "Prti", chars! "Rohg", chars! "Samr", chars! "Sarb", chars! "Sidt", chars! "Sogd",
  chars! "Sogo", chars! "Syrc", chars! "Syre", chars! "Syrj", chars! "Syrn", chars! "Thaa", chars! "Yezi"]

end Verif.Spec
