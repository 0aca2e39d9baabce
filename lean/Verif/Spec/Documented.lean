import Verif.Spec.Format
/-
Variants of the meaning of pattern strings: which named string a selector stands for, and number signs bound to the
plural pattern that selected the string.
-/
namespace Verif.Spec
open Verif

variable {D F : Type}

/-- How a selector is resolved: given the listed pairs category#branch and the wanted category, the named string. -/
structure Policy where
  plural : List (Str × Str) → Str → Option Str
  select : List (Str × Str) → Str → Option Str

/-- The category itself is the name of the string. -/
def listed (sels : List (Str × Str)) (c : Str) : Option Str := if c ∈ sels.map Prod.fst then some c else none

/-- The branch listed with the category. -/
def branchOf (sels : List (Str × Str)) (c : Str) : Option Str := (sels.find? fun s => s.1 == c).map Prod.snd

/-- The category is the name of the string. -/
def byCategory : Policy := ⟨listed, listed⟩

/-- The branch is the name of the string (crates/localiser/docs/pattern strings.asciidoc). -/
def byBranch : Policy := ⟨branchOf, branchOf⟩

/-- The category is the name of the string, `other` where the category is not listed. -/
def withFallback : Policy :=
  ⟨fun sels c => match listed sels c with
    | some b => some b
    | none => listed sels "other".toList, listed⟩

/-- The pairs category#branch. -/
def pairs (sels : List (Leaf × Leaf)) : List (Str × Str) := sels.map fun s => (s.1.str, s.2.str)

/-- Plural and ordinal patterns under a policy. The string is formatted with the number as the meaning of its number
signs. -/
def evalPluralP (P : Policy) (X : Icu4x D F) (lang : Str) (rules : Except FormatterError (D → PluralCategory))
    (number : Option D) (sels : List (Str × Str)) (sub : Str → Option Str → Store → Res) (st : Store) : Res :=
  match rules, number, X.decimal lang none with
  | .ok category, some d, .ok format =>
    match P.plural sels (categoryName (category d)) with
    | some b => sub b (some (format d)) (st.put b (format d))
    | none => (some (.err ()), st)
  | _, _, _ => (some (.err ()), st)

/-- Select patterns under a policy. -/
def evalSelectP (P : Policy) (text : Option Str) (sels : List (Str × Str)) (sub : Str → Option Str → Store → Res)
    (st : Store) : Res :=
  match text with
  | some s =>
    match P.select sels s with
    | some b => if b = mainName then (none, st) else sub b none st
    | none => (some (.err ()), st)
  | none => (some (.err ()), st)

/-- The meaning of an item under a policy; `num` is the number that selected this string, if any. -/
def evalItemP (P : Policy) (E : FmtEnv D F) (lang : Str) (values : AMap Str (PValue D F)) (self : Str)
    (num : Option Str) (sub : Str → Option Str → Store → Res) (item : Item) (st : Store) : Res :=
  match item with
  | .number _ => (some (.ok (num.getD (st self))), st)
  | .pat id (some (k, sels)) =>
    match values.get id.str with
    | none => (some (.err ()), st)
    | some v =>
      if k.str = "decimal".toList then (some (showDecimal E.icu4x lang v), st)
      else if k.str = "date_time".toList then (some (showDateTime E.icu4x lang v), st)
      else if k.str = "ordinal".toList then
        evalPluralP P E.icu4x lang (E.icu4x.ordinal lang) (ordinalOf E.icu4x v) (pairs sels) sub st
      else if k.str = "plural".toList then
        evalPluralP P E.icu4x lang (E.icu4x.cardinal lang) (numberOf E.icu4x v) (pairs sels) sub st
      else evalSelectP P (textOf v) (pairs sels) sub st
  | item => evalItem E lang values self (fun name st => sub name none st) item st

/-- Items from left to right. -/
def evalItemsP (P : Policy) (E : FmtEnv D F) (lang : Str) (values : AMap Str (PValue D F)) (self : Str)
    (num : Option Str) (sub : Str → Option Str → Store → Res) : List Item → Store → Res
  | [], st => (some (.ok []), st)
  | it :: rest, st =>
    match evalItemP P E lang values self num sub it st with
    | (some (.ok s), st) =>
      match evalItemsP P E lang values self num sub rest st with
      | (some (.ok s'), st) => (some (.ok (s ++ s')), st)
      | r => r
    | r => r

/-- Named strings, latest first. -/
def evalNamedP (P : Policy) (E : FmtEnv D F) (lang : Str) (values : AMap Str (PValue D F)) :
    List Named → Str → Option Str → Store → Res
  | [], _, _, st => (some (.err ()), st)
  | n :: before, name, num, st =>
    if n.name = name then evalItemsP P E lang values name num (evalNamedP P E lang values before) n.items st
    else evalNamedP P E lang values before name num st

/-- The meaning of a pattern string under a policy. -/
def Doc.evalP (P : Policy) (E : FmtEnv D F) (lang : Str) (values : AMap Str (PValue D F)) (d : Doc) (st : Store) : Res :=
  evalItemsP P E lang values mainName none (evalNamedP P E lang values d.named.reverse) d.main st

/-! ### Conditions on pattern strings -/

/-- All items of a pattern string. -/
def Doc.items (d : Doc) : List Item := d.main ++ d.named.flatMap Named.items

/-- Every branch has the name of its category. -/
def BranchIsCategory (d : Doc) : Prop :=
  ∀ id k sels, Item.pat id (some (k, sels)) ∈ d.items → ∀ s ∈ sels, s.2.str = s.1.str

/-- The category of the value is listed in every plural and ordinal pattern. -/
def CategoriesListed (E : FmtEnv D F) (lang : Str) (values : AMap Str (PValue D F)) (d : Doc) : Prop :=
  ∀ id k sels, Item.pat id (some (k, sels)) ∈ d.items →
    (k.str = "plural".toList → ∀ v n category, values.get id.str = some v → numberOf E.icu4x v = some n →
      E.icu4x.cardinal lang = .ok category → categoryName (category n) ∈ (pairs sels).map Prod.fst) ∧
    (k.str = "ordinal".toList → ∀ v n category, values.get id.str = some v → ordinalOf E.icu4x v = some n →
      E.icu4x.ordinal lang = .ok category → categoryName (category n) ∈ (pairs sels).map Prod.fst)

/-- No select pattern lists the name of the main string. -/
def NoMainSelected (d : Doc) : Prop :=
  ∀ id k sels, Item.pat id (some (k, sels)) ∈ d.items → k.str = "select".toList → mainName ∉ (pairs sels).map Prod.fst

/-- No select pattern lists a named string with number signs. -/
def SelectsWithoutNumbers (d : Doc) : Prop :=
  ∀ id k sels, Item.pat id (some (k, sels)) ∈ d.items → k.str = "select".toList →
    ∀ n ∈ d.named, n.name ∈ (pairs sels).map Prod.fst → ∀ l, Item.number l ∉ n.items

/-- Identifiers whose values an item uses. -/
def Item.mentions : Item → List Str
  | .pat id _ => [id.str]
  | .cmd (.ident _ :: .hash _ :: ps) => ps.map Part.str
  | _ => []

/-- Identifiers whose values a pattern string uses. -/
def Doc.mentions (d : Doc) : List Str := d.items.flatMap Item.mentions

/-- The name a pattern selects with the given values. -/
inductive Selects (E : FmtEnv D F) (lang : Str) (values : AMap Str (PValue D F)) : Item → Str → Prop
  | plural {id k sels v n category} : k.str = "plural".toList → values.get id.str = some v →
      numberOf E.icu4x v = some n → E.icu4x.cardinal lang = .ok category →
      Selects E lang values (.pat id (some (k, sels))) (categoryName (category n))
  | ordinal {id k sels v n category} : k.str = "ordinal".toList → values.get id.str = some v →
      ordinalOf E.icu4x v = some n → E.icu4x.ordinal lang = .ok category →
      Selects E lang values (.pat id (some (k, sels))) (categoryName (category n))
  | select {id k sels v s} : k.str = "select".toList → values.get id.str = some v → textOf v = some s →
      Selects E lang values (.pat id (some (k, sels))) s

/-- The items reached: those of the main string and of named strings selected by items reached. -/
inductive Reached (E : FmtEnv D F) (lang : Str) (values : AMap Str (PValue D F)) (d : Doc) : Item → Prop
  | main {it} : it ∈ d.main → Reached E lang values d it
  | named {it n it'} : Reached E lang values d it → Selects E lang values it n.name → n ∈ d.named → it' ∈ n.items →
      Reached E lang values d it'

/-- A select pattern that is reached selects this name. -/
def ByText (E : FmtEnv D F) (lang : Str) (values : AMap Str (PValue D F)) (d : Doc) (name : Str) : Prop :=
  ∃ id k sels, Reached E lang values d (.pat id (some (k, sels))) ∧ k.str = "select".toList ∧
    Selects E lang values (.pat id (some (k, sels))) name

/-- Named strings that a text selects and that have number signs. -/
def ByTextWithNumbers (E : FmtEnv D F) (lang : Str) (values : AMap Str (PValue D F)) (d : Doc) (name : Str) : Prop :=
  ByText E lang values d name ∧ ∃ n ∈ d.named, n.name = name ∧ ∃ l, Item.number l ∈ n.items

/-! ### Strings and histories -/

/-- The pattern string `s` is read as `d`: its tokens are a sentence with unique identifiers, and there is at least one
grammar character. -/
def Reads (E : FmtEnv D F) (s : Str) (d : Doc) : Prop :=
  ∃ ts, lex E.icu E.grammar s = .ok ts ∧ Sentence d ts ∧ d.patNames.Nodup ∧ d.namedNames.Nodup ∧
    ∃ t ∈ ts, t.tokenType = .grammar

/-- The formatter after calls of `format` with these values. -/
def after (E : FmtEnv D F) (f : Formatter) (history : List (AMap Str (PValue D F))) : Formatter :=
  history.foldl (fun f v => (f.format E v).2) f

/-- The numbers after calls with these values. -/
def Doc.storeAfter (E : FmtEnv D F) (lang : Str) (d : Doc) (history : List (AMap Str (PValue D F))) : Store :=
  history.foldl (fun st v => (d.eval E lang v st).2) Store.empty

/-- Every call of the history ended. (Whether a call ends does not depend on the numbers.) -/
def Ended (E : FmtEnv D F) (lang : Str) (d : Doc) (history : List (AMap Str (PValue D F))) : Prop :=
  ∀ v ∈ history, (d.eval E lang v Store.empty).1 ≠ none

/-- A result with the language tag. -/
def tagged (o : Outcome Unit Str) (tag : Str) : Outcome Unit (Str × Str) :=
  match o with
  | .ok s => .ok (s, tag)
  | .err e => .err e
  | .panic => .panic

end Verif.Spec
