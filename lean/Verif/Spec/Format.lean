import Verif.Spec.Values
import Verif.Spec.Grammar
/-
The meaning of pattern strings over their syntax (`Doc`), independent of the parse tree, of the numbered slots for
number signs and selector lists of the formatter, and of recursion depth.
-/
namespace Verif.Spec
open Verif

variable {D F : Type}

/-- The text of a token. -/
def Leaf.str (l : Leaf) : Str := l.tok.string

/-- The text of tokens. -/
def leafText (ls : List Leaf) : Str := (ls.map Leaf.str).flatten

def Part.str : Part → Str
  | .ident l => l.str
  | .hash l => l.str

/-- The name of a named string. -/
def Named.name (n : Named) : Str := n.id.str

/-- The named strings of a pattern string. -/
def Doc.named (d : Doc) : List Named := d.group.getD []

/-- For every named string the number that was last put in place of its number signs. -/
abbrev Store := Str → Str

/-- All numbers are empty at first. -/
def Store.empty : Store := fun _ => []

/-- Record the number for the named string. -/
def Store.put (st : Store) (name number : Str) : Store := fun n => if n = name then number else st n

/-- Result of formatting: text, failure or panic, and `none` if formatting never ends. -/
abbrev Res := Option (Outcome Unit Str) × Store

/-- Drop the details of an error. -/
def forget {ε α : Type} (x : Outcome ε α) : Outcome Unit α := x.mapErr fun _ => ()

/-- Run a command. -/
def runCommand (E : FmtEnv D F) (name : Str) (parameters : List (PValue D F)) : Outcome Unit Str :=
  match E.commands.get name with
  | some f => forget (f parameters)
  | none => .err ()

/-- A plural or ordinal pattern: the number selects a category, which must be listed; the number is recorded for the
named string of that name, which is then formatted by `sub`. -/
def evalPlural (X : Icu4x D F) (lang : Str) (rules : Except FormatterError (D → PluralCategory))
    (number : Option D) (keys : List Str) (sub : Str → Store → Res) (st : Store) : Res :=
  match rules, number, X.decimal lang none with
  | .ok category, some d, .ok format =>
    let name := categoryName (category d)
    if name ∈ keys then sub name (st.put name (format d)) else (some (.err ()), st)
  | _, _, _ => (some (.err ()), st)

/-- A select pattern: the text selects one of the listed names. The name `_` stands for the whole main string, which
then never ends. -/
def evalSelect (text : Option Str) (keys : List Str) (sub : Str → Store → Res) (st : Store) : Res :=
  match text with
  | some s => if s ∈ keys then (if s = mainName then (none, st) else sub s st) else (some (.err ()), st)
  | none => (some (.err ()), st)

/-- The meaning of one item of the string called `self`; `sub` formats named strings. -/
def evalItem (E : FmtEnv D F) (lang : Str) (values : AMap Str (PValue D F)) (self : Str) (sub : Str → Store → Res)
    (item : Item) (st : Store) : Res :=
  match item with
  | .text toks => (some (.ok (leafText toks)), st)
  | .number _ => (some (.ok (st self)), st)
  | .pat id none =>
    match (values.get id.str).bind textOf with
    | some s => (some (.ok s), st)
    | none => (some (.err ()), st)
  | .pat id (some (k, sels)) =>
    match values.get id.str with
    | none => (some (.err ()), st)
    | some v =>
      let keys := sels.map fun s => s.1.str
      if k.str = "decimal".toList then (some (showDecimal E.icu4x lang v), st)
      else if k.str = "date_time".toList then (some (showDateTime E.icu4x lang v), st)
      else if k.str = "ordinal".toList then
        evalPlural E.icu4x lang (E.icu4x.ordinal lang) (ordinalOf E.icu4x v) keys sub st
      else if k.str = "plural".toList then
        evalPlural E.icu4x lang (E.icu4x.cardinal lang) (numberOf E.icu4x v) keys sub st
      else evalSelect (textOf v) keys sub st
  | .cmd parts =>
    match parts with
    | .ident n :: .hash _ :: ps =>
      (some (runCommand E n.str (.string n.str :: ps.map fun p => argument values p.str)), st)
    | .ident n :: ps => (some (runCommand E n.str (.string n.str :: ps.map fun p => .string p.str)), st)
    | _ => (some (.err ()), st)

/-- The items of a string are formatted from left to right up to the first that fails. -/
def evalItems (E : FmtEnv D F) (lang : Str) (values : AMap Str (PValue D F)) (self : Str) (sub : Str → Store → Res) :
    List Item → Store → Res
  | [], st => (some (.ok []), st)
  | it :: rest, st =>
    match evalItem E lang values self sub it st with
    | (some (.ok s), st) =>
      match evalItems E lang values self sub rest st with
      | (some (.ok s'), st) => (some (.ok (s ++ s')), st)
      | r => r
    | r => r

/-- The meaning of a named string. Named strings (given latest first) refer to earlier ones only. -/
def evalNamed (E : FmtEnv D F) (lang : Str) (values : AMap Str (PValue D F)) : List Named → Str → Store → Res
  | [], _, st => (some (.err ()), st)
  | n :: before, name, st =>
    if n.name = name then evalItems E lang values name (evalNamed E lang values before) n.items st
    else evalNamed E lang values before name st

/-- The meaning of a pattern string. -/
def Doc.eval (E : FmtEnv D F) (lang : Str) (values : AMap Str (PValue D F)) (d : Doc) (st : Store) : Res :=
  evalItems E lang values mainName (evalNamed E lang values d.named.reverse) d.main st

/-! ### What is accepted -/

/-- An item the formatter accepts; `known` are the names that may be selected. -/
def ItemOk (E : FmtEnv D F) (known : List Str) : Item → Prop
  | .text _ => True
  | .number _ => True
  | .pat _ none => True
  | .pat _ (some (k, sels)) =>
    let keys := sels.map fun s => s.1.str
    (k.str = "decimal".toList ∨ k.str = "date_time".toList) ∧ sels = [] ∨
    (k.str = "ordinal".toList ∨ k.str = "plural".toList) ∧ (∀ key ∈ keys, IsCategory key ∧ key ∈ known) ∧
      "other".toList ∈ keys ∨
    k.str = "select".toList ∧ ∀ key ∈ keys, key ∈ known
  | .cmd parts =>
    match parts with
    | .ident _ :: .hash _ :: _ => True
    | .ident n :: ps => ∃ s, runCommand E n.str (.string n.str :: ps.map fun p => .string p.str) = .ok s
    | _ => False

/-- Named strings the formatter accepts: their names are new and they select earlier names. -/
def GroupOk (E : FmtEnv D F) : (known : List Str) → List Named → Prop
  | _, [] => True
  | known, n :: rest => n.name ∉ known ∧ (∀ it ∈ n.items, ItemOk E known it) ∧ GroupOk E (known ++ [n.name]) rest

/-- Pattern strings the formatter accepts. -/
def DocOk (E : FmtEnv D F) (d : Doc) : Prop :=
  GroupOk E [mainName] d.named ∧ ∀ it ∈ d.main, ItemOk E (mainName :: d.named.map Named.name) it

end Verif.Spec
