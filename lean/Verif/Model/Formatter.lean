import Verif.Model.Tree
import Verif.Model.Value
/-
Model of the formatter: /repo/crates/localiser/src/formatter.rs.

ICU4X is a parameter (`Icu4x`). The parts of a pattern are visited by recursion over the list instead of by an index:
`patterns` does not change while formatting, so `part_ref` always finds the part.
-/
namespace Verif

/-- `fixed_decimal::SignDisplay`. -/
inductive SignDisplay where
  | auto | never | always | exceptZero | negative
  deriving DecidableEq, Repr

/-- `icu_decimal::options::GroupingStrategy`. -/
inductive Grouping where
  | auto | never | always | min2
  deriving DecidableEq, Repr

/-- `icu_datetime::options::length::Date` and `Time`. -/
inductive FmtLength where
  | full | long | medium | short
  deriving DecidableEq, Repr

/-- `icu_plurals::PluralCategory`. -/
inductive PluralCategory where
  | zero | one | two | few | many | other
  deriving DecidableEq, Repr

/-- crates/localiser/src/formatter.rs:1436-1440. -/
inductive ComplexType where
  | plural | ordinal | select
  deriving DecidableEq, Repr

/-- crates/localiser/src/formatter.rs:1442-1465. The strings of a command are always
`PlaceholderValue::String`, so only the texts are kept. A calendar locale is kept as its text. -/
inductive PatternPart where
  | text (s : Str)
  | numberSign (index : Nat)
  | patternString (placeholder : Str)
  | patternDecimal (placeholder : Str) (sign : Option SignDisplay) (group : Option Grouping)
  | patternDateTime (placeholder : Str) (date time : Option FmtLength) (calendar : Option Str)
  | patternComplex (placeholder : Str) (complex : ComplexType) (selectors : Nat)
  | command (strings : List Str)
  deriving DecidableEq, Repr

/-- `FormatterError`, crates/localiser/src/error.rs:769-806; the payloads of errors of other crates are dropped. -/
inductive FormatterError where
  | tree (e : TreeError)
  | locale | calendar | parseInt | decimal | dateTime | pluralRules | fixedDecimal
  | command (e : CommandError)
  | noGrammar | invalidRoot
  | nodeNotFound (n : NodeType)
  | invalidNode (n : NodeType)
  | patternNamed (name : Str)
  | invalidOptionValue (value option keyword : Str)
  | invalidKeyword (keyword placeholder : Str)
  | selectorNamed (named selector placeholder : Str)
  | selectorOther (keyword placeholder : Str)
  | noChildren (n : NodeType)
  | invalidOption (value keyword placeholder : Str)
  | invalidSelector (selector keyword placeholder : Str)
  | numberSignString (index : Nat)
  | selectorsIndex (index : Nat)
  | selectorsIndexNamed (name : Str) (index : Nat)
  | placeholderValue (part placeholder : Str)
  | invalidValue (part : Str)
  | namedStringIdentifier (name : Str)
  | noIcuProvider
  deriving DecidableEq, Repr

/-- The functions of ICU4X used by the formatter, crates/localiser/src/formatter.rs:674-858, and the parsing of a
locale. A locale is given by its text. Creating a formatter may fail; formatting dates may fail. -/
structure Icu4x (D F : Type) where
  /-- `FixedDecimalFormatter::try_new` and `format` -/
  decimal : (locale : Str) → Option Grouping → Except FormatterError (D → Str)
  /-- `FixedDecimal::apply_sign_display` -/
  applySign : SignDisplay → D → D
  /-- `FixedDecimal::from(u128)` -/
  ofUnsigned : Nat → D
  /-- `FixedDecimal::from(i128)` -/
  ofInteger : Int → D
  /-- `FixedDecimal::try_from_f64(_, Floating)` -/
  ofFloat : F → Except FormatterError D
  /-- `PluralRules::try_new_cardinal` and `category_for` -/
  cardinal : (locale : Str) → Except FormatterError (D → PluralCategory)
  /-- `PluralRules::try_new_ordinal` and `category_for` -/
  ordinal : (locale : Str) → Except FormatterError (D → PluralCategory)
  /-- `DateFormatter` -/
  date : (locale : Str) → FmtLength → Except FormatterError (IsoDate → Except FormatterError Str)
  /-- `TimeFormatter` -/
  time : (locale : Str) → FmtLength → Except FormatterError (IsoTime → Str)
  /-- `DateTimeFormatter` -/
  dateTime : (locale : Str) → FmtLength → FmtLength →
    Except FormatterError (IsoDate → IsoTime → Except FormatterError Str)
  /-- `Date::try_new_iso_date` accepts -/
  validDate : Int → Nat → Nat → Bool
  /-- `locale_string.parse()`: the text of the parsed locale -/
  parseLocale : Str → Except FormatterError Str

/-- What the formatter takes from the localiser. -/
structure FmtEnv (D F : Type) where
  icu : Icu
  grammar : Str
  icu4x : Icu4x D F
  commands : CommandRegistry D F

abbrev FmtM := Outcome FormatterError

/-- A `Result` as an outcome. -/
def liftE {ε α : Type} (x : Except ε α) : Outcome ε α :=
  match x with
  | .ok a => .ok a
  | .error e => .err e

/-- The fields of `Formatter`, crates/localiser/src/formatter.rs:45-51. -/
structure Formatter where
  languageTag : Str
  icuLanguage : Str
  patterns : AMap Str (List PatternPart)
  numbers : List Str
  selectors : List (AMap Str Str)
  deriving DecidableEq, Repr

/-! ### Access to the tree, crates/localiser/src/tree.rs:712-740 -/

def Tree.nodeType (t : Tree) (i : Nat) : FmtM NodeType := do
  let n ← Outcome.unwrap t.nodes[i]?
  pure n.nodeType

def Tree.children (t : Tree) (i : Nat) : FmtM (List Nat) := do
  let n ← Outcome.unwrap t.nodes[i]?
  Outcome.unwrap n.children

/-- `tree.first(i).unwrap()`. -/
def Tree.first (t : Tree) (i : Nat) : FmtM Nat := do
  let c ← t.children i
  Outcome.unwrap c.head?

/-- `tree.last(i).unwrap()`. -/
def Tree.last (t : Tree) (i : Nat) : FmtM Nat := do
  let c ← t.children i
  Outcome.unwrap c.getLast?

/-- `tree.tokens(i).unwrap()`. -/
def Tree.nodeTokens (t : Tree) (i : Nat) : FmtM (List Nat) := do
  let n ← Outcome.unwrap t.nodes[i]?
  Outcome.unwrap n.tokens

/-- `tree.token(i).string`. -/
def Tree.tokenString (t : Tree) (i : Nat) : FmtM Str := do
  let k ← Outcome.unwrap t.tokens[i]?
  pure k.string

/-- `tree.token(&tree.tokens(i).unwrap()[0]).string`. -/
def Tree.firstToken (t : Tree) (i : Nat) : FmtM Str := do
  let ts ← t.nodeTokens i
  let k ← Outcome.unwrap ts.head?
  t.tokenString k

/-- Concatenated strings of the tokens. -/
def Tree.concatTokens (t : Tree) : List Nat → FmtM Str
  | [] => pure []
  | i :: is => do
    let s ← t.tokenString i
    let rest ← t.concatTokens is
    pure (s ++ rest)

/-! ### Options, crates/localiser/src/formatter.rs:1363-1429 -/

def pluralCategory : PluralCategory → Str
  | .zero => "zero".toList
  | .one => "one".toList
  | .two => "two".toList
  | .few => "few".toList
  | .many => "many".toList
  | .other => "other".toList

def signDisplay (s : Str) : FmtM SignDisplay :=
  if s = "auto".toList then .ok .auto
  else if s = "never".toList then .ok .never
  else if s = "always".toList then .ok .always
  else if s = "except_zero".toList then .ok .exceptZero
  else if s = "negative".toList then .ok .negative
  else .err (.invalidOptionValue s "sign".toList "decimal".toList)

def decimalGrouping (s : Str) : FmtM Grouping :=
  if s = "auto".toList then .ok .auto
  else if s = "never".toList then .ok .never
  else if s = "always".toList then .ok .always
  else if s = "min2".toList then .ok .min2
  else .err (.invalidOptionValue s "group".toList "decimal".toList)

/-- `date_length` (`option` = `date`) and `time_length` (`option` = `time`). -/
def fmtLength (option : Str) (s : Str) : FmtM FmtLength :=
  if s = "full".toList then .ok .full
  else if s = "long".toList then .ok .long
  else if s = "medium".toList then .ok .medium
  else if s = "short".toList then .ok .short
  else .err (.invalidOptionValue s option "date_time".toList)

/-- crates/localiser/src/formatter.rs:84. -/
def validPlurals : List Str :=
  ["zero".toList, "one".toList, "two".toList, "few".toList, "many".toList, "other".toList]

/-- crates/localiser/src/formatter.rs:85-93. -/
def calendars : List Str :=
  ["gregorian".toList, "buddhist".toList, "japanese".toList, "ethiopian".toList, "indian".toList, "coptic".toList,
   "iso".toList]

/-! ### Building the parts -/

/-- `part_text`, crates/localiser/src/formatter.rs:1021-1035. -/
def partText (t : Tree) (i : Nat) : FmtM PatternPart := do
  let toks ← t.nodeTokens i
  let s ← t.concatTokens toks
  pure (.text s)

/-- The loop of `pattern_selectors`. -/
def patternSelectorsLoop (t : Tree) : List Nat → AMap Str Str → FmtM (AMap Str Str)
  | [], pairs => pure pairs
  | selector :: rest, pairs => do
    if (← t.nodeType selector) ≠ .selector then .err (.nodeNotFound .selector)
    else
      let first ← t.first selector
      if (← t.nodeType first) ≠ .identifier then .err (.nodeNotFound .identifier)
      else
        let firstToken ← t.firstToken first
        let last ← t.first selector
        if (← t.nodeType last) ≠ .identifier then .err (.nodeNotFound .identifier)
        else
          let lastToken ← t.firstToken last
          patternSelectorsLoop t rest (pairs.insert firstToken lastToken)

/-- `pattern_selectors`, crates/localiser/src/formatter.rs:1330-1361. Line 1350 takes the *first* child again for the
last one. -/
def patternSelectors (t : Tree) (i : Nat) : FmtM (AMap Str Str) := do
  let children ← t.children i
  patternSelectorsLoop t (children.drop 2) []

/-- `str::replace` for a non-empty `old`. -/
def replaceAll (old new : Str) : Str → Str
  | [] => []
  | c :: cs =>
    if old.isPrefixOf (c :: cs) ∧ old ≠ [] then new ++ replaceAll old new ((c :: cs).drop old.length)
    else c :: replaceAll old new cs
termination_by s => s.length
decreasing_by
  · rename_i h
    have : 0 < old.length := List.length_pos_iff.2 h.2
    simp only [List.length_drop, List.length_cons]
    omega
  · simp

/-- Position of the first occurrence of `pat`. -/
def findSub (pat : Str) : Str → Option Nat
  | [] => if pat = [] then some 0 else none
  | c :: cs =>
    if pat.isPrefixOf (c :: cs) then some 0
    else match findSub pat cs with
      | some n => some (n + 1)
      | none => none

/-- The new text of the locale for a calendar, crates/localiser/src/formatter.rs:1121-1154. -/
def calendarLocale (locale value : Str) : Str :=
  let new := "-u-ca-".toList ++ value
  match findSub "-u-ca-".toList locale with
  | none => locale ++ new
  | some p =>
    let rest := locale.drop p
    -- the hyphens of `-u-ca-` are at 0, 2 and 5; the next one ends the old calendar
    match findSub ['-'] (rest.drop 6) with
    | none => replaceAll rest new locale
    | some q => replaceAll (rest.take (6 + q + 1)) (new ++ ['-']) locale

/-- The loop over the options of `decimal`, crates/localiser/src/formatter.rs:1084-1096. -/
def decimalOptions (placeholder : Str) : AMap Str Str → Option SignDisplay → Option Grouping →
    FmtM (Option SignDisplay × Option Grouping)
  | [], sign, group => pure (sign, group)
  | (key, value) :: rest, sign, group =>
    if key = "sign".toList then do
      let s ← signDisplay value
      decimalOptions placeholder rest (some s) group
    else if key = "group".toList then do
      let g ← decimalGrouping value
      decimalOptions placeholder rest sign (some g)
    else .err (.invalidOption value "decimal".toList placeholder)

variable {D F : Type}

/-- The loop over the options of `date_time`, crates/localiser/src/formatter.rs:1108-1164. -/
def dateTimeOptions (X : Icu4x D F) (lang placeholder : Str) : AMap Str Str →
    Option FmtLength → Option FmtLength → Option Str → FmtM (Option FmtLength × Option FmtLength × Option Str)
  | [], d, t, c => pure (d, t, c)
  | (key, value) :: rest, d, t, c =>
    if key = "date".toList then do
      let l ← fmtLength "date".toList value
      dateTimeOptions X lang placeholder rest (some l) t c
    else if key = "time".toList then do
      let l ← fmtLength "time".toList value
      dateTimeOptions X lang placeholder rest d (some l) c
    else if key = "calendar".toList then
      if ¬ calendars.contains value then .err (.invalidOption value "ordinal".toList placeholder)
      else do
        let l ← liftE (X.parseLocale (calendarLocale lang value))
        dateTimeOptions X lang placeholder rest d t (some l)
    else .err (.invalidOption value "date-time".toList placeholder)

/-- The loop over the selectors of `plural` and `ordinal`, crates/localiser/src/formatter.rs:1174-1192 and 1209-1227;
the result tells whether `other` was present. -/
def pluralLoop (keyword placeholder : Str) (patterns : AMap Str (List PatternPart)) :
    AMap Str Str → Bool → FmtM Bool
  | [], other => pure other
  | (selector, named) :: rest, other =>
    if ¬ validPlurals.contains selector then .err (.invalidSelector selector keyword placeholder)
    else if ¬ patterns.contains named then .err (.selectorNamed named selector placeholder)
    else pluralLoop keyword placeholder patterns rest (if selector = "other".toList then true else other)

/-- The loop over the selectors of `select`, crates/localiser/src/formatter.rs:1243-1251. -/
def selectLoop (placeholder : Str) (patterns : AMap Str (List PatternPart)) : AMap Str Str → FmtM Unit
  | [] => pure ()
  | (selector, named) :: rest =>
    if ¬ patterns.contains named then .err (.selectorNamed named selector placeholder)
    else selectLoop placeholder patterns rest

/-- The part for a plural or ordinal pattern. -/
def partPlural (keyword placeholder : Str) (complex : ComplexType) (patterns : AMap Str (List PatternPart))
    (selectors : List (AMap Str Str)) (strings : AMap Str Str) : FmtM (PatternPart × List (AMap Str Str)) := do
  let other ← pluralLoop keyword placeholder patterns strings false
  if ¬ other then .err (.selectorOther keyword placeholder)
  else pure (.patternComplex placeholder complex selectors.length, selectors ++ [strings])

/-- `part_pattern` after the selectors are known, crates/localiser/src/formatter.rs:1076-1265. -/
def partKeyword (X : Icu4x D F) (lang placeholder keyword : Str) (patterns : AMap Str (List PatternPart))
    (selectors : List (AMap Str Str)) (strings : FmtM (AMap Str Str)) : FmtM (PatternPart × List (AMap Str Str)) :=
  if keyword = "decimal".toList then do
    let strings ← strings
    let (sign, group) ← decimalOptions placeholder strings none none
    pure (.patternDecimal placeholder sign group, selectors)
  else if keyword = "date_time".toList then do
    let strings ← strings
    let (date, time, calendar) ← dateTimeOptions X lang placeholder strings none none none
    pure (.patternDateTime placeholder date time calendar, selectors)
  else if keyword = "ordinal".toList then do
    let strings ← strings
    partPlural "ordinal".toList placeholder .ordinal patterns selectors strings
  else if keyword = "plural".toList then do
    let strings ← strings
    partPlural "plural".toList placeholder .plural patterns selectors strings
  else if keyword = "select".toList then do
    let strings ← strings
    selectLoop placeholder patterns strings
    pure (.patternComplex placeholder .select selectors.length, selectors ++ [strings])
  else .err (.invalidKeyword keyword placeholder)

/-- `part_pattern`, crates/localiser/src/formatter.rs:1037-1266. -/
def partPattern (X : Icu4x D F) (lang : Str) (patterns : AMap Str (List PatternPart)) (t : Tree) (i : Nat)
    (selectors : List (AMap Str Str)) : FmtM (PatternPart × List (AMap Str Str)) := do
  let children ← t.children i
  match children with
  | [] => .err (.noChildren .pattern)
  | placeholder :: rest =>
    if (← t.nodeType placeholder) ≠ .identifier then .err (.nodeNotFound .identifier)
    else
      let placeholderToken ← t.firstToken placeholder
      match rest with
      | [] => pure (.patternString placeholderToken, selectors)
      | keyword :: _ =>
        if (← t.nodeType keyword) ≠ .identifier then .err (.nodeNotFound .identifier)
        else
          let keywordToken ← t.firstToken keyword
          partKeyword X lang placeholderToken keywordToken patterns selectors (patternSelectors t i)

/-- The loop over the parameters of a command, crates/localiser/src/formatter.rs:1303-1318. -/
def commandParameters (t : Tree) : List Nat → FmtM (List Str)
  | [] => pure []
  | p :: rest => do
    let ty ← t.nodeType p
    if ty = .identifier then
      let s ← t.firstToken p
      let ss ← commandParameters t rest
      pure (s :: ss)
    else if ty = .text then
      let toks ← t.nodeTokens p
      let s ← t.concatTokens toks
      let ss ← commandParameters t rest
      pure (s :: ss)
    else .err (.invalidNode .command)

/-- Call a command: look it up, then run it. -/
def callCommand (r : CommandRegistry D F) (name : Str) (parameters : List (PValue D F)) : FmtM Str :=
  Outcome.mapErr FormatterError.command (do
    let f ← r.command name
    f parameters)

/-- `part_command`, crates/localiser/src/formatter.rs:1269-1328. -/
def partCommand (r : CommandRegistry D F) (t : Tree) (i : Nat) : FmtM PatternPart := do
  let children ← t.children i
  match children with
  | [] => .err (.noChildren .pattern)
  | command :: rest =>
    if (← t.nodeType command) ≠ .identifier then .err (.nodeNotFound .identifier)
    else
      let commandToken ← t.firstToken command
      let (delay, rest) ← (match rest with
        | [] => pure (false, [])
        | n :: rest' => do
          if (← t.nodeType n) = .numberSign then pure (true, rest') else pure (false, n :: rest'))
      let parameters ← commandParameters t rest
      if delay then pure (.command (commandToken :: parameters))
      else
        let s ← callCommand r commandToken ((commandToken :: parameters).map .string)
        pure (.text s)

/-- Loop over the children of a named string, crates/localiser/src/formatter.rs:124-148. -/
def buildNamed (E : FmtEnv D F) (lang : Str) (patterns : AMap Str (List PatternPart)) (t : Tree) :
    List Nat → List PatternPart → List Str → List (AMap Str Str) →
    FmtM (List PatternPart × List Str × List (AMap Str Str))
  | [], pattern, numbers, selectors => pure (pattern, numbers, selectors)
  | child :: rest, pattern, numbers, selectors => do
    let ty ← t.nodeType child
    if ty = .text then
      let p ← partText t child
      buildNamed E lang patterns t rest (pattern ++ [p]) numbers selectors
    else if ty = .numberSign then
      buildNamed E lang patterns t rest (pattern ++ [.numberSign numbers.length]) (numbers ++ [[]]) selectors
    else if ty = .pattern then
      let (p, selectors) ← partPattern E.icu4x lang patterns t child selectors
      buildNamed E lang patterns t rest (pattern ++ [p]) numbers selectors
    else if ty = .command then
      let p ← partCommand E.commands t child
      buildNamed E lang patterns t rest (pattern ++ [p]) numbers selectors
    else .err (.invalidNode .string)

/-- Loop over the named strings, crates/localiser/src/formatter.rs:105-150. -/
def buildGroup (E : FmtEnv D F) (lang : Str) (t : Tree) :
    List Nat → AMap Str (List PatternPart) → List Str → List (AMap Str Str) →
    FmtM (AMap Str (List PatternPart) × List Str × List (AMap Str Str))
  | [], patterns, numbers, selectors => pure (patterns, numbers, selectors)
  | named :: rest, patterns, numbers, selectors => do
    let identifier ← t.first named
    let name ← t.firstToken identifier
    if patterns.contains name then .err (.namedStringIdentifier name)
    else
      let string ← t.last named
      let children ← t.children string
      let (pattern, numbers, selectors) ← buildNamed E lang patterns t children [] numbers selectors
      buildGroup E lang t rest (patterns.insert name pattern) numbers selectors

/-- Loop over the children of the main string, crates/localiser/src/formatter.rs:157-178. -/
def buildMain (E : FmtEnv D F) (lang : Str) (patterns : AMap Str (List PatternPart)) (t : Tree) :
    List Nat → List PatternPart → List (AMap Str Str) → FmtM (List PatternPart × List (AMap Str Str))
  | [], pattern, selectors => pure (pattern, selectors)
  | child :: rest, pattern, selectors => do
    let ty ← t.nodeType child
    if ty = .text then
      let p ← partText t child
      buildMain E lang patterns t rest (pattern ++ [p]) selectors
    else if ty = .pattern then
      let (p, selectors) ← partPattern E.icu4x lang patterns t child selectors
      buildMain E lang patterns t rest (pattern ++ [p]) selectors
    else if ty = .command then
      let p ← partCommand E.commands t child
      buildMain E lang patterns t rest (pattern ++ [p]) selectors
    else .err (.invalidNode .string)

/-- The name of the main pattern. -/
def mainName : Str := ['_']

/-- `Formatter::try_new` after parsing, crates/localiser/src/formatter.rs:75-186. `icuLanguage` is the text of the
parsed language identifier, `none` when the tag does not parse (`LanguageTag::icu_language` panics then,
crates/utility/src/language.rs:69-71). -/
def Formatter.ofTree (E : FmtEnv D F) (tag : Str) (icuLanguage : Option Str) (t : Tree) : FmtM Formatter := do
  if ¬ t.hasGrammar then .err .noGrammar
  else
    let lang ← Outcome.unwrap icuLanguage
    if (← t.nodeType 0) ≠ .root then .err .invalidRoot
    else
      let rootChildren ← t.children 0
      let patterns : AMap Str (List PatternPart) := [(mainName, [])]
      let (patterns, numbers, selectors) ←
        (match rootChildren with
        | _ :: group :: _ => do
          let named ← t.children group
          buildGroup E lang t named patterns [] []
        | _ => pure (patterns, [], []))
      let main ← Outcome.unwrap rootChildren.head?
      let children ← t.children main
      let (pattern, selectors) ← buildMain E lang patterns t children [] selectors
      pure {
        languageTag := tag
        icuLanguage := lang
        patterns := patterns.insert mainName pattern
        numbers := numbers
        selectors := selectors }

/-- `Formatter::try_new`, crates/localiser/src/formatter.rs:56-187. -/
def Formatter.tryNew (E : FmtEnv D F) (string tag : Str) (icuLanguage : Option Str) : FmtM Formatter := do
  let t ← Outcome.mapErr FormatterError.tree (Tree.tryNew E.icu E.grammar string)
  Formatter.ofTree E tag icuLanguage t

/-! ### Formatting -/

/-- Result of formatting: `none` stands for a call stack that is not deep enough; the second part are the numbers
stored in the formatter afterwards (they survive an error). -/
abbrev FmtRes := Option (FmtM Str) × List Str

/-- The value of a number as `FixedDecimal`; `none` when the value is not a number. -/
def toDecimal (X : Icu4x D F) : PValue D F → Option (FmtM D)
  | .fixedDecimal d => some (.ok d)
  | .unsigned n => some (.ok (X.ofUnsigned n))
  | .integer i => some (.ok (X.ofInteger i))
  | .float f => some (liftE (X.ofFloat f))
  | _ => none

/-- The text of a string-like value. -/
def toText : PValue D F → Option Str
  | .string s => some s
  | .taggedString s _ => some s
  | .localised s _ => some s
  | _ => none

/-- An error of the ISO decomposition as `FormatterError`. -/
def isoError : IsoError → FormatterError
  | .parseInt => .parseInt
  | .calendar => .calendar

/-- A result of the ISO decomposition. -/
def liftIso {α : Type} : Except IsoError α → FmtM α
  | .ok a => .ok a
  | .error e => .err (isoError e)

/-- `PatternDecimal`, crates/localiser/src/formatter.rs:253-312. -/
def formatDecimal (X : Icu4x D F) (lang : Str) (sign : Option SignDisplay) (group : Option Grouping)
    (value : PValue D F) : FmtM Str := do
  let fdf ← liftE (X.decimal lang group)
  match toDecimal X value with
  | some d => do
    let d ← d
    let d := match sign with
      | some s => X.applySign s d
      | none => d
    pure (fdf d)
  | none => .err (.invalidValue "PatternDecimal".toList)

/-- `PatternDateTime`, crates/localiser/src/formatter.rs:313-392. -/
def formatDateTime (X : Icu4x D F) (lang : Str) (date time : Option FmtLength) (calendar : Option Str)
    (value : PValue D F) : FmtM Str :=
  let date := date.getD .medium
  let time := time.getD .medium
  let locale := calendar.getD lang
  match value with
  | .dateTime d t => do
    let f ← liftE (X.dateTime locale date time)
    liftE (f d t)
  | .date d => do
    let f ← liftE (X.date locale date)
    liftE (f d)
  | .time t => do
    let f ← liftE (X.time locale time)
    pure (f t)
  | .string s =>
    match splitOn 'T' s with
    | [a, b] =>
      if a = [] then do
        let t ← liftIso (decomposeIsoTime b)
        let f ← liftE (X.time locale time)
        pure (f t)
      else do
        let d ← liftIso (decomposeIsoDate X.validDate a)
        let t ← liftIso (decomposeIsoTime b)
        let f ← liftE (X.dateTime locale date time)
        liftE (f d t)
    | parts => do
      let d ← liftIso (decomposeIsoDate X.validDate (parts.headD []))
      let f ← liftE (X.date locale date)
      liftE (f d)
  | _ => .err (.invalidValue "PatternDateTime".toList)

/-- Set every number sign of the pattern, crates/localiser/src/formatter.rs:619-632 and 662-672. -/
def updateNumbers (number : Str) : List PatternPart → List Str → FmtM Unit × List Str
  | [], numbers => (.ok (), numbers)
  | .numberSign i :: rest, numbers =>
    if i < numbers.length then updateNumbers number rest (numbers.set i number)
    else (.err (.numberSignString i), numbers)
  | _ :: rest, numbers => updateNumbers number rest numbers

/-- `find_number_sign`, crates/localiser/src/formatter.rs:581-637; `rec` is the recursive `format_pattern`. -/
def findNumberSign (X : Icu4x D F) (f : Formatter) (rec : Str → List Str → FmtRes) (category : D → PluralCategory)
    (d : D) (index : Nat) (numbers : List Str) : FmtRes :=
  match X.decimal f.icuLanguage none with
  | .error e => (some (.err e), numbers)
  | .ok fdf =>
    let cat := pluralCategory (category d)
    match f.selectors[index]? with
    | none => (some (.err (.selectorsIndex index)), numbers)
    | some selectors =>
      match selectors.get cat with
      | none => (some (.err (.selectorsIndexNamed cat index)), numbers)
      | some named =>
        match f.patterns.get named with
        | none => (some (.err (.patternNamed named)), numbers)
        | some pattern =>
          match updateNumbers (fdf d) pattern numbers with
          | (.ok _, numbers) => rec named numbers
          | (.err e, numbers) => (some (.err e), numbers)
          | (.panic, numbers) => (some .panic, numbers)

/-- `select`, crates/localiser/src/formatter.rs:639-660. -/
def selectString (f : Formatter) (rec : Str → List Str → FmtRes) (value : Str) (index : Nat) (numbers : List Str) :
    FmtRes :=
  match f.selectors[index]? with
  | none => (some (.err (.selectorsIndex index)), numbers)
  | some selectors =>
    match selectors.get value with
    | none => (some (.err (.selectorsIndexNamed value index)), numbers)
    | some named => rec named numbers

/-- `PatternComplex` for a number: plural rules are made first, then the value is looked at,
crates/localiser/src/formatter.rs:409-490. -/
def formatPlural (X : Icu4x D F) (f : Formatter) (rec : Str → List Str → FmtRes)
    (rules : Except FormatterError (D → PluralCategory)) (number : Option (FmtM D)) (what : Str) (index : Nat)
    (numbers : List Str) : FmtRes :=
  match rules with
  | .error e => (some (.err e), numbers)
  | .ok category =>
    match number with
    | none => (some (.err (.invalidValue what)), numbers)
    | some (.err e) => (some (.err e), numbers)
    | some .panic => (some .panic, numbers)
    | some (.ok d) => findNumberSign X f rec category d index numbers

/-- The number of an ordinal pattern: only `Unsigned`, crates/localiser/src/formatter.rs:468-490. -/
def toOrdinal (X : Icu4x D F) : PValue D F → Option (FmtM D)
  | .unsigned n => some (.ok (X.ofUnsigned n))
  | _ => none

/-- A parameter of a delayed command is replaced by the value of that name if there is one,
crates/localiser/src/formatter.rs:557-570. -/
def commandValue (values : AMap Str (PValue D F)) (s : Str) : PValue D F :=
  match values.get s with
  | some v => v
  | none => .string s

/-- One part, crates/localiser/src/formatter.rs:229-574. -/
def formatPart (E : FmtEnv D F) (f : Formatter) (values : AMap Str (PValue D F)) (rec : Str → List Str → FmtRes)
    (part : PatternPart) (numbers : List Str) : FmtRes :=
  match part with
  | .text s => (some (.ok s), numbers)
  | .patternString p =>
    match values.get p with
    | none => (some (.err (.placeholderValue "PatternString".toList p)), numbers)
    | some v =>
      match toText v with
      | some s => (some (.ok s), numbers)
      | none => (some (.err (.invalidValue "PatternString".toList)), numbers)
  | .patternDecimal p sign group =>
    match values.get p with
    | none => (some (.err (.placeholderValue "PatternDecimal".toList p)), numbers)
    | some v => (some (formatDecimal E.icu4x f.icuLanguage sign group v), numbers)
  | .patternDateTime p date time calendar =>
    match values.get p with
    | none => (some (.err (.placeholderValue "PatternDateTime".toList p)), numbers)
    | some v => (some (formatDateTime E.icu4x f.icuLanguage date time calendar v), numbers)
  | .patternComplex p complex index =>
    match values.get p with
    | none => (some (.err (.placeholderValue "PatternComplex".toList p)), numbers)
    | some v =>
      match complex with
      | .plural =>
        formatPlural E.icu4x f rec (E.icu4x.cardinal f.icuLanguage) (toDecimal E.icu4x v) "PatternPlural".toList index
          numbers
      | .ordinal =>
        formatPlural E.icu4x f rec (E.icu4x.ordinal f.icuLanguage) (toOrdinal E.icu4x v) "PatternOrdinal".toList index
          numbers
      | .select =>
        match toText v with
        | some s => selectString f rec s index numbers
        | none => (some (.err (.invalidValue "PatternSelect".toList)), numbers)
  | .numberSign i =>
    match numbers[i]? with
    | some s => (some (.ok s), numbers)
    | none => (some (.err (.numberSignString i)), numbers)
  | .command strings =>
    match strings with
    | [] => (some .panic, numbers)
    | name :: parameters =>
      (some (callCommand E.commands name (.string name :: parameters.map (commandValue values))), numbers)

/-- The loop over the parts; `acc` is the string so far. -/
def formatParts (E : FmtEnv D F) (f : Formatter) (values : AMap Str (PValue D F)) (rec : Str → List Str → FmtRes) :
    List PatternPart → Str → List Str → FmtRes
  | [], acc, numbers => (some (.ok acc), numbers)
  | part :: rest, acc, numbers =>
    match formatPart E f values rec part numbers with
    | (some (.ok s), numbers) => formatParts E f values rec rest (acc ++ s) numbers
    | r => r

/-- `format_pattern`, crates/localiser/src/formatter.rs:210-578, with at most `depth` nested calls. -/
def formatPattern (E : FmtEnv D F) (f : Formatter) (values : AMap Str (PValue D F)) :
    (depth : Nat) → Str → List Str → FmtRes
  | 0, _, numbers => (none, numbers)
  | depth + 1, named, numbers =>
    match f.patterns.get named with
    | none => (some (.err (.patternNamed named)), numbers)
    | some pattern => formatParts E f values (formatPattern E f values depth) pattern [] numbers

/-- `Formatter::format`, crates/localiser/src/formatter.rs:190-197: the outcome and the formatter afterwards. The call
stack is unbounded here: a call nesting deeper than the number of patterns never ends (part of property C20), which
counts as a panic (stack overflow). -/
def Formatter.format (E : FmtEnv D F) (f : Formatter) (values : AMap Str (PValue D F)) :
    FmtM (Str × Str) × Formatter :=
  match formatPattern E f values (f.patterns.length + 1) mainName f.numbers with
  | (some r, numbers) => (do let s ← r; pure (s, f.languageTag), { f with numbers := numbers })
  | (none, numbers) => (.panic, { f with numbers := numbers })

end Verif
