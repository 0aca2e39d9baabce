import Verif.Model.Formatter
/-
`Formatter::try_new`, /repo/crates/localiser/src/formatter.rs:56-187, with the iteration order of hash maps as a
parameter.

`pattern_selectors` collects the selectors or options of a pattern in a `HashMap`, and `part_pattern` iterates over it
(`for (key, value) in strings.iter()`, crates/localiser/src/formatter.rs:1084, 1108, 1174, 1209, 1243). Every `HashMap`
has its own random order. The model in `Verif.Model.Formatter` lists the entries in the order of insertion; here
`order i m` is the order in which the map `m` made for node `i` yields its entries. The rest is unchanged.
-/
namespace Verif

/-- The orders of the hash maps, one for each node of the tree. -/
abbrev MapOrder := Nat → AMap Str Str → AMap Str Str

/-- `pattern_selectors`, crates/localiser/src/formatter.rs:1330-1361: the entries in the order of the hash map. -/
def patternSelectorsIn (order : MapOrder) (t : Tree) (i : Nat) : FmtM (AMap Str Str) := do
  let m ← patternSelectors t i
  pure (order i m)

variable {D F : Type}

/-- `part_pattern`, crates/localiser/src/formatter.rs:1037-1266. -/
def partPatternIn (order : MapOrder) (X : Icu4x D F) (lang : Str) (patterns : AMap Str (List PatternPart)) (t : Tree)
    (i : Nat) (selectors : List (AMap Str Str)) : FmtM (PatternPart × List (AMap Str Str)) := do
  let children ← t.children i
  match children with
  | [] => .err (.noChildren .pattern)
  | placeholder :: rest =>
    if (← t.nodeType placeholder) ≠ .identifier then .err (.nodeNotFound .identifier)
    else
      let placeholderToken ← t.firstToken placeholder
      match rest with
      | [] => pure (.patternString placeholderToken, selectors)
      | keyword :: _ =>
        if (← t.nodeType keyword) ≠ .identifier then .err (.nodeNotFound .identifier)
        else
          let keywordToken ← t.firstToken keyword
          partKeyword X lang placeholderToken keywordToken patterns selectors (patternSelectorsIn order t i)

/-- Loop over the children of a named string, crates/localiser/src/formatter.rs:124-148. -/
def buildNamedIn (order : MapOrder) (E : FmtEnv D F) (lang : Str) (patterns : AMap Str (List PatternPart)) (t : Tree) :
    List Nat → List PatternPart → List Str → List (AMap Str Str) →
    FmtM (List PatternPart × List Str × List (AMap Str Str))
  | [], pattern, numbers, selectors => pure (pattern, numbers, selectors)
  | child :: rest, pattern, numbers, selectors => do
    let ty ← t.nodeType child
    if ty = .text then
      let p ← partText t child
      buildNamedIn order E lang patterns t rest (pattern ++ [p]) numbers selectors
    else if ty = .numberSign then
      buildNamedIn order E lang patterns t rest (pattern ++ [.numberSign numbers.length]) (numbers ++ [[]]) selectors
    else if ty = .pattern then
      let (p, selectors) ← partPatternIn order E.icu4x lang patterns t child selectors
      buildNamedIn order E lang patterns t rest (pattern ++ [p]) numbers selectors
    else if ty = .command then
      let p ← partCommand E.commands t child
      buildNamedIn order E lang patterns t rest (pattern ++ [p]) numbers selectors
    else .err (.invalidNode .string)

/-- Loop over the named strings, crates/localiser/src/formatter.rs:105-150. -/
def buildGroupIn (order : MapOrder) (E : FmtEnv D F) (lang : Str) (t : Tree) :
    List Nat → AMap Str (List PatternPart) → List Str → List (AMap Str Str) →
    FmtM (AMap Str (List PatternPart) × List Str × List (AMap Str Str))
  | [], patterns, numbers, selectors => pure (patterns, numbers, selectors)
  | named :: rest, patterns, numbers, selectors => do
    let identifier ← t.first named
    let name ← t.firstToken identifier
    if patterns.contains name then .err (.namedStringIdentifier name)
    else
      let string ← t.last named
      let children ← t.children string
      let (pattern, numbers, selectors) ← buildNamedIn order E lang patterns t children [] numbers selectors
      buildGroupIn order E lang t rest (patterns.insert name pattern) numbers selectors

/-- Loop over the children of the main string, crates/localiser/src/formatter.rs:157-178. -/
def buildMainIn (order : MapOrder) (E : FmtEnv D F) (lang : Str) (patterns : AMap Str (List PatternPart)) (t : Tree) :
    List Nat → List PatternPart → List (AMap Str Str) → FmtM (List PatternPart × List (AMap Str Str))
  | [], pattern, selectors => pure (pattern, selectors)
  | child :: rest, pattern, selectors => do
    let ty ← t.nodeType child
    if ty = .text then
      let p ← partText t child
      buildMainIn order E lang patterns t rest (pattern ++ [p]) selectors
    else if ty = .pattern then
      let (p, selectors) ← partPatternIn order E.icu4x lang patterns t child selectors
      buildMainIn order E lang patterns t rest (pattern ++ [p]) selectors
    else if ty = .command then
      let p ← partCommand E.commands t child
      buildMainIn order E lang patterns t rest (pattern ++ [p]) selectors
    else .err (.invalidNode .string)

/-- `Formatter::try_new` after parsing, crates/localiser/src/formatter.rs:75-186. -/
def Formatter.ofTreeIn (order : MapOrder) (E : FmtEnv D F) (tag : Str) (icuLanguage : Option Str) (t : Tree) :
    FmtM Formatter := do
  if ¬ t.hasGrammar then .err .noGrammar
  else
    let lang ← Outcome.unwrap icuLanguage
    if (← t.nodeType 0) ≠ .root then .err .invalidRoot
    else
      let rootChildren ← t.children 0
      let patterns : AMap Str (List PatternPart) := [(mainName, [])]
      let (patterns, numbers, selectors) ←
        (match rootChildren with
        | _ :: group :: _ => do
          let named ← t.children group
          buildGroupIn order E lang t named patterns [] []
        | _ => pure (patterns, [], []))
      let main ← Outcome.unwrap rootChildren.head?
      let children ← t.children main
      let (pattern, selectors) ← buildMainIn order E lang patterns t children [] selectors
      pure {
        languageTag := tag
        icuLanguage := lang
        patterns := patterns.insert mainName pattern
        numbers := numbers
        selectors := selectors }

/-- `Formatter::try_new`, crates/localiser/src/formatter.rs:56-187. -/
def Formatter.tryNewIn (order : MapOrder) (E : FmtEnv D F) (string tag : Str) (icuLanguage : Option Str) :
    FmtM Formatter := do
  let t ← Outcome.mapErr FormatterError.tree (Tree.tryNew E.icu E.grammar string)
  Formatter.ofTreeIn order E tag icuLanguage t

end Verif
