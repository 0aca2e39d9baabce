import Verif.Model.Lexer
import Verif.Model.Map
import Verif.Model.Outcome
/-
Model of the parser: /repo/crates/localiser/src/tree.rs.

The `while let` loop over the lexer becomes `drive`, which feeds the tokens one by one; a `lexer.next()` inside
the loop body becomes `Step.need`. Every fetched token is immediately pushed to `tokens` in the code, so the
index given by `enumerate` is always the length of `tokens` before the push.
-/
namespace Verif

/-- crates/localiser/src/tree.rs:50-62. -/
inductive NodeType where
  | root | namedGroup | namedString | string | text | numberSign | command | pattern | identifier | selector
  deriving DecidableEq, Repr

/-- `NodeType::allow_children`, crates/localiser/src/tree.rs:66-77. -/
def NodeType.allowChildren : NodeType → Bool
  | .root | .string | .namedGroup | .namedString | .selector | .pattern | .command => true
  | _ => false

/-- `NodeType::allow_tokens`, crates/localiser/src/tree.rs:80-85. -/
def NodeType.allowTokens : NodeType → Bool
  | .text | .numberSign | .identifier => true
  | _ => false

/-- crates/localiser/src/tree.rs:106-111. -/
structure Node where
  nodeType : NodeType
  parent : Option Nat
  children : Option (List Nat)
  tokens : Option (List Nat)
  deriving DecidableEq, Repr

/-- crates/localiser/src/tree.rs:115-120. -/
structure Length where
  bytes : Nat
  characters : Nat
  graphemes : Nat
  tokens : Nat
  deriving DecidableEq, Repr

/-- crates/localiser/src/tree.rs:123-128. -/
structure Tree where
  tokens : List Token
  hasGrammar : Bool
  lengths : Length
  nodes : List Node
  deriving DecidableEq, Repr

/-- crates/localiser/src/tree.rs:905-915. -/
inductive ParserState where
  | namedGroup | namedString | string | subString | literalText | pattern | literal | command | keyword
  deriving DecidableEq, Repr

/-- crates/localiser/src/error.rs:46-53. -/
inductive TreeError where
  | lexer (e : LexerError)
  | endedAbruptly
  | invalidToken (state : ParserState) (position : Nat) (token : Str)
  | uniquePattern (identifier : Str)
  | multiNumberSign (position : Nat)
  | uniqueNamed (identifier : Str)
  deriving DecidableEq, Repr

/-- The local variables of `Tree::try_new` (crates/localiser/src/tree.rs:137-167) including `ParserStates`
(934-938). `nested` is the vector `nested_states` with its last element first. -/
structure PState where
  tokens : List Token
  hasGrammar : Bool
  lengths : Length
  nodes : List Node
  current : Option Nat
  state : ParserState
  nested : List ParserState
  namedStrings : AMap Str Nat
  patterns : AMap Str Nat
  deriving DecidableEq, Repr

abbrev TreeM := Outcome TreeError

/-- `Tree::push_token`, crates/localiser/src/tree.rs:742-748. -/
def PState.pushToken (s : PState) (t : Token) : PState :=
  { s with
    lengths := {
      bytes := s.lengths.bytes + t.lengthBytes
      characters := s.lengths.characters + t.lengthCharacters
      graphemes := s.lengths.graphemes + t.lengthGraphemes
      tokens := s.lengths.tokens + 1 }
    tokens := s.tokens ++ [t] }

/-- `node.children.as_mut().unwrap().push(index)`. -/
def Node.pushChild (n : Node) (index : Nat) : TreeM Node :=
  match n.children with
  | some c => .ok { n with children := some (c ++ [index]) }
  | none => .panic

/-- `node.tokens.as_mut().unwrap().push(index)`. -/
def Node.pushToken (n : Node) (index : Nat) : TreeM Node :=
  match n.tokens with
  | some c => .ok { n with tokens := some (c ++ [index]) }
  | none => .panic

/-- The node built by `Tree::insert`, crates/localiser/src/tree.rs:756-772. -/
def Node.fresh (parent : Nat) (ty : NodeType) : Node :=
  { nodeType := ty
    parent := some parent
    children := if ty.allowChildren then some [] else none
    tokens := if ty.allowTokens then some [] else none }

/-- `Tree::insert`, crates/localiser/src/tree.rs:750-778. -/
def Tree.insert (nodes : List Node) (nodeIndex : Nat) (ty : NodeType) : TreeM (Nat × List Node) := do
  let index := nodes.length
  let nodes := nodes ++ [Node.fresh nodeIndex ty]
  let node ← Outcome.unwrap nodes[nodeIndex]?
  let node ← node.pushChild index
  pure (index, nodes.set nodeIndex node)

/-- `Tree::move_to_container`, crates/localiser/src/tree.rs:782-788. -/
def PState.moveToContainer (s : PState) : TreeM PState := do
  let nodeIndex ← Outcome.unwrap s.current
  let node ← Outcome.unwrap s.nodes[nodeIndex]?
  if !node.nodeType.allowChildren then pure { s with current := node.parent } else pure s

/-- `Tree::create_node`, crates/localiser/src/tree.rs:792-799. -/
def PState.createNode (s : PState) (ty : NodeType) : TreeM PState := do
  let s ← s.moveToContainer
  let c ← Outcome.unwrap s.current
  let (i, nodes) ← Tree.insert s.nodes c ty
  pure { s with current := some i, nodes := nodes }

/-- `nodes.get_mut(current).unwrap().tokens.as_mut().unwrap().push(*token)`,
crates/localiser/src/tree.rs:815-821 and 835. -/
def PState.pushTokenToCurrent (s : PState) (token : Nat) : TreeM PState := do
  let c ← Outcome.unwrap s.current
  let node ← Outcome.unwrap s.nodes[c]?
  let node ← node.pushToken token
  pure { s with nodes := s.nodes.set c node }

/-- `Tree::create_node_add_token`, crates/localiser/src/tree.rs:803-822. -/
def PState.createNodeAddToken (s : PState) (ty : NodeType) (token : Nat) : TreeM PState := do
  let s ← s.createNode ty
  s.pushTokenToCurrent token

/-- `Tree::add_token`, crates/localiser/src/tree.rs:827-839. -/
def PState.addToken (s : PState) (ty : NodeType) (token : Nat) : TreeM PState := do
  let c ← Outcome.unwrap s.current
  let node ← Outcome.unwrap s.nodes[c]?
  if node.nodeType = ty then s.pushTokenToCurrent token
  else s.createNodeAddToken ty token

/-- `Tree::end_nested_state`, crates/localiser/src/tree.rs:842-848. -/
def PState.endNestedState (s : PState) : TreeM PState := do
  let (state, nested) := match s.nested with
    | [] => (ParserState.string, [])
    | x :: rest => (x, rest)
  let c ← Outcome.unwrap s.current
  let node ← Outcome.unwrap s.nodes[c]?
  pure { s with state := state, nested := nested, current := node.parent }

/-- `TreeError::InvalidToken` for a token in the current state. -/
def PState.invalid (s : PState) (t : Token) : TreeError :=
  .invalidToken s.state t.startGrapheme t.string

/-- `parser.nested_states.push(..); parser.state = ..`. -/
def PState.enter (s : PState) (pushed : ParserState) (new : ParserState) : PState :=
  { s with nested := pushed :: s.nested, state := new }

/-- `Tree::pattern_start`, crates/localiser/src/tree.rs:851-900; `t` is the token at index `token`. -/
def PState.patternStart (s : PState) (t : Token) (token : Nat) : TreeM PState :=
  if t.tokenType = .identifier then do
    let s ← s.createNode .pattern
    if s.patterns.contains t.string then .err (.uniquePattern t.string)
    else
      let c ← Outcome.unwrap s.current
      let s := { s with patterns := s.patterns.insert t.string c }
      let s ← s.createNodeAddToken .identifier token
      let s ← s.moveToContainer
      pure (s.enter s.state .pattern)
  else if t.tokenType = .grammar then
    if t.string = ['`'] then do
      let s ← s.createNode .text
      pure ((s.enter s.state s.state).enter .literal .literalText)
    else if t.string = ['#'] then do
      let s ← s.createNode .command
      pure (s.enter s.state .command)
    else .err (s.invalid t)
  else .err (s.invalid t)

/-- What an iteration of the loop does: finish, or fetch one more token (`lexer.next()`) and go on. -/
inductive Step where
  | done (r : TreeM PState)
  | need (k : Token → Step)

/-- Fetch the next token, push it, and continue with it and its index. -/
def PState.fetch (s : PState) (k : PState → Token → Nat → Step) : Step :=
  .need fun t => k (s.pushToken t) t s.tokens.length

/-- Number of children of the current node: `nodes[parser.current.unwrap()].children.as_ref().unwrap().len()`. -/
def PState.childCount (s : PState) : TreeM Nat := do
  let c ← Outcome.unwrap s.current
  let node ← Outcome.unwrap s.nodes[c]?
  let children ← Outcome.unwrap node.children
  pure children.length

/-- Run an action and continue with its result unless it fails. -/
def Step.andThen {α : Type} (x : TreeM α) (k : α → Step) : Step :=
  match x with
  | .ok a => k a
  | .err e => .done (.err e)
  | .panic => .done .panic

/-- State `String`, crates/localiser/src/tree.rs:184-227. -/
def PState.stepString (s : PState) (t : Token) (cur : Nat) : Step :=
  if t.tokenType = .grammar then
    if t.string = ['`'] then s.fetch fun s _ next => .done (s.addToken .text next)
    else if t.string = ['{'] then s.fetch fun s t next => .done (s.patternStart t next)
    else if t.string = ['#'] then
      .done (do
        let s ← { s with current := some 0 }.createNode .namedGroup
        pure { s with state := .namedGroup })
    else .done (.err (s.invalid t))
  else .done (s.addToken .text cur)

/-- The check at crates/localiser/src/tree.rs:236-245: is the last child of the parent of the current node a
number sign? -/
def PState.lastIsNumberSign (s : PState) : TreeM Bool := do
  let c ← Outcome.unwrap s.current
  let node ← Outcome.unwrap s.nodes[c]?
  let parent ← Outcome.unwrap node.parent
  let pnode ← Outcome.unwrap s.nodes[parent]?
  let children ← Outcome.unwrap pnode.children
  match children.getLast? with
  | none => pure false
  | some last =>
    let l ← Outcome.unwrap s.nodes[last]?
    pure (l.nodeType == .numberSign)

/-- State `SubString`, crates/localiser/src/tree.rs:228-296. -/
def PState.stepSubString (s : PState) (t : Token) (cur : Nat) : Step :=
  if t.tokenType = .grammar then
    if t.string = ['#'] then
      .done (do
        if ← s.lastIsNumberSign then .err (.multiNumberSign t.startGrapheme)
        else s.createNodeAddToken .numberSign cur)
    else if t.string = ['`'] then s.fetch fun s _ next => .done (s.addToken .text next)
    else if t.string = ['{'] then s.fetch fun s t next => .done (s.patternStart t next)
    else if t.string = ['}'] then
      .done (do
        let s ← s.moveToContainer
        let s ← s.endNestedState
        let n ← s.childCount
        if n ≠ 2 then .err (s.invalid t) else s.endNestedState)
    else .done (.err (s.invalid t))
  else .done (s.addToken .text cur)

/-- State `Pattern`, crates/localiser/src/tree.rs:297-332. -/
def PState.stepPattern (s : PState) (t : Token) (cur : Nat) : Step :=
  if t.tokenType = .identifier then
    .done (do
      let s ← s.createNodeAddToken .identifier cur
      let s ← s.moveToContainer
      pure { s with state := .keyword })
  else if t.tokenType = .whiteSpace then .done (.ok s)
  else if t.tokenType = .grammar then
    if t.string ≠ ['}'] then .done (.err (s.invalid t))
    else .done s.endNestedState
  else .done (.err (s.invalid t))

/-- State `Keyword`, crates/localiser/src/tree.rs:333-379. A grammar token other than `}` is ignored. -/
def PState.stepKeyword (s : PState) (t : Token) (cur : Nat) : Step :=
  if t.tokenType = .identifier then
    Step.andThen (do
      let s ← s.createNode .selector
      let s ← s.addToken .identifier cur
      s.moveToContainer)
      fun s => s.fetch fun s t _ =>
        if t.string ≠ ['#'] then .done (.err (s.invalid t))
        else s.fetch fun s t cur =>
          if t.tokenType ≠ .identifier then .done (.err (s.invalid t))
          else .done (do
            let s ← s.addToken .identifier cur
            let s ← s.moveToContainer
            let c ← Outcome.unwrap s.current
            let node ← Outcome.unwrap s.nodes[c]?
            pure { s with current := node.parent })
  else if t.tokenType = .whiteSpace then .done (.ok s)
  else if t.tokenType = .grammar then
    if t.string = ['}'] then .done s.endNestedState else .done (.ok s)
  else .done (.err (s.invalid t))

/-- State `LiteralText`, crates/localiser/src/tree.rs:380-402. Line 393 compares the *current* token (which was
just found to be a backtick) instead of the next one. -/
def PState.stepLiteralText (s : PState) (t : Token) (cur : Nat) : Step :=
  if t.tokenType = .grammar ∧ t.string = ['`'] then
    s.fetch fun s _ next =>
      if t.string = ['`'] then .done (s.addToken .text next)
      else .done s.endNestedState
  else .done (s.addToken .text cur)

/-- State `Literal`, crates/localiser/src/tree.rs:403-419. -/
def PState.stepLiteral (s : PState) (t : Token) : Step :=
  if t.tokenType = .grammar ∧ t.string = ['}'] then .done s.endNestedState
  else .done (.err (s.invalid t))

/-- State `Command`, crates/localiser/src/tree.rs:420-492. -/
def PState.stepCommand (s : PState) (t : Token) (cur : Nat) : Step :=
  if t.tokenType = .identifier then
    .done (do
      let s ← s.createNodeAddToken .identifier cur
      s.moveToContainer)
  else if t.tokenType = .grammar then
    if t.string = ['}'] then
      .done (do
        let n ← s.childCount
        if n = 0 then .err (s.invalid t) else s.endNestedState)
    else if t.string = ['`'] then
      s.fetch fun s _ next =>
        .done (do
          let s ← s.createNodeAddToken .text next
          pure (s.enter .command .literalText))
    else if t.string = ['#'] then
      .done (do
        let n ← s.childCount
        if n ≠ 1 then .err (s.invalid t) else s.createNodeAddToken .numberSign cur)
    else .done (.err (s.invalid t))
  else if t.tokenType = .whiteSpace then .done (.ok s)
  else .done (.err (s.invalid t))

/-- State `NamedString`, crates/localiser/src/tree.rs:493-657. -/
def PState.stepNamedString (s : PState) (t : Token) (cur : Nat) : Step :=
  if t.tokenType = .identifier then
    Step.andThen s.childCount fun len =>
      if len = 0 then
        if s.namedStrings.contains t.string then .done (.err (.uniqueNamed t.string))
        else
          Step.andThen (do
            let s := { s with namedStrings := s.namedStrings.insert t.string cur }
            let s ← s.createNodeAddToken .identifier cur
            s.moveToContainer)
            fun s => s.fetch fun s t' _ =>
              if t'.tokenType = .whiteSpace then .done (.ok s)
              else .done (.err (s.invalid t))
      else if len = 1 then
        .done (do
          let s ← s.createNode .string
          let s ← (s.enter .namedString s.state).createNodeAddToken .text cur
          pure { s with state := .subString })
      else .done (.err (s.invalid t))
  else if t.tokenType = .grammar then
    if t.string = ['#'] then
      .done (do
        let n ← s.childCount
        if n ≠ 1 then .err (s.invalid t)
        else
          let s ← s.createNode .string
          let s ← (s.enter .namedString s.state).createNodeAddToken .numberSign cur
          pure { s with state := .subString })
    else if t.string = ['{'] then
      Step.andThen s.childCount fun n =>
        if n ≠ 1 then .done (.err (s.invalid t))
        else s.fetch fun s _ _ => .done (s.patternStart t cur)
    else if t.string = ['`'] then
      Step.andThen s.childCount fun n =>
        if n ≠ 1 then .done (.err (s.invalid t))
        else s.fetch fun s _ cur =>
          .done (do
            let s ← s.createNode .string
            (s.enter .namedString s.state).createNodeAddToken .text cur)
    else .done (.err (s.invalid t))
  else if t.tokenType = .syn then
    .done (do
      let n ← s.childCount
      if n ≠ 1 then .err (s.invalid t)
      else
        let s ← s.createNode .string
        (s.enter .namedString s.state).createNodeAddToken .text cur)
  else
    .done (do
      let n ← s.childCount
      if n ≠ 1 then .err (s.invalid t) else pure s)

/-- State `NamedGroup`, crates/localiser/src/tree.rs:658-684. -/
def PState.stepNamedGroup (s : PState) (t : Token) : Step :=
  if t.tokenType = .grammar then
    if t.string ≠ ['{'] then .done (.err (s.invalid t))
    else
      .done (do
        let s ← s.createNode .namedString
        pure (s.enter .namedGroup .namedString))
  else if t.tokenType = .whiteSpace then .done (.ok s)
  else .done (.err (s.invalid t))

/-- One iteration of the loop, crates/localiser/src/tree.rs:168-685. -/
def PState.step (s : PState) (t : Token) : Step :=
  let s := if t.tokenType = .grammar then { s with hasGrammar := true } else s
  let cur := s.tokens.length
  let s := s.pushToken t
  match s.state with
  | .string => s.stepString t cur
  | .subString => s.stepSubString t cur
  | .pattern => s.stepPattern t cur
  | .keyword => s.stepKeyword t cur
  | .literalText => s.stepLiteralText t cur
  | .literal => s.stepLiteral t
  | .command => s.stepCommand t cur
  | .namedString => s.stepNamedString t cur
  | .namedGroup => s.stepNamedGroup t

/-- The `while let Some(..) = lexer.next()` loop. -/
def Step.drive : Step → List Token → TreeM PState
  | .done (.ok s), [] => .ok s
  | .done (.ok s), t :: ts => (s.step t).drive ts
  | .done (.err e), _ => .err e
  | .done .panic, _ => .panic
  | .need _, [] => .err .endedAbruptly
  | .need k, t :: ts => (k t).drive ts
termination_by structural _ ts => ts

/-- The variables before the loop, crates/localiser/src/tree.rs:137-164. -/
def PState.init : PState :=
  { tokens := []
    hasGrammar := false
    lengths := { bytes := 0, characters := 0, graphemes := 0, tokens := 0 }
    nodes := [
      { nodeType := .root, parent := none, children := some [1], tokens := none },
      { nodeType := .string, parent := some 0, children := some [], tokens := none }]
    current := some 1
    state := .string
    nested := []
    namedStrings := []
    patterns := [] }

/-- `Tree::try_new` after tokenising, crates/localiser/src/tree.rs:168-696. -/
def Tree.ofTokens (tokens : List Token) : TreeM Tree :=
  match (Step.done (.ok PState.init)).drive tokens with
  | .ok s =>
    if !s.nested.isEmpty then .err .endedAbruptly
    else .ok { tokens := s.tokens, hasGrammar := s.hasGrammar, lengths := s.lengths, nodes := s.nodes }
  | .err e => .err e
  | .panic => .panic

/-- `Tree::try_new`, crates/localiser/src/tree.rs:131-696. -/
def Tree.tryNew (icu : Icu) (grammar string : Str) : TreeM Tree :=
  match lex icu grammar string with
  | .error e => .err (.lexer e)
  | .ok tokens => Tree.ofTokens tokens

/-- The grammar characters of the localiser, crates/localiser/src/localiser.rs (`grammar: "{}`#"`). -/
def localiserGrammar : Str := ['{', '}', '`', '#']

end Verif
