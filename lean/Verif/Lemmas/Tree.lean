import Verif.Lemmas.Arena
/-
Simulation of the parser by the grammar of `Spec.Grammar`: for every control state of the parser the exact
contents of all its variables, and the step each kind of token leads to.
-/
namespace Verif.TreeLemmas
open Verif Verif.Spec Verif.Spec.Rose

/-- Where the open string lives: it is the main string, or the string of a named string. -/
inductive Home where
  | main
  | sub (m : List Item) (ns : List Named) (id : Leaf)

namespace Home

def state : Home → ParserState
  | .main => .string
  | .sub .. => .subString

def nested : Home → List ParserState
  | .main => []
  | .sub .. => [.namedString, .namedGroup]

def isSub : Home → Bool
  | .main => false
  | .sub .. => true

/-- Storage before the group. -/
def pre1 (m : List Item) : List Node := lastPre [] none .root [] [strRose m]
/-- Storage before a new named string. -/
def pre2 (m : List Item) (ns : List Named) : List Node :=
  lastPre (pre1 m) (some 0) .namedGroup [] (ns.map Named.rose)
/-- Storage before the string of a new named string. -/
def pre3 (m : List Item) (ns : List Named) (id : Leaf) : List Node :=
  lastPre (pre2 m ns) (some (pre1 m).length) .namedString [] [leafRose .identifier id]

def pre : Home → List Node
  | .main => lastPre [] none .root [] []
  | .sub m ns id => pre3 m ns id

def par : Home → Nat
  | .main => 0
  | .sub m ns _ => (pre2 m ns).length

def doc (h : Home) (items : List Item) : Doc :=
  match h with
  | .main => ⟨items, none⟩
  | .sub m ns id => ⟨m, some (ns ++ [⟨id, items⟩])⟩

/-- All nodes, given the children of the open string. -/
def nodes (h : Home) (kids : List Rose) : List Node :=
  h.pre ++ flatten (some h.par) h.pre.length (.node .string [] kids)

/-- Pattern identifiers of what is before the open string. -/
def pn : Home → List Str
  | .main => []
  | .sub m ns _ => Spec.patNames m ++ (ns.map fun n => Spec.patNames n.items).flatten

/-- Identifiers of the named strings, including the open one. -/
def nn : Home → List Str
  | .main => []
  | .sub _ ns id => (ns.map fun n => n.id.tok.string) ++ [id.tok.string]

theorem arena_eq (h : Home) (items : List Item) : (h.doc items).arena = h.nodes (items.map Item.rose) := by
  cases h with
  | main =>
    have := flatten_last [] none .root [] [] (strRose items)
    simpa [doc, Doc.arena, Doc.rose, nodes, pre, par, lastPre_length, strRose, sizes] using this
  | sub m ns id =>
    have h1 := flatten_last [] none .root [] [strRose m] (groupRose (ns ++ [⟨id, items⟩]))
    have h2 := flatten_last (pre1 m) (some 0) .namedGroup [] (ns.map Named.rose) (Named.rose ⟨id, items⟩)
    have h3 := flatten_last (pre2 m ns) (some (pre1 m).length) .namedString [] [leafRose .identifier id]
      (strRose items)
    have l1 : (pre1 m).length = 0 + 1 + sizes [strRose m] := by simp [pre1, lastPre_length]
    have l2 : (pre2 m ns).length = (pre1 m).length + 1 + sizes (ns.map Named.rose) := by
      simp [pre2, lastPre_length]
    have l3 : (pre3 m ns id).length = (pre2 m ns).length + 1 + sizes [leafRose .identifier id] := by
      simp [pre3, lastPre_length]
    simp only [List.nil_append, List.length_nil] at h1
    simp only [doc, Doc.arena, Doc.rose]
    rw [show [strRose m] ++ [groupRose (ns ++ [⟨id, items⟩])] = strRose m :: [groupRose (ns ++ [⟨id, items⟩])] from rfl] at h1
    rw [h1, ← l1]
    simp only [groupRose, List.map_append, List.map_cons, List.map_nil]
    have h2' := h2
    rw [← l2] at h2'
    change pre1 m ++ _ = _
    rw [h2']
    change pre2 m ns ++ _ = _
    have h3' := h3
    rw [← l3] at h3'
    simp only [nodes, pre, par]
    change pre2 m ns ++ flatten _ _ (.node .namedString [] ([leafRose .identifier id] ++ [strRose items])) = _
    rw [h3']; rfl

end Home

/-- Lengths of a token list. -/
def lens (ts : List Token) : Length :=
  { bytes := (ts.map Token.lengthBytes).sum
    characters := (ts.map Token.lengthCharacters).sum
    graphemes := (ts.map Token.lengthGraphemes).sum
    tokens := ts.length }

/-- Does a grammar token occur? -/
def anyGr (ts : List Token) : Bool := ts.any (fun t => t.tokenType == .grammar)

/-- All variables of the parser. -/
structure Fields (s : PState) (ts : List Token) (nodes : List Node) (cur : Nat) (st : ParserState)
    (nst : List ParserState) (pn nn : List Str) : Prop where
  tokens : s.tokens = ts
  nodes : s.nodes = nodes
  current : s.current = some cur
  state : s.state = st
  nested : s.nested = nst
  pats : (∀ k, s.patterns.contains k = true ↔ k ∈ pn) ∧ pn.Nodup
  named : (∀ k, s.namedStrings.contains k = true ↔ k ∈ nn) ∧ nn.Nodup
  gram : s.hasGrammar = anyGr ts
  lengths : s.lengths = lens ts

/-- The state after the head of the loop has pushed the token. -/
def feed (s : PState) (t : Token) : PState :=
  (if t.tokenType = .grammar then { s with hasGrammar := true } else s).pushToken t

theorem step_eq (s : PState) (t : Token) : s.step t =
    match s.state with
    | .string => (feed s t).stepString t s.tokens.length
    | .subString => (feed s t).stepSubString t s.tokens.length
    | .pattern => (feed s t).stepPattern t s.tokens.length
    | .keyword => (feed s t).stepKeyword t s.tokens.length
    | .literalText => (feed s t).stepLiteralText t s.tokens.length
    | .literal => (feed s t).stepLiteral t
    | .command => (feed s t).stepCommand t s.tokens.length
    | .namedString => (feed s t).stepNamedString t s.tokens.length
    | .namedGroup => (feed s t).stepNamedGroup t := by
  unfold PState.step feed
  by_cases h : t.tokenType = .grammar <;> simp only [h, if_true, if_false] <;> rfl

theorem lens_append (ts : List Token) (t : Token) : lens (ts ++ [t]) =
    { bytes := (lens ts).bytes + t.lengthBytes
      characters := (lens ts).characters + t.lengthCharacters
      graphemes := (lens ts).graphemes + t.lengthGraphemes
      tokens := (lens ts).tokens + 1 } := by
  simp [lens]

theorem anyGr_append (ts us : List Token) : anyGr (ts ++ us) = (anyGr ts || anyGr us) := by
  simp [anyGr]

theorem Fields.push {s ts n c st nst pn nn} (F : Fields s ts n c st nst pn nn) (t : Token)
    (h : anyGr ts = true ∨ t.tokenType ≠ .grammar) : Fields (s.pushToken t) (ts ++ [t]) n c st nst pn nn where
  tokens := by simp [PState.pushToken, F.tokens]
  nodes := F.nodes
  current := F.current
  state := F.state
  nested := F.nested
  pats := F.pats
  named := F.named
  gram := by
    rw [anyGr_append]
    show s.hasGrammar = _
    rw [F.gram]
    rcases h with h | h
    · simp [h]
    · simp [anyGr, h]
  lengths := by rw [lens_append]; simp only [PState.pushToken, F.lengths]

theorem Fields.feed {s ts n c st nst pn nn} (F : Fields s ts n c st nst pn nn) (t : Token) :
    Fields (feed s t) (ts ++ [t]) n c st nst pn nn := by
  unfold TreeLemmas.feed
  by_cases h : t.tokenType = .grammar
  · simp only [h, if_true]
    exact {
      tokens := by simp [PState.pushToken, F.tokens]
      nodes := F.nodes
      current := F.current
      state := F.state
      nested := F.nested
      pats := F.pats
      named := F.named
      gram := by rw [anyGr_append]; simp [PState.pushToken, anyGr, h]
      lengths := by rw [lens_append]; simp only [PState.pushToken, F.lengths] }
  · simp only [h, if_false]
    exact F.push t (Or.inr h)

/-- Index of the current node while a string at index `k` is open. -/
def focusIdx (k : Nat) (items : List Item) : Nat :=
  match items.getLast? with
  | some (.text _) => k + 1 + sizes (items.dropLast.map Item.rose)
  | some (.number _) => k + 1 + sizes (items.dropLast.map Item.rose)
  | _ => k

theorem focus_isFocus (k : Nat) (items : List Item) : IsFocus k (items.map Item.rose) (focusIdx k items) := by
  rcases List.eq_nil_or_concat items with rfl | ⟨front, x, rfl⟩
  · exact Or.inl rfl
  · unfold focusIdx
    rw [List.concat_eq_append, List.getLast?_concat, List.dropLast_concat]
    cases x with
    | text toks => exact Or.inr ⟨front.map Item.rose, .text, toks.map Leaf.idx, by simp [Item.rose], rfl, rfl⟩
    | number l => exact Or.inr ⟨front.map Item.rose, .numberSign, [l.idx], by simp [Item.rose, leafRose], rfl, rfl⟩
    | pat _ _ => exact Or.inl rfl
    | cmd _ => exact Or.inl rfl

theorem pushText_map (items : List Item) (l : Leaf) :
    (∃ front toks, items = front ++ [.text toks] ∧ pushText items l = front ++ [.text (toks ++ [l])]) ∨
    ((∀ front toks, items ≠ front ++ [.text toks]) ∧ pushText items l = items ++ [.text [l]]) := by
  rcases List.eq_nil_or_concat items with rfl | ⟨front, x, rfl⟩
  · right; exact ⟨by simp, rfl⟩
  · unfold pushText
    rw [List.concat_eq_append, List.getLast?_concat, List.dropLast_concat]
    cases x with
    | text toks => left; exact ⟨front, toks, rfl, rfl⟩
    | number l =>
      right; refine ⟨?_, rfl⟩
      intro f tk e; have := List.append_inj' e rfl; simp at this
    | pat _ _ =>
      right; refine ⟨?_, rfl⟩
      intro f tk e; have := List.append_inj' e rfl; simp at this
    | cmd _ =>
      right; refine ⟨?_, rfl⟩
      intro f tk e; have := List.append_inj' e rfl; simp at this

theorem focusIdx_text (k : Nat) (front : List Item) (toks : List Leaf) :
    focusIdx k (front ++ [.text toks]) = k + 1 + sizes (front.map Item.rose) := by
  simp [focusIdx]

theorem get_string {ns : List Node} {h : Home} {kids} (hn : ns = h.nodes kids) :
    ns[h.pre.length]? = some (head (some h.par) .string [] (offsets (h.pre.length + 1) kids)) := by
  rw [hn]; exact get_flatten _ _ _ _ _

/-- Adding a text token to an open string. -/
theorem addText {s : PState} {h : Home} {items : List Item} (i : Nat) (t : Token)
    (hn : s.nodes = h.nodes (items.map Item.rose)) (hc : s.current = some (focusIdx h.pre.length items)) :
    s.addToken .text i = .ok { s with
      nodes := h.nodes ((pushText items ⟨i, t⟩).map Item.rose)
      current := some (focusIdx h.pre.length (pushText items ⟨i, t⟩)) } := by
  rcases pushText_map items ⟨i, t⟩ with ⟨front, toks, rfl, hp⟩ | ⟨hne, hp⟩
  · rw [hp, focusIdx_text]
    rw [focusIdx_text] at hc
    rw [List.map_append] at hn
    rw [addToken_same s h.pre (some h.par) .string [] (front.map Item.rose) (toks.map Leaf.idx) .text i hn hc rfl]
    simp only [hc, Home.nodes, List.map_append, List.map_cons, List.map_nil, Item.rose]
  · rw [hp, focusIdx_text]
    rw [addToken_new s h.pre (some h.par) .string [] _ _ .text i hn hc rfl (focus_isFocus _ _) rfl]
    · simp [Home.nodes, Item.rose]
    · intro n hnode
      rcases List.eq_nil_or_concat items with rfl | ⟨front, x, rfl⟩
      · have := get_string hn
        change s.nodes[h.pre.length]? = some n at hnode
        rw [this] at hnode; cases hnode; simp [head]
      · rw [List.concat_eq_append] at *
        cases x with
        | text toks => exact absurd rfl (hne front toks)
        | number l =>
          have hfi : focusIdx h.pre.length (front ++ [.number l]) = h.pre.length + 1 + sizes (front.map Item.rose) := by
            simp [focusIdx]
          rw [hfi] at hnode
          rw [List.map_append, Home.nodes, List.map_cons, List.map_nil, flatten_last,
            ← lastPre_length h.pre (some h.par) .string []] at hn
          rw [← lastPre_length h.pre (some h.par) .string []] at hnode
          have := get_flatten (lastPre h.pre (some h.par) .string [] (front.map Item.rose)) (some h.pre.length)
            .numberSign [l.idx] []
          rw [hn] at hnode
          simp only [Item.rose, leafRose] at hnode
          rw [this] at hnode; cases hnode; simp [head]
        | pat a b =>
          have hfi : focusIdx h.pre.length (front ++ [.pat a b]) = h.pre.length := by simp [focusIdx]
          rw [hfi] at hnode
          have := get_string hn
          rw [this] at hnode; cases hnode; simp [head]
        | cmd a =>
          have hfi : focusIdx h.pre.length (front ++ [.cmd a]) = h.pre.length := by simp [focusIdx]
          rw [hfi] at hnode
          have := get_string hn
          rw [this] at hnode; cases hnode; simp [head]

/-! ### Control states -/

/-- Storage before the last item of the open string. -/
def Home.itemPre (h : Home) (items : List Item) : List Node :=
  lastPre h.pre (some h.par) .string [] (items.map Item.rose)

theorem Home.item_nodes (h : Home) (items : List Item) (r : Rose) :
    h.nodes (items.map Item.rose ++ [r]) =
      h.itemPre items ++ flatten (some h.pre.length) (h.itemPre items).length r := by
  rw [Home.nodes, flatten_last, Home.itemPre, lastPre_length]

theorem Home.itemPre_length (h : Home) (items : List Item) :
    (h.itemPre items).length = h.pre.length + 1 + sizes (items.map Item.rose) := lastPre_length _ _ _ _ _

/-- A string is open. -/
def AtText (h : Home) (items : List Item) (ts : List Token) (s : PState) : Prop :=
  Fields s ts (h.nodes (items.map Item.rose)) (focusIdx h.pre.length items) h.state h.nested
    (h.pn ++ patNames items) h.nn

/-- The item `it` of a string is open. -/
structure AtItem (h : Home) (items : List Item) (it : Item) (cur : Nat) (st : ParserState) (ts : List Token)
    (s : PState) : Prop where
  fields : Fields s ts (h.nodes (items.map Item.rose ++ [it.rose])) cur st (h.state :: h.nested)
    (h.pn ++ patNames (items ++ [it])) h.nn
  gr : anyGr ts = true

def AtPat (h : Home) (items : List Item) (id : Leaf) : List Token → PState → Prop :=
  AtItem h items (.pat id none) (h.itemPre items).length .pattern

def AtKw (h : Home) (items : List Item) (id k : Leaf) (sels : List (Leaf × Leaf)) : List Token → PState → Prop :=
  AtItem h items (.pat id (some (k, sels))) (h.itemPre items).length .keyword

/-- Index of the current node inside a command stored at `k`. -/
def cmdFocus (k : Nat) (parts : List Part) : Nat :=
  if endsWithHash parts then k + 1 + sizes (parts.dropLast.map Part.rose) else k

def AtCmd (h : Home) (items : List Item) (parts : List Part) : List Token → PState → Prop :=
  AtItem h items (.cmd parts) (cmdFocus (h.itemPre items).length parts) .command

/-- Between named strings. -/
def AtGrp (m : List Item) (ns : List Named) (ts : List Token) (s : PState) : Prop :=
  Fields s ts (Home.pre1 m ++ flatten (some 0) (Home.pre1 m).length (groupRose ns)) (Home.pre1 m).length .namedGroup []
    (patNames m ++ (ns.map fun n => patNames n.items).flatten) (ns.map fun n => n.id.tok.string)

/-- In a named string before its content; `id?` is its identifier if already read. -/
def AtNs (m : List Item) (ns : List Named) (id? : Option Leaf) (ts : List Token) (s : PState) : Prop :=
  Fields s ts (Home.pre2 m ns ++ flatten (some (Home.pre1 m).length) (Home.pre2 m ns).length
      (.node .namedString [] (id?.toList.map (leafRose .identifier))))
    (Home.pre2 m ns).length .namedString [.namedGroup]
    (patNames m ++ (ns.map fun n => patNames n.items).flatten)
    ((ns.map fun n => n.id.tok.string) ++ id?.toList.map (fun l => l.tok.string))

/-- The state after a named string started with a syntax character or an escape: a text leaf is current but the
parser still is in state `NamedString`. -/
structure AtBad (s : PState) : Prop where
  state : s.state = .namedString
  nested : s.nested = [.namedString, .namedGroup]
  leaf : ∃ c n, s.current = some c ∧ s.nodes[c]? = some n ∧ n.children = none

/-- Inside literal text. -/
structure Lit (s : PState) : Prop where
  state : s.state = .literalText
  nested : s.nested ≠ []
  leaf : ∃ c n, s.current = some c ∧ s.nodes[c]? = some n ∧ n.nodeType = .text ∧ n.tokens.isSome

/-- The error says that the token `t` is invalid in the state `st`. -/
def Says (st : ParserState) (t : Token) (e : TreeError) : Prop := e = .invalidToken st t.startGrapheme t.string

theorem feed_state (s : PState) (t : Token) : (feed s t).state = s.state := by unfold feed; split <;> rfl

theorem says {s : PState} {st : ParserState} {t : Token} (h : s.state = st) : Says st t ((feed s t).invalid t) := by
  unfold Says PState.invalid
  rw [feed_state, h]

theorem patNames_append (a b : List Item) : patNames (a ++ b) = patNames a ++ patNames b := by
  induction a with
  | nil => rfl
  | cons x xs ih => cases x <;> simp [patNames, ih]

theorem patNames_pushText (items : List Item) (l : Leaf) : patNames (pushText items l) = patNames items := by
  rcases pushText_map items l with ⟨front, toks, rfl, hp⟩ | ⟨_, hp⟩ <;> rw [hp] <;> simp [patNames_append, patNames]

theorem Fields.addText {s : PState} {h : Home} {ts items st nst pn nn} (i : Nat) (t : Token)
    (F : Fields s ts (h.nodes (items.map Item.rose)) (focusIdx h.pre.length items) st nst pn nn) :
    ∃ s', s.addToken .text i = .ok s' ∧ Fields s' ts (h.nodes ((pushText items ⟨i, t⟩).map Item.rose))
      (focusIdx h.pre.length (pushText items ⟨i, t⟩)) st nst pn nn :=
  ⟨_, TreeLemmas.addText i t F.nodes F.current,
    { F with nodes := rfl, current := rfl }⟩

theorem text_plain {h items ts s t} (F : AtText h items ts s) (ht : t.tokenType ≠ .grammar) :
    ∃ s', s.step t = .done (.ok s') ∧ AtText h (pushText items ⟨ts.length, t⟩) (ts ++ [t]) s' := by
  obtain ⟨s', h1, h2⟩ := (Fields.feed F t).addText ts.length t
  refine ⟨s', ?_, ?_⟩
  · rw [step_eq, F.state, F.tokens]
    cases h <;> simp only [Home.state, PState.stepString, PState.stepSubString, ht, if_false, h1]
  · unfold AtText; rw [patNames_pushText]; exact h2

theorem text_escape {h items ts s e} (F : AtText h items ts s) (he : Gr '`' e) :
    ∃ k, s.step e = .need k ∧ ∀ t, ∃ s', k t = .done (.ok s') ∧
      AtText h (pushText items ⟨ts.length + 1, t⟩) (ts ++ [e, t]) s' := by
  have F1 := Fields.feed F e
  have hgr : anyGr (ts ++ [e]) = true := by rw [anyGr_append]; simp [anyGr, he.1]
  refine ⟨fun t => .done ((feed s e).pushToken t |>.addToken .text (feed s e).tokens.length), ?_, ?_⟩
  · rw [step_eq, F.state]
    cases h <;> simp [Home.state, PState.stepString, PState.stepSubString, he.1, he.2, PState.fetch]
  · intro t
    have F2 := F1.push t (Or.inl hgr)
    rw [List.append_assoc] at F2
    obtain ⟨s', h1, h2⟩ := F2.addText (ts.length + 1) t
    refine ⟨s', ?_, ?_⟩
    · rw [F1.tokens]; simp [h1]
    · unfold AtText; rw [patNames_pushText]; exact h2

end Verif.TreeLemmas
