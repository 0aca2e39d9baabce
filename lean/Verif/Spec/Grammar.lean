import Verif.Model.Tree
/-
The language of pattern strings accepted by the parser, as a grammar over tokens, independent of the arena and of
the state machine of the parser. A leaf of the syntax is a token together with its position in the token sequence.
-/
namespace Verif.Spec
open Verif

/-- A token and its position in the sequence of tokens. -/
structure Leaf where
  idx : Nat
  tok : Token
  deriving DecidableEq

/-- Parts of a command pattern `{#name# parameter …}`. -/
inductive Part where
  | ident (l : Leaf)
  | hash (l : Leaf)
  deriving DecidableEq

/-- Content of a (sub)string. -/
inductive Item where
  /-- literal text, one or more tokens -/
  | text (toks : List Leaf)
  /-- the number sign of a substring -/
  | number (tok : Leaf)
  /-- `{id}` or `{id keyword selector#named …}` -/
  | pat (id : Leaf) (kw : Option (Leaf × List (Leaf × Leaf)))
  /-- `{#name …}` -/
  | cmd (parts : List Part)
  deriving DecidableEq

/-- A named string `{id content}`. -/
structure Named where
  id : Leaf
  items : List Item
  deriving DecidableEq

/-- A pattern string: the main string and the optional group of named strings. -/
structure Doc where
  main : List Item
  group : Option (List Named)
  deriving DecidableEq

/-- `t` is the grammar character `c`. -/
def Gr (c : Char) (t : Token) : Prop := t.tokenType = .grammar ∧ t.string = [c]

/-- White space tokens only. -/
def Blank (ts : List Token) : Prop := ∀ t ∈ ts, t.tokenType = .whiteSpace

/-- Text token `l` extends a text which is last, otherwise starts one. -/
def pushText (items : List Item) (l : Leaf) : List Item :=
  match items.getLast? with
  | some (.text toks) => items.dropLast ++ [.text (toks ++ [l])]
  | _ => items ++ [.text [l]]

/-- Does the content end with a number sign? -/
def endsWithNumber (items : List Item) : Bool :=
  match items.getLast? with
  | some (.number _) => true
  | _ => false

/-- Selectors after a keyword, the first token having position `n`. -/
inductive KwBody (n : Nat) : List (Leaf × Leaf) → List Token → Prop
  | nil : KwBody n [] []
  | skip {sels ts t} : KwBody n sels ts →
      (t.tokenType = .whiteSpace ∨ t.tokenType = .grammar ∧ t.string ≠ ['}']) → KwBody n sels (ts ++ [t])
  | selector {sels ts a h b} : KwBody n sels ts → a.tokenType = .identifier → h.string = ['#'] →
      b.tokenType = .identifier →
      KwBody n (sels ++ [(⟨n + ts.length, a⟩, ⟨n + ts.length + 2, b⟩)]) (ts ++ [a, h, b])

/-- Inside of a command after `{#`. -/
inductive CmdBody (n : Nat) : List Part → List Token → Prop
  | nil : CmdBody n [] []
  | blank {parts ts t} : CmdBody n parts ts → t.tokenType = .whiteSpace → CmdBody n parts (ts ++ [t])
  | ident {parts ts t} : CmdBody n parts ts → t.tokenType = .identifier →
      CmdBody n (parts ++ [.ident ⟨n + ts.length, t⟩]) (ts ++ [t])
  | hash {p ts t} : CmdBody n [.ident p] ts → Gr '#' t →
      CmdBody n [.ident p, .hash ⟨n + ts.length, t⟩] (ts ++ [t])

/-- Does the command end with the delay marker? -/
def endsWithHash (parts : List Part) : Bool :=
  match parts.getLast? with
  | some (.hash _) => true
  | _ => false

/-- A complete pattern whose first token has position `n`. -/
inductive Pattern (n : Nat) : Item → List Token → Prop
  | simple {o id ws c} : Gr '{' o → id.tokenType = .identifier → Blank ws → Gr '}' c →
      Pattern n (.pat ⟨n + 1, id⟩ none) (o :: id :: ws ++ [c])
  | keyword {o id ws k sels body c} : Gr '{' o → id.tokenType = .identifier → Blank ws →
      k.tokenType = .identifier → KwBody (n + 3 + ws.length) sels body → Gr '}' c →
      Pattern n (.pat ⟨n + 1, id⟩ (some (⟨n + 2 + ws.length, k⟩, sels))) (o :: id :: ws ++ k :: body ++ [c])
  | command {o h parts body c} : Gr '{' o → Gr '#' h → CmdBody (n + 2) parts body → parts ≠ [] →
      endsWithHash parts = false → Gr '}' c → Pattern n (.cmd parts) (o :: h :: body ++ [c])

/-- Content of the main string (`sub = false`) or of a named string (`sub = true`), first token at position `n`. -/
inductive Content (sub : Bool) (n : Nat) : List Item → List Token → Prop
  | nil : Content sub n [] []
  | plain {items ts t} : Content sub n items ts → t.tokenType ≠ .grammar →
      Content sub n (pushText items ⟨n + ts.length, t⟩) (ts ++ [t])
  | escaped {items ts e t} : Content sub n items ts → Gr '`' e →
      Content sub n (pushText items ⟨n + ts.length + 1, t⟩) (ts ++ [e, t])
  | number {items ts t} : Content sub n items ts → sub = true → endsWithNumber items = false → Gr '#' t →
      Content sub n (items ++ [.number ⟨n + ts.length, t⟩]) (ts ++ [t])
  | pattern {items ts item w} : Content sub n items ts → Pattern (n + ts.length) item w →
      Content sub n (items ++ [item]) (ts ++ w)

/-- The content of a named string must start with an identifier or a number sign. -/
def Starts : List Token → Prop
  | t :: _ => t.tokenType = .identifier ∨ Gr '#' t
  | [] => False

/-- The named strings, first token at position `n`. -/
inductive Group (n : Nat) : List Named → List Token → Prop
  | nil : Group n [] []
  | blank {ns ts t} : Group n ns ts → t.tokenType = .whiteSpace → Group n ns (ts ++ [t])
  | named {ns ts o id w ws items body c} : Group n ns ts → Gr '{' o → id.tokenType = .identifier →
      w.tokenType = .whiteSpace → Blank ws → Starts body →
      Content true (n + ts.length + 3 + ws.length) items body → Gr '}' c →
      Group n (ns ++ [⟨⟨n + ts.length + 1, id⟩, items⟩]) (ts ++ o :: id :: w :: ws ++ body ++ [c])

/-- A pattern string. -/
inductive Sentence : Doc → List Token → Prop
  | plain {items ts} : Content false 0 items ts → Sentence ⟨items, none⟩ ts
  | group {items ts h named gs} : Content false 0 items ts → Gr '#' h → Group (ts.length + 1) named gs →
      Sentence ⟨items, some named⟩ (ts ++ h :: gs)

/-- Identifiers of placeholders in a content. -/
def patNames : List Item → List Str
  | [] => []
  | .pat id _ :: rest => id.tok.string :: patNames rest
  | _ :: rest => patNames rest

/-- Identifiers of all placeholders of a pattern string, in order. -/
def Doc.patNames (d : Doc) : List Str :=
  Spec.patNames d.main ++ ((d.group.getD []).map fun n => Spec.patNames n.items).flatten

/-- Identifiers of the named strings, in order. -/
def Doc.namedNames (d : Doc) : List Str := (d.group.getD []).map fun n => n.id.tok.string

end Verif.Spec
