import Verif.Spec.Grammar
/-
Trees and their storage in an arena in preorder.
-/
namespace Verif.Spec
open Verif

/-- A node with its type, the positions of its tokens and its children. -/
inductive Rose where
  | node (ty : NodeType) (tokens : List Nat) (kids : List Rose)

namespace Rose

mutual
/-- Number of nodes. -/
def size : Rose → Nat
  | .node _ _ kids => 1 + sizes kids
/-- Number of nodes of a forest. -/
def sizes : List Rose → Nat
  | [] => 0
  | r :: rs => size r + sizes rs
end

/-- Indices of the roots of a forest stored from index `k` on. -/
def offsets : Nat → List Rose → List Nat
  | _, [] => []
  | k, r :: rs => k :: offsets (k + r.size) rs

/-- The stored form of a node. -/
def head (par : Option Nat) (ty : NodeType) (toks : List Nat) (kids : List Nat) : Node :=
  { nodeType := ty, parent := par
    children := if ty.allowChildren then some kids else none
    tokens := if ty.allowTokens then some toks else none }

mutual
/-- Storage of a tree from index `off` on, in preorder. -/
def flatten (par : Option Nat) (off : Nat) : Rose → List Node
  | .node ty toks kids => head par ty toks (offsets (off + 1) kids) :: flattens off (off + 1) kids
/-- Storage of a forest with common parent. -/
def flattens (par : Nat) (off : Nat) : List Rose → List Node
  | [] => []
  | r :: rs => flatten (some par) off r ++ flattens par (off + r.size) rs
end

end Rose

/-- A leaf node with one token. -/
def leafRose (ty : NodeType) (l : Leaf) : Rose := .node ty [l.idx] []

/-- crates/localiser/src/tree.rs:27-49 describes the nodes. -/
def Part.rose : Part → Rose
  | .ident l => leafRose .identifier l
  | .hash l => leafRose .numberSign l

/-- A selector node holds two identifiers. -/
def selRose (s : Leaf × Leaf) : Rose :=
  .node .selector [] [leafRose .identifier s.1, leafRose .identifier s.2]

/-- The node of an item. -/
def Item.rose : Item → Rose
  | .text toks => .node .text (toks.map Leaf.idx) []
  | .number l => leafRose .numberSign l
  | .pat id none => .node .pattern [] [leafRose .identifier id]
  | .pat id (some (k, sels)) =>
    .node .pattern [] (leafRose .identifier id :: leafRose .identifier k :: sels.map selRose)
  | .cmd parts => .node .command [] (parts.map Part.rose)

/-- The node of a (sub)string. -/
def strRose (items : List Item) : Rose := .node .string [] (items.map Item.rose)

/-- The node of a named string. -/
def Named.rose (n : Named) : Rose := .node .namedString [] [leafRose .identifier n.id, strRose n.items]

/-- The node of the group. -/
def groupRose (ns : List Named) : Rose := .node .namedGroup [] (ns.map Named.rose)

/-- The whole tree. -/
def Doc.rose (d : Doc) : Rose :=
  .node .root [] (strRose d.main :: (match d.group with | none => [] | some ns => [groupRose ns]))

/-- The arena of a pattern string. -/
def Doc.arena (d : Doc) : List Node := d.rose.flatten none 0

end Verif.Spec
