import Verif.Model.Tree
/-
What it means for a parse tree to be well formed.
-/
namespace Verif.Spec
open Verif

/-- Well formed parse tree. -/
structure WellFormed (t : Tree) : Prop where
  /-- The first node is the root. -/
  root : ∃ n, t.nodes[0]? = some n ∧ n.nodeType = .root ∧ n.parent = none
  /-- Every other node is not a root and has a parent with a smaller index, whose child list contains it exactly
  once. -/
  parent : ∀ i n, t.nodes[i]? = some n → 0 < i → n.nodeType ≠ .root ∧ ∃ p pn c, n.parent = some p ∧ p < i ∧
    t.nodes[p]? = some pn ∧ pn.children = some c ∧ c.count i = 1
  /-- Every listed child has the listing node as its parent. -/
  children : ∀ (p : Nat) (pn : Node) (c : List Nat), t.nodes[p]? = some pn → pn.children = some c → ∀ i ∈ c, ∃ n : Node, t.nodes[i]? = some n ∧ n.parent = some p
  /-- Only container nodes have children, only leaves have tokens. -/
  kinds : ∀ n ∈ t.nodes,
    (n.children.isSome = true ↔
      n.nodeType ∈ [NodeType.root, .string, .namedGroup, .namedString, .selector, .pattern, .command]) ∧
    (n.tokens.isSome = true ↔ n.nodeType ∈ [NodeType.text, .numberSign, .identifier])
  /-- Token indices are in range. -/
  range : ∀ n ∈ t.nodes, ∀ toks, n.tokens = some toks → ∀ k ∈ toks, k < t.tokens.length
  /-- Read in the order of the nodes, token indices increase strictly. -/
  order : (t.nodes.flatMap fun n => n.tokens.getD []).Pairwise (· < ·)

end Verif.Spec
