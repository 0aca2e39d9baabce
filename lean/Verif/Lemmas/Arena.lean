import Verif.Spec.Arena
/-
The primitive operations of the parser on an arena which stores a tree in preorder.
-/
namespace Verif.Spec.Rose
open Verif

theorem size_pos (r : Rose) : 0 < r.size := by cases r; simp [size]; omega

theorem sizes_append (a b : List Rose) : sizes (a ++ b) = sizes a + sizes b := by
  induction a with
  | nil => simp [sizes]
  | cons r rs ih => simp [sizes, ih]; omega

theorem offsets_append (a b : List Rose) : ∀ k, offsets k (a ++ b) = offsets k a ++ offsets (k + sizes a) b := by
  induction a with
  | nil => intro k; simp [sizes, offsets]
  | cons r rs ih => intro k; simp only [List.cons_append, offsets, ih, sizes, Nat.add_assoc]

theorem flattens_append (p : Nat) (a b : List Rose) :
    ∀ k, flattens p k (a ++ b) = flattens p k a ++ flattens p (k + sizes a) b := by
  induction a with
  | nil => intro k; simp [sizes, flattens]
  | cons r rs ih => intro k; simp only [List.cons_append, flattens, ih, sizes, Nat.add_assoc, List.append_assoc]

mutual
theorem flatten_length (par : Option Nat) (k : Nat) : ∀ r : Rose, (flatten par k r).length = r.size
  | .node ty toks kids => by
    simp only [flatten, List.length_cons, size, flattens_length k (k + 1) kids]; omega
theorem flattens_length (p k : Nat) : ∀ rs : List Rose, (flattens p k rs).length = sizes rs
  | [] => rfl
  | r :: rs => by
    simp only [flattens, List.length_append, sizes, flatten_length (some p) k r, flattens_length p _ rs]
end

theorem offsets_length (rs : List Rose) : ∀ k, (offsets k rs).length = rs.length := by
  induction rs with
  | nil => intro k; rfl
  | cons r rs ih => intro k; simp [offsets, ih]

theorem flatten_eq (par : Option Nat) (k : Nat) (ty : NodeType) (toks : List Nat) (kids : List Rose) :
    flatten par k (.node ty toks kids) = head par ty toks (offsets (k + 1) kids) :: flattens k (k + 1) kids := by
  simp only [flatten]

/-- Storage before the last child of a node. -/
def lastPre (pre : List Node) (par : Option Nat) (ty : NodeType) (toks : List Nat) (kids : List Rose) : List Node :=
  pre ++ head par ty toks (offsets (pre.length + 1) kids ++ [pre.length + 1 + sizes kids]) ::
    flattens pre.length (pre.length + 1) kids

theorem lastPre_length (pre : List Node) (par ty toks kids) :
    (lastPre pre par ty toks kids).length = pre.length + 1 + sizes kids := by
  simp only [lastPre, List.length_append, List.length_cons, flattens_length]; omega

/-- The last child of a node is stored last; what is before it does not depend on its subtree. -/
theorem flatten_last (pre : List Node) (par ty toks kids r) :
    pre ++ flatten par pre.length (.node ty toks (kids ++ [r])) =
      lastPre pre par ty toks kids ++ flatten (some pre.length) (pre.length + 1 + sizes kids) r := by
  simp only [flatten_eq, lastPre, offsets_append, flattens_append, offsets, flattens, List.append_nil,
    List.append_assoc, List.cons_append]

theorem getElem_pre (pre : List Node) (n : Node) (rest : List Node) : (pre ++ n :: rest)[pre.length]? = some n := by
  simp

theorem get_flatten (pre : List Node) (par ty toks kids) :
    (pre ++ flatten par pre.length (.node ty toks kids))[pre.length]? =
      some (head par ty toks (offsets (pre.length + 1) kids)) := by
  rw [flatten_eq]; exact getElem_pre _ _ _

/-- `Tree::insert` adds a last child. -/
theorem insert_eq (pre : List Node) (par ty toks kids) (ty' : NodeType) (h : ty.allowChildren = true) :
    Tree.insert (pre ++ flatten par pre.length (.node ty toks kids)) pre.length ty' =
      .ok (pre.length + 1 + sizes kids,
        pre ++ flatten par pre.length (.node ty toks (kids ++ [.node ty' [] []]))) := by
  have hlen : (pre ++ flatten par pre.length (.node ty toks kids)).length = pre.length + 1 + sizes kids := by
    simp only [List.length_append, flatten_length, size]; omega
  have hget : ((pre ++ flatten par pre.length (.node ty toks kids)) ++ [Node.fresh pre.length ty'])[pre.length]? =
      some (head par ty toks (offsets (pre.length + 1) kids)) := by
    rw [List.append_assoc, flatten_eq, List.cons_append]; exact getElem_pre _ _ _
  simp only [Tree.insert, hlen, hget, Outcome.unwrap_some, Outcome.bind_ok, Node.pushChild, head, h, if_true,
    Outcome.pure_eq]
  congr 2
  simp only [flatten_eq, offsets_append, flattens_append, offsets, flattens, head, h, if_true, List.append_assoc,
    List.cons_append, List.set_append_right _ _ (Nat.le_refl _), Nat.sub_self, List.set_cons_zero, List.append_nil,
    Node.fresh]

end Verif.Spec.Rose

namespace Verif.TreeLemmas
open Verif Verif.Spec Verif.Spec.Rose

/-- The parser's current node: the container itself, or its last child when that is a leaf. -/
def IsFocus (k : Nat) (kids : List Rose) (c : Nat) : Prop :=
  c = k ∨ ∃ front lty ltoks, kids = front ++ [.node lty ltoks []] ∧ lty.allowChildren = false ∧ c = k + 1 + sizes front

theorem moveToContainer_self (s : PState) (pre : List Node) (par ty toks kids)
    (hn : s.nodes = pre ++ flatten par pre.length (.node ty toks kids)) (hc : s.current = some pre.length)
    (h : ty.allowChildren = true) : s.moveToContainer = .ok s := by
  have : s.nodes[pre.length]? = some (head par ty toks (offsets (pre.length + 1) kids)) := by
    rw [hn]; exact get_flatten _ _ _ _ _
  simp only [PState.moveToContainer, hc, Outcome.unwrap_some, Outcome.bind_ok, this]
  simp [head, h]

theorem moveToContainer_leaf (s : PState) (pre : List Node) (par ty toks kids)
    (hn : s.nodes = pre ++ flatten par pre.length (.node ty toks kids)) (hc : s.current = some pre.length)
    (h : ty.allowChildren = false) : s.moveToContainer = .ok { s with current := par } := by
  have : s.nodes[pre.length]? = some (head par ty toks (offsets (pre.length + 1) kids)) := by
    rw [hn]; exact get_flatten _ _ _ _ _
  simp only [PState.moveToContainer, hc, Outcome.unwrap_some, Outcome.bind_ok, this]
  simp [head, h]

theorem moveToContainer_focus (s : PState) (pre : List Node) (par ty toks kids c)
    (hn : s.nodes = pre ++ flatten par pre.length (.node ty toks kids)) (hc : s.current = some c)
    (h : ty.allowChildren = true) (hf : IsFocus pre.length kids c) :
    s.moveToContainer = .ok { s with current := some pre.length } := by
  rcases hf with rfl | ⟨front, lty, ltoks, rfl, hl, rfl⟩
  · rw [moveToContainer_self s pre par ty toks kids hn hc h]
    congr 1; cases s; simp_all
  · rw [flatten_last, ← lastPre_length pre par ty toks front] at hn
    rw [← lastPre_length pre par ty toks front] at hc
    exact moveToContainer_leaf s _ _ lty ltoks [] hn hc hl

theorem createNode_eq (s : PState) (pre : List Node) (par ty toks kids c) (ty' : NodeType)
    (hn : s.nodes = pre ++ flatten par pre.length (.node ty toks kids)) (hc : s.current = some c)
    (h : ty.allowChildren = true) (hf : IsFocus pre.length kids c) :
    s.createNode ty' = .ok { s with
      nodes := pre ++ flatten par pre.length (.node ty toks (kids ++ [.node ty' [] []]))
      current := some (pre.length + 1 + sizes kids) } := by
  simp only [PState.createNode, moveToContainer_focus s pre par ty toks kids c hn hc h hf, Outcome.bind_ok,
    Outcome.unwrap_some, hn, insert_eq pre par ty toks kids ty' h, Outcome.pure_eq]

theorem pushTokenToCurrent_eq (s : PState) (pre : List Node) (par ty toks kids) (t : Nat)
    (hn : s.nodes = pre ++ flatten par pre.length (.node ty toks kids)) (hc : s.current = some pre.length)
    (h : ty.allowTokens = true) :
    s.pushTokenToCurrent t = .ok { s with
      nodes := pre ++ flatten par pre.length (.node ty (toks ++ [t]) kids) } := by
  have hg : s.nodes[pre.length]? = some (head par ty toks (offsets (pre.length + 1) kids)) := by
    rw [hn]; exact get_flatten _ _ _ _ _
  simp only [PState.pushTokenToCurrent, hc, Outcome.unwrap_some, Outcome.bind_ok, hg, Node.pushToken, head, h, if_true,
    Outcome.pure_eq]
  congr 1
  cases s
  simp only at hn
  simp only [hn, PState.mk.injEq, true_and, and_true]
  simp only [flatten_eq, List.set_append_right _ _ (Nat.le_refl _), Nat.sub_self, List.set_cons_zero, head, h, if_true]

theorem createNodeAddToken_eq (s : PState) (pre : List Node) (par ty toks kids c) (ty' : NodeType) (t : Nat)
    (hn : s.nodes = pre ++ flatten par pre.length (.node ty toks kids)) (hc : s.current = some c)
    (h : ty.allowChildren = true) (hf : IsFocus pre.length kids c) (h' : ty'.allowTokens = true) :
    s.createNodeAddToken ty' t = .ok { s with
      nodes := pre ++ flatten par pre.length (.node ty toks (kids ++ [.node ty' [t] []]))
      current := some (pre.length + 1 + sizes kids) } := by
  simp only [PState.createNodeAddToken, createNode_eq s pre par ty toks kids c ty' hn hc h hf, Outcome.bind_ok]
  rw [pushTokenToCurrent_eq (s := { s with
      nodes := pre ++ flatten par pre.length (.node ty toks (kids ++ [.node ty' [] []]))
      current := some (pre.length + 1 + sizes kids) }) (pre := lastPre pre par ty toks kids)
      (par := some pre.length) (ty := ty') (toks := []) (kids := [])
      (t := t) (by rw [flatten_last, lastPre_length]) (by rw [lastPre_length]) h']
  simp only [flatten_last, lastPre_length, List.nil_append]

/-- Adding a text token where the current node is not of that type. -/
theorem addToken_new (s : PState) (pre : List Node) (par ty toks kids c) (ty' : NodeType) (t : Nat)
    (hn : s.nodes = pre ++ flatten par pre.length (.node ty toks kids)) (hc : s.current = some c)
    (h : ty.allowChildren = true) (hf : IsFocus pre.length kids c) (h' : ty'.allowTokens = true)
    (hne : ∀ n, s.nodes[c]? = some n → n.nodeType ≠ ty') :
    s.addToken ty' t = .ok { s with
      nodes := pre ++ flatten par pre.length (.node ty toks (kids ++ [.node ty' [t] []]))
      current := some (pre.length + 1 + sizes kids) } := by
  have hget : ∃ n, s.nodes[c]? = some n := by
    rcases hf with rfl | ⟨front, lty, ltoks, rfl, hl, rfl⟩
    · exact ⟨_, by rw [hn]; exact get_flatten _ _ _ _ _⟩
    · refine ⟨head (some pre.length) lty ltoks [], ?_⟩
      rw [flatten_last, ← lastPre_length pre par ty toks front] at hn
      rw [hn, ← lastPre_length pre par ty toks front]; exact get_flatten _ _ _ _ _
  obtain ⟨n, hg⟩ := hget
  simp only [PState.addToken, hc, Outcome.unwrap_some, Outcome.bind_ok, hg, hne n hg, if_false]
  exact createNodeAddToken_eq s pre par ty toks kids c ty' t hn hc h hf h'

/-- Adding a token to the current leaf, the last child of the container. -/
theorem addToken_same (s : PState) (pre : List Node) (par ty toks front ltoks) (ty' : NodeType) (t : Nat)
    (hn : s.nodes = pre ++ flatten par pre.length (.node ty toks (front ++ [.node ty' ltoks []])))
    (hc : s.current = some (pre.length + 1 + sizes front)) (h' : ty'.allowTokens = true) :
    s.addToken ty' t = .ok { s with
      nodes := pre ++ flatten par pre.length (.node ty toks (front ++ [.node ty' (ltoks ++ [t]) []])) } := by
  rw [flatten_last, ← lastPre_length pre par ty toks front] at hn
  rw [← lastPre_length pre par ty toks front] at hc
  have hg : s.nodes[(lastPre pre par ty toks front).length]? = some (head (some pre.length) ty' ltoks []) := by
    rw [hn]; exact get_flatten _ _ _ _ _
  simp only [PState.addToken, hc, Outcome.unwrap_some, Outcome.bind_ok, hg, head, if_true]
  rw [pushTokenToCurrent_eq s _ _ ty' ltoks [] t hn hc h']
  simp only [flatten_last, lastPre_length, hc]

theorem endNestedState_eq (s : PState) (pre : List Node) (par r st rest)
    (hn : s.nodes = pre ++ flatten par pre.length r) (hc : s.current = some pre.length) (hs : s.nested = st :: rest) :
    s.endNestedState = .ok { s with state := st, nested := rest, current := par } := by
  obtain ⟨ty, toks, kids⟩ := r
  have hg : s.nodes[pre.length]? = some (head par ty toks (offsets (pre.length + 1) kids)) := by
    rw [hn]; exact get_flatten _ _ _ _ _
  simp only [PState.endNestedState, hs, hc, Outcome.unwrap_some, Outcome.bind_ok, hg, Outcome.pure_eq, head]

theorem childCount_eq (s : PState) (pre : List Node) (par ty toks kids)
    (hn : s.nodes = pre ++ flatten par pre.length (.node ty toks kids)) (hc : s.current = some pre.length)
    (h : ty.allowChildren = true) : s.childCount = .ok kids.length := by
  have hg : s.nodes[pre.length]? = some (head par ty toks (offsets (pre.length + 1) kids)) := by
    rw [hn]; exact get_flatten _ _ _ _ _
  simp only [PState.childCount, hc, Outcome.unwrap_some, Outcome.bind_ok, hg, head, h, if_true, Outcome.pure_eq,
    offsets_length]

/-- Counting the children of a leaf panics. -/
theorem childCount_leaf (s : PState) (pre : List Node) (par ty toks kids)
    (hn : s.nodes = pre ++ flatten par pre.length (.node ty toks kids)) (hc : s.current = some pre.length)
    (h : ty.allowChildren = false) : s.childCount = .panic := by
  have hg : s.nodes[pre.length]? = some (head par ty toks (offsets (pre.length + 1) kids)) := by
    rw [hn]; exact get_flatten _ _ _ _ _
  simp [PState.childCount, hc, hg, head, h]

end Verif.TreeLemmas
