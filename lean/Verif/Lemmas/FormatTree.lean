import Verif.Lemmas.Arena
import Verif.Spec.Format
/-
The formatter reads the syntax of a pattern string back from the arena.
-/
namespace Verif.FormatLemmas
open Verif Verif.Spec Verif.Spec.Rose

/-! ### Nodes in the arena -/

/-- The tree `r` is stored from index `off` on. -/
def At (nodes : List Node) (off : Nat) (r : Rose) : Prop :=
  ∃ par pre post, nodes = pre ++ (flatten par off r ++ post) ∧ pre.length = off

/-- The forest `rs` is stored from index `off` on. -/
def Ats (nodes : List Node) (off : Nat) (rs : List Rose) : Prop :=
  ∃ par pre post, nodes = pre ++ (flattens par off rs ++ post) ∧ pre.length = off

theorem At.node {nodes off ty toks kids} (h : At nodes off (.node ty toks kids)) :
    (∃ par, nodes[off]? = some (head par ty toks (offsets (off + 1) kids))) ∧ Ats nodes (off + 1) kids := by
  obtain ⟨par, pre, post, rfl, rfl⟩ := h
  rw [flatten_eq]
  refine ⟨⟨par, by simp⟩, pre.length, pre ++ [head par ty toks (offsets (pre.length + 1) kids)], post, by simp, by simp⟩

theorem Ats.cons {nodes off r rs} (h : Ats nodes off (r :: rs)) : At nodes off r ∧ Ats nodes (off + r.size) rs := by
  obtain ⟨par, pre, post, rfl, rfl⟩ := h
  refine ⟨⟨some par, pre, flattens par (pre.length + r.size) rs ++ post, by simp [flattens], rfl⟩,
    par, pre ++ flatten (some par) pre.length r, post, by simp [flattens], by simp [flatten_length]⟩

theorem nodeType_eq {t : Tree} {off ty toks kids} (h : At t.nodes off (.node ty toks kids)) : t.nodeType off = .ok ty := by
  obtain ⟨⟨par, h⟩, _⟩ := h.node
  simp [Tree.nodeType, h, head]

theorem children_eq {t : Tree} {off ty toks kids} (h : At t.nodes off (.node ty toks kids))
    (ha : ty.allowChildren = true) : t.children off = .ok (offsets (off + 1) kids) := by
  obtain ⟨⟨par, h⟩, _⟩ := h.node
  simp [Tree.children, h, head, ha]

theorem nodeTokens_eq {t : Tree} {off ty toks kids} (h : At t.nodes off (.node ty toks kids))
    (ha : ty.allowTokens = true) : t.nodeTokens off = .ok toks := by
  obtain ⟨⟨par, h⟩, _⟩ := h.node
  simp [Tree.nodeTokens, h, head, ha]

/-! ### Leaves are tokens -/

/-- The leaf is a token of the sequence. -/
def Has (ts : List Token) (l : Leaf) : Prop := ts[l.idx]? = some l.tok

theorem tokenString_eq {t : Tree} {l : Leaf} (h : Has t.tokens l) : t.tokenString l.idx = .ok l.str := by
  unfold Has at h
  simp [Tree.tokenString, h, Leaf.str]

theorem firstToken_eq {t : Tree} {off ty l} (h : At t.nodes off (leafRose ty l)) (ha : ty.allowTokens = true)
    (hl : Has t.tokens l) : t.firstToken off = .ok l.str := by
  simp [Tree.firstToken, nodeTokens_eq h ha, tokenString_eq hl]

theorem concatTokens_eq {t : Tree} (ls : List Leaf) (h : ∀ l ∈ ls, Has t.tokens l) :
    t.concatTokens (ls.map Leaf.idx) = .ok (leafText ls) := by
  induction ls with
  | nil => rfl
  | cons l ls ih =>
    simp only [List.map_cons, Tree.concatTokens, tokenString_eq (h l (by simp)), ih (fun l hl => h l (by simp [hl])),
      Outcome.bind_ok, Outcome.pure_eq, leafText, List.flatten_cons]

/-- Leaves of a part of a command. -/
def partLeaf : Part → Leaf
  | .ident l => l
  | .hash l => l

/-- All leaves of an item. -/
def leaves : Item → List Leaf
  | .text toks => toks
  | .number l => [l]
  | .pat id none => [id]
  | .pat id (some (k, sels)) => id :: k :: (sels.map fun s => [s.1, s.2]).flatten
  | .cmd parts => parts.map partLeaf

/-- Every leaf of the item is a token of the sequence. -/
def Resolved (ts : List Token) (it : Item) : Prop := ∀ l ∈ leaves it, Has ts l

theorem has_mid {pre : List Token} {t : Token} {post : List Token} {k : Nat} (h : pre.length = k) :
    Has (pre ++ t :: post) ⟨k, t⟩ := by subst h; simp [Has]

theorem kwBody_has {n sels body} (h : KwBody n sels body) : ∀ pre post : List Token, pre.length = n →
    ∀ s ∈ sels, Has (pre ++ (body ++ post)) s.1 ∧ Has (pre ++ (body ++ post)) s.2 := by
  induction h with
  | nil => simp
  | @skip sels ts t _ _ ih =>
    intro pre post hp s hs
    have := ih pre (t :: post) hp s hs
    simpa using this
  | @selector sels ts a h b _ _ _ _ ih =>
    intro pre post hp s hs
    rcases List.mem_append.1 hs with hs | hs
    · have := ih pre (a :: h :: b :: post) hp s hs
      simpa using this
    · simp only [List.mem_singleton] at hs
      subst hs
      constructor
      · have := has_mid (pre := pre ++ ts) (t := a) (post := h :: b :: post) (k := n + ts.length) (by simp [hp])
        simpa using this
      · have := has_mid (pre := pre ++ ts ++ [a, h]) (t := b) (post := post) (k := n + ts.length + 2)
          (by simp [hp]; omega)
        simpa using this

theorem cmdBody_has {n parts body} (h : CmdBody n parts body) : ∀ pre post : List Token, pre.length = n →
    ∀ p ∈ parts, Has (pre ++ (body ++ post)) (partLeaf p) := by
  induction h with
  | nil => simp
  | @blank parts ts t _ _ ih =>
    intro pre post hp s hs
    have := ih pre (t :: post) hp s hs
    simpa using this
  | @ident parts ts t _ _ ih =>
    intro pre post hp s hs
    rcases List.mem_append.1 hs with hs | hs
    · have := ih pre (t :: post) hp s hs
      simpa using this
    · simp only [List.mem_singleton] at hs
      subst hs
      have := has_mid (pre := pre ++ ts) (t := t) (post := post) (k := n + ts.length) (by simp [hp])
      simpa [partLeaf] using this
  | @hash p ts t _ _ ih =>
    intro pre post hp s hs
    simp only [List.mem_cons, List.not_mem_nil, or_false] at hs
    rcases hs with rfl | rfl
    · have := ih pre (t :: post) hp (.ident p) (by simp)
      simpa using this
    · have := has_mid (pre := pre ++ ts) (t := t) (post := post) (k := n + ts.length) (by simp [hp])
      simpa [partLeaf] using this

theorem pattern_resolved {n it w} (h : Pattern n it w) : ∀ pre post : List Token, pre.length = n →
    Resolved (pre ++ (w ++ post)) it := by
  intro pre post hp
  cases h with
  | @simple o id ws c _ _ _ _ =>
    intro l hl
    simp only [leaves, List.mem_singleton] at hl
    subst hl
    have := has_mid (pre := pre ++ [o]) (t := id) (post := ws ++ c :: post) (k := n + 1) (by simp [hp])
    simpa using this
  | @keyword o id ws k sels body c _ _ _ _ hb _ =>
    intro l hl
    simp only [leaves, List.mem_cons, List.mem_flatten, List.mem_map] at hl
    rcases hl with rfl | rfl | ⟨_, ⟨s, hs, rfl⟩, hl⟩
    · have := has_mid (pre := pre ++ [o]) (t := id) (post := ws ++ k :: body ++ c :: post) (k := n + 1) (by simp [hp])
      simpa using this
    · have := has_mid (pre := pre ++ o :: id :: ws) (t := k) (post := body ++ c :: post) (k := n + 2 + ws.length)
        (by simp [hp]; omega)
      simpa using this
    · have := kwBody_has hb (pre ++ (o :: id :: ws ++ [k])) (c :: post) (by simp [hp]; omega) s hs
      simp only [List.mem_cons, List.not_mem_nil, or_false] at hl
      rcases hl with rfl | rfl
      · simpa using this.1
      · simpa using this.2
  | @command o h parts body c _ _ hb _ _ _ =>
    intro l hl
    simp only [leaves, List.mem_map] at hl
    obtain ⟨p, hp', rfl⟩ := hl
    have := cmdBody_has hb (pre ++ [o, h]) (c :: post) (by simp [hp]) p hp'
    simpa using this

theorem mem_pushText {items : List Item} {l : Leaf} {it : Item} (h : it ∈ pushText items l) :
    it ∈ items ∨ ∃ toks, it = .text (toks ++ [l]) ∧ (toks = [] ∨ .text toks ∈ items) := by
  unfold pushText at h
  split at h
  · rename_i toks heq
    rcases List.mem_append.1 h with h | h
    · exact Or.inl (List.dropLast_subset _ h)
    · simp only [List.mem_singleton] at h
      exact Or.inr ⟨toks, h, Or.inr (List.mem_of_getLast? heq)⟩
  · rcases List.mem_append.1 h with h | h
    · exact Or.inl h
    · simp only [List.mem_singleton] at h
      exact Or.inr ⟨[], h, Or.inl rfl⟩

theorem pushText_resolved {ts : List Token} {items : List Item} {l : Leaf} (h : ∀ it ∈ items, Resolved ts it)
    (hl : Has ts l) : ∀ it ∈ pushText items l, Resolved ts it := by
  intro it hit
  rcases mem_pushText hit with hit | ⟨toks, rfl, htoks⟩
  · exact h it hit
  · intro k hk
    simp only [leaves, List.mem_append, List.mem_singleton] at hk
    rcases hk with hk | rfl
    · rcases htoks with rfl | htoks
      · simp at hk
      · exact h _ htoks k (by simpa [leaves] using hk)
    · exact hl

theorem content_resolved {sub n items body} (h : Content sub n items body) : ∀ pre post : List Token,
    pre.length = n → ∀ it ∈ items, Resolved (pre ++ (body ++ post)) it := by
  induction h with
  | nil => simp
  | @plain items ts t _ _ ih =>
    intro pre post hp
    have h1 := ih pre (t :: post) hp
    have h2 := has_mid (pre := pre ++ ts) (t := t) (post := post) (k := n + ts.length) (by simp [hp])
    simp only [List.append_assoc, List.cons_append, List.nil_append] at h1 h2 ⊢
    exact pushText_resolved h1 h2
  | @escaped items ts e t _ _ ih =>
    intro pre post hp
    have h1 := ih pre (e :: t :: post) hp
    have h2 := has_mid (pre := pre ++ ts ++ [e]) (t := t) (post := post) (k := n + ts.length + 1) (by simp [hp]; omega)
    simp only [List.append_assoc, List.cons_append, List.nil_append] at h1 h2 ⊢
    exact pushText_resolved h1 h2
  | @number items ts t _ _ _ _ ih =>
    intro pre post hp it hit
    rcases List.mem_append.1 hit with hit | hit
    · have h1 := ih pre (t :: post) hp it hit
      simpa using h1
    · simp only [List.mem_singleton] at hit
      subst hit
      intro l hl
      simp only [leaves, List.mem_singleton] at hl
      subst hl
      have h2 := has_mid (pre := pre ++ ts) (t := t) (post := post) (k := n + ts.length) (by simp [hp])
      simpa using h2
  | @pattern items ts item w _ hpat ih =>
    intro pre post hp it hit
    rcases List.mem_append.1 hit with hit | hit
    · have h1 := ih pre (w ++ post) hp it hit
      simpa using h1
    · simp only [List.mem_singleton] at hit
      subst hit
      have h2 := pattern_resolved hpat (pre ++ ts) post (by simp [hp])
      simpa using h2

theorem group_resolved {n ns body} (h : Group n ns body) : ∀ pre post : List Token, pre.length = n →
    ∀ m ∈ ns, Has (pre ++ (body ++ post)) m.id ∧ ∀ it ∈ m.items, Resolved (pre ++ (body ++ post)) it := by
  induction h with
  | nil => simp
  | @blank ns ts t _ _ ih =>
    intro pre post hp m hm
    have := ih pre (t :: post) hp m hm
    simpa using this
  | @named ns ts o id w ws items body c _ _ _ _ _ _ hc _ ih =>
    intro pre post hp m hm
    rcases List.mem_append.1 hm with hm | hm
    · have := ih pre (o :: id :: w :: ws ++ body ++ c :: post) hp m hm
      simpa using this
    · simp only [List.mem_singleton] at hm
      subst hm
      have h1 := has_mid (pre := pre ++ ts ++ [o]) (t := id) (post := w :: ws ++ body ++ c :: post)
        (k := n + ts.length + 1) (by simp [hp]; omega)
      have h2 := content_resolved hc (pre ++ ts ++ o :: id :: w :: ws) (c :: post) (by simp [hp]; omega)
      refine ⟨by simpa using h1, ?_⟩
      simpa using h2

/-- Every leaf of a pattern string is one of its tokens. -/
theorem sentence_resolved {d ts} (h : Sentence d ts) :
    (∀ it ∈ d.main, Resolved ts it) ∧ ∀ m ∈ d.named, Has ts m.id ∧ ∀ it ∈ m.items, Resolved ts it := by
  cases h with
  | plain hc =>
    refine ⟨?_, by simp [Doc.named]⟩
    have := content_resolved hc [] [] rfl
    simpa using this
  | @group items ts h named gs hc _ hg =>
    constructor
    · have := content_resolved hc [] (h :: gs) rfl
      simpa using this
    · have := group_resolved hg (ts ++ [h]) [] (by simp)
      simpa [Doc.named] using this

/-- The main string has no number sign. -/
theorem main_no_number {n items body} (h : Content false n items body) : ∀ l, Item.number l ∉ items := by
  generalize hs : false = sub at h
  induction h with
  | nil => simp
  | plain _ _ ih =>
    intro l hl
    rcases mem_pushText hl with hl | ⟨_, hl, _⟩
    · exact ih l hl
    · cases hl
  | escaped _ _ ih =>
    intro l hl
    rcases mem_pushText hl with hl | ⟨_, hl, _⟩
    · exact ih l hl
    · cases hl
  | number _ h2 => subst hs; cases h2
  | pattern _ hp ih =>
    intro l hl
    rcases List.mem_append.1 hl with hl | hl
    · exact ih l hl
    · simp only [List.mem_singleton] at hl
      subst hl
      cases hp

/-! ### Reading items -/

variable {D F : Type}

/-- The selectors as read by the formatter: the second identifier is ignored. -/
def selMap (sels : List (Leaf × Leaf)) (m : AMap Str Str) : AMap Str Str :=
  sels.foldl (fun m s => m.insert s.1.str s.1.str) m

theorem partText_eq {t : Tree} {off toks} (h : At t.nodes off (Item.text toks).rose)
    (hr : Resolved t.tokens (.text toks)) : partText t off = .ok (.text (leafText toks)) := by
  simp [partText, nodeTokens_eq h rfl, concatTokens_eq toks hr]

theorem selectorsLoop_eq {t : Tree} (sels : List (Leaf × Leaf)) : ∀ off m, Ats t.nodes off (sels.map selRose) →
    (∀ s ∈ sels, Has t.tokens s.1) →
    patternSelectorsLoop t (offsets off (sels.map selRose)) m = .ok (selMap sels m) := by
  induction sels with
  | nil => intro off m _ _; rfl
  | cons s sels ih =>
    intro off m h hl
    obtain ⟨h1, h2⟩ := Ats.cons h
    have hc := children_eq h1 rfl
    have hk := (At.node h1).2.cons.1
    simp only [List.map_cons, offsets, patternSelectorsLoop]
    simp only [nodeType_eq h1, Tree.first, hc, offsets, List.head?_cons, Outcome.unwrap_some, nodeType_eq hk,
      Outcome.bind_ok, firstToken_eq hk rfl (hl s (by simp)), ne_eq, not_true_eq_false, if_false]
    rw [ih _ _ h2 (fun s hs => hl s (by simp [hs]))]
    rfl

theorem partPattern_simple {X : Icu4x D F} {lang patterns t off id sels} (h : At t.nodes off (Item.pat id none).rose)
    (hr : Resolved t.tokens (.pat id none)) :
    partPattern X lang patterns t off sels = .ok (.patternString id.str, sels) := by
  have hk := (At.node h).2.cons.1
  simp only [partPattern, children_eq h rfl, offsets, Outcome.bind_ok, nodeType_eq hk, ne_eq, not_true_eq_false, if_false,
    firstToken_eq hk rfl (hr id (by simp [leaves])), Outcome.pure_eq]

theorem partPattern_keyword {X : Icu4x D F} {lang patterns t off id k sels selectors}
    (h : At t.nodes off (Item.pat id (some (k, sels))).rose) (hr : Resolved t.tokens (.pat id (some (k, sels)))) :
    partPattern X lang patterns t off selectors =
      partKeyword X lang id.str k.str patterns selectors (.ok (selMap sels [])) := by
  obtain ⟨hk, h1⟩ := (At.node h).2.cons
  obtain ⟨hk2, h2⟩ := h1.cons
  have hs : patternSelectors t off = .ok (selMap sels []) := by
    simp only [patternSelectors, children_eq h rfl, offsets, Outcome.bind_ok, List.drop_succ_cons, List.drop_zero]
    exact selectorsLoop_eq sels _ [] h2 (fun s hs => hr s.1 (by
      simp only [leaves, List.mem_cons, List.mem_flatten, List.mem_map]
      exact Or.inr (Or.inr ⟨[s.1, s.2], ⟨s, hs, rfl⟩, by simp⟩)))
  simp only [partPattern, children_eq h rfl, offsets, Outcome.bind_ok, nodeType_eq hk, nodeType_eq hk2, ne_eq,
    not_true_eq_false, if_false, firstToken_eq hk rfl (hr id (by simp [leaves])),
    firstToken_eq hk2 rfl (hr k (by simp [leaves])), hs]

/-- Commands with a delay marker only in second place. -/
def CmdShape : List Part → Prop
  | .ident _ :: .hash _ :: ps => ∀ p ∈ ps, ∃ l, p = .ident l
  | .ident _ :: ps => ∀ p ∈ ps, ∃ l, p = .ident l
  | _ => False

theorem cmdBody_shape {n parts body} (h : CmdBody n parts body) : parts = [] ∨ CmdShape parts := by
  induction h with
  | nil => exact Or.inl rfl
  | blank _ _ ih => exact ih
  | @ident parts ts t _ _ ih =>
    right
    rcases ih with rfl | ih
    · simp [CmdShape]
    · match parts, ih with
      | .ident a :: .hash b :: ps, ih =>
        simp only [List.cons_append, CmdShape] at ih ⊢
        intro p hp
        rcases List.mem_append.1 hp with hp | hp
        · exact ih p hp
        · exact ⟨_, by simpa using hp⟩
      | .ident a :: .ident b :: ps, ih =>
        simp only [List.cons_append, CmdShape] at ih ⊢
        intro p hp
        rcases List.mem_cons.1 hp with hp | hp
        · exact ⟨_, hp⟩
        rcases List.mem_append.1 hp with hp | hp
        · exact ih p (by simp [hp])
        · exact ⟨_, by simpa using hp⟩
      | [.ident a], _ =>
        simp [CmdShape]
  | hash _ _ _ => right; simp [CmdShape]

theorem parameters_eq {t : Tree} (ps : List Part) : ∀ off, Ats t.nodes off (ps.map Part.rose) →
    (∀ p ∈ ps, Has t.tokens (partLeaf p)) → (∀ p ∈ ps, ∃ l, p = .ident l) →
    commandParameters t (offsets off (ps.map Part.rose)) = .ok (ps.map Part.str) := by
  induction ps with
  | nil => intro off _ _ _; rfl
  | cons p ps ih =>
    intro off h hl hi
    obtain ⟨h1, h2⟩ := Ats.cons h
    obtain ⟨l, rfl⟩ := hi p (by simp)
    simp only [List.map_cons, offsets, commandParameters]
    have hf : t.firstToken off = .ok l.str := firstToken_eq h1 rfl (hl (.ident l) (by simp))
    have hn : t.nodeType off = .ok .identifier := nodeType_eq h1
    simp only [hn, Outcome.bind_ok, if_true, hf, ih _ h2 (fun p hp => hl p (by simp [hp])) (fun p hp => hi p (by simp [hp])),
      Outcome.pure_eq, Part.str]

/-- What the formatter makes of a command. -/
def docCommand (r : CommandRegistry D F) : List Part → FmtM PatternPart
  | .ident n :: .hash _ :: ps => .ok (.command (n.str :: ps.map Part.str))
  | .ident n :: ps => do
    let s ← callCommand r n.str ((n.str :: ps.map Part.str).map .string)
    pure (.text s)
  | _ => .err (.noChildren .pattern)

theorem partCommand_eq {r : CommandRegistry D F} {t off parts} (h : At t.nodes off (Item.cmd parts).rose)
    (hr : Resolved t.tokens (.cmd parts)) (hs : CmdShape parts) :
    partCommand r t off = docCommand r parts := by
  match parts, hs with
  | .ident n :: .hash b :: ps, hs =>
    obtain ⟨hk, h1⟩ := (At.node h).2.cons
    obtain ⟨hk2, h2⟩ := h1.cons
    have hn2 : t.nodeType (off + 1 + (Part.ident n).rose.size) = .ok .numberSign := nodeType_eq hk2
    simp only [partCommand, children_eq h rfl, List.map_cons, offsets, Outcome.bind_ok]
    rw [nodeType_eq (ty := .identifier) hk, firstToken_eq hk rfl (hr n (by simp [leaves, partLeaf])), hn2]
    simp only [Outcome.bind_ok, ne_eq, not_true_eq_false, if_false, Outcome.pure_eq, if_true]
    rw [parameters_eq ps _ h2 (fun p hp => hr _ (by simp only [leaves, List.map_cons, List.mem_cons, List.mem_map]; exact Or.inr (Or.inr ⟨p, hp, rfl⟩))) hs]
    rfl
  | [.ident n], hs =>
    obtain ⟨hk, h1⟩ := (At.node h).2.cons
    simp only [partCommand, children_eq h rfl, List.map_cons, List.map_nil, offsets, Outcome.bind_ok]
    rw [nodeType_eq (ty := .identifier) hk, firstToken_eq hk rfl (hr n (by simp [leaves, partLeaf]))]
    simp only [Outcome.bind_ok, ne_eq, not_true_eq_false, if_false, Outcome.pure_eq, commandParameters]
    rfl
  | .ident n :: .ident b :: ps, hs =>
    obtain ⟨hk, h1⟩ := (At.node h).2.cons
    have hk2 := h1.cons.1
    have hn2 : t.nodeType (off + 1 + (Part.ident n).rose.size) = .ok .identifier := nodeType_eq hk2
    have hp := parameters_eq (t := t) (.ident b :: ps) _ h1
      (fun p hp => hr _ (by simp only [leaves, List.map_cons, List.mem_cons, List.mem_map] at hp ⊢; rcases hp with rfl | hp; exact Or.inr (Or.inl rfl); exact Or.inr (Or.inr ⟨p, hp, rfl⟩))) hs
    simp only [partCommand, children_eq h rfl, List.map_cons, offsets, Outcome.bind_ok]
    rw [nodeType_eq (ty := .identifier) hk, firstToken_eq hk rfl (hr n (by simp [leaves, partLeaf])), hn2]
    simp only [Outcome.bind_ok, ne_eq, not_true_eq_false, if_false, Outcome.pure_eq, reduceCtorEq]
    simp only [List.map_cons, offsets] at hp
    rw [hp]
    rfl

end Verif.FormatLemmas
