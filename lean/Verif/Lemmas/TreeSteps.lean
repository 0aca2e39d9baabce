import Verif.Lemmas.Tree
/-
The step of the parser for every control state and kind of token.
-/
namespace Verif.TreeLemmas
open Verif Verif.Spec Verif.Spec.Rose

theorem Fields.with_nodes {s ts n c st nst pn nn} (F : Fields s ts n c st nst pn nn) (n' c') :
    Fields { s with nodes := n', current := some c' } ts n' c' st nst pn nn :=
  { F with nodes := rfl, current := rfl }

theorem nodup_snoc {α : Type} {l : List α} {x : α} (h : l.Nodup) (hx : x ∉ l) : (l ++ [x]).Nodup := by
  rw [List.nodup_append]
  exact ⟨h, by simp, by intro a ha b hb; rw [List.mem_singleton.1 hb]; intro e; exact hx (e ▸ ha)⟩

theorem not_gr_eq {c : Char} {t : Token} (h : t.tokenType = .grammar) (hn : ¬ Gr c t) : t.string ≠ [c] :=
  fun e => hn ⟨h, e⟩

/-- A new child of the open string. -/
theorem text_create {h : Home} {items : List Item} {s : PState} {ts st nst pn nn}
    (F : Fields s ts (h.nodes (items.map Item.rose)) (focusIdx h.pre.length items) st nst pn nn) (ty : NodeType) :
    s.createNode ty = .ok { s with
      nodes := h.nodes (items.map Item.rose ++ [.node ty [] []])
      current := some (h.itemPre items).length } := by
  rw [createNode_eq s h.pre (some h.par) .string [] _ _ ty F.nodes F.current rfl (focus_isFocus _ _),
    Home.itemPre_length]
  rfl

/-- `pattern_start` with an identifier. -/
theorem start_ident {h : Home} {items : List Item} {s : PState} {ts st nst pn nn}
    (F : Fields s ts (h.nodes (items.map Item.rose)) (focusIdx h.pre.length items) st nst pn nn) (t : Token) (i : Nat)
    (ht : t.tokenType = .identifier) :
    (t.string ∈ pn → s.patternStart t i = .err (.uniquePattern t.string)) ∧
    (t.string ∉ pn → ∃ s', s.patternStart t i = .ok s' ∧
      Fields s' ts (h.nodes (items.map Item.rose ++ [(Item.pat ⟨i, t⟩ none).rose])) (h.itemPre items).length .pattern
        (st :: nst) (pn ++ [t.string]) nn) := by
  have h1 := text_create F .pattern
  constructor
  · intro hm
    have hcon := (F.pats.1 t.string).2 hm
    simp only [PState.patternStart, ht, if_true, h1, Outcome.bind_ok, hcon]
  · intro hm
    have hcon : s.patterns.contains t.string = false := by
      cases hb : s.patterns.contains t.string with
      | false => rfl
      | true => exact absurd ((F.pats.1 _).1 hb) hm
    simp only [PState.patternStart, ht, if_true, h1, Outcome.bind_ok, hcon, Bool.false_eq_true, if_false,
      Outcome.unwrap_some]
    rw [createNodeAddToken_eq (pre := h.itemPre items) (par := some h.pre.length) (ty := .pattern) (toks := [])
      (kids := []) (c := (h.itemPre items).length) (ty' := .identifier) (t := i)
      (hn := Home.item_nodes h items _) (hc := rfl) (h := rfl) (hf := Or.inl rfl) (h' := rfl)]
    simp only [Outcome.bind_ok]
    rw [moveToContainer_focus (pre := h.itemPre items) (par := some h.pre.length) (ty := .pattern) (toks := [])
      (kids := [] ++ [.node .identifier [i] []]) (c := (h.itemPre items).length + 1 + sizes [])
      (hn := rfl) (hc := rfl) (h := rfl) (hf := Or.inr ⟨[], .identifier, [i], rfl, rfl, rfl⟩)]
    refine ⟨_, rfl, ?_⟩
    exact {
      tokens := F.tokens
      nodes := by rw [Home.item_nodes]; rfl
      current := rfl
      state := rfl
      nested := by
        show s.state :: s.nested = _
        rw [F.state, F.nested]
      pats := by
        refine ⟨fun k => ?_, nodup_snoc F.pats.2 hm⟩
        show (s.patterns.insert t.string _).contains k = true ↔ _
        rw [AMap.contains_insert, Bool.or_eq_true, List.mem_append, List.mem_singleton, F.pats.1]
        simp [or_comm]
      named := F.named
      gram := F.gram
      lengths := F.lengths }

/-- `pattern_start` with a backtick. -/
theorem start_lit {h : Home} {items : List Item} {s : PState} {ts st nst pn nn}
    (F : Fields s ts (h.nodes (items.map Item.rose)) (focusIdx h.pre.length items) st nst pn nn) (t : Token) (i : Nat)
    (ht : Gr '`' t) : ∃ s', s.patternStart t i = .ok s' ∧ Lit s' := by
  have h1 := text_create F .text
  refine ⟨_, by simp only [PState.patternStart, ht.1, ht.2, h1, if_true, Outcome.bind_ok]; rfl, ?_⟩
  refine { state := rfl, nested := by simp [PState.enter], leaf := ?_ }
  refine ⟨_, head (some h.pre.length) .text [] [], rfl, ?_, rfl, rfl⟩
  show (h.nodes _)[_]? = _
  rw [Home.item_nodes]
  exact get_flatten _ _ _ _ _

/-- `pattern_start` with a number sign. -/
theorem start_cmd {h : Home} {items : List Item} {s : PState} {ts st nst pn nn}
    (F : Fields s ts (h.nodes (items.map Item.rose)) (focusIdx h.pre.length items) st nst pn nn) (t : Token) (i : Nat)
    (ht : Gr '#' t) : ∃ s', s.patternStart t i = .ok s' ∧
      Fields s' ts (h.nodes (items.map Item.rose ++ [(Item.cmd []).rose])) (h.itemPre items).length .command
        (st :: nst) pn nn := by
  have h1 := text_create F .command
  refine ⟨_, by
    simp only [PState.patternStart, ht.1, ht.2, h1, if_true, Outcome.bind_ok, List.cons.injEq, and_true,
      Char.reduceEq, if_false, reduceCtorEq]; rfl, ?_⟩
  exact { F with
    nodes := rfl
    current := rfl
    state := rfl
    nested := by
      show s.state :: s.nested = _
      rw [F.state, F.nested] }

/-- `pattern_start` with anything else. -/
theorem start_err (s : PState) (t : Token) (i : Nat) (h1 : t.tokenType ≠ .identifier) (h2 : ¬ Gr '`' t)
    (h3 : ¬ Gr '#' t) : s.patternStart t i = .err (s.invalid t) := by
  unfold PState.patternStart
  by_cases hg : t.tokenType = .grammar
  · simp [hg, not_gr_eq hg h2, not_gr_eq hg h3]
  · simp [h1, hg]

/-- An opening brace in a string. -/
theorem text_open {h items ts s o} (F : AtText h items ts s) (ho : Gr '{' o) :
    ∃ k, s.step o = .need k ∧ ∀ t, ∃ s1, k t = .done (s1.patternStart t (ts.length + 1)) ∧
      Fields s1 (ts ++ [o, t]) (h.nodes (items.map Item.rose)) (focusIdx h.pre.length items) h.state h.nested
        (h.pn ++ patNames items) h.nn ∧ anyGr (ts ++ [o, t]) = true := by
  have F1 := Fields.feed F o
  have hgr : anyGr (ts ++ [o]) = true := by rw [anyGr_append]; simp [anyGr, ho.1]
  refine ⟨fun t => .done (((feed s o).pushToken t).patternStart t (feed s o).tokens.length), ?_, ?_⟩
  · rw [step_eq, F.state]
    cases h <;> simp [Home.state, PState.stepString, PState.stepSubString, ho.1, ho.2, PState.fetch]
  · intro t
    have F2 := F1.push t (Or.inl hgr)
    rw [List.append_assoc] at F2
    refine ⟨(feed s o).pushToken t, ?_, F2, ?_⟩
    · rw [F1.tokens]; simp
    · rw [anyGr_append]; simp [anyGr, ho.1]

/-- Any other grammar character in the main string. -/
theorem main_err {items ts s t} (F : AtText .main items ts s) (hg : t.tokenType = .grammar) (h1 : ¬ Gr '`' t)
    (h2 : ¬ Gr '{' t) (h3 : ¬ Gr '#' t) : ∃ e, s.step t = .done (.err e) ∧ Says .string t e := by
  refine ⟨(feed s t).invalid t, ?_, says F.state⟩
  rw [step_eq, F.state]
  simp [Home.state, PState.stepString, hg, not_gr_eq hg h1, not_gr_eq hg h2, not_gr_eq hg h3]

/-- Any other grammar character in a substring. -/
theorem sub_err {m ns id items ts s t} (F : AtText (.sub m ns id) items ts s) (hg : t.tokenType = .grammar)
    (h1 : ¬ Gr '`' t) (h2 : ¬ Gr '{' t) (h3 : ¬ Gr '#' t) (h4 : ¬ Gr '}' t) :
    ∃ e, s.step t = .done (.err e) ∧ Says .subString t e := by
  refine ⟨(feed s t).invalid t, ?_, says F.state⟩
  rw [step_eq, F.state]
  simp [Home.state, PState.stepSubString, hg, not_gr_eq hg h1, not_gr_eq hg h2, not_gr_eq hg h3, not_gr_eq hg h4]

/-- Closing the open item. -/
theorem item_close {h : Home} {items it s ts st pn nn}
    (F : Fields s ts (h.nodes (items.map Item.rose ++ [it.rose])) (h.itemPre items).length st (h.state :: h.nested)
      pn nn) (hf : focusIdx h.pre.length (items ++ [it]) = h.pre.length) :
    ∃ s', s.endNestedState = .ok s' ∧
      Fields s' ts (h.nodes ((items ++ [it]).map Item.rose)) (focusIdx h.pre.length (items ++ [it])) h.state h.nested
        pn nn := by
  refine ⟨_, endNestedState_eq s (h.itemPre items) (some h.pre.length) it.rose h.state h.nested
    (by rw [F.nodes, Home.item_nodes]) F.current F.nested, ?_⟩
  exact { F with
    nodes := by rw [List.map_append]; exact F.nodes
    current := by rw [hf]
    state := rfl
    nested := rfl }

theorem focus_pat (k : Nat) (items : List Item) (id kw) : focusIdx k (items ++ [.pat id kw]) = k := by
  simp [focusIdx]

theorem focus_cmd (k : Nat) (items : List Item) (p) : focusIdx k (items ++ [.cmd p]) = k := by
  simp [focusIdx]

/-! ### Inside a placeholder -/

theorem pat_ident {h items id ts s t} (A : AtPat h items id ts s) (ht : t.tokenType = .identifier) :
    ∃ s', s.step t = .done (.ok s') ∧ AtKw h items id ⟨ts.length, t⟩ [] (ts ++ [t]) s' := by
  have F := Fields.feed A.fields t
  refine ⟨{ feed s t with
    nodes := h.itemPre items ++ flatten (some h.pre.length) (h.itemPre items).length
      (.node .pattern [] [leafRose .identifier id, .node .identifier [ts.length] []])
    state := .keyword }, ?_, ?_⟩
  · rw [step_eq, A.fields.state, A.fields.tokens]
    simp only [PState.stepPattern, ht, if_true]
    rw [createNodeAddToken_eq (pre := h.itemPre items) (par := some h.pre.length) (ty := .pattern) (toks := [])
      (kids := [leafRose .identifier id]) (c := (h.itemPre items).length) (ty' := .identifier) (t := ts.length)
      (hn := by rw [F.nodes, Home.item_nodes]; rfl) (hc := F.current) (h := rfl) (hf := Or.inl rfl) (h' := rfl)]
    simp only [Outcome.bind_ok]
    rw [moveToContainer_focus (pre := h.itemPre items) (par := some h.pre.length) (ty := .pattern) (toks := [])
      (kids := [leafRose .identifier id] ++ [.node .identifier [ts.length] []])
      (c := (h.itemPre items).length + 1 + sizes [leafRose .identifier id])
      (hn := rfl) (hc := rfl) (h := rfl) (hf := Or.inr ⟨[leafRose .identifier id], .identifier, [ts.length], rfl, rfl, rfl⟩)]
    simp only [Outcome.bind_ok, Outcome.pure_eq, F.current]
    rfl
  · refine { fields := { F with
        nodes := by rw [Home.item_nodes]; rfl
        current := F.current
        state := rfl
        pats := ?_ }, gr := ?_ }
    · simpa [patNames_append, patNames] using F.pats
    · rw [anyGr_append, A.gr]; rfl

theorem pat_blank {h items id ts s t} (A : AtPat h items id ts s) (ht : t.tokenType = .whiteSpace) :
    ∃ s', s.step t = .done (.ok s') ∧ AtPat h items id (ts ++ [t]) s' := by
  refine ⟨feed s t, ?_, ⟨Fields.feed A.fields t, by rw [anyGr_append, A.gr]; rfl⟩⟩
  rw [step_eq, A.fields.state]
  simp [PState.stepPattern, ht]

theorem pat_close {h items id ts s t} (A : AtPat h items id ts s) (ht : Gr '}' t) :
    ∃ s', s.step t = .done (.ok s') ∧ AtText h (items ++ [.pat id none]) (ts ++ [t]) s' := by
  obtain ⟨s', h1, h2⟩ := item_close (Fields.feed A.fields t) (focus_pat _ _ _ _)
  refine ⟨s', ?_, h2⟩
  rw [step_eq, A.fields.state]
  simp [PState.stepPattern, ht.1, ht.2, h1]

theorem pat_err {h items id ts s t} (A : AtPat h items id ts s) (h1 : t.tokenType ≠ .identifier)
    (h2 : t.tokenType ≠ .whiteSpace) (h3 : ¬ Gr '}' t) : ∃ e, s.step t = .done (.err e) ∧ Says .pattern t e := by
  refine ⟨(feed s t).invalid t, ?_, says A.fields.state⟩
  rw [step_eq, A.fields.state]
  by_cases hg : t.tokenType = .grammar
  · simp [PState.stepPattern, hg, not_gr_eq hg h3]
  · simp [PState.stepPattern, h1, h2, hg]

/-! ### After a keyword -/

theorem kw_skip {h items id k sels ts s t} (A : AtKw h items id k sels ts s)
    (ht : t.tokenType = .whiteSpace ∨ t.tokenType = .grammar ∧ t.string ≠ ['}']) :
    ∃ s', s.step t = .done (.ok s') ∧ AtKw h items id k sels (ts ++ [t]) s' := by
  refine ⟨feed s t, ?_, ⟨Fields.feed A.fields t, by rw [anyGr_append, A.gr]; rfl⟩⟩
  rw [step_eq, A.fields.state]
  rcases ht with ht | ⟨hg, ht⟩
  · simp [PState.stepKeyword, ht]
  · simp [PState.stepKeyword, hg, ht]

theorem kw_close {h items id k sels ts s t} (A : AtKw h items id k sels ts s) (ht : Gr '}' t) :
    ∃ s', s.step t = .done (.ok s') ∧ AtText h (items ++ [.pat id (some (k, sels))]) (ts ++ [t]) s' := by
  obtain ⟨s', h1, h2⟩ := item_close (Fields.feed A.fields t) (focus_pat _ _ _ _)
  refine ⟨s', ?_, h2⟩
  rw [step_eq, A.fields.state]
  simp [PState.stepKeyword, ht.1, ht.2, h1]

theorem kw_err {h items id k sels ts s t} (A : AtKw h items id k sels ts s) (ht : t.tokenType = .syn) :
    ∃ e, s.step t = .done (.err e) ∧ Says .keyword t e := by
  refine ⟨(feed s t).invalid t, ?_, says A.fields.state⟩
  rw [step_eq, A.fields.state]
  simp [PState.stepKeyword, ht]

/-- Children of a placeholder with keyword. -/
def kwKids (id k : Leaf) (sels : List (Leaf × Leaf)) : List Rose :=
  leafRose .identifier id :: leafRose .identifier k :: sels.map selRose

theorem rose_kw (id k sels) : (Item.pat id (some (k, sels))).rose = .node .pattern [] (kwKids id k sels) := rfl

theorem kwKids_append (id k sels x) : kwKids id k (sels ++ [x]) = kwKids id k sels ++ [selRose x] := by
  simp [kwKids]

theorem patNames_kw (items : List Item) (id kw) :
    patNames (items ++ [.pat id kw]) = patNames items ++ [id.tok.string] := by
  simp [patNames_append, patNames]

theorem kw_ident {h items id k sels ts s a} (A : AtKw h items id k sels ts s) (ha : a.tokenType = .identifier) :
    ∃ f, s.step a = .need f ∧ ∀ x,
      (x.string ≠ ['#'] → ∃ e, f x = .done (.err e) ∧ Says .keyword x e) ∧
      (x.string = ['#'] → ∃ g, f x = .need g ∧ ∀ b,
        (b.tokenType ≠ .identifier → ∃ e, g b = .done (.err e) ∧ Says .keyword b e) ∧
        (b.tokenType = .identifier → ∃ s', g b = .done (.ok s') ∧
          AtKw h items id k (sels ++ [(⟨ts.length, a⟩, ⟨ts.length + 2, b⟩)]) (ts ++ [a, x, b]) s')) := by
  have F := Fields.feed A.fields a
  have hgr1 : anyGr (ts ++ [a]) = true := by rw [anyGr_append, A.gr]; rfl
  -- the state after the first identifier
  let P := h.itemPre items
  let Q := lastPre P (some h.pre.length) .pattern [] (kwKids id k sels)
  let s1 : PState := { feed s a with
    nodes := Q ++ flatten (some P.length) Q.length (.node .selector [] [.node .identifier [ts.length] []])
    current := some Q.length }
  have hs1 : (do
      let s ← (feed s a).createNode .selector
      let s ← s.addToken .identifier ts.length
      s.moveToContainer) = Outcome.ok s1 := by
    rw [createNode_eq (pre := P) (par := some h.pre.length) (ty := .pattern) (toks := [])
      (kids := kwKids id k sels) (c := P.length) (ty' := .selector)
      (hn := by rw [F.nodes, Home.item_nodes]; rfl) (hc := F.current) (h := rfl) (hf := Or.inl rfl)]
    simp only [Outcome.bind_ok]
    rw [addToken_new (pre := Q) (par := some P.length) (ty := .selector) (toks := []) (kids := []) (c := Q.length)
      (ty' := .identifier) (t := ts.length)
      (hn := by
        simp only [Q]; rw [flatten_last, lastPre_length])
      (hc := by simp only [Q]; rw [lastPre_length]) (h := rfl) (hf := Or.inl rfl) (h' := rfl)
      (hne := by
        intro n hn
        simp only [Q] at hn
        rw [flatten_last, ← lastPre_length P (some h.pre.length) .pattern [], get_flatten] at hn
        cases hn; simp [head])]
    simp only [Outcome.bind_ok]
    rw [moveToContainer_focus (pre := Q) (par := some P.length) (ty := .selector) (toks := [])
      (kids := [] ++ [.node .identifier [ts.length] []])
      (c := Q.length + 1 + sizes []) (hn := rfl) (hc := rfl) (h := rfl)
      (hf := Or.inr ⟨[], .identifier, [ts.length], rfl, rfl, rfl⟩)]
    rfl
  have F1 : Fields s1 (ts ++ [a]) s1.nodes Q.length .keyword (h.state :: h.nested)
      (h.pn ++ patNames (items ++ [.pat id (some (k, sels))])) h.nn :=
    { F with nodes := rfl, current := rfl }
  refine ⟨fun t => if t.string ≠ ['#'] then .done (.err ((s1.pushToken t).invalid t))
        else (s1.pushToken t).fetch fun s t cur =>
          if t.tokenType ≠ .identifier then .done (.err (s.invalid t))
          else .done (do
            let s ← s.addToken .identifier cur
            let s ← s.moveToContainer
            let c ← Outcome.unwrap s.current
            let node ← Outcome.unwrap s.nodes[c]?
            pure { s with current := node.parent }), ?_, ?_⟩
  · rw [step_eq, A.fields.state, A.fields.tokens]
    simp only [PState.stepKeyword, ha, if_true, hs1, Step.andThen, PState.fetch]
  · intro x
    constructor
    · intro hx
      exact ⟨(s1.pushToken x).invalid x, by simp only [ne_eq, hx, not_false_eq_true, if_true], by
        rw [Says, PState.invalid, show (s1.pushToken x).state = .keyword from F1.state]⟩
    · intro hx
      have F2 := F1.push x (Or.inl hgr1)
      have hgr2 : anyGr (ts ++ [a] ++ [x]) = true := by rw [anyGr_append, hgr1]; rfl
      refine ⟨_, by simp only [ne_eq, hx, not_true_eq_false, if_false]; rfl, ?_⟩
      intro b
      constructor
      · intro hb
        exact ⟨((s1.pushToken x).pushToken b).invalid b, by simp only [hb, not_false_eq_true, if_true], by
          rw [Says, PState.invalid, show ((s1.pushToken x).pushToken b).state = .keyword from F1.state]⟩
      · intro hb
        have F3 := F2.push b (Or.inl hgr2)
        simp only [hb, not_true_eq_false, if_false]
        have hidx : (s1.pushToken x).tokens.length = ts.length + 2 := by rw [F2.tokens]; simp
        have hQ : ((s1.pushToken x).pushToken b).nodes = Q ++ flatten (some P.length) Q.length
            (.node .selector [] [.node .identifier [ts.length] []]) := F3.nodes
        rw [hidx, addToken_new (pre := Q) (par := some P.length) (ty := .selector) (toks := [])
          (kids := [.node .identifier [ts.length] []])
          (c := Q.length) (ty' := .identifier) (t := ts.length + 2)
          (hn := hQ) (hc := F3.current) (h := rfl) (hf := Or.inl rfl) (h' := rfl)
          (hne := by
            intro n hn
            rw [hQ, get_flatten] at hn
            cases hn; simp [head])]
        simp only [Outcome.bind_ok]
        rw [moveToContainer_focus (pre := Q) (par := some P.length) (ty := .selector) (toks := [])
          (kids := [.node .identifier [ts.length] []] ++ [.node .identifier [ts.length + 2] []])
          (c := Q.length + 1 + sizes [.node .identifier [ts.length] []]) (hn := rfl) (hc := rfl) (h := rfl)
          (hf := Or.inr ⟨[.node .identifier [ts.length] []], .identifier, [ts.length + 2], rfl, rfl, rfl⟩)]
        simp only [Outcome.bind_ok, Outcome.unwrap_some, get_flatten, Outcome.pure_eq]
        refine ⟨_, rfl, ⟨?_, ?_⟩⟩
        · exact { F3 with
            tokens := by
              have := F3.tokens
              simpa using this
            nodes := by
              rw [Home.item_nodes, rose_kw, kwKids_append]
              show Q ++ flatten (some P.length) Q.length _ = _
              rw [flatten_last (kids := kwKids id k sels)]
              simp only [Q, P, lastPre_length]
              rfl
            current := rfl
            pats := by
              have := F3.pats
              simpa only [patNames_kw] using this
            gram := by
              have := F3.gram
              simpa using this
            lengths := by
              have := F3.lengths
              simpa using this }
        · rw [anyGr_append, A.gr]; rfl

/-! ### Inside a command -/

theorem cmd_isFocus (k : Nat) (parts : List Part) : IsFocus k (parts.map Part.rose) (cmdFocus k parts) := by
  rcases List.eq_nil_or_concat parts with rfl | ⟨front, x, rfl⟩
  · exact Or.inl rfl
  · unfold cmdFocus endsWithHash
    rw [List.concat_eq_append, List.getLast?_concat, List.dropLast_concat]
    cases x with
    | ident l => exact Or.inl rfl
    | hash l =>
      exact Or.inr ⟨front.map Part.rose, .numberSign, [l.idx], by simp [Part.rose, leafRose], rfl, rfl⟩

theorem patNames_cmd (items : List Item) (p) : patNames (items ++ [.cmd p]) = patNames items := by
  simp [patNames_append, patNames]

theorem rose_cmd (parts) : (Item.cmd parts).rose = .node .command [] (parts.map Part.rose) := rfl

theorem cmd_ident {h items parts ts s t} (A : AtCmd h items parts ts s) (ht : t.tokenType = .identifier) :
    ∃ s', s.step t = .done (.ok s') ∧ AtCmd h items (parts ++ [.ident ⟨ts.length, t⟩]) (ts ++ [t]) s' := by
  have F := Fields.feed A.fields t
  refine ⟨{ feed s t with
    nodes := h.itemPre items ++ flatten (some h.pre.length) (h.itemPre items).length
      (.node .command [] (parts.map Part.rose ++ [.node .identifier [ts.length] []]))
    current := some (h.itemPre items).length }, ?_, ?_⟩
  · rw [step_eq, A.fields.state, A.fields.tokens]
    simp only [PState.stepCommand, ht, if_true]
    rw [createNodeAddToken_eq (pre := h.itemPre items) (par := some h.pre.length) (ty := .command) (toks := [])
      (kids := parts.map Part.rose) (c := cmdFocus (h.itemPre items).length parts) (ty' := .identifier) (t := ts.length)
      (hn := by rw [F.nodes, Home.item_nodes]; rfl) (hc := F.current) (h := rfl) (hf := cmd_isFocus _ _) (h' := rfl)]
    simp only [Outcome.bind_ok]
    rw [moveToContainer_focus (pre := h.itemPre items) (par := some h.pre.length) (ty := .command) (toks := [])
      (kids := parts.map Part.rose ++ [.node .identifier [ts.length] []])
      (c := (h.itemPre items).length + 1 + sizes (parts.map Part.rose))
      (hn := rfl) (hc := rfl) (h := rfl) (hf := Or.inr ⟨parts.map Part.rose, .identifier, [ts.length], rfl, rfl, rfl⟩)]
  · refine { fields := { F with
        nodes := by rw [Home.item_nodes, rose_cmd, List.map_append]; rfl
        current := by simp [cmdFocus, endsWithHash]
        pats := ?_ }, gr := ?_ }
    · simpa [patNames_cmd] using F.pats
    · rw [anyGr_append, A.gr]; rfl

theorem cmd_blank {h items parts ts s t} (A : AtCmd h items parts ts s) (ht : t.tokenType = .whiteSpace) :
    ∃ s', s.step t = .done (.ok s') ∧ AtCmd h items parts (ts ++ [t]) s' := by
  refine ⟨feed s t, ?_, ⟨Fields.feed A.fields t, by rw [anyGr_append, A.gr]; rfl⟩⟩
  rw [step_eq, A.fields.state]
  simp [PState.stepCommand, ht]

theorem cmd_count {h items parts ts s t} (A : AtCmd h items parts ts s) (hh : endsWithHash parts = false) :
    (feed s t).childCount = .ok parts.length := by
  have F := Fields.feed A.fields t
  rw [childCount_eq (feed s t) (h.itemPre items) (some h.pre.length) .command [] (parts.map Part.rose)
    (by rw [F.nodes, Home.item_nodes]; rfl) (by rw [F.current, cmdFocus, hh]; rfl) rfl, List.length_map]

theorem cmd_count_panic {h items parts ts s t} (A : AtCmd h items parts ts s) (hh : endsWithHash parts = true) :
    (feed s t).childCount = .panic := by
  have F := Fields.feed A.fields t
  rcases List.eq_nil_or_concat parts with rfl | ⟨front, x, rfl⟩
  · cases hh
  · rw [List.concat_eq_append] at *
    cases x with
    | ident l => simp [endsWithHash] at hh
    | hash l =>
      have hn := F.nodes
      rw [Home.item_nodes, rose_cmd, List.map_append, List.map_cons, List.map_nil, flatten_last,
        ← lastPre_length (h.itemPre items) (some h.pre.length) .command []] at hn
      refine childCount_leaf _ _ _ .numberSign [l.idx] [] hn ?_ rfl
      rw [F.current, cmdFocus, hh, lastPre_length]
      simp

theorem cmd_close {h items parts ts s t} (A : AtCmd h items parts ts s) (ht : Gr '}' t)
    (hh : endsWithHash parts = false) (hp : parts ≠ []) :
    ∃ s', s.step t = .done (.ok s') ∧ AtText h (items ++ [.cmd parts]) (ts ++ [t]) s' := by
  have F := Fields.feed A.fields t
  have hcur : cmdFocus (h.itemPre items).length parts = (h.itemPre items).length := by rw [cmdFocus, hh]; rfl
  rw [hcur] at F
  obtain ⟨s', h1, h2⟩ := item_close F (focus_cmd _ _ _)
  refine ⟨s', ?_, h2⟩
  rw [step_eq, A.fields.state]
  have : parts.length ≠ 0 := by simpa using hp
  simp [PState.stepCommand, ht.1, ht.2, h1, cmd_count A hh, this]

theorem cmd_close_err {h items ts s t} (A : AtCmd h items [] ts s) (ht : Gr '}' t) :
    ∃ e, s.step t = .done (.err e) ∧ Says .command t e := by
  refine ⟨(feed s t).invalid t, ?_, says A.fields.state⟩
  rw [step_eq, A.fields.state]
  simp [PState.stepCommand, ht.1, ht.2, cmd_count A rfl]

theorem cmd_panic {h items parts ts s t} (A : AtCmd h items parts ts s) (ht : Gr '}' t ∨ Gr '#' t)
    (hh : endsWithHash parts = true) : s.step t = .done .panic := by
  rw [step_eq, A.fields.state]
  rcases ht with ht | ht <;> simp [PState.stepCommand, ht.1, ht.2, cmd_count_panic A hh]

theorem cmd_hash {h items p ts s t} (A : AtCmd h items [.ident p] ts s) (ht : Gr '#' t) :
    ∃ s', s.step t = .done (.ok s') ∧ AtCmd h items [.ident p, .hash ⟨ts.length, t⟩] (ts ++ [t]) s' := by
  have F := Fields.feed A.fields t
  refine ⟨{ feed s t with
    nodes := h.itemPre items ++ flatten (some h.pre.length) (h.itemPre items).length
      (.node .command [] ([Part.rose (.ident p)] ++ [.node .numberSign [ts.length] []]))
    current := some ((h.itemPre items).length + 1 + sizes [Part.rose (.ident p)]) }, ?_, ?_⟩
  · rw [step_eq, A.fields.state, A.fields.tokens]
    simp only [PState.stepCommand, ht.1, ht.2, if_true, reduceCtorEq, if_false, List.cons.injEq, Char.reduceEq,
      and_true, cmd_count A rfl, Outcome.bind_ok, List.length_cons, List.length_nil, ne_eq, not_true_eq_false]
    rw [createNodeAddToken_eq (pre := h.itemPre items) (par := some h.pre.length) (ty := .command) (toks := [])
      (kids := [Part.rose (.ident p)]) (c := cmdFocus (h.itemPre items).length [.ident p]) (ty' := .numberSign)
      (t := ts.length)
      (hn := by rw [F.nodes, Home.item_nodes]; rfl) (hc := F.current) (h := rfl) (hf := cmd_isFocus _ _) (h' := rfl)]
  · refine { fields := { F with
        nodes := by rw [Home.item_nodes, rose_cmd]; rfl
        current := by simp [cmdFocus, endsWithHash]
        pats := ?_ }, gr := ?_ }
    · simpa [patNames_cmd] using F.pats
    · rw [anyGr_append, A.gr]; rfl

theorem cmd_hash_err {h items parts ts s t} (A : AtCmd h items parts ts s) (ht : Gr '#' t)
    (hh : endsWithHash parts = false) (hp : ∀ p, parts ≠ [.ident p]) : ∃ e, s.step t = .done (.err e) ∧ Says .command t e := by
  refine ⟨(feed s t).invalid t, ?_, says A.fields.state⟩
  have hl : parts.length ≠ 1 := by
    intro hl
    obtain ⟨x, rfl⟩ := List.length_eq_one_iff.1 hl
    cases x with
    | ident p => exact hp p rfl
    | hash p => simp [endsWithHash] at hh
  rw [step_eq, A.fields.state]
  simp [PState.stepCommand, ht.1, ht.2, cmd_count A hh, hl]

theorem cmd_lit {h items parts ts s e} (A : AtCmd h items parts ts s) (he : Gr '`' e) :
    ∃ k, s.step e = .need k ∧ ∀ t, ∃ s', k t = .done (.ok s') ∧ Lit s' := by
  have F := Fields.feed A.fields e
  refine ⟨_, by
    rw [step_eq, A.fields.state]
    simp only [PState.stepCommand, he.1, he.2, if_true, reduceCtorEq, if_false, List.cons.injEq, Char.reduceEq,
      and_true, PState.fetch]
    rfl, ?_⟩
  intro t
  have hgr : anyGr (ts ++ [e]) = true := by rw [anyGr_append, A.gr]; rfl
  have F2 := F.push t (Or.inl hgr)
  rw [createNodeAddToken_eq (pre := h.itemPre items) (par := some h.pre.length) (ty := .command) (toks := [])
      (kids := parts.map Part.rose) (c := cmdFocus (h.itemPre items).length parts) (ty' := .text)
      (t := (feed s e).tokens.length)
      (hn := by rw [F2.nodes, Home.item_nodes]; rfl) (hc := F2.current) (h := rfl) (hf := cmd_isFocus _ _) (h' := rfl)]
  refine ⟨_, rfl, ?_⟩
  refine { state := rfl, nested := by simp [PState.enter], leaf := ?_ }
  refine ⟨_, head (some (h.itemPre items).length) .text [(feed s e).tokens.length] [], rfl, ?_, rfl, rfl⟩
  show (_ ++ flatten _ _ _)[_]? = _
  rw [flatten_last, ← lastPre_length (h.itemPre items) (some h.pre.length) .command []]
  exact get_flatten _ _ _ _ _

theorem cmd_err {h items parts ts s t} (A : AtCmd h items parts ts s) (h1 : t.tokenType ≠ .identifier)
    (h2 : t.tokenType ≠ .whiteSpace) (h3 : ¬ Gr '}' t) (h4 : ¬ Gr '`' t) (h5 : ¬ Gr '#' t) :
    ∃ e, s.step t = .done (.err e) ∧ Says .command t e := by
  refine ⟨(feed s t).invalid t, ?_, says A.fields.state⟩
  rw [step_eq, A.fields.state]
  by_cases hg : t.tokenType = .grammar
  · simp [PState.stepCommand, hg, not_gr_eq hg h3, not_gr_eq hg h4, not_gr_eq hg h5]
  · simp [PState.stepCommand, h1, h2, hg]

end Verif.TreeLemmas
