import Verif.Lemmas.TreeSteps
/-
Steps of the parser in the group of named strings and in literal text.
-/
namespace Verif.TreeLemmas
open Verif Verif.Spec Verif.Spec.Rose

namespace Home

theorem pre1_length (m : List Item) : (pre1 m).length = 0 + 1 + sizes [strRose m] := by simp [pre1, lastPre_length]

theorem pre2_length (m : List Item) (ns : List Named) :
    (pre2 m ns).length = (pre1 m).length + 1 + sizes (ns.map Named.rose) := by simp [pre2, lastPre_length]

theorem pre3_length (m : List Item) (ns : List Named) (id : Leaf) :
    (pre3 m ns id).length = (pre2 m ns).length + 1 + sizes [leafRose .identifier id] := by simp [pre3, lastPre_length]

/-- The group seen from the root. -/
theorem group_view (m : List Item) (r : Rose) :
    [] ++ flatten none ([] : List Node).length (.node .root [] ([strRose m] ++ [r])) =
      pre1 m ++ flatten (some 0) (pre1 m).length r := by
  rw [flatten_last, pre1_length]; rfl

/-- A named string seen from the group. -/
theorem named_view (m : List Item) (ns : List Named) (r : Rose) :
    pre1 m ++ flatten (some 0) (pre1 m).length (.node .namedGroup [] (ns.map Named.rose ++ [r])) =
      pre2 m ns ++ flatten (some (pre1 m).length) (pre2 m ns).length r := by
  rw [flatten_last, pre2_length]; rfl

/-- The string of a named string seen from the named string. -/
theorem string_view (m : List Item) (ns : List Named) (id : Leaf) (kids : List Rose) :
    pre2 m ns ++ flatten (some (pre1 m).length) (pre2 m ns).length
        (.node .namedString [] ([leafRose .identifier id] ++ [.node .string [] kids])) =
      (Home.sub m ns id).nodes kids := by
  rw [flatten_last, nodes, pre, pre3_length]; rfl

theorem main_view (m : List Item) :
    [] ++ flatten none ([] : List Node).length (.node .root [] [strRose m]) = Home.main.nodes (m.map Item.rose) := by
  rw [← arena_eq]; rfl

end Home

/-- A number sign in the main string opens the group of named strings. -/
theorem text_group {items ts s t} (F0 : AtText .main items ts s) (ht : Gr '#' t) :
    ∃ s', s.step t = .done (.ok s') ∧ AtGrp items [] (ts ++ [t]) s' := by
  have F := Fields.feed F0 t
  refine ⟨{ feed s t with
    nodes := Home.pre1 items ++ flatten (some 0) (Home.pre1 items).length (groupRose [])
    current := some (Home.pre1 items).length
    state := .namedGroup }, ?_, ?_⟩
  · rw [step_eq, F0.state]
    simp only [Home.state, PState.stepString, ht.1, ht.2, if_true, List.cons.injEq, Char.reduceEq, false_and, if_false]
    rw [createNode_eq (pre := []) (par := none) (ty := .root) (toks := []) (kids := [strRose items]) (c := 0)
      (ty' := .namedGroup) (hn := by rw [Home.main_view]; exact F.nodes) (hc := rfl) (h := rfl) (hf := Or.inl rfl)]
    simp only [Outcome.bind_ok, Outcome.pure_eq]
    rw [Home.group_view, Home.pre1_length]
    rfl
  · exact { F with
      nodes := rfl
      current := rfl
      state := rfl
      pats := by simpa [Home.pn] using F.pats
      named := by simpa [Home.nn] using F.named }

/-! ### Between named strings -/

theorem grp_open {m ns ts s t} (F0 : AtGrp m ns ts s) (ht : Gr '{' t) :
    ∃ s', s.step t = .done (.ok s') ∧ AtNs m ns none (ts ++ [t]) s' := by
  have F := Fields.feed F0 t
  refine ⟨{ feed s t with
    nodes := Home.pre2 m ns ++ flatten (some (Home.pre1 m).length) (Home.pre2 m ns).length (.node .namedString [] [])
    current := some (Home.pre2 m ns).length
    state := .namedString
    nested := .namedGroup :: (feed s t).nested }, ?_, ?_⟩
  · rw [step_eq, F0.state]
    simp only [PState.stepNamedGroup, ht.1, ht.2, if_true, ne_eq, not_true_eq_false, if_false]
    rw [createNode_eq (pre := Home.pre1 m) (par := some 0) (ty := .namedGroup) (toks := []) (kids := ns.map Named.rose)
      (c := (Home.pre1 m).length) (ty' := .namedString) (hn := F.nodes) (hc := F.current) (h := rfl) (hf := Or.inl rfl)]
    simp only [Outcome.bind_ok, Outcome.pure_eq, PState.enter]
    rw [Home.named_view, ← Home.pre2_length]
  · exact { F with
      nodes := rfl
      current := rfl
      state := rfl
      nested := by
        show _ :: (feed s t).nested = _
        rw [F.nested]
      named := by simpa using F.named }

theorem grp_blank {m ns ts s t} (F0 : AtGrp m ns ts s) (ht : t.tokenType = .whiteSpace) :
    ∃ s', s.step t = .done (.ok s') ∧ AtGrp m ns (ts ++ [t]) s' := by
  refine ⟨feed s t, ?_, Fields.feed F0 t⟩
  rw [step_eq, F0.state]
  simp [PState.stepNamedGroup, ht]

theorem grp_err {m ns ts s t} (F0 : AtGrp m ns ts s) (h1 : ¬ Gr '{' t) (h2 : t.tokenType ≠ .whiteSpace) :
    ∃ e, s.step t = .done (.err e) ∧ Says .namedGroup t e := by
  refine ⟨(feed s t).invalid t, ?_, says F0.state⟩
  rw [step_eq, F0.state]
  by_cases hg : t.tokenType = .grammar
  · simp [PState.stepNamedGroup, hg, not_gr_eq hg h1]
  · simp [PState.stepNamedGroup, hg, h2]

/-! ### Named string before its content -/

theorem ns_count {m ns id? ts s t} (F0 : AtNs m ns id? ts s) :
    (feed s t).childCount = .ok (id?.toList.length) := by
  have F := Fields.feed F0 t
  rw [childCount_eq (feed s t) (Home.pre2 m ns) (some (Home.pre1 m).length) .namedString [] _
    F.nodes F.current rfl, List.length_map]

theorem ns0_ident {m ns ts s t} (F0 : AtNs m ns none ts s) (ht : t.tokenType = .identifier) :
    (t.string ∈ ns.map (fun n => n.id.tok.string) → s.step t = .done (.err (.uniqueNamed t.string))) ∧
    (t.string ∉ ns.map (fun n => n.id.tok.string) → ∃ k, s.step t = .need k ∧ ∀ w,
      (w.tokenType = .whiteSpace → ∃ s', k w = .done (.ok s') ∧ AtNs m ns (some ⟨ts.length, t⟩) (ts ++ [t, w]) s') ∧
      (w.tokenType ≠ .whiteSpace → ∃ e, k w = .done (.err e) ∧ Says .namedString t e)) := by
  have F := Fields.feed F0 t
  have hcount := ns_count (t := t) F0
  constructor
  · intro hm
    have hcon : (feed s t).namedStrings.contains t.string = true := (F.named.1 _).2 (by simpa using hm)
    rw [step_eq, F0.state]
    simp [PState.stepNamedString, ht, hcount, Step.andThen, hcon]
  · intro hm
    have hcon : (feed s t).namedStrings.contains t.string = false := by
      cases hb : (feed s t).namedStrings.contains t.string with
      | false => rfl
      | true => exact absurd ((F.named.1 _).1 hb) (by simpa using hm)
    let s1 : PState := { feed s t with
      namedStrings := (feed s t).namedStrings.insert t.string ts.length
      nodes := Home.pre2 m ns ++ flatten (some (Home.pre1 m).length) (Home.pre2 m ns).length
        (.node .namedString [] ([] ++ [.node .identifier [ts.length] []]))
      current := some (Home.pre2 m ns).length }
    have F1 : Fields s1 (ts ++ [t]) s1.nodes (Home.pre2 m ns).length .namedString [.namedGroup]
        (patNames m ++ (ns.map fun n => patNames n.items).flatten)
        ((ns.map fun n => n.id.tok.string) ++ [t.string]) := { F with
      nodes := rfl
      current := rfl
      named := by
        have hn := F.named
        simp only [Option.toList, List.map_nil, List.append_nil] at hn
        refine ⟨fun k => ?_, nodup_snoc hn.2 hm⟩
        show ((feed s t).namedStrings.insert t.string _).contains k = true ↔ _
        rw [AMap.contains_insert, Bool.or_eq_true, List.mem_append, List.mem_singleton, hn.1]
        simp [or_comm] }
    have hs1 : (do
            let s' := { feed s t with namedStrings := (feed s t).namedStrings.insert t.string ts.length }
            let s' ← s'.createNodeAddToken .identifier ts.length
            s'.moveToContainer) = Outcome.ok s1 := by
      simp only
      rw [createNodeAddToken_eq (pre := Home.pre2 m ns) (par := some (Home.pre1 m).length) (ty := .namedString)
        (toks := []) (kids := []) (c := (Home.pre2 m ns).length) (ty' := .identifier) (t := ts.length)
        (hn := by exact F.nodes) (hc := by exact F.current) (h := rfl) (hf := Or.inl rfl) (h' := rfl)]
      simp only [Outcome.bind_ok]
      rw [moveToContainer_focus (pre := Home.pre2 m ns) (par := some (Home.pre1 m).length) (ty := .namedString)
        (toks := []) (kids := [] ++ [.node .identifier [ts.length] []]) (c := (Home.pre2 m ns).length + 1 + sizes [])
        (hn := rfl) (hc := rfl) (h := rfl) (hf := Or.inr ⟨[], .identifier, [ts.length], rfl, rfl, rfl⟩)]
    refine ⟨fun t' => if t'.tokenType = .whiteSpace then .done (.ok (s1.pushToken t'))
              else .done (.err ((s1.pushToken t').invalid t)), ?_, ?_⟩
    · rw [step_eq, F0.state, F0.tokens]
      simp only [PState.stepNamedString, ht, if_true, hcount, Step.andThen, Option.toList, List.length_nil, hcon,
        Bool.false_eq_true, if_false, hs1]
      rfl
    · intro w
      constructor
      · intro hw
        refine ⟨s1.pushToken w, by simp [hw], ?_⟩
        have F2 := F1.push w (Or.inr (by rw [hw]; simp))
        exact { F2 with
          tokens := by simpa using F2.tokens
          gram := by simpa using F2.gram
          lengths := by simpa using F2.lengths }
      · intro hw
        exact ⟨(s1.pushToken w).invalid t, by simp [hw], by
          rw [Says, PState.invalid, show (s1.pushToken w).state = .namedString from F1.state]⟩

theorem ns0_err {m ns ts s t} (F0 : AtNs m ns none ts s) (ht : t.tokenType ≠ .identifier) :
    ∃ e, s.step t = .done (.err e) ∧ Says .namedString t e := by
  have hcount := ns_count (t := t) F0
  refine ⟨(feed s t).invalid t, ?_, says F0.state⟩
  rw [step_eq, F0.state]
  by_cases hg : t.tokenType = .grammar
  · by_cases h1 : t.string = ['#']
    · simp [PState.stepNamedString, hg, hcount, h1]
    · by_cases h2 : t.string = ['{']
      · simp [PState.stepNamedString, hg, hcount, h2, Step.andThen]
      · by_cases h3 : t.string = ['`']
        · simp [PState.stepNamedString, hg, hcount, h3, Step.andThen]
        · simp [PState.stepNamedString, hg, h1, h2, h3]
  · by_cases hy : t.tokenType = .syn
    · simp [PState.stepNamedString, hcount, hy]
    · simp [PState.stepNamedString, ht, hg, hcount, hy]

/-- The string of a named string is started with a leaf. -/
theorem ns1_start {m ns id ts s t} (F0 : AtNs m ns (some id) ts s) (us : List Token) (s0 : PState)
    (F : Fields s0 us s.nodes (Home.pre2 m ns).length .namedString [.namedGroup]
      (patNames m ++ (ns.map fun n => patNames n.items).flatten)
      ((ns.map fun n => n.id.tok.string) ++ [id.tok.string])) (ty : NodeType) (h' : ty.allowTokens = true) :
    ∃ s1, (do
          let s ← s0.createNode .string
          (s.enter .namedString s.state).createNodeAddToken ty t) = Outcome.ok s1 ∧
      Fields s1 us ((Home.sub m ns id).nodes [.node ty [t] []]) ((Home.sub m ns id).pre.length + 1 + sizes [])
        .namedString [.namedString, .namedGroup]
        (patNames m ++ (ns.map fun n => patNames n.items).flatten)
        ((ns.map fun n => n.id.tok.string) ++ [id.tok.string]) := by
  have hn : s0.nodes = Home.pre2 m ns ++ flatten (some (Home.pre1 m).length) (Home.pre2 m ns).length
      (.node .namedString [] [leafRose .identifier id]) := by rw [F.nodes, F0.nodes]; rfl
  rw [createNode_eq (pre := Home.pre2 m ns) (par := some (Home.pre1 m).length) (ty := .namedString)
    (toks := []) (kids := [leafRose .identifier id]) (c := (Home.pre2 m ns).length) (ty' := .string)
    (hn := hn) (hc := F.current) (h := rfl) (hf := Or.inl rfl)]
  simp only [Outcome.bind_ok]
  rw [createNodeAddToken_eq (pre := (Home.sub m ns id).pre) (par := some (Home.sub m ns id).par) (ty := .string)
    (toks := []) (kids := []) (c := (Home.sub m ns id).pre.length) (ty' := ty) (t := t)
    (hn := Home.string_view m ns id [])
    (hc := by
      show some _ = some (Home.pre3 m ns id).length
      rw [Home.pre3_length]) (h := rfl) (hf := Or.inl rfl) (h' := h')]
  refine ⟨_, rfl, ?_⟩
  exact { F with
    nodes := rfl
    current := rfl
    state := F.state
    nested := by
      show _ :: s0.nested = _
      rw [F.nested] }

theorem ns1_ident {m ns id ts s t} (F0 : AtNs m ns (some id) ts s) (ht : t.tokenType = .identifier) :
    ∃ s', s.step t = .done (.ok s') ∧ AtText (.sub m ns id) [.text [⟨ts.length, t⟩]] (ts ++ [t]) s' := by
  have F := Fields.feed F0 t
  have hcount := ns_count (t := t) F0
  rw [← F0.nodes] at F
  obtain ⟨s1, h1, h2⟩ := ns1_start (t := ts.length) F0 _ (feed s t) F .text rfl
  refine ⟨{ s1 with state := .subString }, ?_, ?_⟩
  · rw [step_eq, F0.state, F0.tokens]
    simp only [PState.stepNamedString, ht, if_true, hcount, Step.andThen, Option.toList, List.length_cons,
      List.length_nil, Nat.zero_add, Nat.one_ne_zero, if_false]
    congr 1
    have := congrArg (fun x => x >>= fun s => (pure { s with state := .subString } : TreeM PState)) h1
    simp only [Outcome.bind_ok, Outcome.pure_eq] at this
    rw [← this]
    cases (feed s t).createNode .string <;> rfl
  · unfold AtText
    exact { h2 with state := rfl, pats := by simpa [Home.pn, patNames] using h2.pats }

theorem ns1_hash {m ns id ts s t} (F0 : AtNs m ns (some id) ts s) (ht : Gr '#' t) :
    ∃ s', s.step t = .done (.ok s') ∧ AtText (.sub m ns id) [.number ⟨ts.length, t⟩] (ts ++ [t]) s' := by
  have F := Fields.feed F0 t
  have hcount := ns_count (t := t) F0
  rw [← F0.nodes] at F
  obtain ⟨s1, h1, h2⟩ := ns1_start (t := ts.length) F0 _ (feed s t) F .numberSign rfl
  refine ⟨{ s1 with state := .subString }, ?_, ?_⟩
  · rw [step_eq, F0.state, F0.tokens]
    simp only [PState.stepNamedString, ht.1, ht.2, reduceCtorEq, if_true, hcount, Step.andThen, Option.toList,
      List.length_cons, List.length_nil, Nat.zero_add, if_false, Outcome.bind_ok, ne_eq, not_true_eq_false]
    congr 1
    have := congrArg (fun x => x >>= fun s => (pure { s with state := .subString } : TreeM PState)) h1
    simp only [Outcome.bind_ok, Outcome.pure_eq] at this
    rw [← this]
    cases (feed s t).createNode .string <;> rfl
  · unfold AtText
    exact { h2 with state := rfl, pats := by simpa [Home.pn, patNames] using h2.pats }

theorem ns1_blank {m ns id ts s t} (F0 : AtNs m ns (some id) ts s) (ht : t.tokenType = .whiteSpace) :
    ∃ s', s.step t = .done (.ok s') ∧ AtNs m ns (some id) (ts ++ [t]) s' := by
  have hcount := ns_count (t := t) F0
  refine ⟨feed s t, ?_, Fields.feed F0 t⟩
  rw [step_eq, F0.state]
  simp [PState.stepNamedString, ht, hcount]

theorem ns1_open {m ns id ts s t} (F0 : AtNs m ns (some id) ts s) (ht : Gr '{' t) :
    ∃ k, s.step t = .need k ∧ ∀ x, ∃ e, k x = .done (.err e) ∧ Says .namedString t e := by
  have hcount := ns_count (t := t) F0
  refine ⟨fun x => .done (((feed s t).pushToken x).patternStart t s.tokens.length), ?_, ?_⟩
  · rw [step_eq, F0.state]
    simp [PState.stepNamedString, ht.1, ht.2, hcount, Step.andThen, PState.fetch]
  · intro x
    simp only
    rw [start_err _ t _ (by rw [ht.1]; simp) (by rintro ⟨_, h⟩; rw [ht.2] at h; simp at h)
      (by rintro ⟨_, h⟩; rw [ht.2] at h; simp at h)]
    refine ⟨_, rfl, ?_⟩
    rw [Says, PState.invalid, show ((feed s t).pushToken x).state = .namedString from (feed_state s t).trans F0.state]

theorem Fields.bad {s1 us m ns id t pn nn} (F : Fields s1 us ((Home.sub m ns id).nodes [.node .text [t] []])
    ((Home.sub m ns id).pre.length + 1 + sizes []) .namedString [.namedString, .namedGroup] pn nn) : AtBad s1 := by
  refine ⟨F.state, F.nested, _, head (some (Home.sub m ns id).pre.length) .text [t] [], F.current, ?_, rfl⟩
  rw [F.nodes, Home.nodes]
  have := flatten_last (Home.sub m ns id).pre (some (Home.sub m ns id).par) .string [] [] (.node .text [t] [])
  rw [List.nil_append] at this
  rw [this, ← lastPre_length (Home.sub m ns id).pre (some (Home.sub m ns id).par) .string [] []]
  exact get_flatten _ _ _ _ _

theorem ns1_syn {m ns id ts s t} (F0 : AtNs m ns (some id) ts s) (ht : t.tokenType = .syn) :
    ∃ s', s.step t = .done (.ok s') ∧ AtBad s' := by
  have F := Fields.feed F0 t
  have hcount := ns_count (t := t) F0
  rw [← F0.nodes] at F
  obtain ⟨s1, h1, h2⟩ := ns1_start (t := ts.length) F0 _ (feed s t) F .text rfl
  refine ⟨s1, ?_, h2.bad⟩
  rw [step_eq, F0.state, F0.tokens]
  simp only [PState.stepNamedString, ht, reduceCtorEq, if_true, hcount, Option.toList,
      List.length_cons, List.length_nil, Nat.zero_add, if_false, Outcome.bind_ok, ne_eq, not_true_eq_false]
  exact congrArg Step.done h1

theorem ns1_esc {m ns id ts s e} (F0 : AtNs m ns (some id) ts s) (he : Gr '`' e) :
    ∃ k, s.step e = .need k ∧ ∀ x, ∃ s', k x = .done (.ok s') ∧ AtBad s' := by
  have F := Fields.feed F0 e
  have hcount := ns_count (t := e) F0
  rw [← F0.nodes] at F
  refine ⟨fun x => .done (do
            let s' ← ((feed s e).pushToken x).createNode .string
            (s'.enter .namedString s'.state).createNodeAddToken .text (feed s e).tokens.length), ?_, ?_⟩
  · rw [step_eq, F0.state]
    simp [PState.stepNamedString, he.1, he.2, hcount, Step.andThen, PState.fetch]
  · intro x
    have F2 := F.push x (Or.inl (by rw [anyGr_append]; simp [anyGr, he.1]))
    obtain ⟨s1, h1, h2⟩ := ns1_start (t := (feed s e).tokens.length) F0 _ _ F2 .text rfl
    exact ⟨s1, congrArg Step.done h1, h2.bad⟩

theorem ns1_err {m ns id ts s t} (F0 : AtNs m ns (some id) ts s) (hg : t.tokenType = .grammar) (h1 : ¬ Gr '#' t)
    (h2 : ¬ Gr '{' t) (h3 : ¬ Gr '`' t) : ∃ e, s.step t = .done (.err e) ∧ Says .namedString t e := by
  refine ⟨(feed s t).invalid t, ?_, says F0.state⟩
  rw [step_eq, F0.state]
  simp [PState.stepNamedString, hg, not_gr_eq hg h1, not_gr_eq hg h2, not_gr_eq hg h3]

/-! ### After a named string started with a syntax character or an escape -/

theorem feed_nodes (s : PState) (t : Token) : (feed s t).nodes = s.nodes := by unfold feed; split <;> rfl
theorem feed_current (s : PState) (t : Token) : (feed s t).current = s.current := by unfold feed; split <;> rfl
theorem feed_nested (s : PState) (t : Token) : (feed s t).nested = s.nested := by unfold feed; split <;> rfl

theorem bad_count {s t} (B : AtBad s) : (feed s t).childCount = .panic := by
  obtain ⟨c, n, h1, h2, h3⟩ := B.leaf
  simp [PState.childCount, feed_nodes, feed_current, h1, h2, h3]

theorem bad_panic {s t} (B : AtBad s) (h : t.tokenType ≠ .grammar ∨ t.string ∈ [['#'], ['{'], ['`']]) :
    s.step t = .done .panic := by
  have hc := bad_count (t := t) B
  rw [step_eq, B.state]
  by_cases hg : t.tokenType = .grammar
  · rcases h with h | h
    · exact absurd hg h
    · simp only [List.mem_cons, List.not_mem_nil, or_false] at h
      rcases h with h | h | h <;> simp [PState.stepNamedString, hg, hc, h, Step.andThen]
  · by_cases h1 : t.tokenType = .identifier
    · simp [PState.stepNamedString, h1, hc, Step.andThen]
    · by_cases h2 : t.tokenType = .syn
      · simp [PState.stepNamedString, h2, hc]
      · simp [PState.stepNamedString, h1, hg, h2, hc]

theorem bad_err {s t} (B : AtBad s) (hg : t.tokenType = .grammar) (h : t.string ∉ [['#'], ['{'], ['`']]) :
    ∃ e, s.step t = .done (.err e) ∧ Says .namedString t e := by
  refine ⟨(feed s t).invalid t, ?_, says B.state⟩
  simp only [List.mem_cons, List.not_mem_nil, or_false, not_or] at h
  rw [step_eq, B.state]
  simp [PState.stepNamedString, hg, h.1, h.2.1, h.2.2]

/-! ### Inside the string of a named string -/

theorem sub_close {m ns id items ts s t} (F0 : AtText (.sub m ns id) items ts s) (ht : Gr '}' t) :
    ∃ s', s.step t = .done (.ok s') ∧ AtGrp m (ns ++ [⟨id, items⟩]) (ts ++ [t]) s' := by
  have F := Fields.feed F0 t
  refine ⟨{ feed s t with current := some (Home.pre1 m).length, state := .namedGroup, nested := [] }, ?_, ?_⟩
  · rw [step_eq, F0.state]
    simp only [Home.state, PState.stepSubString, ht.1, ht.2, if_true, List.cons.injEq, Char.reduceEq, false_and,
      if_false]
    rw [moveToContainer_focus (pre := (Home.sub m ns id).pre) (par := some (Home.sub m ns id).par) (ty := .string)
      (toks := []) (kids := items.map Item.rose) (c := focusIdx (Home.sub m ns id).pre.length items)
      (hn := F.nodes) (hc := F.current) (h := rfl) (hf := focus_isFocus _ _)]
    simp only [Outcome.bind_ok]
    rw [endNestedState_eq (pre := (Home.sub m ns id).pre) (par := some (Home.sub m ns id).par)
      (r := .node .string [] (items.map Item.rose)) (st := .namedString) (rest := [.namedGroup])
      (hn := by exact F.nodes) (hc := by rfl) (hs := by exact F.nested)]
    simp only [Outcome.bind_ok]
    have hn2 : (feed s t).nodes = Home.pre2 m ns ++ flatten (some (Home.pre1 m).length) (Home.pre2 m ns).length
        (.node .namedString [] ([leafRose .identifier id] ++ [.node .string [] (items.map Item.rose)])) := by
      rw [Home.string_view]; exact F.nodes
    rw [childCount_eq (pre := Home.pre2 m ns) (par := some (Home.pre1 m).length) (ty := .namedString) (toks := [])
      (kids := [leafRose .identifier id] ++ [.node .string [] (items.map Item.rose)])
      (hn := by exact hn2) (hc := by rfl) (h := rfl)]
    simp only [Outcome.bind_ok, List.length_append, List.length_cons, List.length_nil, Nat.zero_add, Nat.reduceAdd,
      ne_eq, not_true_eq_false, if_false]
    rw [endNestedState_eq (pre := Home.pre2 m ns) (par := some (Home.pre1 m).length)
      (r := .node .namedString [] ([leafRose .identifier id] ++ [.node .string [] (items.map Item.rose)]))
      (st := .namedGroup) (rest := [])
      (hn := by exact hn2) (hc := by rfl) (hs := by rfl)]
  · exact { F with
      nodes := by
        show (feed s t).nodes = _
        rw [groupRose, List.map_append, List.map_cons, List.map_nil, Home.named_view]
        exact F.nodes.trans (Home.string_view m ns id _).symm
      current := rfl
      state := rfl
      nested := rfl
      pats := by simpa [Home.pn] using F.pats
      named := by simpa [Home.nn] using F.named }

theorem sub_last {m ns id items ts s t} (F0 : AtText (.sub m ns id) items ts s) :
    (feed s t).lastIsNumberSign = .ok (endsWithNumber items) := by
  have F := Fields.feed F0 t
  have hs := get_string F.nodes
  unfold PState.lastIsNumberSign
  simp only [F.current, Outcome.unwrap_some, Outcome.bind_ok]
  -- the parent of the string is the named string whose last child is the string
  have hpar : (feed s t).nodes[(Home.sub m ns id).par]? = some (head (some (Home.pre1 m).length) .namedString []
      (offsets ((Home.pre2 m ns).length + 1) ([leafRose .identifier id] ++ [.node .string [] (items.map Item.rose)]))) := by
    rw [F.nodes, ← Home.string_view]; exact get_flatten _ _ _ _ _
  have hout : focusIdx (Home.sub m ns id).pre.length items = (Home.sub m ns id).pre.length →
      endsWithNumber items = false → (do
        let node ← Outcome.unwrap (ε := TreeError) (feed s t).nodes[focusIdx (Home.sub m ns id).pre.length items]?
        let parent ← Outcome.unwrap node.parent
        let pnode ← Outcome.unwrap (feed s t).nodes[parent]?
        let children ← Outcome.unwrap pnode.children
        match children.getLast? with
        | none => pure false
        | some last => do
          let l ← Outcome.unwrap (feed s t).nodes[last]?
          pure (l.nodeType == NodeType.numberSign)) = .ok (endsWithNumber items) := by
    intro hf he
    simp only [hf, hs, Outcome.unwrap_some, Outcome.bind_ok, head]
    rw [hpar]
    simp only [Outcome.unwrap_some, Outcome.bind_ok, head, NodeType.allowChildren, if_true]
    rw [offsets_append]
    simp only [offsets, List.getLast?_concat]
    have hidx : (Home.pre2 m ns).length + 1 + sizes [leafRose .identifier id] = (Home.sub m ns id).pre.length := by
      rw [← Home.pre3_length]; rfl
    rw [hidx, hs, he]
    rfl
  have hin : ∀ front ty toks, items.map Item.rose = front ++ [.node ty toks []] →
      focusIdx (Home.sub m ns id).pre.length items = (Home.sub m ns id).pre.length + 1 + sizes front →
      endsWithNumber items = (ty == .numberSign) → (do
        let node ← Outcome.unwrap (ε := TreeError) (feed s t).nodes[focusIdx (Home.sub m ns id).pre.length items]?
        let parent ← Outcome.unwrap node.parent
        let pnode ← Outcome.unwrap (feed s t).nodes[parent]?
        let children ← Outcome.unwrap pnode.children
        match children.getLast? with
        | none => pure false
        | some last => do
          let l ← Outcome.unwrap (feed s t).nodes[last]?
          pure (l.nodeType == NodeType.numberSign)) = .ok (endsWithNumber items) := by
    intro front ty toks hk hf he
    have hleaf : (feed s t).nodes[(Home.sub m ns id).pre.length + 1 + sizes front]? =
        some (head (some (Home.sub m ns id).pre.length) ty toks []) := by
      rw [F.nodes, Home.nodes, hk, flatten_last, ← lastPre_length (Home.sub m ns id).pre
        (some (Home.sub m ns id).par) .string [] front]
      exact get_flatten _ _ _ _ _
    rw [hf, hleaf, he]
    simp only [Outcome.unwrap_some, Outcome.bind_ok, head]
    rw [hs]
    simp only [Outcome.unwrap_some, Outcome.bind_ok, head, NodeType.allowChildren, if_true]
    rw [hk, offsets_append]
    simp only [offsets, List.getLast?_concat]
    rw [hleaf]
    rfl
  rcases List.eq_nil_or_concat items with rfl | ⟨front, x, rfl⟩
  · exact hout rfl rfl
  · rw [List.concat_eq_append] at *
    cases x with
    | text toks =>
      exact hin (front.map Item.rose) .text (toks.map Leaf.idx) (by simp [Item.rose]) (by simp [focusIdx])
        (by simp [endsWithNumber])
    | number l =>
      exact hin (front.map Item.rose) .numberSign [l.idx] (by simp [Item.rose, leafRose]) (by simp [focusIdx])
        (by simp [endsWithNumber])
    | pat a b => exact hout (by simp [focusIdx]) (by simp [endsWithNumber])
    | cmd a => exact hout (by simp [focusIdx]) (by simp [endsWithNumber])

theorem sub_hash {m ns id items ts s t} (F0 : AtText (.sub m ns id) items ts s) (ht : Gr '#' t)
    (he : endsWithNumber items = false) :
    ∃ s', s.step t = .done (.ok s') ∧
      AtText (.sub m ns id) (items ++ [.number ⟨ts.length, t⟩]) (ts ++ [t]) s' := by
  have F := Fields.feed F0 t
  have hl := sub_last (t := t) F0
  refine ⟨{ feed s t with
    nodes := (Home.sub m ns id).nodes (items.map Item.rose ++ [.node .numberSign [ts.length] []])
    current := some ((Home.sub m ns id).pre.length + 1 + sizes (items.map Item.rose)) }, ?_, ?_⟩
  · rw [step_eq, F0.state, F0.tokens]
    simp only [Home.state, PState.stepSubString, ht.1, ht.2, if_true, hl, he, Outcome.bind_ok, Bool.false_eq_true,
      if_false]
    rw [createNodeAddToken_eq (pre := (Home.sub m ns id).pre) (par := some (Home.sub m ns id).par) (ty := .string)
      (toks := []) (kids := items.map Item.rose) (c := focusIdx (Home.sub m ns id).pre.length items)
      (ty' := .numberSign) (t := ts.length)
      (hn := F.nodes) (hc := F.current) (h := rfl) (hf := focus_isFocus _ _) (h' := rfl)]
    rfl
  · unfold AtText
    exact { F with
      nodes := by simp [Item.rose, leafRose]
      current := by simp [focusIdx]
      pats := by simpa [patNames_append, patNames] using F.pats }

theorem sub_hash_err {m ns id items ts s t} (F0 : AtText (.sub m ns id) items ts s) (ht : Gr '#' t)
    (he : endsWithNumber items = true) : s.step t = .done (.err (.multiNumberSign t.startGrapheme)) := by
  have hl := sub_last (t := t) F0
  rw [step_eq, F0.state]
  simp [Home.state, PState.stepSubString, ht.1, ht.2, hl, he]

/-! ### Literal text -/

theorem lit_add {s : PState} {i : Nat} (hs : s.state = .literalText) (hn : s.nested ≠ [])
    (hl : ∃ c n, s.current = some c ∧ s.nodes[c]? = some n ∧ n.nodeType = .text ∧ n.tokens.isSome) :
    ∃ s', s.addToken .text i = .ok s' ∧ Lit s' := by
  obtain ⟨c, n, h1, h2, h3, h4⟩ := hl
  obtain ⟨toks, h5⟩ := Option.isSome_iff_exists.1 h4
  have hc : c < s.nodes.length := (List.getElem?_eq_some_iff.1 h2).1
  refine ⟨{ s with nodes := s.nodes.set c { n with tokens := some (toks ++ [i]) } },
    by simp [PState.addToken, h1, h2, h3, PState.pushTokenToCurrent, Node.pushToken, h5], ?_⟩
  refine ⟨hs, hn, c, { n with tokens := some (toks ++ [i]) }, h1, ?_, h3, rfl⟩
  simp [hc]

/-- Literal text never ends. -/
theorem lit_step {s} (L : Lit s) (t : Token) :
    (∃ s', s.step t = .done (.ok s') ∧ Lit s') ∨
    (∃ k, s.step t = .need k ∧ ∀ x, ∃ s', k x = .done (.ok s') ∧ Lit s') := by
  rw [step_eq, L.state]
  by_cases h : t.tokenType = .grammar ∧ t.string = ['`']
  · right
    refine ⟨fun x => .done (((feed s t).pushToken x).addToken .text (feed s t).tokens.length), ?_, ?_⟩
    · simp [PState.stepLiteralText, h, PState.fetch]
    · intro x
      obtain ⟨s', h1, h2⟩ := lit_add (s := (feed s t).pushToken x) (i := (feed s t).tokens.length)
        ((feed_state s t).trans L.state) (by show (feed s t).nested ≠ []; rw [feed_nested]; exact L.nested) (by
          show ∃ c n, (feed s t).current = some c ∧ (feed s t).nodes[c]? = some n ∧ _
          rw [feed_current, feed_nodes]; exact L.leaf)
      exact ⟨s', congrArg Step.done h1, h2⟩
  · left
    simp only [PState.stepLiteralText, if_neg h]
    obtain ⟨s', h1, h2⟩ := lit_add (s := feed s t) (i := s.tokens.length)
      ((feed_state s t).trans L.state) (by rw [feed_nested]; exact L.nested) (by
        rw [feed_current, feed_nodes]; exact L.leaf)
    exact ⟨s', by rw [h1], h2⟩

theorem lit_drive : ∀ (n : Nat) (ts : List Token), ts.length ≤ n → ∀ s, Lit s →
    (∃ s', (Step.done (.ok s)).drive ts = .ok s' ∧ s'.nested ≠ []) ∨
    (Step.done (.ok s)).drive ts = .err .endedAbruptly := by
  intro n
  induction n with
  | zero =>
    intro ts hts s L
    obtain rfl := List.length_eq_zero_iff.1 (Nat.le_zero.1 hts)
    exact Or.inl ⟨s, rfl, L.nested⟩
  | succ n ih =>
    intro ts hts s L
    cases ts with
    | nil => exact Or.inl ⟨s, rfl, L.nested⟩
    | cons t ts =>
      simp only [Step.drive]
      rcases lit_step L t with ⟨s', h1, h2⟩ | ⟨k, h1, h2⟩
      · rw [h1]; exact ih ts (by simpa using hts) s' h2
      · rw [h1]
        cases ts with
        | nil => exact Or.inr rfl
        | cons x ts =>
          obtain ⟨s', h3, h4⟩ := h2 x
          simp only [Step.drive, h3]
          exact ih ts (by simp at hts; omega) s' h4

end Verif.TreeLemmas
