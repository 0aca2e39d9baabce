import Verif.Lemmas.FormatBuild
/-
The formatter built from a pattern string represents that string.
-/
namespace Verif.FormatLemmas
open Verif Verif.Spec Verif.Spec.Rose

variable {D F : Type}

/-- Two lists related entry by entry. -/
inductive Zip {α β : Type} (R : α → β → Prop) : List α → List β → Prop
  | nil : Zip R [] []
  | cons {a b as bs} : R a b → Zip R as bs → Zip R (a :: as) (b :: bs)

theorem Zip.mono {α β : Type} {R S : α → β → Prop} (h : ∀ a b, R a b → S a b) {as bs} (hz : Zip R as bs) : Zip S as bs := by
  induction hz with
  | nil => exact .nil
  | cons hr _ ih => exact .cons (h _ _ hr) ih

theorem CItem.mono {E : FmtEnv D F} {owners sels self it p} (o : List Str) (s : List (AMap Str Str))
    (h : CItem E owners sels self it p) : CItem E (owners ++ o) (sels ++ s) self it p := by
  cases h with
  | text => exact .text _
  | number l i h => exact .number l i (by rw [List.getElem?_append_left (List.getElem?_eq_some_iff.1 h).1]; exact h)
  | string => exact .string _
  | decimal _ _ h => exact .decimal _ _ h
  | dateTime _ _ h => exact .dateTime _ _ h
  | complex id k ss ct i m h1 h2 h3 =>
    exact .complex id k ss ct i m h1 (by rw [List.getElem?_append_left (List.getElem?_eq_some_iff.1 h2).1]; exact h2) h3
  | delayed => exact .delayed _ _ _
  | now _ _ _ h1 h2 => exact .now _ _ _ h1 h2

/-- Commands of an item have the right shape. -/
def Shaped (it : Item) : Prop := ∀ parts, it = .cmd parts → CmdShape parts

theorem content_shaped {sub n items body} (h : Content sub n items body) : ∀ it ∈ items, Shaped it := by
  induction h with
  | nil => simp
  | plain _ _ ih =>
    intro it hit
    rcases mem_pushText hit with hit | ⟨_, rfl, _⟩
    · exact ih it hit
    · intro parts hp; cases hp
  | escaped _ _ ih =>
    intro it hit
    rcases mem_pushText hit with hit | ⟨_, rfl, _⟩
    · exact ih it hit
    · intro parts hp; cases hp
  | number _ _ _ _ ih =>
    intro it hit
    rcases List.mem_append.1 hit with hit | hit
    · exact ih it hit
    · simp only [List.mem_singleton] at hit
      subst hit
      intro parts hp; cases hp
  | pattern _ hp ih =>
    intro it hit
    rcases List.mem_append.1 hit with hit | hit
    · exact ih it hit
    · simp only [List.mem_singleton] at hit
      subst hit
      intro parts hparts
      subst hparts
      cases hp with
      | command _ _ hb hne _ _ => exact (cmdBody_shape hb).resolve_left hne

theorem group_shaped {n ns body} (h : Group n ns body) : ∀ m ∈ ns, ∀ it ∈ m.items, Shaped it := by
  induction h with
  | nil => simp
  | blank _ _ ih => exact ih
  | named _ _ _ _ _ _ hc _ ih =>
    intro m hm
    rcases List.mem_append.1 hm with hm | hm
    · exact ih m hm
    · simp only [List.mem_singleton] at hm
      subst hm
      exact content_shaped hc

theorem sentence_shaped {d ts} (h : Sentence d ts) :
    (∀ it ∈ d.main, Shaped it) ∧ (∀ m ∈ d.named, ∀ it ∈ m.items, Shaped it) ∧ ∀ l, Item.number l ∉ d.main := by
  cases h with
  | plain hc => exact ⟨content_shaped hc, by simp [Doc.named], main_no_number hc⟩
  | group hc _ hg => exact ⟨content_shaped hc, group_shaped hg, main_no_number hc⟩

theorem buildNamed_cons (E : FmtEnv D F) {lang patterns t off it rest pattern numbers selectors}
    (h : At t.nodes off it.rose) (hr : Resolved t.tokens it) (hs : Shaped it) :
    buildNamed E lang patterns t (off :: rest) pattern numbers selectors = (do
      let r ← docPart E lang patterns numbers.length selectors it
      buildNamed E lang patterns t rest (pattern ++ [r.1]) (numbers ++ r.2.1) r.2.2) := by
  match it with
  | .text toks =>
    have hn : t.nodeType off = .ok .text := nodeType_eq h
    simp only [buildNamed, hn, Outcome.bind_ok, if_true, partText_eq h hr, docPart, List.append_nil]
  | .number l =>
    have hn : t.nodeType off = .ok .numberSign := nodeType_eq h
    simp only [buildNamed, hn, Outcome.bind_ok, if_true, docPart, reduceCtorEq, if_false]
  | .pat id none =>
    have hn : t.nodeType off = .ok .pattern := nodeType_eq h
    simp only [buildNamed, hn, Outcome.bind_ok, if_true, docPart, reduceCtorEq, if_false, partPattern_simple h hr,
      List.append_nil]
  | .pat id (some (k, sels)) =>
    have hn : t.nodeType off = .ok .pattern := nodeType_eq h
    simp only [buildNamed, hn, Outcome.bind_ok, if_true, docPart, reduceCtorEq, if_false, partPattern_keyword h hr]
    cases partKeyword E.icu4x lang id.str k.str patterns selectors (.ok (selMap sels [])) with
    | ok r => simp
    | err e => rfl
    | panic => rfl
  | .cmd parts =>
    have hn : t.nodeType off = .ok .command := nodeType_eq h
    simp only [buildNamed, hn, Outcome.bind_ok, if_true, docPart, reduceCtorEq, if_false,
      partCommand_eq h hr (hs parts rfl)]
    cases docCommand E.commands parts with
    | ok r => simp
    | err e => rfl
    | panic => rfl

theorem buildMain_cons (E : FmtEnv D F) {lang patterns t off it rest pattern selectors}
    (h : At t.nodes off it.rose) (hr : Resolved t.tokens it) (hs : Shaped it) (hnum : ∀ l, it ≠ .number l) :
    buildMain E lang patterns t (off :: rest) pattern selectors = (do
      let r ← docPart E lang patterns 0 selectors it
      buildMain E lang patterns t rest (pattern ++ [r.1]) r.2.2) := by
  match it with
  | .text toks =>
    have hn : t.nodeType off = .ok .text := nodeType_eq h
    simp only [buildMain, hn, Outcome.bind_ok, if_true, partText_eq h hr, docPart]
  | .number l => exact absurd rfl (hnum l)
  | .pat id none =>
    have hn : t.nodeType off = .ok .pattern := nodeType_eq h
    simp only [buildMain, hn, Outcome.bind_ok, if_true, docPart, reduceCtorEq, if_false, partPattern_simple h hr]
  | .pat id (some (k, sels)) =>
    have hn : t.nodeType off = .ok .pattern := nodeType_eq h
    simp only [buildMain, hn, Outcome.bind_ok, if_true, docPart, reduceCtorEq, if_false, partPattern_keyword h hr]
    cases partKeyword E.icu4x lang id.str k.str patterns selectors (.ok (selMap sels [])) with
    | ok r => simp
    | err e => rfl
    | panic => rfl
  | .cmd parts =>
    have hn : t.nodeType off = .ok .command := nodeType_eq h
    simp only [buildMain, hn, Outcome.bind_ok, if_true, docPart, reduceCtorEq, if_false,
      partCommand_eq h hr (hs parts rfl)]
    cases docCommand E.commands parts with
    | ok r => simp
    | err e => rfl
    | panic => rfl

/-- All items are accepted. -/
def AllOk (E : FmtEnv D F) (known : List Str) (items : List Item) : Prop := ∀ it ∈ items, ItemOk E known it

theorem allOk_cons {E : FmtEnv D F} {known it items} :
    AllOk E known (it :: items) ↔ ItemOk E known it ∧ AllOk E known items := List.forall_mem_cons

theorem buildNamed_spec (E : FmtEnv D F) (lang : Str) {patterns : AMap Str (List PatternPart)} {known : List Str}
    (hk : ∀ name, patterns.contains name = true ↔ name ∈ known) {t : Tree} (self : Str) (items : List Item) :
    ∀ (off : Nat) (pattern : List PatternPart) (owners numbers : List Str) (selectors : List (AMap Str Str)),
    Ats t.nodes off (items.map Item.rose) → (∀ it ∈ items, Resolved t.tokens it) → (∀ it ∈ items, Shaped it) →
    numbers.length = owners.length →
    match buildNamed E lang patterns t (offsets off (items.map Item.rose)) pattern numbers selectors with
    | .ok (pat', num', sel') => AllOk E known items ∧ ∃ parts k extra, pat' = pattern ++ parts ∧
        num' = numbers ++ List.replicate k [] ∧ sel' = selectors ++ extra ∧
        Zip (CItem E (owners ++ List.replicate k self) sel' self) items parts ∧
        ∀ i, .numberSign i ∈ parts ↔ owners.length ≤ i ∧ i < owners.length + k
    | .err _ => ¬ AllOk E known items
    | .panic => ¬ AllOk E known items ∧ CmdPanics E := by
  induction items with
  | nil =>
    intro off pattern owners numbers selectors _ _ _ _
    refine ⟨by simp [AllOk], [], 0, [], by simp, by simp, by simp, .nil, ?_⟩
    intro i
    simp only [List.not_mem_nil, false_iff]; omega
  | cons it items ih =>
    intro off pattern owners numbers selectors hat hr hs hlen
    obtain ⟨h1, h2⟩ := Ats.cons hat
    simp only [List.map_cons, offsets]
    rw [buildNamed_cons E h1 (hr it (by simp)) (hs it (by simp))]
    have hp := docPart_spec E lang hk numbers.length selectors it (hs it (by simp))
    cases hd : docPart E lang patterns numbers.length selectors it with
    | err e =>
      rw [hd] at hp
      simp only [Outcome.bind_err, allOk_cons]
      exact fun h => hp h.1
    | panic =>
      rw [hd] at hp
      simp only [Outcome.bind_panic, allOk_cons]
      exact ⟨fun h => hp.1 h.1, hp.2⟩
    | ok r =>
      obtain ⟨p, nn, s'⟩ := r
      rw [hd] at hp
      simp only [Outcome.bind_ok]
      obtain ⟨hok, ⟨extra, rfl⟩, hcase⟩ := hp
      rcases hcase with ⟨⟨l, rfl⟩, rfl, rfl⟩ | ⟨hne, rfl, hci⟩
      · have hlen' : (numbers ++ [[]]).length = (owners ++ [self]).length := by simp [hlen]
        have := ih (off + (Item.number l).rose.size) (pattern ++ [.numberSign numbers.length]) (owners ++ [self])
          (numbers ++ [[]]) (selectors ++ extra) h2 (fun it h => hr it (by simp [h])) (fun it h => hs it (by simp [h])) hlen'
        split at this
        · rename_i pat' num' sel' heq
          obtain ⟨hall, parts, k, extra', rfl, rfl, rfl, hz, hns⟩ := this
          simp only [heq]
          refine ⟨allOk_cons.2 ⟨hok, hall⟩, .numberSign numbers.length :: parts, k + 1, extra ++ extra', by simp, ?_, by simp,
            ?_, ?_⟩
          · simp [List.replicate_succ]
          · have ho : owners ++ List.replicate (k + 1) self = owners ++ [self] ++ List.replicate k self := by
              simp [List.replicate_succ]
            rw [ho]
            refine .cons (.number _ _ ?_) hz
            rw [hlen]; simp
          · intro i
            simp only [List.mem_cons, PatternPart.numberSign.injEq, hns]
            simp only [List.length_append, List.length_cons, List.length_nil]
            omega
        · rename_i e heq
          simp only [heq, allOk_cons]
          exact fun h => this h.2
        · rename_i heq
          simp only [heq, allOk_cons]
          exact ⟨fun h => this.1 h.2, this.2⟩
      · have := ih (off + it.rose.size) (pattern ++ [p]) owners
          (numbers ++ []) (selectors ++ extra) h2 (fun it h => hr it (by simp [h])) (fun it h => hs it (by simp [h]))
          (by simp [hlen])
        split at this
        · rename_i pat' num' sel' heq
          obtain ⟨hall, parts, k, extra', rfl, rfl, rfl, hz, hns⟩ := this
          refine ⟨allOk_cons.2 ⟨hok, hall⟩, p :: parts, k, extra ++ extra', by simp, by simp, by simp, ?_, ?_⟩
          · have hc := (hci (owners ++ List.replicate k self) self).mono [] extra'
            simp only [List.append_nil] at hc
            exact .cons hc hz
          · intro i
            simp only [List.mem_cons, hns, (hne i).symm, false_or]
        · rename_i e heq
          simp only [allOk_cons]
          exact fun h => this h.2
        · rename_i heq
          simp only [allOk_cons]
          exact ⟨fun h => this.1 h.2, this.2⟩

theorem buildMain_spec (E : FmtEnv D F) (lang : Str) {patterns : AMap Str (List PatternPart)} {known : List Str}
    (hk : ∀ name, patterns.contains name = true ↔ name ∈ known) {t : Tree} (owners : List Str) (items : List Item) :
    ∀ (off : Nat) (pattern : List PatternPart) (selectors : List (AMap Str Str)),
    Ats t.nodes off (items.map Item.rose) → (∀ it ∈ items, Resolved t.tokens it) → (∀ it ∈ items, Shaped it) →
    (∀ l, Item.number l ∉ items) →
    match buildMain E lang patterns t (offsets off (items.map Item.rose)) pattern selectors with
    | .ok (pat', sel') => AllOk E known items ∧ ∃ parts extra, pat' = pattern ++ parts ∧ sel' = selectors ++ extra ∧
        Zip (CItem E owners sel' mainName) items parts
    | .err _ => ¬ AllOk E known items
    | .panic => ¬ AllOk E known items ∧ CmdPanics E := by
  induction items with
  | nil =>
    intro off pattern selectors _ _ _ _
    exact ⟨by simp [AllOk], [], [], by simp, by simp, .nil⟩
  | cons it items ih =>
    intro off pattern selectors hat hr hs hnum
    obtain ⟨h1, h2⟩ := Ats.cons hat
    simp only [List.map_cons, offsets]
    rw [buildMain_cons E h1 (hr it (by simp)) (hs it (by simp)) (fun l e => hnum l (by simp [e]))]
    have hp := docPart_spec E lang hk 0 selectors it (hs it (by simp))
    cases hd : docPart E lang patterns 0 selectors it with
    | err e =>
      rw [hd] at hp
      simp only [Outcome.bind_err, allOk_cons]
      exact fun h => hp h.1
    | panic =>
      rw [hd] at hp
      simp only [Outcome.bind_panic, allOk_cons]
      exact ⟨fun h => hp.1 h.1, hp.2⟩
    | ok r =>
      obtain ⟨p, nn, s'⟩ := r
      rw [hd] at hp
      simp only [Outcome.bind_ok]
      obtain ⟨hok, ⟨extra, rfl⟩, hcase⟩ := hp
      rcases hcase with ⟨⟨l, rfl⟩, _, _⟩ | ⟨hne, rfl, hci⟩
      · exact absurd (by simp) (hnum l)
      · have := ih (off + it.rose.size) (pattern ++ [p]) (selectors ++ extra) h2 (fun it h => hr it (by simp [h]))
          (fun it h => hs it (by simp [h])) (fun l h => hnum l (by simp [h]))
        split at this
        · rename_i pat' sel' heq
          obtain ⟨hall, parts, extra', rfl, rfl, hz⟩ := this
          refine ⟨allOk_cons.2 ⟨hok, hall⟩, p :: parts, extra ++ extra', by simp, by simp, ?_⟩
          have hc := (hci owners mainName).mono [] extra'
          simp only [List.append_nil] at hc
          exact .cons hc hz
        · rename_i e heq
          simp only [allOk_cons]
          exact fun h => this h.2
        · rename_i heq
          simp only [allOk_cons]
          exact ⟨fun h => this.1 h.2, this.2⟩

/-- A named string as stored. -/
def NamedRep (E : FmtEnv D F) (patterns : AMap Str (List PatternPart)) (owners : List Str) (sels : List (AMap Str Str))
    (n : Named) : Prop :=
  ∃ parts, patterns.get n.name = some parts ∧ Zip (CItem E owners sels n.name) n.items parts ∧
    ∀ i, .numberSign i ∈ parts ↔ owners[i]? = some n.name

/-- The state while the named strings are read; `done` are those already read. -/
structure Inv (E : FmtEnv D F) (patterns : AMap Str (List PatternPart)) (owners : List Str) (sels : List (AMap Str Str))
    (done : List Named) : Prop where
  rep : ∀ n ∈ done, NamedRep E patterns owners sels n
  keys : ∀ name, patterns.contains name = true ↔ name ∈ mainName :: done.map Named.name
  owners_sub : ∀ o ∈ owners, o ∈ done.map Named.name
  len : patterns.length = done.length + 1

theorem Inv.step {E : FmtEnv D F} {patterns owners sels done} (h : Inv E patterns owners sels done) (n : Named)
    (hn : n.name ∉ mainName :: done.map Named.name) (parts : List PatternPart) (k : Nat) (extra : List (AMap Str Str))
    (hz : Zip (CItem E (owners ++ List.replicate k n.name) (sels ++ extra) n.name) n.items parts)
    (hns : ∀ i, .numberSign i ∈ parts ↔ owners.length ≤ i ∧ i < owners.length + k) :
    Inv E (patterns.insert n.name parts) (owners ++ List.replicate k n.name) (sels ++ extra) (done ++ [n]) := by
  have hnk : n.name ∉ patterns.keys := by
    intro hm
    rw [AMap.mem_keys_iff] at hm
    obtain ⟨v, hv⟩ := hm
    exact hn ((h.keys n.name).1 (by simp [AMap.contains, hv]))
  have hget : ∀ i, (owners ++ List.replicate k n.name)[i]? = some n.name ↔
      owners.length ≤ i ∧ i < owners.length + k := by
    intro i
    by_cases hi : i < owners.length
    · rw [List.getElem?_append_left hi]
      constructor
      · intro ho
        have := h.owners_sub _ (List.mem_of_getElem? ho)
        exact absurd (List.mem_cons_of_mem _ this) hn
      · intro ho; omega
    · rw [List.getElem?_append_right (by omega)]
      rw [List.getElem?_replicate]
      by_cases hi2 : i - owners.length < k
      · simp only [hi2, if_true, true_iff]; omega
      · simp only [hi2, if_false, reduceCtorEq, false_iff]; omega
  refine ⟨?_, ?_, ?_, ?_⟩
  · intro m hm
    rcases List.mem_append.1 hm with hm | hm
    · obtain ⟨ps, h1, h2, h3⟩ := h.rep m hm
      have hne : n.name ≠ m.name := by
        intro e
        exact hn (List.mem_cons_of_mem _ (e ▸ List.mem_map.2 ⟨m, hm, rfl⟩))
      refine ⟨ps, by rw [AMap.get_insert_ne _ _ hne]; exact h1, h2.mono fun _ _ hc => hc.mono _ _, fun i => (h3 i).trans ?_⟩
      by_cases hi : i < owners.length
      · rw [List.getElem?_append_left hi]
      · rw [List.getElem?_append_right (by omega), List.getElem?_eq_none (by omega), List.getElem?_replicate]
        by_cases hi2 : i - owners.length < k
        · simp [hi2, hne]
        · simp [hi2]
    · simp only [List.mem_singleton] at hm
      subst hm
      exact ⟨parts, AMap.get_insert_self _ _ _, hz, fun i => (hns i).trans (hget i).symm⟩
  · intro name
    rw [AMap.contains_insert]
    simp only [Bool.or_eq_true, decide_eq_true_eq, h.keys name, List.map_append, List.map_cons, List.map_nil,
      List.mem_cons, List.mem_append, List.not_mem_nil, or_false]
    constructor
    · rintro (h | h | h) <;> simp [h]
    · rintro (h | h | h) <;> simp [h]
  · intro o ho
    rcases List.mem_append.1 ho with ho | ho
    · have := h.owners_sub o ho
      simp only [List.map_append, List.mem_append]
      exact Or.inl this
    · have := List.eq_of_mem_replicate ho
      simp [this]
  · rw [AMap.keys_insert_not_mem _ hnk]
    simp [h.len]

theorem replicate_nil_map (k : Nat) (s : Str) :
    List.replicate k ([] : Str) = (List.replicate k s).map Store.empty := by
  simp [Store.empty]

theorem buildGroup_spec (E : FmtEnv D F) (lang : Str) {t : Tree} (ns : List Named) :
    ∀ (off : Nat) (patterns : AMap Str (List PatternPart)) (owners : List Str) (selectors : List (AMap Str Str))
      (done : List Named),
    Ats t.nodes off (ns.map Named.rose) →
    (∀ m ∈ ns, Has t.tokens m.id ∧ ∀ it ∈ m.items, Resolved t.tokens it) → (∀ m ∈ ns, ∀ it ∈ m.items, Shaped it) →
    Inv E patterns owners selectors done →
    match buildGroup E lang t (offsets off (ns.map Named.rose)) patterns (owners.map Store.empty) selectors with
    | .ok (pat', num', sel') => GroupOk E (mainName :: done.map Named.name) ns ∧ ∃ owners',
        num' = owners'.map Store.empty ∧ Inv E pat' owners' sel' (done ++ ns)
    | .err _ => ¬ GroupOk E (mainName :: done.map Named.name) ns
    | .panic => ¬ GroupOk E (mainName :: done.map Named.name) ns ∧ CmdPanics E := by
  induction ns with
  | nil =>
    intro off patterns owners selectors done _ _ _ hinv
    exact ⟨trivial, owners, rfl, by simpa using hinv⟩
  | cons n ns ih =>
    intro off patterns owners selectors done hat hr hs hinv
    obtain ⟨h1, h2⟩ := Ats.cons hat
    obtain ⟨hkid, h3⟩ := (At.node h1).2.cons
    have hstr := h3.cons.1
    have hf : t.first off = .ok (off + 1) := by
      simp [Tree.first, children_eq h1 rfl, offsets]
    have hl : t.last off = .ok (off + 1 + (leafRose .identifier n.id).size) := by
      simp [Tree.last, children_eq h1 rfl, offsets]
    have hft : t.firstToken (off + 1) = .ok n.name := firstToken_eq hkid rfl (hr n (by simp)).1
    simp only [List.map_cons, offsets, buildGroup, hf, hl, hft, Outcome.bind_ok, children_eq hstr rfl]
    by_cases hc : patterns.contains n.name = true
    · simp only [hc, if_true, GroupOk]
      exact fun h => h.1 ((hinv.keys n.name).1 hc)
    · have hn : n.name ∉ mainName :: done.map Named.name := fun h => hc ((hinv.keys n.name).2 h)
      simp only [hc, if_false, Bool.false_eq_true]
      have hb := buildNamed_spec E lang hinv.keys n.name n.items _ [] owners (owners.map Store.empty) selectors
        (At.node hstr).2 (hr n (by simp)).2 (hs n (by simp)) (by simp)
      split at hb
      · rename_i pat' num' sel' heq
        obtain ⟨hall, parts, k, extra, hpat, rfl, rfl, hz, hns⟩ := hb
        rw [List.nil_append] at hpat
        subst hpat
        simp only [heq, Outcome.bind_ok]
        rw [replicate_nil_map k n.name, ← List.map_append]
        have := ih (off + n.rose.size) (patterns.insert n.name pat') (owners ++ List.replicate k n.name)
          (selectors ++ extra) (done ++ [n]) h2 (fun m hm => hr m (by simp [hm])) (fun m hm => hs m (by simp [hm]))
          (by simpa using hinv.step n hn _ k extra hz hns)
        have hmap : mainName :: (done ++ [n]).map Named.name = (mainName :: done.map Named.name) ++ [n.name] := by simp
        rw [hmap] at this
        split at this
        · rename_i heq2
          obtain ⟨hg, owners', rfl, hinv'⟩ := this
          exact ⟨⟨hn, hall, hg⟩, owners', rfl, by simpa using hinv'⟩
        · rename_i heq2
          exact fun h => this h.2.2
        · rename_i heq2
          exact ⟨fun h => this.1 h.2.2, this.2⟩
      · rename_i e heq
        simp only [heq, Outcome.bind_err]
        exact fun h => hb h.2.1
      · rename_i heq
        simp only [heq, Outcome.bind_panic]
        exact ⟨fun h => hb.1 h.2.1, hb.2⟩

/-- The formatter stands for the pattern string; slot `i` for a number belongs to the string `owners[i]`. -/
structure Rep (E : FmtEnv D F) (d : Doc) (f : Formatter) (owners : List Str) : Prop where
  main : ∃ parts, f.patterns.get mainName = some parts ∧ Zip (CItem E owners f.selectors mainName) d.main parts
  named : ∀ n ∈ d.named, NamedRep E f.patterns owners f.selectors n
  ok : DocOk E d
  len : f.patterns.length = d.named.length + 1
  keys : ∀ name, f.patterns.contains name = true ↔ name ∈ mainName :: d.named.map Named.name

theorem GroupOk.names {E : FmtEnv D F} {known ns} (h : GroupOk E known ns) : ∀ n ∈ ns, n.name ∉ known := by
  induction ns generalizing known with
  | nil => simp
  | cons n ns ih =>
    intro m hm
    rcases List.mem_cons.1 hm with rfl | hm
    · exact h.1
    · exact fun hk => ih h.2.2 m hm (List.mem_append_left _ hk)

theorem Inv.finish {E : FmtEnv D F} {patterns : AMap Str (List PatternPart)} {owners sels d tag lang parts extra}
    (h : Inv E patterns owners sels d.named) (hg : GroupOk E [mainName] d.named)
    (hall : AllOk E (mainName :: d.named.map Named.name) d.main)
    (hz : Zip (CItem E owners (sels ++ extra) mainName) d.main parts) :
    Rep E d { languageTag := tag, icuLanguage := lang, patterns := patterns.insert mainName parts,
              numbers := owners.map Store.empty, selectors := sels ++ extra } owners := by
  refine ⟨⟨parts, AMap.get_insert_self _ _ _, hz⟩, ?_, ⟨hg, hall⟩, ?_, ?_⟩
  · intro n hn
    obtain ⟨ps, h1, h2, h3⟩ := h.rep n hn
    have hne : mainName ≠ n.name := fun e => GroupOk.names hg n hn (by simp [← e])
    refine ⟨ps, by rw [AMap.get_insert_ne _ _ hne]; exact h1, ?_, h3⟩
    refine h2.mono fun _ _ hc => ?_
    have := hc.mono [] extra
    simpa using this
  · have hk : mainName ∈ patterns.keys := by
      have := (h.keys mainName).2 (by simp)
      unfold AMap.contains at this
      rw [AMap.mem_keys_iff]
      exact Option.isSome_iff_exists.1 this
    have := congrArg List.length (AMap.keys_insert_mem parts hk)
    simp only [AMap.keys, List.length_map] at this
    simp only [this, h.len]
  · intro name
    rw [AMap.contains_insert]
    simp only [Bool.or_eq_true, decide_eq_true_eq, h.keys name, List.mem_cons]
    constructor
    · rintro (h | h)
      · exact Or.inl h
      · exact h
    · exact Or.inr

theorem inv_init (E : FmtEnv D F) : Inv E [(mainName, [])] [] [] [] := by
  refine ⟨by simp, fun name => ?_, by simp, rfl⟩
  simp only [AMap.contains, AMap.get_cons, AMap.get_nil, List.map_nil, List.mem_singleton]
  by_cases h : mainName = name
  · simp [h]
  · simp only [h, if_false, Option.isSome_none, Bool.false_eq_true, false_iff]
    exact fun e => h e.symm

/-- Building a formatter from the tree of a pattern string. -/
theorem ofTree_spec (E : FmtEnv D F) (tag lang : Str) {d : Doc} {t : Tree} (hd : Sentence d t.tokens)
    (hn : t.nodes = d.arena) :
    match Formatter.ofTree E tag (some lang) t with
    | .ok f => t.hasGrammar = true ∧ f.languageTag = tag ∧ f.icuLanguage = lang ∧
        ∃ owners, Rep E d f owners ∧ f.numbers = owners.map Store.empty
    | .err _ => ¬ (t.hasGrammar = true ∧ DocOk E d)
    | .panic => ¬ DocOk E d ∧ CmdPanics E := by
  obtain ⟨hr1, hr2⟩ := sentence_resolved hd
  obtain ⟨hs1, hs2, hs3⟩ := sentence_shaped hd
  unfold Formatter.ofTree
  by_cases hg : t.hasGrammar = true
  rotate_left
  · simp [hg]
  have hroot : At t.nodes 0 d.rose := ⟨none, [], [], by simp [hn, Doc.arena], rfl⟩
  have hty : t.nodeType 0 = .ok .root := nodeType_eq hroot
  have hch := children_eq hroot rfl
  have hkids := (At.node hroot).2
  simp only [hg, not_true_eq_false, if_false, Outcome.unwrap_some, Outcome.bind_ok, hty, ne_eq, hch, offsets,
    List.head?_cons]
  obtain ⟨hmain, hrest⟩ := hkids.cons
  have hmc := children_eq hmain rfl
  simp only [hmc]
  have key : ∀ x : FmtM (AMap Str (List PatternPart) × List Str × List (AMap Str Str)),
      (match x with
        | .ok (pat', num', sel') => GroupOk E [mainName] d.named ∧ ∃ owners',
            num' = owners'.map Store.empty ∧ Inv E pat' owners' sel' d.named
        | .err _ => ¬ GroupOk E [mainName] d.named
        | .panic => ¬ GroupOk E [mainName] d.named ∧ CmdPanics E) →
      match (do
        let r ← x
        let children ← (Outcome.ok (offsets (0 + 1 + 1) (d.main.map Item.rose)) : FmtM (List Nat))
        let p ← buildMain E lang r.1 t children [] r.2.2
        pure ({ languageTag := tag, icuLanguage := lang, patterns := r.1.insert mainName p.1, numbers := r.2.1,
                selectors := p.2 } : Formatter) : FmtM Formatter) with
      | .ok f => True ∧ f.languageTag = tag ∧ f.icuLanguage = lang ∧
          ∃ owners, Rep E d f owners ∧ f.numbers = owners.map Store.empty
      | .err _ => ¬ (True ∧ DocOk E d)
      | .panic => ¬ DocOk E d ∧ CmdPanics E := by
    intro x hx
    match x, hx with
    | .err e, hx => exact fun h => hx h.2.1
    | .panic, hx => exact ⟨fun h => hx.1 h.1, hx.2⟩
    | .ok (pat', num', sel'), hx =>
      obtain ⟨hgok, owners, rfl, hinv⟩ := hx
      simp only [Outcome.bind_ok]
      have hm := buildMain_spec E lang hinv.keys (t := t) owners d.main _ [] sel' (At.node hmain).2 hr1 hs1 hs3
      generalize buildMain E lang pat' t (offsets (0 + 1 + 1) (d.main.map Item.rose)) [] sel' = y at hm ⊢
      match y, hm with
      | .ok (p', s'), hm =>
        obtain ⟨hall, parts, extra, hp', rfl, hz⟩ := hm
        rw [List.nil_append] at hp'
        subst hp'
        exact ⟨trivial, rfl, rfl, owners, hinv.finish hgok hall hz, rfl⟩
      | .err e, hm => exact fun h => hm h.2.2
      | .panic, hm => exact ⟨fun h => hm.1 h.2, hm.2⟩
  cases hdg : d.group with
  | none =>
    have hnamed : d.named = [] := by simp [Doc.named, hdg]
    refine key (.ok ([(mainName, [])], [], [])) ?_
    rw [hnamed]
    exact ⟨trivial, [], rfl, inv_init E⟩
  | some ns =>
    have hnamed : d.named = ns := by simp [Doc.named, hdg]
    rw [hdg] at hrest
    obtain ⟨hgr, _⟩ := hrest.cons
    have := buildGroup_spec E lang ns _ [(mainName, [])] [] [] [] (At.node hgr).2 (by simpa [hnamed] using hr2)
      (by simpa [hnamed] using hs2) (inv_init E)
    simp only [offsets, children_eq hgr rfl, Outcome.bind_ok]
    refine key _ ?_
    rw [hnamed]
    simpa using this

end Verif.FormatLemmas
