import Verif.Lemmas.Blame
/-
The errors of reading a pattern string are those that `Spec.Blame` assigns.
-/
namespace Verif.BlameLemmas
open Verif Verif.Spec Verif.FormatLemmas Verif.Spec.Rose

variable {D F : Type}

theorem decimalOptions_err (ph : Str) (m : AMap Str Str) (hm : ∀ k v, (k, v) ∈ m → v = k) (e : FormatterError)
    (h : decimalOptions ph m none none = .err e) : ∃ k, (k, k) ∈ m ∧ e = decimalBlame ph k := by
  cases m with
  | nil => cases h
  | cons kv m =>
    obtain ⟨k, v⟩ := kv
    obtain rfl : v = k := hm k v (by simp)
    refine ⟨v, by simp, ?_⟩
    unfold decimalOptions at h
    unfold decimalBlame
    by_cases h1 : v = "sign".toList
    · subst h1; rw [if_pos rfl] at h; cases h; rfl
    · rw [if_neg h1] at h
      by_cases h2 : v = "group".toList
      · subst h2; rw [if_pos rfl] at h; cases h; rfl
      · rw [if_neg h2] at h; cases h
        rw [if_neg (not_or.2 ⟨h1, h2⟩)]

theorem dateTimeOptions_err (X : Icu4x D F) (lang ph : Str) (m : AMap Str Str) (hm : ∀ k v, (k, v) ∈ m → v = k)
    (e : FormatterError) (h : dateTimeOptions X lang ph m none none none = .err e) :
    ∃ k, (k, k) ∈ m ∧ e = dateTimeBlame ph k := by
  cases m with
  | nil => cases h
  | cons kv m =>
    obtain ⟨k, v⟩ := kv
    obtain rfl : v = k := hm k v (by simp)
    refine ⟨v, by simp, ?_⟩
    unfold dateTimeOptions at h
    unfold dateTimeBlame
    by_cases h1 : v = "date".toList
    · subst h1; rw [if_pos rfl] at h; cases h; rfl
    · rw [if_neg h1] at h
      by_cases h2 : v = "time".toList
      · subst h2; rw [if_pos rfl] at h; cases h; rfl
      · rw [if_neg h2] at h
        rw [if_neg (not_or.2 ⟨h1, h2⟩)]
        by_cases h3 : v = "calendar".toList
        · subst h3; rw [if_pos rfl] at h; cases h; rfl
        · rw [if_neg h3] at h; cases h
          rw [if_neg h3]

theorem pluralLoop_err (kw ph : Str) (patterns : AMap Str (List PatternPart)) (m : AMap Str Str) (e : FormatterError) :
    ∀ other, pluralLoop kw ph patterns m other = .err e → ∃ k v, (k, v) ∈ m ∧
      (k ∉ validPlurals ∧ e = .invalidSelector k kw ph ∨
       k ∈ validPlurals ∧ patterns.contains v = false ∧ e = .selectorNamed v k ph) := by
  induction m with
  | nil => intro other h; cases h
  | cons kv m ih =>
    intro other h
    obtain ⟨k, v⟩ := kv
    simp only [pluralLoop] at h
    by_cases h1 : validPlurals.contains k = true
    · rw [if_neg (fun hh => hh h1)] at h
      by_cases h2 : patterns.contains v = true
      · rw [if_neg (fun hh => hh h2)] at h
        obtain ⟨k', v', hmem, hh⟩ := ih _ h
        exact ⟨k', v', List.mem_cons_of_mem _ hmem, hh⟩
      · rw [if_pos h2] at h
        cases h
        exact ⟨k, v, by simp, .inr ⟨by simpa using h1, by simpa using h2, rfl⟩⟩
    · rw [if_pos h1] at h
      cases h
      exact ⟨k, v, by simp, .inl ⟨by simpa using h1, rfl⟩⟩

theorem selectLoop_err (ph : Str) (patterns : AMap Str (List PatternPart)) (m : AMap Str Str) (e : FormatterError)
    (h : selectLoop ph patterns m = .err e) :
    ∃ k v, (k, v) ∈ m ∧ patterns.contains v = false ∧ e = .selectorNamed v k ph := by
  induction m with
  | nil => cases h
  | cons kv m ih =>
    obtain ⟨k, v⟩ := kv
    simp only [selectLoop] at h
    by_cases h2 : patterns.contains v = true
    · rw [if_neg (fun hh => hh h2)] at h
      obtain ⟨k', v', hmem, hh⟩ := ih h
      exact ⟨k', v', List.mem_cons_of_mem _ hmem, hh⟩
    · rw [if_pos h2] at h
      cases h
      exact ⟨k, v, by simp, by simpa using h2, rfl⟩

theorem partPlural_err (E : FmtEnv D F) {patterns : AMap Str (List PatternPart)} {known : List Str}
    (hk : ∀ name, patterns.contains name = true ↔ name ∈ known) (id k : Leaf) (hc : Counts k) (ct : ComplexType)
    (selectors : List (AMap Str Str)) (sels : List (Leaf × Leaf)) (e : FormatterError)
    (h : partPlural k.str id.str ct patterns selectors (selMap sels []) = .err e) :
    ItemError E known (.pat id (some (k, sels))) e := by
  unfold partPlural at h
  rcases bind_err.1 h with h | ⟨other, h1, h2⟩
  · obtain ⟨key, v, hmem, hh⟩ := pluralLoop_err _ _ _ _ _ _ h
    obtain ⟨rfl, hkey⟩ := (selMap_mem sels key v).1 hmem
    rcases hh with ⟨h1, rfl⟩ | ⟨h1, h2, rfl⟩
    · exact .category id k sels v hc hkey fun h => h1 ((mem_validPlurals _).2 h)
    · refine .unknown id k sels v (.inl hc) hkey (fun hm => ?_) fun _ => (mem_validPlurals _).1 h1
      rw [(hk v).2 hm] at h2; cases h2
  · have hs := pluralLoop_spec k.str id.str patterns (selMap sels []) false
    rw [h1] at hs
    by_cases ho : other = true
    · rw [if_neg (fun hh => hh ho)] at h2; cases h2
    · rw [if_pos ho] at h2; cases h2
      refine .other id k sels hc (fun key hkey => ?_) fun hmem => ?_
      · have := hs.1 (key, key) ((selMap_mem sels key key).2 ⟨rfl, hkey⟩)
        exact ⟨(mem_validPlurals _).1 this.1, (hk key).1 this.2⟩
      · exact ho (hs.2.2 (.inr ⟨(_, _), (selMap_mem sels _ _).2 ⟨rfl, hmem⟩, rfl⟩))

theorem docPart_err (E : FmtEnv D F) (lang : Str) {patterns : AMap Str (List PatternPart)} {known : List Str}
    (hk : ∀ name, patterns.contains name = true ↔ name ∈ known) (n : Nat) (selectors : List (AMap Str Str))
    (item : Item) (hs : ∀ parts, item = .cmd parts → CmdShape parts) (e : FormatterError)
    (h : docPart E lang patterns n selectors item = .err e) : ItemError E known item e := by
  match item with
  | .text toks => cases h
  | .number l => cases h
  | .pat id none => cases h
  | .pat id (some (k, sels)) =>
    have hm : ∀ k v, (k, v) ∈ selMap sels [] → v = k := fun k v h => ((selMap_mem sels k v).1 h).1
    simp only [docPart] at h
    rcases bind_err.1 h with h | ⟨_, _, h2⟩
    rotate_left
    · cases h2
    unfold partKeyword at h
    by_cases h1 : k.str = "decimal".toList
    · rw [if_pos h1] at h
      rcases bind_err.1 h with h | ⟨m, h3, h⟩
      · cases h
      cases h3
      rcases bind_err.1 h with h | ⟨_, _, h⟩
      · obtain ⟨key, hmem, rfl⟩ := decimalOptions_err _ _ hm _ h
        exact .decimal id k sels key h1 ((selMap_mem sels _ _).1 hmem).2
      · cases h
    rw [if_neg h1] at h
    by_cases h2 : k.str = "date_time".toList
    · rw [if_pos h2] at h
      rcases bind_err.1 h with h | ⟨m, h3, h⟩
      · cases h
      cases h3
      rcases bind_err.1 h with h | ⟨_, _, h⟩
      · obtain ⟨key, hmem, rfl⟩ := dateTimeOptions_err _ _ _ _ hm _ h
        exact .dateTime id k sels key h2 ((selMap_mem sels _ _).1 hmem).2
      · cases h
    rw [if_neg h2] at h
    by_cases h3 : k.str = "ordinal".toList
    · rw [if_pos h3] at h
      rcases bind_err.1 h with h | ⟨m, h4, h⟩
      · cases h
      cases h4
      rw [← h3] at h
      exact partPlural_err E hk id k (.inl h3) _ _ _ _ h
    rw [if_neg h3] at h
    by_cases h4 : k.str = "plural".toList
    · rw [if_pos h4] at h
      rcases bind_err.1 h with h | ⟨m, h5, h⟩
      · cases h
      cases h5
      rw [← h4] at h
      exact partPlural_err E hk id k (.inr h4) _ _ _ _ h
    rw [if_neg h4] at h
    by_cases h5 : k.str = "select".toList
    · rw [if_pos h5] at h
      rcases bind_err.1 h with h | ⟨m, h6, h⟩
      · cases h
      cases h6
      rcases bind_err.1 h with h | ⟨_, _, h⟩
      · obtain ⟨key, v, hmem, h7, rfl⟩ := selectLoop_err _ _ _ _ h
        obtain ⟨rfl, hkey⟩ := (selMap_mem sels key v).1 hmem
        refine .unknown id k sels v (.inr h5) hkey (fun hm => ?_) fun hc => ?_
        · rw [(hk v).2 hm] at h7; cases h7
        · rcases hc with hc | hc
          · exact absurd hc h3
          · exact absurd hc h4
      · cases h
    rw [if_neg h5] at h
    cases h
    exact .keyword id k sels (by simp only [List.mem_cons, List.not_mem_nil, or_false, not_or]; exact ⟨h1, h2, h3, h4, h5⟩)
  | .cmd parts =>
    simp only [docPart] at h
    rcases bind_err.1 h with h | ⟨_, _, h2⟩
    rotate_left
    · cases h2
    have key : ∀ nm ps, (∀ hh ps', ps ≠ Part.hash hh :: ps') →
        ((do let s ← callCommand E.commands nm.str ((nm.str :: ps.map Part.str).map .string); pure (.text s)) :
          FmtM PatternPart) = .err e → ItemError E known (.cmd (.ident nm :: ps)) e := by
      intro nm ps hps h
      rcases bind_err.1 h with h | ⟨_, _, h2⟩
      · rcases callCommand_err E _ _ _ h with ⟨k1, rfl⟩ | ⟨g, c, k1, k2, rfl⟩
        · exact .noCommand nm ps hps k1
        · refine .command nm ps g c hps k1 ?_
          rw [← k2]
          simp only [List.map_cons, List.map_map, Function.comp_def]
      · cases h2
    match parts, hs parts rfl with
    | .ident nm :: .hash b :: ps, hs => cases h
    | [.ident nm], hs => exact key nm [] (by simp) h
    | .ident nm :: .ident b :: ps, hs => exact key nm (.ident b :: ps) (by simp) h

theorem ItemsError.cons {E : FmtEnv D F} {known : List Str} {it : Item} {items : List Item} {e : FormatterError}
    (hok : ItemOk E known it) (h : ItemsError E known items e) : ItemsError E known (it :: items) e := by
  obtain ⟨front, it', back, rfl, h1, h2⟩ := h
  refine ⟨it :: front, it', back, rfl, fun x hx => ?_, h2⟩
  rcases List.mem_cons.1 hx with rfl | hx
  · exact hok
  · exact h1 x hx

theorem buildNamed_err (E : FmtEnv D F) (lang : Str) {patterns : AMap Str (List PatternPart)} {known : List Str}
    (hk : ∀ name, patterns.contains name = true ↔ name ∈ known) {t : Tree} (e : FormatterError) (items : List Item) :
    ∀ (off : Nat) (pattern : List PatternPart) (numbers : List Str) (selectors : List (AMap Str Str)),
    Ats t.nodes off (items.map Item.rose) → (∀ it ∈ items, Resolved t.tokens it) → (∀ it ∈ items, Shaped it) →
    buildNamed E lang patterns t (offsets off (items.map Item.rose)) pattern numbers selectors = .err e →
    ItemsError E known items e := by
  induction items with
  | nil => intro off pattern numbers selectors _ _ _ h; cases h
  | cons it items ih =>
    intro off pattern numbers selectors hat hr hs h
    obtain ⟨h1, h2⟩ := Ats.cons hat
    simp only [List.map_cons, offsets] at h
    rw [buildNamed_cons E h1 (hr it (by simp)) (hs it (by simp))] at h
    rcases bind_err.1 h with h | ⟨r, h3, h⟩
    · exact ⟨[], it, items, rfl, by simp, docPart_err E lang hk _ _ it (hs it (by simp)) e h⟩
    · have hp := docPart_spec E lang hk numbers.length selectors it (hs it (by simp))
      rw [h3] at hp
      exact ItemsError.cons hp.1 (ih _ _ _ _ h2 (fun it h => hr it (by simp [h])) (fun it h => hs it (by simp [h])) h)

theorem buildMain_err (E : FmtEnv D F) (lang : Str) {patterns : AMap Str (List PatternPart)} {known : List Str}
    (hk : ∀ name, patterns.contains name = true ↔ name ∈ known) {t : Tree} (e : FormatterError) (items : List Item) :
    ∀ (off : Nat) (pattern : List PatternPart) (selectors : List (AMap Str Str)),
    Ats t.nodes off (items.map Item.rose) → (∀ it ∈ items, Resolved t.tokens it) → (∀ it ∈ items, Shaped it) →
    (∀ l, Item.number l ∉ items) →
    buildMain E lang patterns t (offsets off (items.map Item.rose)) pattern selectors = .err e →
    ItemsError E known items e := by
  induction items with
  | nil => intro off pattern selectors _ _ _ _ h; cases h
  | cons it items ih =>
    intro off pattern selectors hat hr hs hnum h
    obtain ⟨h1, h2⟩ := Ats.cons hat
    simp only [List.map_cons, offsets] at h
    rw [buildMain_cons E h1 (hr it (by simp)) (hs it (by simp)) (fun l e => hnum l (by simp [e]))] at h
    rcases bind_err.1 h with h | ⟨r, h3, h⟩
    · exact ⟨[], it, items, rfl, by simp, docPart_err E lang hk _ _ it (hs it (by simp)) e h⟩
    · have hp := docPart_spec E lang hk 0 selectors it (hs it (by simp))
      rw [h3] at hp
      exact ItemsError.cons hp.1 (ih _ _ _ h2 (fun it h => hr it (by simp [h])) (fun it h => hs it (by simp [h]))
        (fun l h => hnum l (by simp [h])) h)

theorem buildGroup_err (E : FmtEnv D F) (lang : Str) {t : Tree} (e : FormatterError) (ns : List Named) :
    ∀ (off : Nat) (patterns : AMap Str (List PatternPart)) (owners : List Str) (selectors : List (AMap Str Str))
      (done : List Named),
    Ats t.nodes off (ns.map Named.rose) →
    (∀ m ∈ ns, Has t.tokens m.id ∧ ∀ it ∈ m.items, Resolved t.tokens it) → (∀ m ∈ ns, ∀ it ∈ m.items, Shaped it) →
    Inv E patterns owners selectors done →
    buildGroup E lang t (offsets off (ns.map Named.rose)) patterns (owners.map Store.empty) selectors = .err e →
    GroupError E (mainName :: done.map Named.name) ns e := by
  induction ns with
  | nil => intro off patterns owners selectors done _ _ _ _ h; cases h
  | cons n ns ih =>
    intro off patterns owners selectors done hat hr hs hinv h
    obtain ⟨h1, h2⟩ := Ats.cons hat
    obtain ⟨hkid, h3⟩ := (At.node h1).2.cons
    have hstr := h3.cons.1
    have hf : t.first off = .ok (off + 1) := by
      simp [Tree.first, children_eq h1 rfl, offsets]
    have hl : t.last off = .ok (off + 1 + (leafRose .identifier n.id).size) := by
      simp [Tree.last, children_eq h1 rfl, offsets]
    have hft : t.firstToken (off + 1) = .ok n.name := firstToken_eq hkid rfl (hr n (by simp)).1
    simp only [List.map_cons, offsets, buildGroup, hf, hl, hft, Outcome.bind_ok, children_eq hstr rfl] at h
    by_cases hc : patterns.contains n.name = true
    · rw [if_pos hc] at h
      cases h
      exact .twice _ n ns ((hinv.keys n.name).1 hc)
    · have hn : n.name ∉ mainName :: done.map Named.name := fun h => hc ((hinv.keys n.name).2 h)
      rw [if_neg hc] at h
      rcases bind_err.1 h with h | ⟨r, h4, h⟩
      · exact .items _ n ns e hn (buildNamed_err E lang hinv.keys e n.items _ _ _ _ (At.node hstr).2 (hr n (by simp)).2
          (hs n (by simp)) h)
      · have hb := buildNamed_spec E lang hinv.keys n.name n.items _ [] owners (owners.map Store.empty) selectors
          (At.node hstr).2 (hr n (by simp)).2 (hs n (by simp)) (by simp)
        rw [h4] at hb
        obtain ⟨pat', num', sel'⟩ := r
        obtain ⟨hall, parts, k, extra, hpat, rfl, rfl, hz, hns⟩ := hb
        rw [List.nil_append] at hpat
        subst hpat
        dsimp only at h
        rw [replicate_nil_map k n.name, ← List.map_append] at h
        have := ih _ (patterns.insert n.name pat') (owners ++ List.replicate k n.name)
          (selectors ++ extra) (done ++ [n]) h2 (fun m hm => hr m (by simp [hm])) (fun m hm => hs m (by simp [hm]))
          (by simpa using hinv.step n hn _ k extra hz hns) h
        have hmap : mainName :: (done ++ [n]).map Named.name = (mainName :: done.map Named.name) ++ [n.name] := by simp
        rw [hmap] at this
        exact .later _ n ns e hn hall this

/-- Errors of building a formatter from the tree of a pattern string. -/
theorem ofTree_err (E : FmtEnv D F) (tag lang : Str) {d : Doc} {t : Tree} (hd : Sentence d t.tokens)
    (hn : t.nodes = d.arena) (e : FormatterError) (h : Formatter.ofTree E tag (some lang) t = .err e) :
    (t.hasGrammar = false ∧ e = .noGrammar) ∨ (t.hasGrammar = true ∧ DocError E d e) := by
  obtain ⟨hr1, hr2⟩ := sentence_resolved hd
  obtain ⟨hs1, hs2, hs3⟩ := sentence_shaped hd
  unfold Formatter.ofTree at h
  by_cases hg : t.hasGrammar = true
  rotate_left
  · rw [if_pos hg] at h; cases h; exact .inl ⟨by simpa using hg, rfl⟩
  refine .inr ⟨hg, ?_⟩
  have hroot : At t.nodes 0 d.rose := ⟨none, [], [], by simp [hn, Doc.arena], rfl⟩
  have hty : t.nodeType 0 = .ok .root := nodeType_eq hroot
  have hch := children_eq hroot rfl
  have hkids := (At.node hroot).2
  simp only [hg, not_true_eq_false, if_false, Outcome.unwrap_some, Outcome.bind_ok, hty, ne_eq, hch, offsets,
    List.head?_cons] at h
  obtain ⟨hmain, hrest⟩ := hkids.cons
  have hmc := children_eq hmain rfl
  simp only [hmc] at h
  have key : ∀ x : FmtM (AMap Str (List PatternPart) × List Str × List (AMap Str Str)),
      (∀ e, x = .err e → GroupError E [mainName] d.named e) →
      (∀ pat' num' sel', x = .ok (pat', num', sel') → GroupOk E [mainName] d.named ∧ ∃ owners', Inv E pat' owners' sel' d.named) →
      ((do
        let r ← x
        let children ← (Outcome.ok (offsets (0 + 1 + 1) (d.main.map Item.rose)) : FmtM (List Nat))
        let p ← buildMain E lang r.1 t children [] r.2.2
        pure ({ languageTag := tag, icuLanguage := lang, patterns := r.1.insert mainName p.1, numbers := r.2.1,
                selectors := p.2 } : Formatter) : FmtM Formatter) = .err e) → DocError E d e := by
    intro x hx1 hx2 h
    rcases bind_err.1 h with h | ⟨r, h1, h⟩
    · exact .inl (hx1 e h)
    · obtain ⟨pat', num', sel'⟩ := r
      obtain ⟨hgok, owners, hinv⟩ := hx2 _ _ _ h1
      simp only [Outcome.bind_ok] at h
      rcases bind_err.1 h with h | ⟨_, _, h⟩
      · exact .inr ⟨hgok, buildMain_err E lang hinv.keys e d.main _ _ _ (At.node hmain).2 hr1 hs1 hs3 h⟩
      · cases h
  cases hdg : d.group with
  | none =>
    have hnamed : d.named = [] := by simp [Doc.named, hdg]
    rw [hdg] at h
    refine key (.ok ([(mainName, [])], [], [])) (fun e h => (nomatch h)) (fun _ _ _ h => ?_) h
    cases h
    rw [hnamed]
    exact ⟨trivial, [], inv_init E⟩
  | some ns =>
    have hnamed : d.named = ns := by simp [Doc.named, hdg]
    rw [hdg] at hrest h
    obtain ⟨hgr, _⟩ := hrest.cons
    have hA : ∀ m ∈ ns, Has t.tokens m.id ∧ ∀ it ∈ m.items, Resolved t.tokens it := by simpa [hnamed] using hr2
    have hB : ∀ m ∈ ns, ∀ it ∈ m.items, Shaped it := by simpa [hnamed] using hs2
    have h1 := buildGroup_spec E lang ns _ [(mainName, [])] [] [] [] (At.node hgr).2 hA hB (inv_init E)
    have h2 := fun e => buildGroup_err E lang e ns _ [(mainName, [])] [] [] [] (At.node hgr).2 hA hB (inv_init E)
    simp only [offsets, children_eq hgr rfl, Outcome.bind_ok] at h
    refine key _ (fun e h => ?_) (fun _ _ _ h => ?_) h
    · rw [hnamed]; exact h2 e h
    · rw [hnamed]
      simp only [List.map_nil] at h1
      rw [h] at h1
      obtain ⟨h3, owners', _, h5⟩ := h1
      exact ⟨h3, owners', by simpa using h5⟩

end Verif.BlameLemmas
