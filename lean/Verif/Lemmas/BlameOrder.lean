import Verif.Lemmas.Crash
import Verif.Lemmas.FormatterOrder
/-
The errors of reading a pattern string, whatever the orders of the hash maps, are those that `Spec.Blame` assigns, and each
of those is returned in some order.
-/
namespace Verif.BlameOrderLemmas
open Verif Verif.Spec Verif.FormatLemmas Verif.Spec.Rose Verif.OrderLemmas
open Verif.BlameLemmas (decimalOptions_err dateTimeOptions_err pluralLoop_err selectLoop_err docPart_err bind_err
  ItemsError.cons)

variable {D F : Type}

/-- The list has each key of the selectors, with itself as its value. -/
def Lists (sels : List (Leaf × Leaf)) (m : AMap Str Str) : Prop := ∀ key v, (key, v) ∈ m ↔ v = key ∧ key ∈ keysOf sels

theorem lists_perm {sels : List (Leaf × Leaf)} {m : AMap Str Str} (h : m.Perm (selMap sels [])) : Lists sels m :=
  fun key v => h.mem_iff.trans (selMap_mem sels key v)

theorem plural_err (E : FmtEnv D F) {patterns : AMap Str (List PatternPart)} {known : List Str}
    (hk : ∀ name, patterns.contains name = true ↔ name ∈ known) (id k : Leaf) (hc : Counts k) (ct : ComplexType)
    (selectors : List (AMap Str Str)) {sels : List (Leaf × Leaf)} {m : AMap Str Str} (hm : Lists sels m) (e : FormatterError)
    (h : partPlural k.str id.str ct patterns selectors m = .err e) :
    ItemError E known (.pat id (some (k, sels))) e := by
  unfold partPlural at h
  rcases bind_err.1 h with h | ⟨other, h1, h2⟩
  · obtain ⟨key, v, hmem, hh⟩ := pluralLoop_err _ _ _ _ _ _ h
    obtain ⟨rfl, hkey⟩ := (hm key v).1 hmem
    rcases hh with ⟨h1, rfl⟩ | ⟨h1, h2, rfl⟩
    · exact .category id k sels v hc hkey fun h => h1 ((mem_validPlurals _).2 h)
    · refine .unknown id k sels v (.inl hc) hkey (fun hm => ?_) fun _ => (mem_validPlurals _).1 h1
      rw [(hk v).2 hm] at h2; cases h2
  · have hs := pluralLoop_spec k.str id.str patterns m false
    rw [h1] at hs
    by_cases ho : other = true
    · rw [if_neg (fun hh => hh ho)] at h2; cases h2
    · rw [if_pos ho] at h2; cases h2
      refine .other id k sels hc (fun key hkey => ?_) fun hmem => ?_
      · have := hs.1 (key, key) ((hm key key).2 ⟨rfl, hkey⟩)
        exact ⟨(mem_validPlurals _).1 this.1, (hk key).1 this.2⟩
      · exact ho (hs.2.2 (.inr ⟨(_, _), (hm _ _).2 ⟨rfl, hmem⟩, rfl⟩))

theorem keyword_err (E : FmtEnv D F) (lang : Str) {patterns : AMap Str (List PatternPart)} {known : List Str}
    (hk : ∀ name, patterns.contains name = true ↔ name ∈ known) (selectors : List (AMap Str Str)) (id k : Leaf)
    {sels : List (Leaf × Leaf)} {m : AMap Str Str} (hl : Lists sels m) (e : FormatterError)
    (h : partKeyword E.icu4x lang id.str k.str patterns selectors (.ok m) = .err e) :
    ItemError E known (.pat id (some (k, sels))) e := by
  have hm : ∀ k v, (k, v) ∈ m → v = k := fun k v h => ((hl k v).1 h).1
  unfold partKeyword at h
  by_cases h1 : k.str = "decimal".toList
  · rw [if_pos h1] at h
    rcases bind_err.1 h with h | ⟨m, h3, h⟩
    · cases h
    cases h3
    rcases bind_err.1 h with h | ⟨_, _, h⟩
    · obtain ⟨key, hmem, rfl⟩ := decimalOptions_err _ _ hm _ h
      exact .decimal id k sels key h1 ((hl _ _).1 hmem).2
    · cases h
  rw [if_neg h1] at h
  by_cases h2 : k.str = "date_time".toList
  · rw [if_pos h2] at h
    rcases bind_err.1 h with h | ⟨m, h3, h⟩
    · cases h
    cases h3
    rcases bind_err.1 h with h | ⟨_, _, h⟩
    · obtain ⟨key, hmem, rfl⟩ := dateTimeOptions_err _ _ _ _ hm _ h
      exact .dateTime id k sels key h2 ((hl _ _).1 hmem).2
    · cases h
  rw [if_neg h2] at h
  by_cases h3 : k.str = "ordinal".toList
  · rw [if_pos h3] at h
    rcases bind_err.1 h with h | ⟨m, h4, h⟩
    · cases h
    cases h4
    rw [← h3] at h
    exact plural_err E hk id k (.inl h3) _ _ hl _ h
  rw [if_neg h3] at h
  by_cases h4 : k.str = "plural".toList
  · rw [if_pos h4] at h
    rcases bind_err.1 h with h | ⟨m, h5, h⟩
    · cases h
    cases h5
    rw [← h4] at h
    exact plural_err E hk id k (.inr h4) _ _ hl _ h
  rw [if_neg h4] at h
  by_cases h5 : k.str = "select".toList
  · rw [if_pos h5] at h
    rcases bind_err.1 h with h | ⟨m, h6, h⟩
    · cases h
    cases h6
    rcases bind_err.1 h with h | ⟨_, _, h⟩
    · obtain ⟨key, v, hmem, h7, rfl⟩ := selectLoop_err _ _ _ _ h
      obtain ⟨rfl, hkey⟩ := (hl key v).1 hmem
      refine .unknown id k sels v (.inr h5) hkey (fun hm => ?_) fun hc => ?_
      · rw [(hk v).2 hm] at h7; cases h7
      · rcases hc with hc | hc
        · exact absurd hc h3
        · exact absurd hc h4
    · cases h
  rw [if_neg h5] at h
  cases h
  exact .keyword id k sels (by simp only [List.mem_cons, List.not_mem_nil, or_false, not_or]; exact ⟨h1, h2, h3, h4, h5⟩)

/-! ### A key first -/

/-- The list begins with the key, if it has it. -/
def Starts (key : Str) (sels : List (Leaf × Leaf)) (m : AMap Str Str) : Prop :=
  key ∈ keysOf sels → ∃ rest, m = (key, key) :: rest

theorem counts_cases {k : Leaf} (h : Counts k) : k.str ≠ "decimal".toList ∧ k.str ≠ "date_time".toList := by
  rcases h with h | h <;> rw [h] <;> exact ⟨by decide, by decide⟩

theorem plural_keyword (X : Icu4x D F) (lang : Str) (patterns : AMap Str (List PatternPart))
    (selectors : List (AMap Str Str)) (id : Str) {k : Leaf} (hc : Counts k) (m : AMap Str Str) :
    ∃ ct, partKeyword X lang id k.str patterns selectors (.ok m) = partPlural k.str id ct patterns selectors m := by
  unfold partKeyword
  obtain ⟨h1, h2⟩ := counts_cases hc
  rw [if_neg h1, if_neg h2]
  by_cases h3 : k.str = "ordinal".toList
  · rw [if_pos h3]; exact ⟨.ordinal, by rw [h3]; rfl⟩
  · have h4 : k.str = "plural".toList := hc.resolve_left h3
    rw [if_neg h3, if_pos h4]; exact ⟨.plural, by rw [h4]; rfl⟩

theorem keyword_errs (E : FmtEnv D F) {known : List Str} {id k : Leaf} {sels : List (Leaf × Leaf)} {e : FormatterError}
    (h : ItemError E known (.pat id (some (k, sels))) e) :
    ∃ key, ∀ (lang : Str) (patterns : AMap Str (List PatternPart)),
      (∀ name, patterns.contains name = true ↔ name ∈ known) → ∀ (selectors : List (AMap Str Str)) (m : AMap Str Str),
      Lists sels m → Starts key sels m → partKeyword E.icu4x lang id.str k.str patterns selectors (.ok m) = .err e := by
  cases h with
  | decimal _ _ _ key hd hkey =>
    refine ⟨key, fun lang patterns _ selectors m _ hs => ?_⟩
    obtain ⟨rest, rfl⟩ := hs hkey
    unfold partKeyword decimalOptions decimalBlame
    rw [if_pos hd]
    by_cases h1 : key = "sign".toList
    · subst h1; rfl
    · by_cases h2 : key = "group".toList
      · subst h2; rfl
      · rw [Outcome.bind_ok]; dsimp only; rw [if_neg h1, if_neg h2, if_neg (not_or.2 ⟨h1, h2⟩)]; rfl
  | dateTime _ _ _ key hd hkey =>
    refine ⟨key, fun lang patterns _ selectors m _ hs => ?_⟩
    obtain ⟨rest, rfl⟩ := hs hkey
    unfold partKeyword dateTimeOptions dateTimeBlame
    rw [if_neg (by rw [hd]; decide), if_pos hd]
    by_cases h1 : key = "date".toList
    · subst h1; rfl
    · by_cases h2 : key = "time".toList
      · subst h2; rfl
      · by_cases h3 : key = "calendar".toList
        · subst h3; rfl
        · rw [Outcome.bind_ok]; dsimp only; rw [if_neg h1, if_neg h2, if_neg h3, if_neg (not_or.2 ⟨h1, h2⟩), if_neg h3]; rfl
  | category _ _ _ key hc hkey hcat =>
    refine ⟨key, fun lang patterns _ selectors m _ hs => ?_⟩
    obtain ⟨rest, rfl⟩ := hs hkey
    obtain ⟨ct, hp⟩ := plural_keyword E.icu4x lang patterns selectors id.str hc ((key, key) :: rest)
    rw [hp]
    unfold partPlural
    have : ¬ validPlurals.contains key = true := fun h => hcat ((mem_validPlurals _).1 (by simpa using h))
    simp only [pluralLoop, if_pos this]
    rfl
  | unknown _ _ _ key hc hkey hun hcat =>
    refine ⟨key, fun lang patterns hk selectors m _ hs => ?_⟩
    obtain ⟨rest, rfl⟩ := hs hkey
    have hn : ¬ patterns.contains key = true := fun h => hun ((hk key).1 h)
    rcases Classical.em (Counts k) with hc' | hc'
    · obtain ⟨ct, hp⟩ := plural_keyword E.icu4x lang patterns selectors id.str hc' ((key, key) :: rest)
      rw [hp]
      unfold partPlural
      have : ¬¬ validPlurals.contains key = true := fun h => h (by simpa using (mem_validPlurals _).2 (hcat hc'))
      simp only [pluralLoop, if_neg this, if_pos hn]
      rfl
    · have h5 := hc.resolve_left hc'
      unfold partKeyword
      rw [if_neg (by rw [h5]; decide), if_neg (by rw [h5]; decide), if_neg (by rw [h5]; decide),
        if_neg (by rw [h5]; decide), if_pos h5]
      simp only [Outcome.bind_ok, selectLoop, if_pos hn]
      rfl
  | other _ _ _ hc hall hoth =>
    refine ⟨[], fun lang patterns hk selectors m hm _ => ?_⟩
    obtain ⟨ct, hp⟩ := plural_keyword E.icu4x lang patterns selectors id.str hc m
    rw [hp]
    unfold partPlural
    have hs := pluralLoop_spec k.str id.str patterns m false
    have hall' : ∀ kv ∈ m, kv.1 ∈ validPlurals ∧ patterns.contains kv.2 = true := by
      rintro ⟨key, v⟩ hkv
      obtain ⟨rfl, hkey⟩ := (hm key v).1 hkv
      exact ⟨(mem_validPlurals _).2 (hall _ hkey).1, (hk _).2 (hall _ hkey).2⟩
    split at hs
    · rename_i b heq
      rw [heq]
      cases b with
      | false => rfl
      | true =>
        rcases hs.2.1 rfl with h | ⟨⟨key, v⟩, hkv, hko⟩
        · cases h
        · obtain ⟨_, hkey⟩ := (hm key v).1 hkv
          exact absurd (by rw [← hko]; exact hkey) hoth
    · exact absurd hall' hs
    · exact hs.elim
  | keyword _ _ _ hk =>
    refine ⟨[], fun lang patterns _ selectors m _ _ => ?_⟩
    simp only [List.mem_cons, List.not_mem_nil, or_false, not_or] at hk
    obtain ⟨h1, h2, h3, h4, h5⟩ := hk
    unfold partKeyword
    rw [if_neg h1, if_neg h2, if_neg h3, if_neg h4, if_neg h5]

/-! ### Items -/

/-- What the formatter makes of an item that is node `i` of the tree. -/
def docPartIn (o : MapOrder) (i : Nat) (E : FmtEnv D F) (lang : Str) (patterns : AMap Str (List PatternPart))
    (numbers : Nat) (selectors : List (AMap Str Str)) : Item → FmtM (PatternPart × List Str × List (AMap Str Str))
  | .pat id (some (k, sels)) => do
    let (p, s) ← partKeyword E.icu4x lang id.str k.str patterns selectors (.ok (o i (selMap sels [])))
    pure (p, [], s)
  | it => docPart E lang patterns numbers selectors it

theorem partPatternIn_simple {o : MapOrder} {X : Icu4x D F} {lang patterns t off id sels}
    (h : At t.nodes off (Item.pat id none).rose) (hr : Resolved t.tokens (.pat id none)) :
    partPatternIn o X lang patterns t off sels = .ok (.patternString id.str, sels) := by
  have hk := (At.node h).2.cons.1
  simp only [partPatternIn, children_eq h rfl, offsets, Outcome.bind_ok, nodeType_eq hk, ne_eq, not_true_eq_false,
    if_false, firstToken_eq hk rfl (hr id (by simp [leaves])), Outcome.pure_eq]

theorem partPatternIn_keyword {o : MapOrder} {X : Icu4x D F} {lang patterns t off id k sels selectors}
    (h : At t.nodes off (Item.pat id (some (k, sels))).rose) (hr : Resolved t.tokens (.pat id (some (k, sels)))) :
    partPatternIn o X lang patterns t off selectors =
      partKeyword X lang id.str k.str patterns selectors (.ok (o off (selMap sels []))) := by
  obtain ⟨hk, h1⟩ := (At.node h).2.cons
  obtain ⟨hk2, h2⟩ := h1.cons
  have hs : patternSelectorsIn o t off = .ok (o off (selMap sels [])) := by
    have : patternSelectors t off = .ok (selMap sels []) := by
      simp only [patternSelectors, children_eq h rfl, offsets, Outcome.bind_ok, List.drop_succ_cons, List.drop_zero]
      exact selectorsLoop_eq sels _ [] h2 (fun s hs => hr s.1 (by
        simp only [leaves, List.mem_cons, List.mem_flatten, List.mem_map]
        exact Or.inr (Or.inr ⟨[s.1, s.2], ⟨s, hs, rfl⟩, by simp⟩)))
    simp only [patternSelectorsIn, this, Outcome.bind_ok, Outcome.pure_eq]
  simp only [partPatternIn, children_eq h rfl, offsets, Outcome.bind_ok, nodeType_eq hk, nodeType_eq hk2, ne_eq,
    not_true_eq_false, if_false, firstToken_eq hk rfl (hr id (by simp [leaves])),
    firstToken_eq hk2 rfl (hr k (by simp [leaves])), hs]

theorem buildNamedIn_cons {o : MapOrder} (E : FmtEnv D F) {lang patterns t off it rest pattern numbers selectors}
    (h : At t.nodes off it.rose) (hr : Resolved t.tokens it) (hs : Shaped it) :
    buildNamedIn o E lang patterns t (off :: rest) pattern numbers selectors = (do
      let r ← docPartIn o off E lang patterns numbers.length selectors it
      buildNamedIn o E lang patterns t rest (pattern ++ [r.1]) (numbers ++ r.2.1) r.2.2) := by
  match it with
  | .text toks =>
    have hn : t.nodeType off = .ok .text := nodeType_eq h
    simp only [buildNamedIn, hn, Outcome.bind_ok, if_true, partText_eq h hr, docPartIn, docPart, List.append_nil]
  | .number l =>
    have hn : t.nodeType off = .ok .numberSign := nodeType_eq h
    simp only [buildNamedIn, hn, Outcome.bind_ok, if_true, docPartIn, docPart, reduceCtorEq, if_false]
  | .pat id none =>
    have hn : t.nodeType off = .ok .pattern := nodeType_eq h
    simp only [buildNamedIn, hn, Outcome.bind_ok, if_true, docPartIn, docPart, reduceCtorEq, if_false,
      partPatternIn_simple h hr, List.append_nil]
  | .pat id (some (k, sels)) =>
    have hn : t.nodeType off = .ok .pattern := nodeType_eq h
    simp only [buildNamedIn, hn, Outcome.bind_ok, if_true, docPartIn, reduceCtorEq, if_false, partPatternIn_keyword h hr]
    cases partKeyword E.icu4x lang id.str k.str patterns selectors (.ok (o off (selMap sels []))) with
    | ok r => simp
    | err e => rfl
    | panic => rfl
  | .cmd parts =>
    have hn : t.nodeType off = .ok .command := nodeType_eq h
    simp only [buildNamedIn, hn, Outcome.bind_ok, if_true, docPartIn, docPart, reduceCtorEq, if_false,
      partCommand_eq h hr (hs parts rfl)]
    cases docCommand E.commands parts with
    | ok r => simp
    | err e => rfl
    | panic => rfl

theorem buildMainIn_cons {o : MapOrder} (E : FmtEnv D F) {lang patterns t off it rest pattern selectors}
    (h : At t.nodes off it.rose) (hr : Resolved t.tokens it) (hs : Shaped it) (hnum : ∀ l, it ≠ .number l) :
    buildMainIn o E lang patterns t (off :: rest) pattern selectors = (do
      let r ← docPartIn o off E lang patterns 0 selectors it
      buildMainIn o E lang patterns t rest (pattern ++ [r.1]) r.2.2) := by
  match it with
  | .text toks =>
    have hn : t.nodeType off = .ok .text := nodeType_eq h
    simp only [buildMainIn, hn, Outcome.bind_ok, if_true, partText_eq h hr, docPartIn, docPart]
  | .number l => exact absurd rfl (hnum l)
  | .pat id none =>
    have hn : t.nodeType off = .ok .pattern := nodeType_eq h
    simp only [buildMainIn, hn, Outcome.bind_ok, if_true, docPartIn, docPart, reduceCtorEq, if_false,
      partPatternIn_simple h hr]
  | .pat id (some (k, sels)) =>
    have hn : t.nodeType off = .ok .pattern := nodeType_eq h
    simp only [buildMainIn, hn, Outcome.bind_ok, if_true, docPartIn, reduceCtorEq, if_false, partPatternIn_keyword h hr]
    cases partKeyword E.icu4x lang id.str k.str patterns selectors (.ok (o off (selMap sels []))) with
    | ok r => simp
    | err e => rfl
    | panic => rfl
  | .cmd parts =>
    have hn : t.nodeType off = .ok .command := nodeType_eq h
    simp only [buildMainIn, hn, Outcome.bind_ok, if_true, docPartIn, docPart, reduceCtorEq, if_false,
      partCommand_eq h hr (hs parts rfl)]
    cases docCommand E.commands parts with
    | ok r => simp
    | err e => rfl
    | panic => rfl

/-- An item is read without an error in every order, or in none. -/
theorem docPartIn_kind {o : MapOrder} (ho : IsOrder o) (i : Nat) (E : FmtEnv D F) (lang : Str)
    (patterns : AMap Str (List PatternPart)) (n : Nat) (selectors : List (AMap Str Str)) (it : Item) :
    SameRun (fun _ _ => True) (docPartIn o i E lang patterns n selectors it) (docPart E lang patterns n selectors it) := by
  match it with
  | .text _ => exact SameRun.refl (fun _ => trivial) _
  | .number _ => exact SameRun.refl (fun _ => trivial) _
  | .pat _ none => exact SameRun.refl (fun _ => trivial) _
  | .cmd _ => exact SameRun.refl (fun _ => trivial) _
  | .pat id (some (k, sels)) =>
    have hm : ∀ l : List (AMap Str Str), SameMaps l l := fun l => by
      induction l with
      | nil => exact .nil
      | cons m l ih => exact .cons (fun _ => rfl) ih
    have hx : SameRun Listed (.ok (o i (selMap sels [])) : FmtM (AMap Str Str)) (.ok (selMap sels [])) :=
      ⟨ho i _, ((keys_perm (ho i _)).nodup_iff).2 (selMap_nodup sels [] (by simp [AMap.keys]))⟩
    exact SameRun.bind (partKeyword_same E.icu4x lang id.str k.str patterns (hm selectors) hx) fun _ _ _ => trivial

theorem docPartIn_err {o : MapOrder} (ho : IsOrder o) (i : Nat) (E : FmtEnv D F) (lang : Str)
    {patterns : AMap Str (List PatternPart)} {known : List Str}
    (hk : ∀ name, patterns.contains name = true ↔ name ∈ known) (n : Nat) (selectors : List (AMap Str Str))
    (it : Item) (hs : Shaped it) (e : FormatterError)
    (h : docPartIn o i E lang patterns n selectors it = .err e) : ItemError E known it e := by
  match it with
  | .text _ => cases h
  | .number _ => cases h
  | .pat _ none => cases h
  | .cmd _ => exact docPart_err E lang hk n selectors _ hs e h
  | .pat id (some (k, sels)) =>
    simp only [docPartIn] at h
    rcases bind_err.1 h with h | ⟨_, _, h2⟩
    · exact keyword_err E lang hk selectors id k (lists_perm (ho i _)) e h
    · cases h2

theorem docPartIn_ok {o : MapOrder} (ho : IsOrder o) (i : Nat) (E : FmtEnv D F) (lang : Str)
    {patterns : AMap Str (List PatternPart)} {known : List Str}
    (hk : ∀ name, patterns.contains name = true ↔ name ∈ known) (n : Nat) (selectors : List (AMap Str Str))
    (it : Item) (hs : Shaped it) : (∃ r, docPartIn o i E lang patterns n selectors it = .ok r) ↔ ItemOk E known it := by
  have hr := docPartIn_kind ho i E lang patterns n selectors it
  have hp := docPart_spec E lang hk n selectors it hs
  match h1 : docPartIn o i E lang patterns n selectors it, h2 : docPart E lang patterns n selectors it, hr, hp with
  | .ok r, .ok _, _, hp => exact ⟨fun _ => hp.1, fun _ => ⟨r, rfl⟩⟩
  | .err _, .err _, _, hp => exact ⟨fun ⟨_, h⟩ => (nomatch h), fun h => (hp h).elim⟩
  | .panic, .panic, _, hp => exact ⟨fun ⟨_, h⟩ => (nomatch h), fun h => (hp.1 h).elim⟩

/-! ### From the order to the error -/

theorem buildNamedIn_err {o : MapOrder} (ho : IsOrder o) (E : FmtEnv D F) (lang : Str)
    {patterns : AMap Str (List PatternPart)} {known : List Str}
    (hk : ∀ name, patterns.contains name = true ↔ name ∈ known) {t : Tree} (items : List Item) :
    ∀ (off : Nat) (pattern : List PatternPart) (numbers : List Str) (selectors : List (AMap Str Str)),
    Ats t.nodes off (items.map Item.rose) → (∀ it ∈ items, Resolved t.tokens it) → (∀ it ∈ items, Shaped it) →
    match buildNamedIn o E lang patterns t (offsets off (items.map Item.rose)) pattern numbers selectors with
    | .ok _ => ∀ it ∈ items, ItemOk E known it
    | .err e => ItemsError E known items e
    | .panic => ¬ ∀ it ∈ items, ItemOk E known it := by
  induction items with
  | nil => intro off pattern numbers selectors _ _ _ it h; cases h
  | cons it items ih =>
    intro off pattern numbers selectors hat hr hs
    obtain ⟨h1, h2⟩ := Ats.cons hat
    simp only [List.map_cons, offsets]
    rw [buildNamedIn_cons E h1 (hr it (by simp)) (hs it (by simp))]
    cases hp : docPartIn o off E lang patterns numbers.length selectors it with
    | err e =>
      exact ⟨[], it, items, rfl, by simp, docPartIn_err ho off E lang hk _ _ it (hs it (by simp)) e hp⟩
    | panic =>
      intro h
      obtain ⟨r, hr'⟩ := (docPartIn_ok ho off E lang hk numbers.length selectors it (hs it (by simp))).2 (h it (by simp))
      rw [hp] at hr'; cases hr'
    | ok r =>
      have hok := (docPartIn_ok ho off E lang hk numbers.length selectors it (hs it (by simp))).1 ⟨r, hp⟩
      have := ih _ (pattern ++ [r.1]) (numbers ++ r.2.1) r.2.2 h2 (fun it h => hr it (by simp [h]))
        (fun it h => hs it (by simp [h]))
      rw [Outcome.bind_ok]
      split at this
      · exact List.forall_mem_cons.2 ⟨hok, this⟩
      · exact ItemsError.cons hok this
      · exact fun h => this (List.forall_mem_cons.1 h).2

theorem buildMainIn_err {o : MapOrder} (ho : IsOrder o) (E : FmtEnv D F) (lang : Str)
    {patterns : AMap Str (List PatternPart)} {known : List Str}
    (hk : ∀ name, patterns.contains name = true ↔ name ∈ known) {t : Tree} (e : FormatterError) (items : List Item) :
    ∀ (off : Nat) (pattern : List PatternPart) (selectors : List (AMap Str Str)),
    Ats t.nodes off (items.map Item.rose) → (∀ it ∈ items, Resolved t.tokens it) → (∀ it ∈ items, Shaped it) →
    (∀ l, Item.number l ∉ items) →
    buildMainIn o E lang patterns t (offsets off (items.map Item.rose)) pattern selectors = .err e →
    ItemsError E known items e := by
  induction items with
  | nil => intro off pattern selectors _ _ _ _ h; cases h
  | cons it items ih =>
    intro off pattern selectors hat hr hs hnum h
    obtain ⟨h1, h2⟩ := Ats.cons hat
    simp only [List.map_cons, offsets] at h
    rw [buildMainIn_cons E h1 (hr it (by simp)) (hs it (by simp)) (fun l e => hnum l (by simp [e]))] at h
    rcases bind_err.1 h with h | ⟨r, h3, h⟩
    · exact ⟨[], it, items, rfl, by simp, docPartIn_err ho off E lang hk _ _ it (hs it (by simp)) e h⟩
    · exact ItemsError.cons ((docPartIn_ok ho off E lang hk 0 selectors it (hs it (by simp))).1 ⟨r, h3⟩)
        (ih _ _ _ h2 (fun it h => hr it (by simp [h])) (fun it h => hs it (by simp [h])) (fun l h => hnum l (by simp [h])) h)

theorem keys_insert {patterns : AMap Str (List PatternPart)} {known : List Str}
    (hk : ∀ name, patterns.contains name = true ↔ name ∈ known) (n : Str) (p : List PatternPart) :
    ∀ name, (patterns.insert n p).contains name = true ↔ name ∈ known ++ [n] := by
  intro name
  have hk' := hk name
  simp only [AMap.contains, AMap.get_insert, List.mem_append, List.mem_singleton] at hk' ⊢
  by_cases h : n = name
  · simp [h]
  · rw [if_neg h, hk']
    exact ⟨Or.inl, fun h' => h'.resolve_right fun h'' => h h''.symm⟩

theorem buildGroupIn_err {o : MapOrder} (ho : IsOrder o) (E : FmtEnv D F) (lang : Str) {t : Tree} (ns : List Named) :
    ∀ (off : Nat) (patterns : AMap Str (List PatternPart)) (numbers : List Str) (selectors : List (AMap Str Str))
      (known : List Str),
    Ats t.nodes off (ns.map Named.rose) →
    (∀ m ∈ ns, Has t.tokens m.id ∧ ∀ it ∈ m.items, Resolved t.tokens it) → (∀ m ∈ ns, ∀ it ∈ m.items, Shaped it) →
    (∀ name, patterns.contains name = true ↔ name ∈ known) →
    match buildGroupIn o E lang t (offsets off (ns.map Named.rose)) patterns numbers selectors with
    | .ok (patterns', _, _) => GroupOk E known ns ∧
        ∀ name, patterns'.contains name = true ↔ name ∈ known ++ ns.map Named.name
    | .err e => GroupError E known ns e
    | .panic => ¬ GroupOk E known ns := by
  induction ns with
  | nil => intro off patterns numbers selectors known _ _ _ hk; exact ⟨trivial, by simpa using hk⟩
  | cons n ns ih =>
    intro off patterns numbers selectors known hat hr hs hk
    obtain ⟨h1, h2⟩ := Ats.cons hat
    obtain ⟨hkid, h3⟩ := (At.node h1).2.cons
    have hstr := h3.cons.1
    have hf : t.first off = .ok (off + 1) := by
      simp [Tree.first, children_eq h1 rfl, offsets]
    have hl : t.last off = .ok (off + 1 + (leafRose .identifier n.id).size) := by
      simp [Tree.last, children_eq h1 rfl, offsets]
    have hft : t.firstToken (off + 1) = .ok n.name := firstToken_eq hkid rfl (hr n (by simp)).1
    simp only [List.map_cons, offsets, buildGroupIn, hf, hl, hft, Outcome.bind_ok, children_eq hstr rfl]
    by_cases hc : patterns.contains n.name = true
    · rw [if_pos hc]
      exact .twice _ n ns ((hk n.name).1 hc)
    · have hn : n.name ∉ known := fun h => hc ((hk n.name).2 h)
      rw [if_neg hc]
      have hb := buildNamedIn_err ho E lang hk n.items _ [] numbers selectors (At.node hstr).2 (hr n (by simp)).2
        (hs n (by simp))
      split at hb
      · rename_i r heq
        rw [heq, Outcome.bind_ok]
        have := ih _ (patterns.insert n.name r.1) r.2.1 r.2.2 (known ++ [n.name]) h2 (fun m hm => hr m (by simp [hm]))
          (fun m hm => hs m (by simp [hm])) (keys_insert hk _ _)
        obtain ⟨pat', num', sel'⟩ := r
        dsimp only at this ⊢
        split at this
        · exact ⟨⟨hn, hb, this.1⟩, by simpa using this.2⟩
        · exact .later _ n ns _ hn hb this
        · exact fun h => this h.2.2
      · rename_i e heq
        rw [heq]
        exact .items _ n ns e hn hb
      · rename_i heq
        rw [heq]
        exact fun h => hb h.2.1

/-! ### From the error to the order -/

/-- The order in which an entry with the given key is first. -/
def firstly (key : Str) : MapOrder := fun _ m => m.filter (fun kv => kv.1 = key) ++ m.filter (fun kv => !decide (kv.1 = key))

theorem firstly_isOrder (key : Str) : IsOrder (firstly key) := fun _ m => List.filter_append_perm _ m

theorem firstly_starts (key : Str) (i : Nat) (sels : List (Leaf × Leaf)) : Starts key sels (firstly key i (selMap sels [])) := by
  intro h
  have hmem : (key, key) ∈ (selMap sels []).filter (fun kv => kv.1 = key) :=
    List.mem_filter.2 ⟨(selMap_mem sels key key).2 ⟨rfl, h⟩, by simp⟩
  unfold firstly
  cases hf : (selMap sels []).filter (fun kv => kv.1 = key) with
  | nil => rw [hf] at hmem; cases hmem
  | cons kv rest =>
    obtain ⟨k, v⟩ := kv
    have : (k, v) ∈ (selMap sels []).filter (fun kv => kv.1 = key) := by rw [hf]; simp
    obtain ⟨h1, h2⟩ := List.mem_filter.1 this
    obtain ⟨rfl, _⟩ := (selMap_mem sels k v).1 h1
    obtain rfl : v = key := by simpa using h2
    exact ⟨_, rfl⟩

theorem docPartIn_errs (E : FmtEnv D F) {known : List Str} {it : Item} {e : FormatterError} (h : ItemError E known it e) :
    ∃ key, ∀ (i : Nat) (lang : Str) (patterns : AMap Str (List PatternPart)),
      (∀ name, patterns.contains name = true ↔ name ∈ known) → ∀ (n : Nat) (selectors : List (AMap Str Str)),
      docPartIn (firstly key) i E lang patterns n selectors it = .err e := by
  have pat : ∀ id k sels, it = .pat id (some (k, sels)) →
      ∃ key, ∀ (i : Nat) (lang : Str) (patterns : AMap Str (List PatternPart)),
      (∀ name, patterns.contains name = true ↔ name ∈ known) → ∀ (n : Nat) (selectors : List (AMap Str Str)),
      docPartIn (firstly key) i E lang patterns n selectors it = .err e := by
    rintro id k sels rfl
    obtain ⟨key, hkey⟩ := keyword_errs E h
    refine ⟨key, fun i lang patterns hk n selectors => ?_⟩
    simp only [docPartIn, hkey lang patterns hk selectors _ (lists_perm (firstly_isOrder key i _)) (firstly_starts key i sels),
      Outcome.bind_err]
  have cmd : ∀ nm ps, (∀ h ps', ps ≠ Part.hash h :: ps') → it = .cmd (.ident nm :: ps) →
      callCommand E.commands nm.str ((nm.str :: ps.map Part.str).map .string) = .err e →
      ∃ key, ∀ (i : Nat) (lang : Str) (patterns : AMap Str (List PatternPart)),
      (∀ name, patterns.contains name = true ↔ name ∈ known) → ∀ (n : Nat) (selectors : List (AMap Str Str)),
      docPartIn (firstly key) i E lang patterns n selectors it = .err e := by
    rintro nm ps hps rfl hc
    refine ⟨[], fun i lang patterns hk n selectors => ?_⟩
    simp only [docPartIn, docPart]
    have : docCommand E.commands (.ident nm :: ps) = .err e := by
      match ps, hps with
      | [], _ => simp only [docCommand, hc, Outcome.bind_err]
      | .ident _ :: _, _ => simp only [docCommand, hc, Outcome.bind_err]
      | .hash b :: ps, hps => exact absurd rfl (hps b ps)
    rw [this, Outcome.bind_err]
  cases h with
  | decimal id k sels key h1 h2 => exact pat id k sels rfl
  | dateTime id k sels key h1 h2 => exact pat id k sels rfl
  | category id k sels key h1 h2 h3 => exact pat id k sels rfl
  | unknown id k sels key h1 h2 h3 h4 => exact pat id k sels rfl
  | other id k sels h1 h2 h3 => exact pat id k sels rfl
  | keyword id k sels h1 => exact pat id k sels rfl
  | noCommand n ps h1 h2 =>
    refine cmd n ps h1 rfl ?_
    unfold callCommand CommandRegistry.command
    rw [h2]; rfl
  | command n ps f c h1 h2 h3 =>
    refine cmd n ps h1 rfl ?_
    unfold callCommand CommandRegistry.command
    have hm : (n.str :: ps.map Part.str).map (PValue.string (D := D) (F := F)) =
        .string n.str :: ps.map fun p => .string p.str := by simp
    rw [hm, h2]
    simp only [Outcome.okOr_some, Outcome.bind_ok, h3]
    rfl

theorem buildNamedIn_errs (E : FmtEnv D F) {known : List Str} {items : List Item} {e : FormatterError}
    (h : ItemsError E known items e) :
    ∃ key, ∀ (lang : Str) (patterns : AMap Str (List PatternPart)) (t : Tree),
      (∀ name, patterns.contains name = true ↔ name ∈ known) →
      ∀ (off : Nat) (pattern : List PatternPart) (numbers : List Str) (selectors : List (AMap Str Str)),
      Ats t.nodes off (items.map Item.rose) → (∀ it ∈ items, Resolved t.tokens it) → (∀ it ∈ items, Shaped it) →
      buildNamedIn (firstly key) E lang patterns t (offsets off (items.map Item.rose)) pattern numbers selectors = .err e := by
  obtain ⟨front, it, back, rfl, hf, he⟩ := h
  obtain ⟨key, hkey⟩ := docPartIn_errs E he
  refine ⟨key, fun lang patterns t hk => ?_⟩
  induction front with
  | nil =>
    intro off pattern numbers selectors hat hr hs
    simp only [List.nil_append, List.map_cons, offsets]
    rw [buildNamedIn_cons E (Ats.cons hat).1 (hr it (by simp)) (hs it (by simp)), hkey off lang patterns hk]
    rfl
  | cons x front ih =>
    intro off pattern numbers selectors hat hr hs
    simp only [List.cons_append, List.map_cons, offsets]
    obtain ⟨h1, h2⟩ := Ats.cons hat
    obtain ⟨r, hp⟩ := (docPartIn_ok (firstly_isOrder key) off E lang hk numbers.length selectors x (hs x (by simp))).2
      (hf x (by simp))
    rw [buildNamedIn_cons E h1 (hr x (by simp)) (hs x (by simp)), hp, Outcome.bind_ok]
    exact ih (fun y hy => hf y (by simp [hy])) _ _ _ _ h2 (fun y hy => hr y (List.mem_cons_of_mem _ hy))
      (fun y hy => hs y (List.mem_cons_of_mem _ hy))

theorem buildMainIn_errs (E : FmtEnv D F) {known : List Str} {items : List Item} {e : FormatterError}
    (h : ItemsError E known items e) :
    ∃ key, ∀ (lang : Str) (patterns : AMap Str (List PatternPart)) (t : Tree),
      (∀ name, patterns.contains name = true ↔ name ∈ known) →
      ∀ (off : Nat) (pattern : List PatternPart) (selectors : List (AMap Str Str)),
      Ats t.nodes off (items.map Item.rose) → (∀ it ∈ items, Resolved t.tokens it) → (∀ it ∈ items, Shaped it) →
      (∀ l, Item.number l ∉ items) →
      buildMainIn (firstly key) E lang patterns t (offsets off (items.map Item.rose)) pattern selectors = .err e := by
  obtain ⟨front, it, back, rfl, hf, he⟩ := h
  obtain ⟨key, hkey⟩ := docPartIn_errs E he
  refine ⟨key, fun lang patterns t hk => ?_⟩
  induction front with
  | nil =>
    intro off pattern selectors hat hr hs hnum
    simp only [List.nil_append, List.map_cons, offsets]
    rw [buildMainIn_cons E (Ats.cons hat).1 (hr it (by simp)) (hs it (by simp)) (fun l e => hnum l (by simp [e])),
      hkey off lang patterns hk]
    rfl
  | cons x front ih =>
    intro off pattern selectors hat hr hs hnum
    simp only [List.cons_append, List.map_cons, offsets]
    obtain ⟨h1, h2⟩ := Ats.cons hat
    obtain ⟨r, hp⟩ := (docPartIn_ok (firstly_isOrder key) off E lang hk 0 selectors x (hs x (by simp))).2
      (hf x (by simp))
    rw [buildMainIn_cons E h1 (hr x (by simp)) (hs x (by simp)) (fun l e => hnum l (by simp [e])), hp, Outcome.bind_ok]
    exact ih (fun y hy => hf y (by simp [hy])) _ _ _ h2 (fun y hy => hr y (List.mem_cons_of_mem _ hy))
      (fun y hy => hs y (List.mem_cons_of_mem _ hy)) (fun l hl => hnum l (List.mem_cons_of_mem _ hl))

theorem buildGroupIn_errs (E : FmtEnv D F) {known : List Str} {ns : List Named} {e : FormatterError}
    (h : GroupError E known ns e) :
    ∃ key, ∀ (lang : Str) (t : Tree) (off : Nat) (patterns : AMap Str (List PatternPart)) (numbers : List Str)
      (selectors : List (AMap Str Str)),
    Ats t.nodes off (ns.map Named.rose) →
    (∀ m ∈ ns, Has t.tokens m.id ∧ ∀ it ∈ m.items, Resolved t.tokens it) → (∀ m ∈ ns, ∀ it ∈ m.items, Shaped it) →
    (∀ name, patterns.contains name = true ↔ name ∈ known) →
    buildGroupIn (firstly key) E lang t (offsets off (ns.map Named.rose)) patterns numbers selectors = .err e := by
  have step : ∀ (o : MapOrder) (n : Named) (ns : List Named) (lang : Str) (t : Tree) (off : Nat)
      (patterns : AMap Str (List PatternPart)) (numbers : List Str) (selectors : List (AMap Str Str)),
      Ats t.nodes off ((n :: ns).map Named.rose) → Has t.tokens n.id →
      Ats t.nodes (off + n.rose.size) (ns.map Named.rose) ∧
      ∃ off', Ats t.nodes off' (n.items.map Item.rose) ∧
      buildGroupIn o E lang t (offsets off ((n :: ns).map Named.rose)) patterns numbers selectors =
        if patterns.contains n.name = true then .err (.namedStringIdentifier n.name) else (do
          let r ← buildNamedIn o E lang patterns t (offsets off' (n.items.map Item.rose)) [] numbers selectors
          buildGroupIn o E lang t (offsets (off + n.rose.size) (ns.map Named.rose)) (patterns.insert n.name r.1) r.2.1 r.2.2) := by
    intro o n ns lang t off patterns numbers selectors hat hr
    obtain ⟨h1, h2⟩ := Ats.cons hat
    obtain ⟨hkid, h3⟩ := (At.node h1).2.cons
    have hstr := h3.cons.1
    have hf : t.first off = .ok (off + 1) := by
      simp [Tree.first, children_eq h1 rfl, offsets]
    have hl : t.last off = .ok (off + 1 + (leafRose .identifier n.id).size) := by
      simp [Tree.last, children_eq h1 rfl, offsets]
    have hft : t.firstToken (off + 1) = .ok n.name := firstToken_eq hkid rfl hr
    refine ⟨h2, _, (At.node hstr).2, ?_⟩
    simp only [List.map_cons, offsets, buildGroupIn, hf, hl, hft, Outcome.bind_ok, children_eq hstr rfl]
  induction h with
  | twice known n rest hn =>
    refine ⟨[], fun lang t off patterns numbers selectors hat hr hs hk => ?_⟩
    obtain ⟨_, off', _, heq⟩ := step (firstly []) n rest lang t off patterns numbers selectors hat (hr n (by simp)).1
    rw [heq, if_pos ((hk n.name).2 hn)]
  | items known n rest e hn hi =>
    obtain ⟨key, hkey⟩ := buildNamedIn_errs E hi
    refine ⟨key, fun lang t off patterns numbers selectors hat hr hs hk => ?_⟩
    obtain ⟨_, off', hat', heq⟩ := step (firstly key) n rest lang t off patterns numbers selectors hat (hr n (by simp)).1
    rw [heq, if_neg (fun h => hn ((hk n.name).1 h)),
      hkey lang patterns t hk off' [] numbers selectors hat' (hr n (by simp)).2 (hs n (by simp))]
    rfl
  | later known n rest e hn hi _ ih =>
    obtain ⟨key, hkey⟩ := ih
    refine ⟨key, fun lang t off patterns numbers selectors hat hr hs hk => ?_⟩
    obtain ⟨h2, off', hat', heq⟩ := step (firstly key) n rest lang t off patterns numbers selectors hat (hr n (by simp)).1
    rw [heq, if_neg (fun h => hn ((hk n.name).1 h))]
    have hb := buildNamedIn_err (firstly_isOrder key) E lang hk n.items off' [] numbers selectors hat' (hr n (by simp)).2
      (hs n (by simp))
    split at hb
    · rename_i r heq2
      rw [heq2, Outcome.bind_ok]
      exact hkey lang t _ _ _ _ h2 (fun m hm => hr m (by simp [hm])) (fun m hm => hs m (by simp [hm])) (keys_insert hk _ _)
    · exact absurd hi (CrashLemmas.ItemsError.notOk hb)
    · exact absurd hi hb

/-! ### Pattern strings -/

/-- Building a formatter from the tree of a pattern string, with a grammar character. -/
theorem ofTreeIn_eq (o : MapOrder) (E : FmtEnv D F) (tag lang : Str) {d : Doc} {t : Tree} (hn : t.nodes = d.arena)
    (hg : t.hasGrammar = true) :
    ∃ off, Ats t.nodes off (d.main.map Item.rose) ∧ ∃ off', Ats t.nodes off' (d.named.map Named.rose) ∧
    Formatter.ofTreeIn o E tag (some lang) t = (do
      let r ← buildGroupIn o E lang t (offsets off' (d.named.map Named.rose)) [(mainName, [])] [] []
      let p ← buildMainIn o E lang r.1 t (offsets off (d.main.map Item.rose)) [] r.2.2
      pure ({ languageTag := tag, icuLanguage := lang, patterns := r.1.insert mainName p.1, numbers := r.2.1,
              selectors := p.2 } : Formatter)) := by
  have hroot : At t.nodes 0 d.rose := ⟨none, [], [], by simp [hn, Doc.arena], rfl⟩
  have hty : t.nodeType 0 = .ok .root := nodeType_eq hroot
  have hch := children_eq hroot rfl
  have hkids := (At.node hroot).2
  obtain ⟨hmain, hrest⟩ := hkids.cons
  have hmc := children_eq hmain rfl
  refine ⟨_, (At.node hmain).2, ?_⟩
  unfold Formatter.ofTreeIn
  simp only [hg, not_true_eq_false, if_false, Outcome.unwrap_some, Outcome.bind_ok, hty, ne_eq, hch, offsets,
    List.head?_cons, hmc]
  cases hdg : d.group with
  | none =>
    have hnamed : d.named = [] := by simp [Doc.named, hdg]
    rw [hnamed]
    refine ⟨0, ⟨0, [], t.nodes, by simp [flattens], rfl⟩, ?_⟩
    simp only [List.map_nil, offsets, buildGroupIn, Outcome.pure_eq, Outcome.bind_ok]
  | some ns =>
    have hnamed : d.named = ns := by simp [Doc.named, hdg]
    rw [hdg] at hrest
    obtain ⟨hgr, _⟩ := hrest.cons
    rw [hnamed]
    refine ⟨_, (At.node hgr).2, ?_⟩
    simp only [offsets, children_eq hgr rfl, Outcome.bind_ok]

theorem known_init : ∀ name, AMap.contains ([(mainName, [])] : AMap Str (List PatternPart)) name = true ↔ name ∈ [mainName] := by
  intro name
  simp only [AMap.contains, AMap.get, List.mem_singleton]
  by_cases h : mainName = name
  · simp [h]
  · have : ¬ name = mainName := fun h' => h h'.symm
    simp [h, this]

theorem ofTreeIn_err {o : MapOrder} (ho : IsOrder o) (E : FmtEnv D F) (tag lang : Str) {d : Doc} {t : Tree}
    (hd : Sentence d t.tokens) (hn : t.nodes = d.arena) (hg : t.hasGrammar = true) (e : FormatterError)
    (h : Formatter.ofTreeIn o E tag (some lang) t = .err e) : DocError E d e := by
  obtain ⟨hr1, hr2⟩ := sentence_resolved hd
  obtain ⟨hs1, hs2, hs3⟩ := sentence_shaped hd
  obtain ⟨off, hat, off', hat', heq⟩ := ofTreeIn_eq o E tag lang hn hg
  rw [heq] at h
  have hgr := buildGroupIn_err ho E lang d.named off' _ [] [] _ hat' hr2 hs2 known_init
  rcases bind_err.1 h with h | ⟨⟨pat', num', sel'⟩, h1, h⟩
  · rw [h] at hgr; exact .inl hgr
  · rw [h1] at hgr
    rcases bind_err.1 h with h | ⟨_, _, h⟩
    · exact .inr ⟨hgr.1, buildMainIn_err ho E lang hgr.2 e d.main _ _ _ hat hr1 hs1 hs3 h⟩
    · cases h

theorem ofTreeIn_errs (E : FmtEnv D F) (tag lang : Str) {d : Doc} {t : Tree}
    (hd : Sentence d t.tokens) (hn : t.nodes = d.arena) (hg : t.hasGrammar = true) (e : FormatterError)
    (h : DocError E d e) : ∃ o, IsOrder o ∧ Formatter.ofTreeIn o E tag (some lang) t = .err e := by
  obtain ⟨hr1, hr2⟩ := sentence_resolved hd
  obtain ⟨hs1, hs2, hs3⟩ := sentence_shaped hd
  rcases h with h | ⟨hok, h⟩
  · obtain ⟨key, hkey⟩ := buildGroupIn_errs E h
    refine ⟨firstly key, firstly_isOrder key, ?_⟩
    obtain ⟨off, hat, off', hat', heq⟩ := ofTreeIn_eq (firstly key) E tag lang hn hg
    rw [heq, hkey lang t off' _ [] [] hat' hr2 hs2 known_init]
    rfl
  · obtain ⟨key, hkey⟩ := buildMainIn_errs E h
    refine ⟨firstly key, firstly_isOrder key, ?_⟩
    obtain ⟨off, hat, off', hat', heq⟩ := ofTreeIn_eq (firstly key) E tag lang hn hg
    have hgr := buildGroupIn_err (firstly_isOrder key) E lang d.named off' _ [] [] _ hat' hr2 hs2 known_init
    rw [heq]
    split at hgr
    · rename_i pat' num' sel' h1
      rw [h1, Outcome.bind_ok, hkey lang pat' t (by simpa using hgr.2) off [] sel' hat hr1 hs1 hs3]
      rfl
    · exact absurd hok (CrashLemmas.GroupError.notOk hgr)
    · exact absurd hok hgr

end Verif.BlameOrderLemmas
