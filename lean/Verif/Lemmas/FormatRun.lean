import Verif.Lemmas.FormatRep
/-
Running the formatter agrees with the meaning of the pattern string.
-/
namespace Verif.FormatLemmas
open Verif Verif.Spec Verif.Spec.Rose

variable {D F : Type}

/-- Text put in front of a result. -/
def pre (acc : Str) : Outcome Unit Str → Outcome Unit Str
  | .ok s => .ok (acc ++ s)
  | .err e => .err e
  | .panic => .panic

/-- A run `x` of the formatter gives what is meant, `y`, after the text `acc`. -/
def Sim (acc : Str) (owners : List Str) (x : FmtRes) (y : Res) : Prop :=
  ∃ o o', x = (some o, owners.map y.2) ∧ y.1 = some o' ∧ forget o = pre acc o'

/-- Agreement unless one side does not end: the meaning if `b`, otherwise the run. -/
def G (b : Bool) (acc : Str) (owners : List Str) (x : FmtRes) (y : Res) : Prop :=
  Sim acc owners x y ∨ (if b then y.1 = none else x.1 = none)

theorem pre_nil (o : Outcome Unit Str) : pre [] o = o := by cases o <;> rfl

theorem Sim.mk' {owners : List Str} {o : FmtM Str} {o' : Outcome Unit Str} {st : Store} (h : forget o = o') :
    Sim [] owners (some o, owners.map st) (some o', st) := ⟨o, o', rfl, rfl, by rw [pre_nil]; exact h⟩

theorem updateNumbers_spec (v : Str) (parts : List PatternPart) : ∀ numbers : List Str,
    (∀ i, .numberSign i ∈ parts → i < numbers.length) →
    ∃ numbers', updateNumbers v parts numbers = (.ok (), numbers') ∧ numbers'.length = numbers.length ∧
      ∀ i, i < numbers.length → numbers'[i]? = if .numberSign i ∈ parts then some v else numbers[i]? := by
  induction parts with
  | nil => intro numbers _; exact ⟨numbers, rfl, rfl, by simp⟩
  | cons p parts ih =>
    intro numbers h
    by_cases hp : ∃ j, p = .numberSign j
    · obtain ⟨j, rfl⟩ := hp
      have hj : j < numbers.length := h j (by simp)
      obtain ⟨n', h1, h2, h3⟩ := ih (numbers.set j v) (fun i hi => by simpa using h i (by simp [hi]))
      refine ⟨n', by simp only [updateNumbers, hj, if_true, h1], by simpa using h2, ?_⟩
      intro i hi
      rw [h3 i (by simpa using hi)]
      simp only [List.mem_cons, PatternPart.numberSign.injEq]
      by_cases hm : .numberSign i ∈ parts
      · simp [hm]
      · by_cases hij : i = j
        · subst hij; simp [hi]
        · have : j ≠ i := fun e => hij e.symm
          simp [hm, hij, this]
    · obtain ⟨n', h1, h2, h3⟩ := ih numbers (fun i hi => h i (by simp [hi]))
      refine ⟨n', ?_, h2, ?_⟩
      · rw [← h1]
        cases p <;> first | rfl | exact absurd ⟨_, rfl⟩ hp
      · intro i hi
        rw [h3 i hi]
        have : PatternPart.numberSign i ≠ p := fun e => hp ⟨i, e.symm⟩
        simp only [List.mem_cons, this, false_or]

theorem updateNumbers_put (v name : Str) (parts : List PatternPart) (owners : List Str) (st : Store)
    (h : ∀ i, .numberSign i ∈ parts ↔ owners[i]? = some name) :
    updateNumbers v parts (owners.map st) = (.ok (), owners.map (st.put name v)) := by
  obtain ⟨n', h1, h2, h3⟩ := updateNumbers_spec v parts (owners.map st) (fun i hi => by
    have := (List.getElem?_eq_some_iff.1 ((h i).1 hi)).1
    simpa using this)
  rw [h1]
  congr 1
  apply List.ext_getElem?
  intro i
  by_cases hi : i < owners.length
  · rw [h3 i (by simpa using hi)]
    by_cases ho : owners[i]? = some name
    · simp [(h i).2 ho, ho, Store.put]
    · have : ¬ PatternPart.numberSign i ∈ parts := fun hm => ho ((h i).1 hm)
      simp only [this, if_false, List.getElem?_map]
      cases hoi : owners[i]? with
      | none => rfl
      | some o =>
        have : o ≠ name := by rintro rfl; exact ho hoi
        simp [Store.put, this]
  · rw [List.getElem?_eq_none (by simp [h2]; omega), List.getElem?_eq_none (by simp; omega)]

/-- What is known of the strings an item may refer to. -/
structure Refs (E : FmtEnv D F) (f : Formatter) (owners : List Str) (b : Bool) (rec : Str → List Str → FmtRes)
    (sub : Str → Store → Res) (names : List Str) : Prop where
  stored : ∀ name ∈ names, name ≠ mainName ∧ ∃ parts, f.patterns.get name = some parts ∧
    ∀ i, .numberSign i ∈ parts ↔ owners[i]? = some name
  sim : ∀ name ∈ names, ∀ st, G b [] owners (rec name (owners.map st)) (sub name st)
  main : b = true ∨ ∀ st : Store, (rec mainName (owners.map st)).1 = none

theorem formatPlural_sim {E : FmtEnv D F} {f : Formatter} {owners : List Str} {b : Bool}
    {rec : Str → List Str → FmtRes} {sub : Str → Store → Res} {names : List Str}
    (hr : Refs E f owners b rec sub names) (rules : Except FormatterError (D → PluralCategory))
    {number : Option (FmtM D)} {number' : Option D} (hn : NumberIs number number') (what : Str) {sels : List (Leaf × Leaf)} {i : Nat}
    {m : AMap Str Str} (hi : f.selectors[i]? = some m) (hm : SelRep sels m)
    (hk : ∀ key ∈ keysOf sels, IsCategory key ∧ key ∈ mainName :: names) (st : Store) :
    G b [] owners (formatPlural E.icu4x f rec rules number what i (owners.map st))
      (evalPlural E.icu4x f.icuLanguage rules number' (keysOf sels) sub st) := by
  unfold formatPlural evalPlural
  match rules with
  | .error e => exact Or.inl (Sim.mk' rfl)
  | .ok category =>
    match number', hn with
    | none, hn => rcases hn with rfl | ⟨e, rfl⟩ <;> exact Or.inl (Sim.mk' rfl)
    | some d, hn =>
      simp only [NumberIs] at hn
      subst hn
      simp only [findNumberSign]
      cases hx : E.icu4x.decimal f.icuLanguage none with
      | error e => exact Or.inl (Sim.mk' rfl)
      | ok fdf =>
        simp only [hi, pluralCategory_eq, hm (categoryName (category d))]
        by_cases hc : categoryName (category d) ∈ keysOf sels
        · simp only [hc, if_true]
          obtain ⟨hv, hkn⟩ := hk _ hc
          have hne : categoryName (category d) ≠ mainName := fun e => mainName_not_category (e ▸ hv)
          have hin : categoryName (category d) ∈ names := by
            rcases List.mem_cons.1 hkn with e | h
            · exact absurd e hne
            · exact h
          obtain ⟨_, parts, hg, hns⟩ := hr.stored _ hin
          simp only [hg, updateNumbers_put _ _ parts owners st hns]
          exact hr.sim _ hin _
        · simp only [hc, if_false]
          exact Or.inl (Sim.mk' rfl)

theorem formatPart_sim {E : FmtEnv D F} {f : Formatter} {owners : List Str} {b : Bool}
    {rec : Str → List Str → FmtRes} {sub : Str → Store → Res} {names : List Str}
    (hr : Refs E f owners b rec sub names) (values : AMap Str (PValue D F)) {self : Str} {it : Item} {p : PatternPart}
    (hc : CItem E owners f.selectors self it p) (hok : ItemOk E (mainName :: names) it) (st : Store) :
    G b [] owners (formatPart E f values rec p (owners.map st)) (evalItem E f.icuLanguage values self sub it st) := by
  cases hc with
  | text toks => exact Or.inl (Sim.mk' rfl)
  | number l i h =>
    simp only [formatPart, evalItem, List.getElem?_map, h, Option.map_some]
    exact Or.inl (Sim.mk' rfl)
  | string id =>
    simp only [formatPart, evalItem]
    cases values.get id.str with
    | none => exact Or.inl (Sim.mk' rfl)
    | some v =>
      simp only [Option.bind_some, toText_eq]
      cases textOf v with
      | none => exact Or.inl (Sim.mk' rfl)
      | some s => exact Or.inl (Sim.mk' rfl)
  | decimal id k h =>
    simp only [formatPart, evalItem, h, if_true]
    cases values.get id.str with
    | none => exact Or.inl (Sim.mk' rfl)
    | some v => exact Or.inl (Sim.mk' (formatDecimal_eq _ _ _))
  | dateTime id k h =>
    have : ¬ ("date_time".toList = "decimal".toList) := by decide
    simp only [formatPart, evalItem, h, if_true, this, if_false]
    cases values.get id.str with
    | none => exact Or.inl (Sim.mk' rfl)
    | some v => exact Or.inl (Sim.mk' (formatDateTime_eq _ _ _))
  | complex id k ss ct i m h hi hm =>
    simp only [formatPart, evalItem]
    cases values.get id.str with
    | none => exact Or.inl (Sim.mk' rfl)
    | some v =>
      simp only
      rcases h with ⟨hk, rfl⟩ | ⟨hk, rfl⟩ | ⟨hk, rfl⟩
      · have h1 : ¬ ("ordinal".toList = "decimal".toList) := by decide
        have h2 : ¬ ("ordinal".toList = "date_time".toList) := by decide
        have h3 : ¬ ("ordinal".toList = "select".toList) := by decide
        simp only [hk, h1, h2, if_true, if_false]
        simp only [ItemOk, hk, h1, h2, h3, or_self, false_and, false_or, true_or, true_and, or_false] at hok
        exact formatPlural_sim hr _ (toOrdinal_is _ _) _ hi hm hok.1 st
      · have h1 : ¬ ("plural".toList = "decimal".toList) := by decide
        have h2 : ¬ ("plural".toList = "date_time".toList) := by decide
        have h3 : ¬ ("plural".toList = "select".toList) := by decide
        have h4 : ¬ ("plural".toList = "ordinal".toList) := by decide
        simp only [hk, h1, h2, h4, if_true, if_false]
        simp only [ItemOk, hk, h1, h2, h3, h4, or_self, false_and, false_or, or_true, true_and, or_false] at hok
        exact formatPlural_sim hr _ (toDecimal_is _ _) _ hi hm hok.1 st
      · have h1 : ¬ ("select".toList = "decimal".toList) := by decide
        have h2 : ¬ ("select".toList = "date_time".toList) := by decide
        have h3 : ¬ ("select".toList = "plural".toList) := by decide
        have h4 : ¬ ("select".toList = "ordinal".toList) := by decide
        simp only [hk, h1, h2, h3, h4, if_false]
        simp only [ItemOk, hk, h1, h2, h3, h4, or_self, false_and, false_or, true_and] at hok
        rw [toText_eq]
        cases ht : textOf v with
        | none => exact Or.inl (Sim.mk' rfl)
        | some s =>
          simp only [evalSelect, selectString, hi, hm s]
          by_cases hs : s ∈ keysOf ss
          · have hs' : s ∈ ss.map (fun s => s.1.str) := hs
            simp only [hs, hs', if_true]
            by_cases hmn : s = mainName
            · subst hmn
              simp only [if_true]
              rcases hr.main with hb | hb
              · subst hb
                exact Or.inr rfl
              · cases b with
                | true => exact Or.inr rfl
                | false => exact Or.inr (hb st)
            · simp only [hmn, if_false]
              have := hok s hs
              rcases List.mem_cons.1 this with e | h
              · exact absurd e hmn
              · exact hr.sim s h st
          · have hs' : ¬ s ∈ ss.map (fun s => s.1.str) := hs
            simp only [hs, hs', if_false]
            exact Or.inl (Sim.mk' rfl)
  | delayed n h ps =>
    simp only [formatPart, evalItem]
    refine Or.inl (Sim.mk' ?_)
    rw [callCommand_forget]
    simp only [List.map_map, Function.comp_def, commandValue_eq]
  | now n ps s h1 h2 =>
    have he : evalItem E f.icuLanguage values self sub (.cmd (.ident n :: ps)) st = (some (.ok s), st) := by
      rw [← h2]
      cases ps with
      | nil => rfl
      | cons p ps =>
        cases p with
        | ident l => rfl
        | hash l => exact absurd rfl (h1 l ps)
    rw [he]
    exact Or.inl (Sim.mk' rfl)

theorem formatParts_sim {E : FmtEnv D F} {f : Formatter} {owners : List Str} {b : Bool}
    {rec : Str → List Str → FmtRes} {sub : Str → Store → Res} {names : List Str}
    (hr : Refs E f owners b rec sub names) (values : AMap Str (PValue D F)) {self : Str} {items : List Item}
    {parts : List PatternPart} (hz : Zip (CItem E owners f.selectors self) items parts)
    (hok : AllOk E (mainName :: names) items) : ∀ (acc : Str) (st : Store),
    G b acc owners (formatParts E f values rec parts acc (owners.map st))
      (evalItems E f.icuLanguage values self sub items st) := by
  induction hz with
  | nil =>
    intro acc st
    exact Or.inl ⟨.ok acc, .ok [], rfl, rfl, by simp [pre, forget, Outcome.mapErr]⟩
  | @cons it p items parts hc _ ih =>
    intro acc st
    obtain ⟨hok1, hok2⟩ := allOk_cons.1 hok
    simp only [formatParts, evalItems]
    rcases formatPart_sim hr values hc hok1 st with ⟨o, o', hx, hy, ho⟩ | hbad
    · rw [pre_nil] at ho
      rw [hx]
      generalize evalItem E f.icuLanguage values self sub it st = y at hy
      obtain ⟨y1, st'⟩ := y
      simp only at hy
      subst hy
      subst ho
      cases o with
      | ok s =>
        simp only [forget, Outcome.mapErr]
        rcases ih hok2 (acc ++ s) st' with ⟨q, q', hqx, hqy, hq⟩ | hbad
        · rw [hqx]
          generalize evalItems E f.icuLanguage values self sub items st' = z at hqy
          obtain ⟨z1, st''⟩ := z
          simp only at hqy
          subst hqy
          cases q' with
          | ok s' => exact Or.inl ⟨q, .ok (s ++ s'), rfl, rfl, by rw [hq]; simp [pre]⟩
          | err e => exact Or.inl ⟨q, .err e, rfl, rfl, hq⟩
          | panic => exact Or.inl ⟨q, .panic, rfl, rfl, hq⟩
        · right
          cases b with
          | true =>
            simp only [if_true] at hbad ⊢
            generalize evalItems E f.icuLanguage values self sub items st' = z at hbad
            obtain ⟨z1, st''⟩ := z
            simp only at hbad
            subst hbad
            rfl
          | false => exact hbad
      | err e => exact Or.inl ⟨.err e, .err (), rfl, rfl, rfl⟩
      | panic => exact Or.inl ⟨.panic, .panic, rfl, rfl, rfl⟩
    · right
      cases b with
      | true =>
        simp only [if_true] at hbad ⊢
        generalize evalItem E f.icuLanguage values self sub it st = y at hbad
        obtain ⟨y1, st'⟩ := y
        simp only at hbad
        subst hbad
        rfl
      | false =>
        simp only [Bool.false_eq_true, if_false] at hbad ⊢
        generalize formatPart E f values rec p (owners.map st) = y at hbad
        obtain ⟨y1, st'⟩ := y
        simp only at hbad
        subst hbad
        rfl

/-- The named strings, latest first, as stored and with what they may refer to. -/
inductive Chain (E : FmtEnv D F) (f : Formatter) (owners : List Str) : List Named → Prop
  | nil : Chain E f owners []
  | cons {n before} : NamedRep E f.patterns owners f.selectors n → n.name ∉ mainName :: before.map Named.name →
      AllOk E (mainName :: before.map Named.name) n.items → Chain E f owners before → Chain E f owners (n :: before)

theorem itemOk_congr {E : FmtEnv D F} {k1 k2 : List Str} (h : ∀ x, x ∈ k1 ↔ x ∈ k2) {it : Item}
    (hok : ItemOk E k1 it) : ItemOk E k2 it := by
  match it with
  | .text _ => trivial
  | .number _ => trivial
  | .pat _ none => trivial
  | .pat _ (some (k, sels)) =>
    simp only [ItemOk] at hok ⊢
    rcases hok with h1 | ⟨h1, h2, h3⟩ | ⟨h1, h2⟩
    · exact Or.inl h1
    · exact Or.inr (Or.inl ⟨h1, fun key hk => ⟨(h2 key hk).1, (h key).1 (h2 key hk).2⟩, h3⟩)
    · exact Or.inr (Or.inr ⟨h1, fun key hk => (h key).1 (h2 key hk)⟩)
  | .cmd parts =>
    unfold ItemOk at hok ⊢
    exact hok

/-- More names may be selected. -/
theorem itemOk_mono {E : FmtEnv D F} {k1 k2 : List Str} (h : ∀ x, x ∈ k1 → x ∈ k2) {it : Item}
    (hok : ItemOk E k1 it) : ItemOk E k2 it := by
  match it with
  | .text _ => trivial
  | .number _ => trivial
  | .pat _ none => trivial
  | .pat _ (some (k, sels)) =>
    simp only [ItemOk] at hok ⊢
    rcases hok with h1 | ⟨h1, h2, h3⟩ | ⟨h1, h2⟩
    · exact Or.inl h1
    · exact Or.inr (Or.inl ⟨h1, fun key hk => ⟨(h2 key hk).1, h key (h2 key hk).2⟩, h3⟩)
    · exact Or.inr (Or.inr ⟨h1, fun key hk => h key (h2 key hk)⟩)
  | .cmd parts =>
    unfold ItemOk at hok ⊢
    exact hok

theorem chain_of_group {E : FmtEnv D F} {f : Formatter} {owners : List Str} (ns : List Named) :
    ∀ (before : List Named) (known : List Str), Chain E f owners before →
    (∀ x, x ∈ known ↔ x ∈ mainName :: before.map Named.name) → GroupOk E known ns →
    (∀ n ∈ ns, NamedRep E f.patterns owners f.selectors n) → Chain E f owners (ns.reverse ++ before) := by
  induction ns with
  | nil => intro before _ hc _ _ _; exact hc
  | cons n ns ih =>
    intro before known hc hk hg hr
    have := ih (n :: before) (known ++ [n.name]) (.cons (hr n (by simp)) (fun h => hg.1 ((hk _).2 h))
      (fun it hit => itemOk_congr hk (hg.2.1 it hit)) hc) (by
        intro x
        simp only [List.mem_append, hk, List.mem_cons, List.map_cons, List.not_mem_nil, or_false]
        constructor
        · rintro ((h | h) | h) <;> simp [h]
        · rintro (h | h | h) <;> simp [h]) hg.2.2 (fun m hm => hr m (by simp [hm]))
    simpa using this

theorem Rep.chain {E : FmtEnv D F} {d : Doc} {f : Formatter} {owners : List Str} (h : Rep E d f owners) :
    Chain E f owners d.named.reverse := by
  have := chain_of_group d.named [] [mainName] (.nil : Chain E f owners []) (by simp) h.ok.1 h.named
  simpa using this

/-- Named strings: deep enough runs end if the meaning does. -/
theorem chain_complete {E : FmtEnv D F} {f : Formatter} {owners : List Str} (values : AMap Str (PValue D F))
    {L : List Named} (h : Chain E f owners L) : ∀ depth, L.length ≤ depth →
    Refs E f owners true (formatPattern E f values depth) (evalNamed E f.icuLanguage values L) (L.map Named.name) := by
  induction h with
  | nil => intro depth _; exact ⟨by simp, by simp, Or.inl rfl⟩
  | @cons n before hrep hnew hok _ ih =>
    intro depth hd
    cases depth with
    | zero => simp at hd
    | succ depth =>
      have ihd := ih depth (by simpa using hd)
      have ihd' := ih (depth + 1) (by simp at hd; omega)
      obtain ⟨parts, hg, hz, hns⟩ := hrep
      refine ⟨?_, ?_, Or.inl rfl⟩
      · intro name hname
        simp only [List.map_cons, List.mem_cons] at hname
        rcases hname with rfl | hname
        · exact ⟨fun e => hnew (by simp [e]), parts, hg, hns⟩
        · exact ihd.stored name hname
      · intro name hname st
        simp only [List.map_cons, List.mem_cons] at hname
        by_cases he : n.name = name
        · subst he
          simp only [formatPattern, hg, evalNamed, if_true]
          exact formatParts_sim ihd values hz hok [] st
        · simp only [evalNamed, he, if_false]
          rcases hname with e | hname
          · exact absurd e.symm he
          · exact ihd'.sim name hname st

/-- Named strings: runs that end give the meaning, provided the main string never ends. -/
theorem chain_sound {E : FmtEnv D F} {f : Formatter} {owners : List Str} (values : AMap Str (PValue D F))
    (depth : Nat) (hmain : ∀ depth', depth' ≤ depth → ∀ st : Store,
      (formatPattern E f values depth' mainName (owners.map st)).1 = none)
    {L : List Named} (h : Chain E f owners L) : ∀ depth', depth' ≤ depth →
    Refs E f owners false (formatPattern E f values depth') (evalNamed E f.icuLanguage values L) (L.map Named.name) := by
  induction h with
  | nil => intro depth' hd; exact ⟨by simp, by simp, Or.inr (hmain depth' hd)⟩
  | @cons n before hrep hnew hok _ ih =>
    intro depth' hd
    obtain ⟨parts, hg, hz, hns⟩ := hrep
    refine ⟨?_, ?_, Or.inr (hmain depth' hd)⟩
    · intro name hname
      simp only [List.map_cons, List.mem_cons] at hname
      rcases hname with rfl | hname
      · exact ⟨fun e => hnew (by simp [e]), parts, hg, hns⟩
      · exact (ih depth' hd).stored name hname
    · intro name hname st
      simp only [List.map_cons, List.mem_cons] at hname
      by_cases he : n.name = name
      · subst he
        cases depth' with
        | zero => exact Or.inr rfl
        | succ depth' =>
          simp only [formatPattern, hg, evalNamed, if_true]
          exact formatParts_sim (ih depth' (by omega)) values hz hok [] st
      · simp only [evalNamed, he, if_false]
        rcases hname with e | hname
        · exact absurd e.symm he
        · exact (ih depth' hd).sim name hname st

/-! ### Whether formatting ends does not depend on the numbers -/

/-- Results of the same kind. -/
def SameKind : Option (Outcome Unit Str) → Option (Outcome Unit Str) → Prop
  | none, none => True
  | some (.ok _), some (.ok _) => True
  | some (.err _), some (.err _) => True
  | some .panic, some .panic => True
  | _, _ => False

theorem SameKind.refl (x : Option (Outcome Unit Str)) : SameKind x x := by
  match x with
  | none => trivial
  | some (.ok _) => trivial
  | some (.err _) => trivial
  | some .panic => trivial

theorem evalItem_kind (E : FmtEnv D F) (lang : Str) (values : AMap Str (PValue D F)) (self : Str)
    (sub : Str → Store → Res) (hs : ∀ name st st', SameKind (sub name st).1 (sub name st').1) (it : Item)
    (st st' : Store) :
    SameKind (evalItem E lang values self sub it st).1 (evalItem E lang values self sub it st').1 := by
  match it with
  | .text _ => trivial
  | .number _ => trivial
  | .pat id none =>
    simp only [evalItem]
    cases (values.get id.str).bind textOf <;> trivial
  | .pat id (some (k, sels)) =>
    simp only [evalItem]
    cases values.get id.str with
    | none => trivial
    | some v =>
      simp only
      have hp : ∀ rules number keys, SameKind (evalPlural E.icu4x lang rules number keys sub st).1
          (evalPlural E.icu4x lang rules number keys sub st').1 := by
        intro rules number keys
        unfold evalPlural
        split
        · simp only
          split
          · exact hs _ _ _
          · trivial
        · trivial
      repeat' split
      · exact SameKind.refl _
      · exact SameKind.refl _
      · exact hp _ _ _
      · exact hp _ _ _
      · unfold evalSelect
        cases textOf v with
        | none => trivial
        | some s =>
          simp only
          repeat' split
          · trivial
          · exact hs _ _ _
          · trivial
  | .cmd parts =>
    simp only [evalItem]
    split <;> exact SameKind.refl _

theorem evalItems_kind (E : FmtEnv D F) (lang : Str) (values : AMap Str (PValue D F)) (self : Str)
    (sub : Str → Store → Res) (hs : ∀ name st st', SameKind (sub name st).1 (sub name st').1) (items : List Item) :
    ∀ st st', SameKind (evalItems E lang values self sub items st).1 (evalItems E lang values self sub items st').1 := by
  induction items with
  | nil => intro st st'; trivial
  | cons it items ih =>
    intro st st'
    have h := evalItem_kind E lang values self sub hs it st st'
    simp only [evalItems]
    generalize evalItem E lang values self sub it st = x at h
    generalize evalItem E lang values self sub it st' = y at h
    match x, y, h with
    | (none, _), (none, _), _ => trivial
    | (some (.err _), _), (some (.err _), _), _ => trivial
    | (some .panic, _), (some .panic, _), _ => trivial
    | (some (.ok s), s1), (some (.ok s'), s2), _ =>
      simp only
      have h := ih s1 s2
      generalize evalItems E lang values self sub items s1 = x at h
      generalize evalItems E lang values self sub items s2 = y at h
      match x, y, h with
      | (none, _), (none, _), _ => trivial
      | (some (.err _), _), (some (.err _), _), _ => trivial
      | (some .panic, _), (some .panic, _), _ => trivial
      | (some (.ok _), _), (some (.ok _), _), _ => trivial

theorem evalNamed_kind (E : FmtEnv D F) (lang : Str) (values : AMap Str (PValue D F)) (L : List Named) :
    ∀ name st st', SameKind (evalNamed E lang values L name st).1 (evalNamed E lang values L name st').1 := by
  induction L with
  | nil => intro _ _ _; trivial
  | cons n L ih =>
    intro name st st'
    simp only [evalNamed]
    split
    · exact evalItems_kind E lang values _ _ ih _ _ _
    · exact ih _ _ _

theorem doc_kind (E : FmtEnv D F) (lang : Str) (values : AMap Str (PValue D F)) (d : Doc) (st st' : Store) :
    SameKind (d.eval E lang values st).1 (d.eval E lang values st').1 :=
  evalItems_kind E lang values _ _ (evalNamed_kind E lang values _) _ _ _

theorem doc_none (E : FmtEnv D F) (lang : Str) (values : AMap Str (PValue D F)) (d : Doc) (st st' : Store)
    (h : (d.eval E lang values st).1 = none) : (d.eval E lang values st').1 = none := by
  have := doc_kind E lang values d st st'
  rw [h] at this
  match h' : (d.eval E lang values st').1, this with
  | none, _ => rfl

/-! ### The main string -/

theorem Rep.main_complete {E : FmtEnv D F} {d : Doc} {f : Formatter} {owners : List Str} (h : Rep E d f owners)
    (values : AMap Str (PValue D F)) (st : Store) :
    G true [] owners (formatPattern E f values (f.patterns.length + 1) mainName (owners.map st))
      (d.eval E f.icuLanguage values st) := by
  obtain ⟨parts, hg, hz⟩ := h.main
  have hr := chain_complete values h.chain f.patterns.length (by simp [h.len])
  simp only [formatPattern, hg, Doc.eval]
  refine formatParts_sim hr values hz ?_ [] st
  intro it hit
  refine itemOk_congr ?_ (h.ok.2 it hit)
  simp

theorem Rep.main_none {E : FmtEnv D F} {d : Doc} {f : Formatter} {owners : List Str} (h : Rep E d f owners)
    (values : AMap Str (PValue D F)) (hn : ∀ st, (d.eval E f.icuLanguage values st).1 = none) (depth : Nat) :
    ∀ depth', depth' ≤ depth → ∀ st : Store, (formatPattern E f values depth' mainName (owners.map st)).1 = none := by
  induction depth with
  | zero => intro depth' hd st; obtain rfl : depth' = 0 := by omega
            rfl
  | succ depth ih =>
    intro depth' hd st
    by_cases hd' : depth' ≤ depth
    · exact ih depth' hd' st
    · obtain rfl : depth' = depth + 1 := by omega
      obtain ⟨parts, hg, hz⟩ := h.main
      have hr := chain_sound values depth ih h.chain depth (Nat.le_refl _)
      have := formatParts_sim hr values hz (fun it hit => itemOk_congr (by simp) (h.ok.2 it hit)) [] st
      simp only [formatPattern, hg]
      rcases this with ⟨o, o', _, hy, _⟩ | hbad
      · have := hn st
        rw [Doc.eval, hy] at this
        cases this
      · exact hbad

/-- A call of `format` gives the meaning of the pattern string; afterwards the numbers are as they should be. -/
theorem Rep.format_eq {E : FmtEnv D F} {d : Doc} {f : Formatter} {owners : List Str} (h : Rep E d f owners)
    (values : AMap Str (PValue D F)) (st : Store) (hst : f.numbers = owners.map st) :
    match d.eval E f.icuLanguage values st with
    | (some o, st') => forget (f.format E values).1 = (do let s ← o; pure (s, f.languageTag)) ∧
        (f.format E values).2 = { f with numbers := owners.map st' }
    | (none, _) => (f.format E values).1 = .panic ∧ ∃ numbers, (f.format E values).2 = { f with numbers := numbers } ∧
        ∀ depth, (formatPattern E f values depth mainName f.numbers).1 = none := by
  by_cases hn : (d.eval E f.icuLanguage values st).1 = none
  · have hall := h.main_none values (fun st' => doc_none E _ values d st st' hn)
    generalize d.eval E f.icuLanguage values st = y at hn ⊢
    obtain ⟨y1, st'⟩ := y
    simp only at hn
    subst hn
    simp only
    have h1 := hall _ (f.patterns.length + 1) (Nat.le_refl _) st
    rw [← hst] at h1
    unfold Formatter.format
    generalize hx : formatPattern E f values (f.patterns.length + 1) mainName f.numbers = x at h1
    obtain ⟨x1, x2⟩ := x
    simp only at h1
    subst h1
    exact ⟨rfl, x2, rfl, fun depth => by rw [hst]; exact hall depth depth (Nat.le_refl _) st⟩
  · rcases h.main_complete values st with ⟨o, o', hx, hy, ho⟩ | hbad
    · rw [← hst] at hx
      generalize d.eval E f.icuLanguage values st = y at hx hy ⊢
      obtain ⟨y1, st'⟩ := y
      simp only at hy
      subst hy
      rw [pre_nil] at ho
      subst ho
      unfold Formatter.format
      simp only [hx]
      refine ⟨?_, trivial⟩
      cases o <;> rfl
    · exact absurd hbad hn

end Verif.FormatLemmas
