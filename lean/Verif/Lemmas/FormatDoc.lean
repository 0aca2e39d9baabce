import Verif.Lemmas.FormatRun
import Verif.Spec.Documented
/-
Relations between the variants of the meaning of pattern strings.
-/
namespace Verif.FormatLemmas
open Verif Verif.Spec

variable {D F : Type}

theorem pairs_fst (sels : List (Leaf × Leaf)) : (pairs sels).map Prod.fst = keysOf sels := by
  simp [pairs, keysOf]

/-- Named strings, latest first, refer to earlier ones only. -/
inductive Ordered (E : FmtEnv D F) : List Named → Prop
  | nil : Ordered E []
  | cons {n before} : n.name ∉ mainName :: before.map Named.name →
      AllOk E (mainName :: before.map Named.name) n.items → Ordered E before → Ordered E (n :: before)

theorem ordered_of_group {E : FmtEnv D F} (ns : List Named) :
    ∀ (before : List Named) (known : List Str), Ordered E before →
    (∀ x, x ∈ known ↔ x ∈ mainName :: before.map Named.name) → GroupOk E known ns → Ordered E (ns.reverse ++ before) := by
  induction ns with
  | nil => intro before _ hc _ _; exact hc
  | cons n ns ih =>
    intro before known hc hk hg
    have := ih (n :: before) (known ++ [n.name]) (.cons (fun h => hg.1 ((hk _).2 h))
      (fun it hit => itemOk_congr hk (hg.2.1 it hit)) hc) (by
        intro x
        simp only [List.mem_append, hk, List.mem_cons, List.map_cons, List.not_mem_nil, or_false]
        constructor
        · rintro ((h | h) | h) <;> simp [h]
        · rintro (h | h | h) <;> simp [h]) hg.2.2
    simpa using this

theorem ordered_doc {E : FmtEnv D F} {d : Doc} (h : DocOk E d) : Ordered E d.named.reverse := by
  have := ordered_of_group d.named [] [mainName] (.nil : Ordered E []) (by simp) h.1
  simpa using this

theorem docOk_main {E : FmtEnv D F} {d : Doc} (h : DocOk E d) :
    AllOk E (mainName :: d.named.reverse.map Named.name) d.main :=
  fun it hit => itemOk_congr (by simp) (h.2 it hit)

/-- The selectors of an accepted plural, ordinal or select pattern. -/
theorem ItemOk.keyword {E : FmtEnv D F} {names : List Str} {id k sels}
    (h : ItemOk E (mainName :: names) (.pat id (some (k, sels)))) :
    (k.str = "decimal".toList ∧ sels = []) ∨ (k.str = "date_time".toList ∧ sels = []) ∨
    ((k.str = "ordinal".toList ∨ k.str = "plural".toList) ∧ "other".toList ∈ keysOf sels ∧ ∀ key ∈ keysOf sels, key ∈ names) ∨
    (k.str = "select".toList ∧ ∀ key ∈ keysOf sels, key = mainName ∨ key ∈ names) := by
  simp only [ItemOk] at h
  rcases h with ⟨h1 | h1, h2⟩ | ⟨h1, h2, h3⟩ | ⟨h1, h2⟩
  · exact Or.inl ⟨h1, h2⟩
  · exact Or.inr (Or.inl ⟨h1, h2⟩)
  · refine Or.inr (Or.inr (Or.inl ⟨h1, h3, fun key hk => ?_⟩))
    obtain ⟨hv, hm⟩ := h2 key hk
    rcases List.mem_cons.1 hm with e | hm
    · exact absurd (e ▸ hv) mainName_not_category
    · exact hm
  · exact Or.inr (Or.inr (Or.inr ⟨h1, fun key hk => List.mem_cons.1 (h2 key hk)⟩))

theorem kw_ne : ¬ ("date_time".toList = "decimal".toList) ∧ ¬ ("ordinal".toList = "decimal".toList) ∧
    ¬ ("ordinal".toList = "date_time".toList) ∧ ¬ ("plural".toList = "decimal".toList) ∧
    ¬ ("plural".toList = "date_time".toList) ∧ ¬ ("plural".toList = "ordinal".toList) ∧
    ¬ ("select".toList = "decimal".toList) ∧ ¬ ("select".toList = "date_time".toList) ∧
    ¬ ("select".toList = "ordinal".toList) ∧ ¬ ("select".toList = "plural".toList) := by decide

/-! ### Numbers of other strings are kept -/

theorem evalPlural_keep {X : Icu4x D F} {lang rules number keys} {sub : Str → Store → Res} {st : Store} {x : Str}
    (hs : ∀ name st, (sub name st).2 x = st x) (hx : x ∉ keys) :
    (evalPlural X lang rules number keys sub st).2 x = st x := by
  unfold evalPlural
  split
  · simp only
    split
    · rename_i h
      rw [hs]
      have : x ≠ _ := fun e => hx (e ▸ h)
      simp only [Store.put, this, if_false]
    · rfl
  · rfl

theorem evalItem_keep {E : FmtEnv D F} {lang : Str} {values self names} {sub : Str → Store → Res} {x : Str}
    (hs : ∀ name st, (sub name st).2 x = st x) (hx : x ∉ names) {it : Item} (hok : ItemOk E (mainName :: names) it)
    (st : Store) : (evalItem E lang values self sub it st).2 x = st x := by
  match it with
  | .text _ => rfl
  | .number _ => rfl
  | .pat id none =>
    simp only [evalItem]
    cases (values.get id.str).bind textOf <;> rfl
  | .pat id (some (k, sels)) =>
    simp only [evalItem]
    obtain ⟨e1, e2, e3, e4, e5, e6, e7, e8, e9, e10⟩ := kw_ne
    cases values.get id.str with
    | none => rfl
    | some v =>
      simp only
      rcases ItemOk.keyword hok with ⟨hk, _⟩ | ⟨hk, _⟩ | ⟨hk, _, hn⟩ | ⟨hk, hn⟩
      · simp only [hk, if_true]
      · simp only [hk, e1, if_true, if_false]
      · have hxk : x ∉ keysOf sels := fun h => hx (hn x h)
        rcases hk with hk | hk
        · simp only [hk, e2, e3, if_true, if_false]
          exact evalPlural_keep hs hxk
        · simp only [hk, e4, e5, e6, if_true, if_false]
          exact evalPlural_keep hs hxk
      · simp only [hk, e7, e8, e9, e10, if_false]
        unfold evalSelect
        cases textOf v with
        | none => rfl
        | some s =>
          simp only
          repeat' split
          · rfl
          · exact hs _ _
          · rfl
  | .cmd parts =>
    simp only [evalItem]
    split <;> rfl

theorem evalItems_keep {E : FmtEnv D F} {lang : Str} {values self names} {sub : Str → Store → Res} {x : Str}
    (hs : ∀ name st, (sub name st).2 x = st x) (hx : x ∉ names) (items : List Item)
    (hok : AllOk E (mainName :: names) items) :
    ∀ st, (evalItems E lang values self sub items st).2 x = st x := by
  induction items with
  | nil => intro st; rfl
  | cons it items ih =>
    intro st
    obtain ⟨h1, h2⟩ := allOk_cons.1 hok
    have h := evalItem_keep (lang := lang) (values := values) (self := self) hs hx h1 st
    simp only [evalItems]
    generalize evalItem E lang values self sub it st = y at h
    match y, h with
    | (none, _), h => exact h
    | (some (.err _), _), h => exact h
    | (some .panic, _), h => exact h
    | (some (.ok s), s1), h =>
      have h' := ih h2 s1
      simp only at h ⊢
      rw [← h, ← h']
      generalize evalItems E lang values self sub items s1 = z
      match z with
      | (none, _) => rfl
      | (some (.err _), _) => rfl
      | (some .panic, _) => rfl
      | (some (.ok _), _) => rfl

theorem evalNamed_keep {E : FmtEnv D F} {lang : Str} {values : AMap Str (PValue D F)} {L : List Named}
    (h : Ordered E L) {x : Str} (hx : x ∉ L.map Named.name) :
    ∀ name st, (evalNamed E lang values L name st).2 x = st x := by
  induction h with
  | nil => intro _ _; rfl
  | @cons n before _ hok _ ih =>
    intro name st
    have hx' : x ∉ before.map Named.name := fun h => hx (by simp [h])
    simp only [evalNamed]
    split
    · exact evalItems_keep (ih hx') hx' _ hok st
    · exact ih hx' name st

/-! ### Number signs show the number that selected the string (C23) -/

/-- The number given agrees with the number stored. -/
def NumOk (num : Option Str) (self : Str) (st : Store) : Prop := ∀ v, num = some v → st self = v

theorem evalPlural_lexical {X : Icu4x D F} {lang rules number} {sels : List (Leaf × Leaf)} {sub : Str → Store → Res}
    {subP : Str → Option Str → Store → Res} (hsub : ∀ name num st, NumOk num name st → subP name num st = sub name st)
    (st : Store) : evalPluralP byCategory X lang rules number (pairs sels) subP st =
      evalPlural X lang rules number (keysOf sels) sub st := by
  unfold evalPluralP evalPlural
  generalize X.decimal lang none = f
  match rules, number, f with
  | .ok category, some d, .ok format =>
    simp only [byCategory, listed, pairs_fst]
    by_cases hin : categoryName (category d) ∈ keysOf sels
    · simp only [hin, if_true]
      exact hsub _ _ _ (fun v hv => by injection hv with hv; subst hv; simp [Store.put])
    · simp only [hin, if_false]
  | .error _, _, _ => rfl
  | .ok _, none, _ => rfl
  | .ok _, some _, .error _ => rfl

theorem evalItem_lexical {E : FmtEnv D F} {lang : Str} {values self num} {sub : Str → Store → Res}
    {subP : Str → Option Str → Store → Res} (hsub : ∀ name num st, NumOk num name st → subP name num st = sub name st)
    (it : Item) (st : Store) (hn : NumOk num self st) :
    evalItemP byCategory E lang values self num subP it st = evalItem E lang values self sub it st := by
  match it with
  | .text _ => rfl
  | .number _ =>
    simp only [evalItemP, evalItem]
    cases num with
    | none => rfl
    | some v => simp only [Option.getD_some, hn v rfl]
  | .pat id none => rfl
  | .pat id (some (k, sels)) =>
    simp only [evalItemP, evalItem]
    cases values.get id.str with
    | none => rfl
    | some v =>
      simp only
      repeat' split
      · rfl
      · rfl
      · exact evalPlural_lexical hsub st
      · exact evalPlural_lexical hsub st
      · unfold evalSelectP evalSelect
        cases textOf v with
        | none => rfl
        | some s =>
          simp only [byCategory, listed, pairs_fst]
          have hke : sels.map (fun s => s.1.str) = keysOf sels := rfl
          rw [hke]
          by_cases hs : s ∈ keysOf sels
          · simp only [hs, if_true]
            split
            · rfl
            · exact hsub _ _ _ (fun v hv => by cases hv)
          · simp only [hs, if_false]
  | .cmd parts => rfl

theorem evalItems_lexical {E : FmtEnv D F} {lang : Str} {values self num names} {sub : Str → Store → Res}
    {subP : Str → Option Str → Store → Res} (hsub : ∀ name num st, NumOk num name st → subP name num st = sub name st)
    (hkeep : ∀ name st, (sub name st).2 self = st self) (hself : self ∉ names) (items : List Item)
    (hok : AllOk E (mainName :: names) items) : ∀ st, NumOk num self st →
    evalItemsP byCategory E lang values self num subP items st = evalItems E lang values self sub items st := by
  induction items with
  | nil => intro st _; rfl
  | cons it items ih =>
    intro st hn
    obtain ⟨h1, h2⟩ := allOk_cons.1 hok
    simp only [evalItemsP, evalItems, evalItem_lexical hsub it st hn]
    have hk := evalItem_keep (lang := lang) (values := values) (self := self) hkeep hself h1 st
    generalize evalItem E lang values self sub it st = y at hk
    match y, hk with
    | (none, _), _ => rfl
    | (some (.err _), _), _ => rfl
    | (some .panic, _), _ => rfl
    | (some (.ok s), s1), hk =>
      simp only at hk ⊢
      rw [ih h2 s1 (fun v hv => by rw [hk]; exact hn v hv)]
      generalize evalItems E lang values self sub items s1 = z
      match z with
      | (none, _) => rfl
      | (some (.err _), _) => rfl
      | (some .panic, _) => rfl
      | (some (.ok _), _) => rfl

theorem evalNamed_lexical {E : FmtEnv D F} {lang : Str} {values : AMap Str (PValue D F)} {L : List Named}
    (h : Ordered E L) : ∀ name num st, NumOk num name st →
    evalNamedP byCategory E lang values L name num st = evalNamed E lang values L name st := by
  induction h with
  | nil => intro _ _ _ _; rfl
  | @cons n before hnew hok hb ih =>
    intro name num st hn
    simp only [evalNamedP, evalNamed]
    split
    · rename_i he
      subst he
      have hx : n.name ∉ before.map Named.name := fun h => hnew (by simp [h])
      exact evalItems_lexical ih (evalNamed_keep hb hx) hx _ hok st hn
    · exact ih name num st hn

theorem eval_lexical {E : FmtEnv D F} {lang : Str} {values : AMap Str (PValue D F)} {d : Doc} (h : DocOk E d) (st : Store) :
    d.evalP byCategory E lang values st = d.eval E lang values st := by
  have hx : mainName ∉ d.named.reverse.map Named.name := by
    intro hm
    simp only [List.map_reverse, List.mem_reverse, List.mem_map] at hm
    obtain ⟨n, hn, he⟩ := hm
    exact GroupOk.names h.1 n hn (by simp [he])
  exact evalItems_lexical (evalNamed_lexical (ordered_doc h)) (evalNamed_keep (ordered_doc h) hx) hx _ (docOk_main h) st
    (fun v hv => by cases hv)

/-! ### Policies that agree on the selectors that occur -/

/-- Two policies agree on an item. -/
def Agree (P Q : Policy) (E : FmtEnv D F) (lang : Str) (values : AMap Str (PValue D F)) : Item → Prop
  | .pat id (some (k, sels)) =>
    (k.str = "plural".toList → ∀ v n category, values.get id.str = some v → numberOf E.icu4x v = some n →
      E.icu4x.cardinal lang = .ok category →
      P.plural (pairs sels) (categoryName (category n)) = Q.plural (pairs sels) (categoryName (category n))) ∧
    (k.str = "ordinal".toList → ∀ v n category, values.get id.str = some v → ordinalOf E.icu4x v = some n →
      E.icu4x.ordinal lang = .ok category →
      P.plural (pairs sels) (categoryName (category n)) = Q.plural (pairs sels) (categoryName (category n))) ∧
    ∀ s, P.select (pairs sels) s = Q.select (pairs sels) s
  | _ => True

theorem evalPluralP_congr {P Q : Policy} {X : Icu4x D F} {lang rules number sels} {sub : Str → Option Str → Store → Res}
    {st : Store} (h : ∀ n category, number = some n → rules = .ok category →
      P.plural sels (categoryName (category n)) = Q.plural sels (categoryName (category n))) :
    evalPluralP P X lang rules number sels sub st = evalPluralP Q X lang rules number sels sub st := by
  unfold evalPluralP
  split
  · rw [h _ _ rfl rfl]
  · rfl

theorem evalItemP_congr {P Q : Policy} {E : FmtEnv D F} {lang : Str} {values self num}
    {sub : Str → Option Str → Store → Res} {it : Item} (h : Agree P Q E lang values it) (st : Store) :
    evalItemP P E lang values self num sub it st = evalItemP Q E lang values self num sub it st := by
  match it, h with
  | .text _, _ => rfl
  | .number _, _ => rfl
  | .pat id none, _ => rfl
  | .pat id (some (k, sels)), h =>
    simp only [evalItemP]
    obtain ⟨h1, h2, h3⟩ := h
    cases hv : values.get id.str with
    | none => rfl
    | some v =>
      simp only
      split
      · rfl
      split
      · rfl
      split
      · rename_i hk
        exact evalPluralP_congr (fun n c hn hc => h2 hk v n c hv hn hc)
      split
      · rename_i hk
        exact evalPluralP_congr (fun n c hn hc => h1 hk v n c hv hn hc)
      · unfold evalSelectP
        simp only [h3]
  | .cmd parts, _ => rfl

theorem evalItemsP_congr {P Q : Policy} {E : FmtEnv D F} {lang : Str} {values self num}
    {sub : Str → Option Str → Store → Res} {items : List Item} (h : ∀ it ∈ items, Agree P Q E lang values it) :
    ∀ st, evalItemsP P E lang values self num sub items st = evalItemsP Q E lang values self num sub items st := by
  induction items with
  | nil => intro st; rfl
  | cons it items ih =>
    intro st
    simp only [evalItemsP, evalItemP_congr (h it (by simp)), ih (fun x hx => h x (by simp [hx]))]

theorem evalNamedP_congr {P Q : Policy} {E : FmtEnv D F} {lang : Str} {values : AMap Str (PValue D F)} {L : List Named}
    (h : ∀ n ∈ L, ∀ it ∈ n.items, Agree P Q E lang values it) :
    evalNamedP P E lang values L = evalNamedP Q E lang values L := by
  induction L with
  | nil => funext _ _ _; rfl
  | cons n L ih =>
    funext name num st
    simp only [evalNamedP, ih (fun m hm => h m (by simp [hm])), evalItemsP_congr (h n (by simp))]

theorem evalP_congr {P Q : Policy} {E : FmtEnv D F} {lang : Str} {values : AMap Str (PValue D F)} {d : Doc}
    (h : ∀ it ∈ d.items, Agree P Q E lang values it) (st : Store) :
    d.evalP P E lang values st = d.evalP Q E lang values st := by
  unfold Doc.evalP
  have h1 : ∀ it ∈ d.main, Agree P Q E lang values it := fun it hit => h it (by simp [Doc.items, hit])
  have h2 : ∀ n ∈ d.named.reverse, ∀ it ∈ n.items, Agree P Q E lang values it := fun n hn it hit =>
    h it (by simp only [Doc.items, List.mem_append, List.mem_flatMap]; exact Or.inr ⟨n, by simpa using hn, hit⟩)
  rw [evalNamedP_congr h2, evalItemsP_congr h1]

theorem branchOf_eq_listed (sels : List (Str × Str)) (h : ∀ s ∈ sels, s.2 = s.1) (c : Str) :
    branchOf sels c = listed sels c := by
  unfold branchOf listed
  induction sels with
  | nil => simp
  | cons s sels ih =>
    simp only [List.find?_cons]
    by_cases hc : s.1 = c
    · have := h s (by simp)
      simp [hc, this]
    · have hb : (s.1 == c) = false := by simpa using hc
      have hc' : ¬ c = s.1 := fun e => hc e.symm
      simp only [hb]
      rw [ih (fun s hs => h s (by simp [hs]))]
      simp only [List.map_cons, List.mem_cons, hc', false_or]

theorem agree_branch {E : FmtEnv D F} {lang : Str} {values : AMap Str (PValue D F)} {d : Doc} (h : BranchIsCategory d) :
    ∀ it ∈ d.items, Agree byCategory byBranch E lang values it := by
  intro it hit
  match it with
  | .text _ => trivial
  | .number _ => trivial
  | .pat id none => trivial
  | .pat id (some (k, sels)) =>
    have hp : ∀ c, listed (pairs sels) c = branchOf (pairs sels) c := fun c => (branchOf_eq_listed _ (by
      intro s hs
      simp only [pairs, List.mem_map] at hs
      obtain ⟨t, ht, rfl⟩ := hs
      exact h id k sels hit t ht) c).symm
    exact ⟨fun _ _ _ _ _ _ _ => hp _, fun _ _ _ _ _ _ _ => hp _, fun s => hp s⟩
  | .cmd _ => trivial

theorem agree_fallback {E : FmtEnv D F} {lang : Str} {values : AMap Str (PValue D F)} {d : Doc}
    (h : CategoriesListed E lang values d) : ∀ it ∈ d.items, Agree byCategory withFallback E lang values it := by
  intro it hit
  match it with
  | .text _ => trivial
  | .number _ => trivial
  | .pat id none => trivial
  | .pat id (some (k, sels)) =>
    obtain ⟨h1, h2⟩ := h id k sels hit
    refine ⟨fun hk v n c hv hn hc => ?_, fun hk v n c hv hn hc => ?_, fun s => rfl⟩
    · have := h1 hk v n c hv hn hc
      simp [byCategory, withFallback, listed, this]
    · have := h2 hk v n c hv hn hc
      simp [byCategory, withFallback, listed, this]
  | .cmd _ => trivial

/-! ### Ending (C20) -/

theorem evalItem_ends {E : FmtEnv D F} {lang : Str} {values self} {sub : Str → Store → Res}
    (hs : ∀ name st, (sub name st).1 ≠ none) {it : Item}
    (hm : ∀ id k sels, it = .pat id (some (k, sels)) → k.str = "select".toList → mainName ∉ (pairs sels).map Prod.fst)
    {names} (hok : ItemOk E (mainName :: names) it) (st : Store) :
    (evalItem E lang values self sub it st).1 ≠ none := by
  match it with
  | .text _ => simp [evalItem]
  | .number _ => simp [evalItem]
  | .pat id none =>
    simp only [evalItem]
    cases (values.get id.str).bind textOf <;> simp
  | .pat id (some (k, sels)) =>
    have hp : ∀ rules number keys, (evalPlural E.icu4x lang rules number keys sub st).1 ≠ none := by
      intro rules number keys
      unfold evalPlural
      split
      · simp only
        split
        · exact hs _ _
        · simp
      · simp
    simp only [evalItem]
    obtain ⟨e1, e2, e3, e4, e5, e6, e7, e8, e9, e10⟩ := kw_ne
    cases values.get id.str with
    | none => simp
    | some v =>
      simp only
      rcases ItemOk.keyword hok with ⟨hk, _⟩ | ⟨hk, _⟩ | ⟨hk, _, hn⟩ | ⟨hk, hn⟩
      · simp [hk]
      · simp only [hk, e1, if_true, if_false]; simp
      · rcases hk with hk | hk
        · simp only [hk, e2, e3, if_true, if_false]
          exact hp _ _ _
        · simp only [hk, e4, e5, e6, if_true, if_false]
          exact hp _ _ _
      · simp only [hk, e7, e8, e9, e10, if_false]
        have hmn := hm id k sels rfl hk
        rw [pairs_fst] at hmn
        unfold evalSelect
        cases textOf v with
        | none => simp
        | some s =>
          simp only
          split
          · rename_i h
            split
            · rename_i he
              subst he
              exact absurd h hmn
            · exact hs _ _
          · simp
  | .cmd parts =>
    simp only [evalItem]
    split <;> simp

theorem evalItems_ends {E : FmtEnv D F} {lang : Str} {values self} {sub : Str → Store → Res}
    (hs : ∀ name st, (sub name st).1 ≠ none) {items : List Item}
    (hm : ∀ id k sels, Item.pat id (some (k, sels)) ∈ items → k.str = "select".toList →
      mainName ∉ (pairs sels).map Prod.fst)
    {names} (hok : AllOk E (mainName :: names) items) :
    ∀ st, (evalItems E lang values self sub items st).1 ≠ none := by
  induction items with
  | nil => intro st; simp [evalItems]
  | cons it items ih =>
    intro st
    obtain ⟨h1, h2⟩ := allOk_cons.1 hok
    have h := evalItem_ends (lang := lang) (values := values) (self := self) hs
      (fun id k sels he => hm id k sels (by simp [he])) h1 st
    simp only [evalItems]
    generalize evalItem E lang values self sub it st = y at h
    match y, h with
    | (none, _), h => exact absurd rfl h
    | (some (.err _), _), _ => simp
    | (some .panic, _), _ => simp
    | (some (.ok s), s1), h =>
      simp only
      have h' := ih (fun id k sels he => hm id k sels (by simp [he])) h2 s1
      generalize evalItems E lang values self sub items s1 = z at h'
      match z, h' with
      | (none, _), h => exact absurd rfl h
      | (some (.err _), _), _ => simp
      | (some .panic, _), _ => simp
      | (some (.ok s), s1), h => simp

theorem evalNamed_ends {E : FmtEnv D F} {lang : Str} {values : AMap Str (PValue D F)} {L : List Named}
    (h : Ordered E L) (hm : ∀ n ∈ L, ∀ id k sels, Item.pat id (some (k, sels)) ∈ n.items → k.str = "select".toList →
      mainName ∉ (pairs sels).map Prod.fst) : ∀ name st, (evalNamed E lang values L name st).1 ≠ none := by
  induction h with
  | nil => intro _ _; simp [evalNamed]
  | @cons n before _ hok _ ih =>
    intro name st
    have ih' := ih (fun m hm' => hm m (by simp [hm']))
    simp only [evalNamed]
    split
    · exact evalItems_ends ih' (hm n (by simp)) hok st
    · exact ih' name st

theorem eval_ends {E : FmtEnv D F} {lang : Str} {values : AMap Str (PValue D F)} {d : Doc} (h : DocOk E d)
    (hm : NoMainSelected d) (st : Store) : (d.eval E lang values st).1 ≠ none :=
  evalItems_ends (evalNamed_ends (ordered_doc h) (fun n hn id k sels hi => hm id k sels (by
    simp only [Doc.items, List.mem_append, List.mem_flatMap]
    exact Or.inr ⟨n, by simpa using hn, hi⟩))) (fun id k sels hi => hm id k sels (by simp [Doc.items, hi]))
    (docOk_main h) st

/-! ### Independence of earlier numbers (C22) -/

/-- No number signs. -/
def NoNumbers (items : List Item) : Prop := ∀ l, Item.number l ∉ items

/-- Select patterns of the item list only string names without number signs. -/
def SelSafe (L : List Named) (items : List Item) : Prop :=
  ∀ id k sels, Item.pat id (some (k, sels)) ∈ items → k.str = "select".toList →
    ∀ n ∈ L, n.name ∈ keysOf sels → NoNumbers n.items

theorem evalItem_pure {E : FmtEnv D F} {lang : Str} {values self names} {sub : Str → Store → Res} {it : Item}
    (hok : ItemOk E (mainName :: names) it) {st st' : Store}
    (hself : (∃ l, it = .number l) → st self = st' self)
    (hplural : ∀ name st st', st name = st' name → (sub name st).1 = (sub name st').1)
    (hselect : ∀ id k sels, it = .pat id (some (k, sels)) → k.str = "select".toList → ∀ name ∈ keysOf sels,
      ∀ st st', (sub name st).1 = (sub name st').1) :
    (evalItem E lang values self sub it st).1 = (evalItem E lang values self sub it st').1 := by
  match it with
  | .text _ => rfl
  | .number l => simp only [evalItem, hself ⟨l, rfl⟩]
  | .pat id none =>
    simp only [evalItem]
    cases (values.get id.str).bind textOf <;> rfl
  | .pat id (some (k, sels)) =>
    have hp : ∀ rules number keys, (evalPlural E.icu4x lang rules number keys sub st).1 =
        (evalPlural E.icu4x lang rules number keys sub st').1 := by
      intro rules number keys
      unfold evalPlural
      split
      · simp only
        split
        · exact hplural _ _ _ (by simp [Store.put])
        · rfl
      · rfl
    simp only [evalItem]
    obtain ⟨e1, e2, e3, e4, e5, e6, e7, e8, e9, e10⟩ := kw_ne
    cases values.get id.str with
    | none => rfl
    | some v =>
      simp only
      rcases ItemOk.keyword hok with ⟨hk, _⟩ | ⟨hk, _⟩ | ⟨hk, _, hn⟩ | ⟨hk, hn⟩
      · simp only [hk, if_true]
      · simp only [hk, e1, if_true, if_false]
      · rcases hk with hk | hk
        · simp only [hk, e2, e3, if_true, if_false]
          exact hp _ _ _
        · simp only [hk, e4, e5, e6, if_true, if_false]
          exact hp _ _ _
      · have hsel := hselect id k sels rfl hk
        simp only [hk, e7, e8, e9, e10, if_false]
        unfold evalSelect
        cases textOf v with
        | none => rfl
        | some s =>
          simp only
          split
          · rename_i h
            split
            · rfl
            · exact hsel s h _ _
          · rfl
  | .cmd parts =>
    simp only [evalItem]
    split <;> rfl

theorem evalItems_pure {E : FmtEnv D F} {lang : Str} {values self names} {sub : Str → Store → Res} {items : List Item}
    (hok : AllOk E (mainName :: names) items) (hself : self ∉ names)
    (hkeep : ∀ name st, (sub name st).2 self = st self)
    (hplural : ∀ name st st', st name = st' name → (sub name st).1 = (sub name st').1)
    (hselect : ∀ id k sels, Item.pat id (some (k, sels)) ∈ items → k.str = "select".toList → ∀ name ∈ keysOf sels,
      ∀ st st', (sub name st).1 = (sub name st').1) :
    ∀ st st', (NoNumbers items ∨ st self = st' self) →
    (evalItems E lang values self sub items st).1 = (evalItems E lang values self sub items st').1 := by
  induction items with
  | nil => intro st st' _; rfl
  | cons it items ih =>
    intro st st' hn
    obtain ⟨h1, h2⟩ := allOk_cons.1 hok
    have h := evalItem_pure (lang := lang) (values := values) (self := self) h1 (st := st) (st' := st') (by
      rintro ⟨l, rfl⟩
      rcases hn with hn | hn
      · exact absurd (by simp) (hn l)
      · exact hn) hplural (fun id k sels he => hselect id k sels (by simp [he]))
    have hk := evalItem_keep (lang := lang) (values := values) (self := self) hkeep hself h1 st
    have hk' := evalItem_keep (lang := lang) (values := values) (self := self) hkeep hself h1 st'
    simp only [evalItems]
    generalize evalItem E lang values self sub it st = y at h hk
    generalize evalItem E lang values self sub it st' = y' at h hk'
    obtain ⟨o, s1⟩ := y
    obtain ⟨o', s1'⟩ := y'
    simp only at h hk hk'
    subst h
    match o with
    | none => rfl
    | some (.err _) => rfl
    | some .panic => rfl
    | some (.ok s) =>
      simp only
      have h' := ih h2 (fun id k sels he => hselect id k sels (by simp [he])) s1 s1' (by
        rcases hn with hn | hn
        · exact Or.inl fun l hl => hn l (by simp [hl])
        · exact Or.inr (by rw [hk, hk', hn]))
      generalize evalItems E lang values self sub items s1 = z at h'
      generalize evalItems E lang values self sub items s1' = z' at h'
      obtain ⟨z1, z2⟩ := z
      obtain ⟨z1', z2'⟩ := z'
      simp only at h'
      subst h'
      match z1 with
      | none => rfl
      | some (.err _) => rfl
      | some .panic => rfl
      | some (.ok s) => rfl

theorem evalNamed_pure {E : FmtEnv D F} {lang : Str} {values : AMap Str (PValue D F)} {L : List Named}
    (h : Ordered E L) (hs : ∀ n ∈ L, SelSafe L n.items) : ∀ name,
    (∀ st st' : Store, ((∀ n ∈ L, n.name = name → NoNumbers n.items) ∨ st name = st' name) →
      (evalNamed E lang values L name st).1 = (evalNamed E lang values L name st').1) := by
  induction h with
  | nil => intro _ _ _ _; rfl
  | @cons n before hnew hok hb ih =>
    intro name st st' hn
    have ih' := ih (fun m hm id k sels hi hk p hp hpk => hs m (by simp [hm]) id k sels hi hk p (by simp [hp]) hpk)
    simp only [evalNamed]
    split
    · rename_i he
      subst he
      have hx : n.name ∉ before.map Named.name := fun h => hnew (by simp [h])
      refine evalItems_pure hok hx (evalNamed_keep hb hx) (fun name st st' h => ih' name st st' (Or.inr h)) ?_ st st' ?_
      · intro id k sels hi hk key hkey st st'
        exact ih' key st st' (Or.inl fun m hm hme => hs n (by simp) id k sels hi hk m (by simp [hm]) (hme ▸ hkey))
      · rcases hn with hn | hn
        · exact Or.inl (hn n (by simp) rfl)
        · exact Or.inr hn
    · refine ih' name st st' ?_
      rcases hn with hn | hn
      · exact Or.inl fun m hm hme => hn m (by simp [hm]) hme
      · exact Or.inr hn

theorem eval_pure {E : FmtEnv D F} {lang : Str} {values : AMap Str (PValue D F)} {d : Doc} (h : DocOk E d)
    (hs : SelectsWithoutNumbers d) (hn : NoNumbers d.main) (st st' : Store) :
    (d.eval E lang values st).1 = (d.eval E lang values st').1 := by
  have hx : mainName ∉ d.named.reverse.map Named.name := by
    intro hm
    simp only [List.map_reverse, List.mem_reverse, List.mem_map] at hm
    obtain ⟨n, hn, he⟩ := hm
    exact GroupOk.names h.1 n hn (by simp [he])
  have hp := evalNamed_pure (lang := lang) (values := values) (ordered_doc h) (fun n hn id k sels hi hk m hm hmk =>
    hs id k sels (by
      simp only [Doc.items, List.mem_append, List.mem_flatMap]
      exact Or.inr ⟨n, by simpa using hn, hi⟩) hk m (by simpa using hm) (by rw [pairs_fst]; exact hmk))
  refine evalItems_pure (docOk_main h) hx (evalNamed_keep (ordered_doc h) hx)
    (fun name st st' h => hp name st st' (Or.inr h)) ?_ st st' (Or.inl hn)
  intro id k sels hi hk key hkey st st'
  exact hp key st st' (Or.inl fun m hm hme =>
    hs id k sels (by simp [Doc.items, hi]) hk m (by simpa using hm) (by rw [pairs_fst]; exact hme ▸ hkey))

/-! ### Only mentioned values matter (C24) -/

theorem evalItem_values {E : FmtEnv D F} {lang : Str} {values values' : AMap Str (PValue D F)} {self}
    {sub : Str → Store → Res} {it : Item} (h : ∀ x ∈ it.mentions, values.get x = values'.get x) (st : Store) :
    evalItem E lang values self sub it st = evalItem E lang values' self sub it st := by
  match it with
  | .text _ => rfl
  | .number _ => rfl
  | .pat id none =>
    have := h id.str (by simp [Item.mentions])
    simp only [evalItem, this]
  | .pat id (some (k, sels)) =>
    have := h id.str (by simp [Item.mentions])
    simp only [evalItem, this]
  | .cmd parts =>
    match parts with
    | .ident n :: .hash hh :: ps =>
      have hc : (ps.map fun p => argument values p.str) = ps.map fun p => argument values' p.str := by
        apply List.map_congr_left
        intro p hp
        have := h p.str (by simp only [Item.mentions, List.mem_map]; exact ⟨p, hp, rfl⟩)
        simp only [argument, this]
      simp only [evalItem, hc]
    | [] => rfl
    | .hash _ :: _ => rfl
    | [.ident _] => rfl
    | .ident _ :: .ident _ :: _ => rfl

theorem evalItems_values {E : FmtEnv D F} {lang : Str} {values values' : AMap Str (PValue D F)} {self}
    {sub : Str → Store → Res} {items : List Item} (h : ∀ it ∈ items, ∀ x ∈ it.mentions, values.get x = values'.get x) :
    ∀ st, evalItems E lang values self sub items st = evalItems E lang values' self sub items st := by
  induction items with
  | nil => intro st; rfl
  | cons it items ih =>
    intro st
    simp only [evalItems, evalItem_values (h it (by simp)), ih (fun x hx => h x (by simp [hx]))]

theorem evalNamed_values {E : FmtEnv D F} {lang : Str} {values values' : AMap Str (PValue D F)} {L : List Named}
    (h : ∀ n ∈ L, ∀ it ∈ n.items, ∀ x ∈ it.mentions, values.get x = values'.get x) :
    evalNamed E lang values L = evalNamed E lang values' L := by
  induction L with
  | nil => funext _ _; rfl
  | cons n L ih =>
    funext name st
    simp only [evalNamed, ih (fun m hm => h m (by simp [hm])), evalItems_values (h n (by simp))]

theorem eval_values {E : FmtEnv D F} {lang : Str} {values values' : AMap Str (PValue D F)} {d : Doc}
    (h : ∀ x ∈ d.mentions, values.get x = values'.get x) (st : Store) :
    d.eval E lang values st = d.eval E lang values' st := by
  have hm : ∀ it ∈ d.items, ∀ x ∈ it.mentions, values.get x = values'.get x := fun it hit x hx =>
    h x (by simp only [Doc.mentions, List.mem_flatMap]; exact ⟨it, hit, hx⟩)
  unfold Doc.eval
  rw [evalNamed_values (fun n hn it hit => hm it (by
      simp only [Doc.items, List.mem_append, List.mem_flatMap]
      exact Or.inr ⟨n, by simpa using hn, hit⟩)),
    evalItems_values (fun it hit => hm it (by simp [Doc.items, hit]))]

/-- A text is produced only if every placeholder of the string has a value. -/
theorem evalItems_ok {E : FmtEnv D F} {lang : Str} {values : AMap Str (PValue D F)} {self}
    {sub : Str → Store → Res} {items : List Item} : ∀ {st : Store} {s : Str},
    (evalItems E lang values self sub items st).1 = some (.ok s) →
    ∀ id k, Item.pat id k ∈ items → ∃ v, values.get id.str = some v := by
  induction items with
  | nil => intro st s _ id k hi; simp at hi
  | cons it items ih =>
    intro st s h id k hi
    simp only [evalItems] at h
    generalize hy : evalItem E lang values self sub it st = y at h
    match y, h with
    | (none, _), h => simp at h
    | (some (.err _), _), h => simp at h
    | (some .panic, _), h => simp at h
    | (some (.ok s'), s1), h =>
      rcases List.mem_cons.1 hi with rfl | hi
      · cases hv : values.get id.str with
        | some v => exact ⟨v, rfl⟩
        | none =>
          cases k with
          | none => simp [evalItem, hv] at hy
          | some ks => obtain ⟨k, sels⟩ := ks; simp [evalItem, hv] at hy
      · simp only at h
        cases hz : evalItems E lang values self sub items s1 with
        | mk z1 z2 =>
          rw [hz] at h
          match z1, h with
          | some (.ok s''), _ => exact ih (by rw [hz]) id k hi
          | none, h => simp at h
          | some (.err _), h => simp at h
          | some .panic, h => simp at h

/-! ### Panics come from commands only -/

theorem runCommand_panic {E : FmtEnv D F} {name : Str} {ps : List (PValue D F)} (h : runCommand E name ps = .panic) :
    CmdPanics E := by
  unfold runCommand at h
  cases hg : AMap.get E.commands name with
  | none => rw [hg] at h; cases h
  | some f =>
    rw [hg] at h
    simp only [forget] at h
    cases hf : f ps with
    | panic => exact ⟨name, f, ps, hg, hf⟩
    | ok s => rw [hf] at h; cases h
    | err e => rw [hf] at h; cases h

theorem evalItem_panic {E : FmtEnv D F} {lang : Str} {values self} {sub : Str → Store → Res}
    (hs : ∀ name st, (sub name st).1 = some .panic → CmdPanics E) {it : Item} {st : Store}
    (h : (evalItem E lang values self sub it st).1 = some .panic) : CmdPanics E := by
  have hp : ∀ rules number keys, (evalPlural E.icu4x lang rules number keys sub st).1 = some .panic → CmdPanics E := by
    intro rules number keys h
    unfold evalPlural at h
    split at h
    · simp only at h
      split at h
      · exact hs _ _ h
      · simp at h
    · simp at h
  have hf : ∀ x : Option Str, some (ofOption x) ≠ some .panic := fun x he => ofOption_no_panic x (Option.some.inj he)
  match it with
  | .text _ => simp [evalItem] at h
  | .number _ => simp [evalItem] at h
  | .pat id none =>
    simp only [evalItem] at h
    cases hv : (values.get id.str).bind textOf <;> simp [hv] at h
  | .pat id (some (k, sels)) =>
    simp only [evalItem] at h
    cases hv : values.get id.str with
    | none => simp [hv] at h
    | some v =>
      rw [hv] at h
      simp only at h
      split at h
      · exact absurd h (hf _)
      split at h
      · exact absurd h (hf _)
      split at h
      · exact hp _ _ _ h
      split at h
      · exact hp _ _ _ h
      · unfold evalSelect at h
        cases ht : textOf v with
        | none => simp [ht] at h
        | some s =>
          rw [ht] at h
          simp only at h
          split at h
          · split at h
            · simp at h
            · exact hs _ _ h
          · simp at h
  | .cmd parts =>
    simp only [evalItem] at h
    split at h
    · exact runCommand_panic (Option.some.inj h)
    · exact runCommand_panic (Option.some.inj h)
    · simp at h

theorem evalItems_panic {E : FmtEnv D F} {lang : Str} {values self} {sub : Str → Store → Res}
    (hs : ∀ name st, (sub name st).1 = some .panic → CmdPanics E) {items : List Item} : ∀ {st : Store},
    (evalItems E lang values self sub items st).1 = some .panic → CmdPanics E := by
  induction items with
  | nil => intro st h; simp [evalItems] at h
  | cons it items ih =>
    intro st h
    simp only [evalItems] at h
    have hi := evalItem_panic (lang := lang) (values := values) (self := self) (it := it) (st := st) hs
    generalize evalItem E lang values self sub it st = y at h hi
    match y, h with
    | (none, _), h => simp at h
    | (some (.err _), _), h => simp at h
    | (some .panic, _), h => exact hi h
    | (some (.ok s), s1), h =>
      simp only at h
      have h2 := ih (st := s1)
      generalize evalItems E lang values self sub items s1 = z at h h2
      match z, h with
      | (none, _), h => simp at h
      | (some (.err _), _), h => simp at h
      | (some .panic, _), h => exact h2 h
      | (some (.ok s), _), h => simp at h

theorem evalNamed_panic {E : FmtEnv D F} {lang : Str} {values : AMap Str (PValue D F)} (L : List Named) :
    ∀ name st, (evalNamed E lang values L name st).1 = some .panic → CmdPanics E := by
  induction L with
  | nil => intro _ _ h; simp [evalNamed] at h
  | cons n L ih =>
    intro name st h
    simp only [evalNamed] at h
    split at h
    · exact evalItems_panic ih h
    · exact ih _ _ h

theorem eval_panic {E : FmtEnv D F} {lang : Str} {values : AMap Str (PValue D F)} {d : Doc} {st : Store}
    (h : (d.eval E lang values st).1 = some .panic) : CmdPanics E :=
  evalItems_panic (evalNamed_panic _) h

end Verif.FormatLemmas
