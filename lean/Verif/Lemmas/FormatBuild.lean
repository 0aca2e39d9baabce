import Verif.Lemmas.FormatTree
import Verif.Lemmas.FormatValues
/-
Building a formatter: it succeeds exactly for the accepted pattern strings, and what is stored stands for the syntax.
-/
namespace Verif.FormatLemmas
open Verif Verif.Spec Verif.Spec.Rose

variable {D F : Type}

/-- The keys of selectors. -/
def keysOf (sels : List (Leaf × Leaf)) : List Str := sels.map fun s => s.1.str

/-! ### Selectors -/

theorem selMap_get_from (sels : List (Leaf × Leaf)) (key : Str) : ∀ m : AMap Str Str,
    (∀ k v, m.get k = some v → v = k) →
    (selMap sels m).get key = if key ∈ keysOf sels then some key else m.get key := by
  induction sels with
  | nil => intro m _; simp [selMap, keysOf]
  | cons s sels ih =>
    intro m hm
    have h1 : ∀ k v, (m.insert s.1.str s.1.str).get k = some v → v = k := by
      intro k v
      rw [AMap.get_insert]
      split
      · rename_i h; intro h2; cases h2; exact h
      · exact hm k v
    have := ih (m.insert s.1.str s.1.str) h1
    simp only [selMap, List.foldl_cons] at this ⊢
    rw [this, AMap.get_insert]
    simp only [keysOf, List.map_cons, List.mem_cons]
    by_cases h2 : key ∈ sels.map fun s => s.1.str
    · simp [h2]
    · by_cases h3 : s.1.str = key
      · subst h3; simp only [if_true, true_or]; split <;> rfl
      · have h4 : ¬ key = s.1.str := fun e => h3 e.symm
        simp [h2, h3, h4]

theorem selMap_get (sels : List (Leaf × Leaf)) (key : Str) :
    (selMap sels []).get key = if key ∈ keysOf sels then some key else none := by
  rw [selMap_get_from sels key [] (by simp)]; rfl

theorem selMap_nodup (sels : List (Leaf × Leaf)) : ∀ m : AMap Str Str, m.keys.Nodup → (selMap sels m).keys.Nodup := by
  induction sels with
  | nil => intro m h; exact h
  | cons s sels ih => intro m h; exact ih _ (AMap.nodup_insert _ _ h)

theorem selMap_mem (sels : List (Leaf × Leaf)) (k v : Str) :
    (k, v) ∈ selMap sels [] ↔ v = k ∧ k ∈ keysOf sels := by
  rw [AMap.mem_iff_get (selMap_nodup sels [] (by simp [AMap.keys])), selMap_get]
  by_cases h : k ∈ keysOf sels
  · simp [h, eq_comm]
  · simp [h]

theorem selMap_eq_nil (sels : List (Leaf × Leaf)) : selMap sels [] = [] ↔ sels = [] := by
  constructor
  · intro h
    cases sels with
    | nil => rfl
    | cons s sels =>
      have := (selMap_mem (s :: sels) s.1.str s.1.str).2 ⟨rfl, by simp [keysOf]⟩
      rw [h] at this
      cases this
  · rintro rfl; rfl

/-- A map of selectors as stored. -/
def SelRep (sels : List (Leaf × Leaf)) (m : AMap Str Str) : Prop :=
  ∀ key, m.get key = if key ∈ keysOf sels then some key else none

/-! ### Options and selectors are checked -/

theorem decimalOptions_spec (ph : Str) (m : AMap Str Str) (hm : ∀ k v, (k, v) ∈ m → v = k) :
    if m = [] then decimalOptions ph m none none = .ok (none, none)
    else ∃ e, decimalOptions ph m none none = .err e := by
  cases m with
  | nil => rfl
  | cons kv m =>
    obtain ⟨k, v⟩ := kv
    have := hm k v (by simp)
    subst this
    simp only [reduceCtorEq, if_false, decimalOptions]
    by_cases h1 : v = "sign".toList
    · subst h1; exact ⟨_, rfl⟩
    · by_cases h2 : v = "group".toList
      · subst h2; exact ⟨_, rfl⟩
      · simp only [h1, h2, if_false]; exact ⟨_, rfl⟩

theorem dateTimeOptions_spec (X : Icu4x D F) (lang ph : Str) (m : AMap Str Str) (hm : ∀ k v, (k, v) ∈ m → v = k) :
    if m = [] then dateTimeOptions X lang ph m none none none = .ok (none, none, none)
    else ∃ e, dateTimeOptions X lang ph m none none none = .err e := by
  cases m with
  | nil => rfl
  | cons kv m =>
    obtain ⟨k, v⟩ := kv
    have := hm k v (by simp)
    subst this
    simp only [reduceCtorEq, if_false, dateTimeOptions]
    by_cases h1 : v = "date".toList
    · subst h1; exact ⟨_, rfl⟩
    · by_cases h2 : v = "time".toList
      · subst h2; exact ⟨_, rfl⟩
      · by_cases h3 : v = "calendar".toList
        · subst h3; exact ⟨_, rfl⟩
        · simp only [h1, h2, h3, if_false]; exact ⟨_, rfl⟩

theorem pluralLoop_spec (kw ph : Str) (patterns : AMap Str (List PatternPart)) (m : AMap Str Str) : ∀ other,
    match pluralLoop kw ph patterns m other with
    | .ok b => (∀ kv ∈ m, kv.1 ∈ validPlurals ∧ patterns.contains kv.2 = true) ∧
        (b = true ↔ other = true ∨ ∃ kv ∈ m, kv.1 = "other".toList)
    | .err _ => ¬ ∀ kv ∈ m, kv.1 ∈ validPlurals ∧ patterns.contains kv.2 = true
    | .panic => False := by
  induction m with
  | nil => intro other; simp [pluralLoop]
  | cons kv m ih =>
    intro other
    obtain ⟨k, v⟩ := kv
    simp only [pluralLoop]
    by_cases h1 : validPlurals.contains k = true
    · by_cases h2 : patterns.contains v = true
      · simp only [h1, h2, not_true_eq_false, if_false]
        have := ih (if k = "other".toList then true else other)
        have h1' : k ∈ validPlurals := by simpa using h1
        split at this
        · rename_i b heq
          simp only [List.forall_mem_cons]
          refine ⟨⟨⟨h1', h2⟩, this.1⟩, this.2.trans ?_⟩
          by_cases h3 : k = "other".toList
          · simp [h3]
          · simp only [h3, if_false, List.mem_cons, exists_eq_or_imp, false_or]
        · rename_i e heq
          intro h
          exact this fun kv hkv => h kv (by simp [hkv])
        · exact this.elim
      · simp only [h1, h2, not_true_eq_false, if_false, not_false_eq_true, if_true, Bool.false_eq_true]
        intro h
        exact h2 (h (k, v) (by simp)).2
    · simp only [h1, not_false_eq_true, if_true, Bool.false_eq_true]
      intro h
      exact h1 (by simpa using (h (k, v) (by simp)).1)

theorem selectLoop_spec (ph : Str) (patterns : AMap Str (List PatternPart)) (m : AMap Str Str) :
    match selectLoop ph patterns m with
    | .ok _ => ∀ kv ∈ m, patterns.contains kv.2 = true
    | .err _ => ¬ ∀ kv ∈ m, patterns.contains kv.2 = true
    | .panic => False := by
  induction m with
  | nil => simp [selectLoop]
  | cons kv m ih =>
    obtain ⟨k, v⟩ := kv
    simp only [selectLoop]
    by_cases h2 : patterns.contains v = true
    · simp only [h2, not_true_eq_false, if_false]
      split at ih
      · rename_i heq
        simp only [List.forall_mem_cons]
        exact ⟨h2, ih⟩
      · rename_i heq
        exact fun h => ih fun kv hkv => h kv (by simp [hkv])
      · exact ih.elim
    · simp only [h2, not_false_eq_true, if_true, Bool.false_eq_true]
      intro h
      exact h2 (h (k, v) (by simp))

/-! ### One item -/

/-- Some registered command panics on some parameters. -/
def CmdPanics (E : FmtEnv D F) : Prop := ∃ n f args, AMap.get E.commands n = some f ∧ f args = .panic

/-- The stored part stands for the item of the string called `self`. `owners` tells for each number slot which string
it belongs to. -/
inductive CItem (E : FmtEnv D F) (owners : List Str) (sels : List (AMap Str Str)) (self : Str) :
    Item → PatternPart → Prop
  | text (toks) : CItem E owners sels self (.text toks) (.text (leafText toks))
  | number (l i) : owners[i]? = some self → CItem E owners sels self (.number l) (.numberSign i)
  | string (id) : CItem E owners sels self (.pat id none) (.patternString id.str)
  | decimal (id k) : k.str = "decimal".toList →
      CItem E owners sels self (.pat id (some (k, []))) (.patternDecimal id.str none none)
  | dateTime (id k) : k.str = "date_time".toList →
      CItem E owners sels self (.pat id (some (k, []))) (.patternDateTime id.str none none none)
  | complex (id k ss ct i m) :
      (k.str = "ordinal".toList ∧ ct = .ordinal ∨ k.str = "plural".toList ∧ ct = .plural ∨
        k.str = "select".toList ∧ ct = .select) →
      sels[i]? = some m → SelRep ss m →
      CItem E owners sels self (.pat id (some (k, ss))) (.patternComplex id.str ct i)
  | delayed (n h ps) : CItem E owners sels self (.cmd (.ident n :: .hash h :: ps)) (.command (n.str :: ps.map Part.str))
  | now (n ps s) : (∀ h ps', ps ≠ .hash h :: ps') →
      runCommand E n.str (.string n.str :: ps.map fun p => .string p.str) = .ok s →
      CItem E owners sels self (.cmd (.ident n :: ps)) (.text s)

/-- What the formatter makes of an item. -/
def docPart (E : FmtEnv D F) (lang : Str) (patterns : AMap Str (List PatternPart)) (numbers : Nat)
    (selectors : List (AMap Str Str)) : Item → FmtM (PatternPart × List Str × List (AMap Str Str))
  | .text toks => .ok (.text (leafText toks), [], selectors)
  | .number _ => .ok (.numberSign numbers, [[]], selectors)
  | .pat id none => .ok (.patternString id.str, [], selectors)
  | .pat id (some (k, sels)) => do
    let (p, s) ← partKeyword E.icu4x lang id.str k.str patterns selectors (.ok (selMap sels []))
    pure (p, [], s)
  | .cmd parts => do
    let p ← docCommand E.commands parts
    pure (p, [], selectors)

theorem callCommand_forget (E : FmtEnv D F) (name : Str) (ps : List (PValue D F)) :
    forget (callCommand E.commands name ps) = runCommand E name ps := by
  unfold callCommand runCommand CommandRegistry.command
  cases AMap.get E.commands name with
  | none => rfl
  | some f =>
    simp only [Outcome.okOr_some, Outcome.bind_ok]
    cases f ps <;> rfl

theorem callCommand_panic (E : FmtEnv D F) (name : Str) (ps : List (PValue D F))
    (h : callCommand E.commands name ps = .panic) : CmdPanics E := by
  unfold callCommand CommandRegistry.command at h
  cases hg : AMap.get E.commands name with
  | none => rw [hg] at h; cases h
  | some f =>
    rw [hg] at h
    simp only [Outcome.okOr_some, Outcome.bind_ok] at h
    refine ⟨name, f, ps, hg, ?_⟩
    cases hf : f ps with
    | ok a => rw [hf] at h; cases h
    | err e => rw [hf] at h; cases h
    | panic => rfl

/-- The three possible results of building one item. -/
def PartSpec (E : FmtEnv D F) (known : List Str) (n : Nat) (selectors : List (AMap Str Str)) (item : Item) :
    FmtM (PatternPart × List Str × List (AMap Str Str)) → Prop
  | .ok (p, nn, s') => ItemOk E known item ∧ (∃ extra, s' = selectors ++ extra) ∧
      ((∃ l, item = .number l) ∧ p = .numberSign n ∧ nn = [[]] ∨
       (∀ i, p ≠ .numberSign i) ∧ nn = [] ∧ ∀ owners self, CItem E owners s' self item p)
  | .err _ => ¬ ItemOk E known item
  | .panic => ¬ ItemOk E known item ∧ CmdPanics E

theorem partPlural_spec {patterns : AMap Str (List PatternPart)} {known : List Str}
    (hk : ∀ name, patterns.contains name = true ↔ name ∈ known) (kw ph : Str) (ct : ComplexType)
    (selectors : List (AMap Str Str)) (sels : List (Leaf × Leaf)) :
    match partPlural kw ph ct patterns selectors (selMap sels []) with
    | .ok (p, s') => ((∀ key ∈ keysOf sels, IsCategory key ∧ key ∈ known) ∧ "other".toList ∈ keysOf sels) ∧
        p = .patternComplex ph ct selectors.length ∧ s' = selectors ++ [selMap sels []]
    | .err _ => ¬ ((∀ key ∈ keysOf sels, IsCategory key ∧ key ∈ known) ∧ "other".toList ∈ keysOf sels)
    | .panic => False := by
  have hall : (∀ kv ∈ selMap sels [], kv.1 ∈ validPlurals ∧ patterns.contains kv.2 = true) ↔
      ∀ key ∈ keysOf sels, IsCategory key ∧ key ∈ known := by
    constructor
    · intro h key hkey
      have := h (key, key) ((selMap_mem sels key key).2 ⟨rfl, hkey⟩)
      exact ⟨(mem_validPlurals _).1 this.1, (hk key).1 this.2⟩
    · rintro h ⟨k, v⟩ hkv
      obtain ⟨rfl, hkey⟩ := (selMap_mem sels k v).1 hkv
      exact ⟨(mem_validPlurals _).2 (h _ hkey).1, (hk _).2 (h _ hkey).2⟩
  have hoth : (∃ kv ∈ selMap sels [], kv.1 = "other".toList) ↔ "other".toList ∈ keysOf sels := by
    constructor
    · rintro ⟨⟨k, v⟩, hkv, hko⟩
      obtain ⟨_, hkey⟩ := (selMap_mem sels k v).1 hkv
      rw [← hko]; exact hkey
    · intro h
      exact ⟨(_, _), (selMap_mem sels _ _).2 ⟨rfl, h⟩, rfl⟩
  have h := pluralLoop_spec kw ph patterns (selMap sels []) false
  unfold partPlural
  split at h
  · rename_i b heq
    rw [heq]
    rw [hall, hoth] at h
    simp only [Bool.false_eq_true, false_or] at h
    cases b with
    | true => exact ⟨⟨h.1, h.2.1 rfl⟩, rfl, rfl⟩
    | false =>
      intro h2
      have := h.2.2 h2.2
      cases this
  · rename_i e heq
    rw [heq]
    rw [hall] at h
    exact fun h2 => h h2.1
  · exact h.elim

theorem selRep_selMap (sels : List (Leaf × Leaf)) : SelRep sels (selMap sels []) := selMap_get sels

theorem docPart_spec (E : FmtEnv D F) (lang : Str) {patterns : AMap Str (List PatternPart)} {known : List Str}
    (hk : ∀ name, patterns.contains name = true ↔ name ∈ known) (n : Nat) (selectors : List (AMap Str Str))
    (item : Item) (hs : ∀ parts, item = .cmd parts → CmdShape parts) :
    PartSpec E known n selectors item (docPart E lang patterns n selectors item) := by
  match item with
  | .text toks => exact ⟨trivial, ⟨[], by simp⟩, Or.inr ⟨by simp, rfl, fun _ _ => .text _⟩⟩
  | .number l => exact ⟨trivial, ⟨[], by simp⟩, Or.inl ⟨⟨_, rfl⟩, rfl, rfl⟩⟩
  | .pat id none => exact ⟨trivial, ⟨[], by simp⟩, Or.inr ⟨by simp, rfl, fun _ _ => .string _⟩⟩
  | .pat id (some (k, sels)) =>
    have hm : ∀ k v, (k, v) ∈ selMap sels [] → v = k := fun k v h => ((selMap_mem sels k v).1 h).1
    simp only [docPart, partKeyword]
    by_cases h1 : k.str = "decimal".toList
    · simp only [h1, if_true, Outcome.bind_ok]
      have h := decimalOptions_spec id.str (selMap sels []) hm
      by_cases he : selMap sels [] = []
      · rw [if_pos he] at h
        rw [h]
        have := (selMap_eq_nil sels).1 he
        subst this
        exact ⟨Or.inl ⟨Or.inl h1, rfl⟩, ⟨[], by simp⟩, Or.inr ⟨by simp, rfl, fun _ _ => .decimal _ _ h1⟩⟩
      · rw [if_neg he] at h
        obtain ⟨e, h⟩ := h
        rw [h]
        simp only [Outcome.bind_err, PartSpec, ItemOk, h1]
        rw [selMap_eq_nil] at he
        simp [he]
    simp only [h1, if_false]
    by_cases h2 : k.str = "date_time".toList
    · simp only [h2, if_true, Outcome.bind_ok]
      have h := dateTimeOptions_spec E.icu4x lang id.str (selMap sels []) hm
      by_cases he : selMap sels [] = []
      · rw [if_pos he] at h
        rw [h]
        have := (selMap_eq_nil sels).1 he
        subst this
        exact ⟨Or.inl ⟨Or.inr h2, rfl⟩, ⟨[], by simp⟩, Or.inr ⟨by simp, rfl, fun _ _ => .dateTime _ _ h2⟩⟩
      · rw [if_neg he] at h
        obtain ⟨e, h⟩ := h
        rw [h]
        simp only [Outcome.bind_err, PartSpec, ItemOk, h2]
        rw [selMap_eq_nil] at he
        simp [he]
    simp only [h2, if_false]
    by_cases h3 : k.str = "ordinal".toList
    · simp only [h3, if_true, Outcome.bind_ok]
      have h := partPlural_spec hk "ordinal".toList id.str .ordinal selectors sels
      split at h
      · rename_i p s' heq
        rw [heq]
        obtain ⟨h4, rfl, rfl⟩ := h
        refine ⟨Or.inr (Or.inl ⟨Or.inl h3, h4⟩), ⟨_, rfl⟩, Or.inr ⟨by simp, rfl, fun _ _ => ?_⟩⟩
        exact .complex id k sels .ordinal _ _ (Or.inl ⟨h3, rfl⟩) (by simp) (selRep_selMap sels)
      · rename_i e heq
        rw [heq]
        simp only [Outcome.bind_err, PartSpec, ItemOk, h3]
        rintro (⟨h5 | h5, _⟩ | ⟨_, h5⟩ | ⟨h5, _⟩)
        · exact absurd h5 (by decide)
        · exact absurd h5 (by decide)
        · exact h h5
        · exact absurd h5 (by decide)
      · exact h.elim
    simp only [h3, if_false]
    by_cases h4 : k.str = "plural".toList
    · simp only [h4, if_true, Outcome.bind_ok]
      have h := partPlural_spec hk "plural".toList id.str .plural selectors sels
      split at h
      · rename_i p s' heq
        rw [heq]
        obtain ⟨h5, rfl, rfl⟩ := h
        refine ⟨Or.inr (Or.inl ⟨Or.inr h4, h5⟩), ⟨_, rfl⟩, Or.inr ⟨by simp, rfl, fun _ _ => ?_⟩⟩
        exact .complex id k sels .plural _ _ (Or.inr (Or.inl ⟨h4, rfl⟩)) (by simp) (selRep_selMap sels)
      · rename_i e heq
        rw [heq]
        simp only [Outcome.bind_err, PartSpec, ItemOk, h4]
        rintro (⟨h5 | h5, _⟩ | ⟨_, h5⟩ | ⟨h5, _⟩)
        · exact absurd h5 (by decide)
        · exact absurd h5 (by decide)
        · exact h h5
        · exact absurd h5 (by decide)
      · exact h.elim
    simp only [h4, if_false]
    by_cases h5 : k.str = "select".toList
    · simp only [h5, if_true, Outcome.bind_ok]
      have hall : (∀ kv ∈ selMap sels [], patterns.contains kv.2 = true) ↔ ∀ key ∈ keysOf sels, key ∈ known := by
        constructor
        · intro h key hkey
          exact (hk key).1 (h (key, key) ((selMap_mem sels key key).2 ⟨rfl, hkey⟩))
        · rintro h ⟨k, v⟩ hkv
          obtain ⟨rfl, hkey⟩ := (selMap_mem sels k v).1 hkv
          exact (hk _).2 (h _ hkey)
      have h := selectLoop_spec id.str patterns (selMap sels [])
      rw [hall] at h
      split at h
      · rename_i heq
        rw [heq]
        refine ⟨Or.inr (Or.inr ⟨h5, h⟩), ⟨_, rfl⟩, Or.inr ⟨by simp, rfl, fun _ _ => ?_⟩⟩
        exact .complex id k sels .select _ _ (Or.inr (Or.inr ⟨h5, rfl⟩)) (by simp) (selRep_selMap sels)
      · rename_i e heq
        rw [heq]
        simp only [Outcome.bind_err, PartSpec, ItemOk, h5]
        rintro (⟨h6 | h6, _⟩ | ⟨h6 | h6, _⟩ | ⟨_, h6⟩)
        · exact absurd h6 (by decide)
        · exact absurd h6 (by decide)
        · exact absurd h6 (by decide)
        · exact absurd h6 (by decide)
        · exact h h6
      · exact h.elim
    · simp only [h5, if_false, Outcome.bind_err, PartSpec, ItemOk]
      rintro (⟨h6 | h6, _⟩ | ⟨h6 | h6, _⟩ | ⟨h6, _⟩) <;> contradiction
  | .cmd parts =>
    match parts, hs parts rfl with
    | .ident nm :: .hash b :: ps, hs =>
      exact ⟨trivial, ⟨[], by simp⟩, Or.inr ⟨by simp, rfl, fun _ _ => .delayed _ _ _⟩⟩
    | [.ident nm], hs =>
      have h := callCommand_forget E nm.str ([nm.str].map .string)
      simp only [docPart, docCommand, List.map_nil]
      cases hc : callCommand E.commands nm.str ([nm.str].map .string) with
      | ok s =>
        rw [hc] at h
        exact ⟨⟨s, h.symm⟩, ⟨[], by simp⟩, Or.inr ⟨by simp, rfl, fun _ _ => .now nm [] s (by simp) h.symm⟩⟩
      | err e =>
        rw [hc] at h
        rintro ⟨s, hs⟩
        have := h.trans hs
        cases this
      | panic =>
        refine ⟨?_, callCommand_panic E _ _ hc⟩
        rw [hc] at h
        rintro ⟨s, hs⟩
        have := h.trans hs
        cases this
    | .ident nm :: .ident b :: ps, hs =>
      have h := callCommand_forget E nm.str ((nm.str :: (Part.ident b :: ps).map Part.str).map .string)
      have he : ((nm.str :: (Part.ident b :: ps).map Part.str).map PValue.string : List (PValue D F)) =
        .string nm.str :: (Part.ident b :: ps).map fun p => .string p.str := by simp
      simp only [docPart, docCommand]
      cases hc : callCommand E.commands nm.str ((nm.str :: (Part.ident b :: ps).map Part.str).map .string) with
      | ok s =>
        rw [hc, he] at h
        exact ⟨⟨s, h.symm⟩, ⟨[], by simp⟩, Or.inr ⟨by simp, rfl, fun _ _ => .now nm _ s (by simp) h.symm⟩⟩
      | err e =>
        rw [hc, he] at h
        rintro ⟨s, hs⟩
        have := h.trans hs
        cases this
      | panic =>
        refine ⟨?_, callCommand_panic E _ _ hc⟩
        rw [hc, he] at h
        rintro ⟨s, hs⟩
        have := h.trans hs
        cases this

end Verif.FormatLemmas
