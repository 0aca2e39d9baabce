import Verif.Lemmas.Crash
/-
What `Spec.Blame` blames fails, and only one thing is blamed.
-/
namespace Verif.BlameLemmas
open Verif Verif.Spec Verif.FormatLemmas Verif.CrashLemmas

variable {D F : Type}

theorem numberError_none {X : Icu4x D F} {what : Str} {v : PValue D F} {e : FormatterError} (h : NumberError X what v e) :
    numberOf X v = none := by
  cases h with
  | float x e h => simp [numberOf, h, Except.toOption]
  | other v h _ => exact h

theorem numberError_unique {X : Icu4x D F} {what : Str} {v : PValue D F} {e e' : FormatterError}
    (h : NumberError X what v e) (h' : NumberError X what v e') : e = e' := by
  cases h with
  | float x e h =>
    cases h' with
    | float _ _ h' => rw [h] at h'; cases h'; rfl
    | other _ _ hn => exact absurd rfl (hn x)
  | other v h hn =>
    cases h' with
    | float x _ _ => exact absurd rfl (hn x)
    | other _ _ _ => rfl

theorem showError_none {X : Icu4x D F} {lang : Str} {d : Option IsoDate} {t : Option IsoTime} {e : FormatterError}
    (h : ShowError X lang d t e) : showMoment X lang d t = none := by
  cases h <;> simp_all [showMoment, Except.toOption]

theorem showError_unique {X : Icu4x D F} {lang : Str} {d : Option IsoDate} {t : Option IsoTime} {e e' : FormatterError}
    (h : ShowError X lang d t e) (h' : ShowError X lang d t e') : e = e' := by
  cases h <;> cases h' <;> simp_all

theorem momentError_err {X : Icu4x D F} {lang : Str} {v : PValue D F} {e : FormatterError} (h : MomentError X lang v e) :
    showDateTime X lang v = .err () := by
  unfold showDateTime
  cases h with
  | both d t e h => simp [showError_none h, ofOption]
  | date d e h => simp [showError_none h, ofOption]
  | time t e h => simp [showError_none h, ofOption]
  | isoTime s i h1 h2 h3 => simp only [h1, if_true, h2, List.length_nil, Nat.zero_add, h3]; rfl
  | isoTimeShow s t e h1 h2 h3 h => simp only [h1, if_true, h2, List.length_nil, Nat.zero_add, h3, Except.toOption, Option.bind_eq_bind, Option.bind_some, showError_none h]; rfl
  | isoDate s i h1 h2 =>
    by_cases hc : s.count 'T' = 1
    · have := h1 hc
      simp only [hc, if_true, h2]
      cases decomposeIsoTime (s.drop ((s.takeWhile (· ≠ 'T')).length + 1)) with
      | error i => rfl
      | ok t =>
        simp only [Except.toOption, Option.bind_eq_bind, Option.bind_some]
        rw [if_neg (by simpa using this)]
        rfl
    · simp only [hc, if_false, h2]
      rfl
  | isoDateShow s d e h1 h2 h => simp only [h1, if_false, h2, Except.toOption, Option.bind_eq_bind, Option.bind_some, showError_none h]; rfl
  | isoBoth s d i h1 h2 h3 h4 => simp only [h1, if_true, h4]; rfl
  | isoBothShow s d t e h1 h2 h3 h4 h =>
    simp only [h1, if_true, h3, h4]
    simp only [Except.toOption, Option.bind_eq_bind, Option.bind_some]
    rw [if_neg (by simpa using h2), showError_none h]
    rfl
  | other v h1 h2 h3 h4 =>
    cases v with
    | dateTime d t => exact absurd rfl (h1 d t)
    | date d => exact absurd rfl (h2 d)
    | time t => exact absurd rfl (h3 t)
    | string s => exact absurd rfl (h4 s)
    | _ => rfl

theorem momentError_unique {X : Icu4x D F} {lang : Str} {v : PValue D F} {e e' : FormatterError}
    (h : MomentError X lang v e) (h' : MomentError X lang v e') : e = e' := by
  cases h with
  | both d t e h =>
    cases h' with
    | both _ _ _ h' => exact showError_unique h h'
    | other _ g => exact absurd rfl (g _ _)
  | date d e h =>
    cases h' with
    | date _ _ h' => exact showError_unique h h'
    | other _ _ g => exact absurd rfl (g _)
  | time t e h =>
    cases h' with
    | time _ _ h' => exact showError_unique h h'
    | other _ _ _ g => exact absurd rfl (g _)
  | other v h1 h2 h3 h4 =>
    cases h' with
    | other => rfl
    | both => exact absurd rfl (h1 _ _)
    | date => exact absurd rfl (h2 _)
    | time => exact absurd rfl (h3 _)
    | _ => exact absurd rfl (h4 _)
  | isoTime s i h1 h2 h3 =>
    cases h' with
    | isoTime _ _ _ _ g => rw [h3] at g; cases g; rfl
    | isoTimeShow _ _ _ _ _ g => rw [h3] at g; cases g
    | isoDate _ _ g => exact absurd h2 (g h1)
    | isoDateShow _ _ _ g => exact absurd h1 g
    | isoBoth _ _ _ _ g => exact absurd h2 g
    | isoBothShow _ _ _ _ _ g => exact absurd h2 g
    | other _ _ _ _ g => exact absurd rfl (g _)
  | isoTimeShow s t e h1 h2 h3 h =>
    cases h' with
    | isoTime _ _ _ _ g => rw [h3] at g; cases g
    | isoTimeShow _ _ _ _ _ g h' => rw [h3] at g; cases g; exact showError_unique h h'
    | isoDate _ _ g => exact absurd h2 (g h1)
    | isoDateShow _ _ _ g => exact absurd h1 g
    | isoBoth _ _ _ _ g => exact absurd h2 g
    | isoBothShow _ _ _ _ _ g => exact absurd h2 g
    | other _ _ _ _ g => exact absurd rfl (g _)
  | isoDate s i h1 h2 =>
    cases h' with
    | isoTime _ _ g1 g2 => exact absurd g2 (h1 g1)
    | isoTimeShow _ _ _ g1 g2 => exact absurd g2 (h1 g1)
    | isoDate _ _ _ g => rw [h2] at g; cases g; rfl
    | isoDateShow _ _ _ _ g => rw [h2] at g; cases g
    | isoBoth _ _ _ _ _ g => rw [h2] at g; cases g
    | isoBothShow _ _ _ _ _ _ g => rw [h2] at g; cases g
    | other _ _ _ _ g => exact absurd rfl (g _)
  | isoDateShow s d e h1 h2 h =>
    cases h' with
    | isoTime _ _ g1 g2 => exact absurd g1 h1
    | isoTimeShow _ _ _ g1 g2 => exact absurd g1 h1
    | isoDate _ _ _ g => rw [h2] at g; cases g
    | isoDateShow _ _ _ _ g h' => rw [h2] at g; cases g; exact showError_unique h h'
    | isoBoth _ _ _ g1 => exact absurd g1 h1
    | isoBothShow _ _ _ _ g1 => exact absurd g1 h1
    | other _ _ _ _ g => exact absurd rfl (g _)
  | isoBoth s d i h1 h2 h3 h4 =>
    cases h' with
    | isoTime _ _ g1 g2 => exact absurd g2 h2
    | isoTimeShow _ _ _ g1 g2 => exact absurd g2 h2
    | isoDate _ _ _ g => rw [h3] at g; cases g
    | isoDateShow _ _ _ g => exact absurd h1 g
    | isoBoth _ _ _ _ _ _ g => rw [h4] at g; cases g; rfl
    | isoBothShow _ _ _ _ _ _ _ g => rw [h4] at g; cases g
    | other _ _ _ _ g => exact absurd rfl (g _)
  | isoBothShow s d t e h1 h2 h3 h4 h =>
    cases h' with
    | isoTime _ _ g1 g2 => exact absurd g2 h2
    | isoTimeShow _ _ _ g1 g2 => exact absurd g2 h2
    | isoDate _ _ _ g => rw [h3] at g; cases g
    | isoDateShow _ _ _ g => exact absurd h1 g
    | isoBoth _ _ _ _ _ _ g => rw [h4] at g; cases g
    | isoBothShow _ _ _ _ _ _ g1 g2 h' =>
      rw [h3] at g1; cases g1
      rw [h4] at g2; cases g2
      exact showError_unique h h'
    | other _ _ _ _ g => exact absurd rfl (g _)

/-! ### Items -/

theorem counts_not {k : Leaf} (h : Counts k) : k.str ≠ "decimal".toList ∧ k.str ≠ "date_time".toList ∧ k.str ≠ "select".toList := by
  rcases h with h | h <;> rw [h] <;> decide

theorem eval_counts {E : FmtEnv D F} {lang : Str} {values : AMap Str (PValue D F)} {self : Str} {sub : Str → Store → Res}
    {id k : Leaf} {sels : List (Leaf × Leaf)} {v : PValue D F} (hc : Counts k) (hv : values.get id.str = some v) (st : Store) :
    evalItem E lang values self sub (.pat id (some (k, sels))) st =
      evalPlural E.icu4x lang (rulesOf E.icu4x lang k) (countOf E.icu4x k v) (sels.map fun s => s.1.str) sub st := by
  obtain ⟨h1, h2, _⟩ := counts_not hc
  simp only [evalItem, hv, if_neg h1, if_neg h2]
  unfold rulesOf countOf
  by_cases ho : k.str = "ordinal".toList
  · simp only [if_pos ho]
  · simp only [if_neg ho]
    rw [if_pos (hc.resolve_left ho)]

theorem eval_select {E : FmtEnv D F} {lang : Str} {values : AMap Str (PValue D F)} {self : Str} {sub : Str → Store → Res}
    {id k : Leaf} {sels : List (Leaf × Leaf)} {v : PValue D F} (hk : k.str = "select".toList)
    (hv : values.get id.str = some v) (st : Store) :
    evalItem E lang values self sub (.pat id (some (k, sels))) st =
      evalSelect (textOf v) (sels.map fun s => s.1.str) sub st := by
  simp only [evalItem, hv]
  rw [if_neg (by rw [hk]; decide), if_neg (by rw [hk]; decide), if_neg (by rw [hk]; decide), if_neg (by rw [hk]; decide)]

/-- An item that is to blame fails. -/
theorem direct_err {E : FmtEnv D F} {lang : Str} {values : AMap Str (PValue D F)} {self : Str} {sub : Str → Store → Res}
    {it : Item} {e : FormatterError} (h : Direct E lang values it e) (st : Store) :
    (evalItem E lang values self sub it st).1 = some (.err ()) := by
  cases h with
  | missing id k h =>
    match k with
    | none => simp [evalItem, h]
    | some (k, sels) => simp [evalItem, h]
  | noText id v h1 h2 => simp [evalItem, h1, h2]
  | noDecimals id k sels v e h1 h2 h3 => simp [evalItem, h1, h2, showDecimal, h3, Except.toOption, ofOption]
  | noNumber id k sels v f e h1 h2 h3 h4 =>
    simp [evalItem, h1, h2, showDecimal, h3, numberError_none h4, Except.toOption, ofOption]
  | noMoment id k sels v e h1 h2 h3 =>
    simp only [evalItem, h2]
    rw [if_neg (by rw [h1]; decide), if_pos h1, momentError_err h3]
  | noRules id k sels v e h1 h2 h3 =>
    rw [eval_counts h1 h2, h3]
    rfl
  | noCount id k sels v r e h1 h2 h3 h4 =>
    rw [eval_counts (.inr h1) h2, h3]
    have : countOf E.icu4x k v = none := by
      unfold countOf
      rw [if_neg (by rw [h1]; decide)]
      exact numberError_none h4
    rw [this]
    rfl
  | noOrdinal id k sels v r h1 h2 h3 h4 =>
    rw [eval_counts (.inl h1) h2, h3]
    have : countOf E.icu4x k v = none := by
      unfold countOf
      rw [if_pos h1]
      exact h4
    rw [this]
    rfl
  | noDigits id k sels v r n e h1 h2 h3 h4 h5 =>
    rw [eval_counts h1 h2, h3, h4]
    simp [evalPlural, h5]
  | category id k sels v r n f i h1 h2 h3 h4 h5 h6 =>
    rw [eval_counts h1 h2, h3, h4]
    simp only [evalPlural, h5]
    rw [if_neg h6]
  | noChoice id k sels v h1 h2 h3 =>
    rw [eval_select h1 h2, h3]
    rfl
  | choice id k sels v s i h1 h2 h3 h4 =>
    rw [eval_select h1 h2, h3]
    simp only [evalSelect]
    rw [if_neg h4]
  | noCommand n h ps h1 =>
    simp only [evalItem, runCommand]
    rw [show AMap.get E.commands n.str = none from h1]
  | command n h ps f c h1 h2 =>
    simp only [evalItem]
    rw [runCommand_of h1, h2]
    rfl

/-- An item that shows a named string does as that string. -/
theorem picks_kind {E : FmtEnv D F} {lang : Str} {values : AMap Str (PValue D F)} {self : Str} {sub : Str → Store → Res}
    (hs : ∀ name st st', SameKind (sub name st).1 (sub name st').1) {it : Item} {name : Str} (h : Picks E lang values it name)
    (hm : name ≠ mainName) (st st' : Store) : SameKind (evalItem E lang values self sub it st).1 (sub name st').1 := by
  cases h with
  | count id k sels v r n f h1 h2 h3 h4 h5 h6 =>
    rw [eval_counts h1 h2, h3, h4]
    simp only [evalPlural, h5]
    rw [if_pos h6]
    exact hs _ _ _
  | choice id k sels v s h1 h2 h3 h4 =>
    rw [eval_select h1 h2, h3]
    simp only [evalSelect]
    rw [if_pos h4, if_neg hm]
    exact hs _ _ _

theorem kind_err {x y : Option (Outcome Unit Str)} (h : SameKind x y) : x = some (.err ()) ↔ y = some (.err ()) := by
  match x, y, h with
  | none, none, _ => simp
  | some (.ok _), some (.ok _), _ => simp
  | some (.err _), some (.err _), _ => simp
  | some .panic, some .panic, _ => simp

theorem front_err {E : FmtEnv D F} {lang : Str} {values : AMap Str (PValue D F)} {self : Str} {before : List Named}
    {it : Item} {back : List Item}
    (hi : ∀ st, (evalItem E lang values self (evalNamed E lang values before) it st).1 = some (.err ())) (front : List Item) :
    (∀ x ∈ front, HasText E lang values before self x) →
    ∀ st, (evalItems E lang values self (evalNamed E lang values before) (front ++ it :: back) st).1 = some (.err ()) := by
  induction front with
  | nil =>
    intro _ st
    simp only [List.nil_append, evalItems]
    have := hi st
    generalize evalItem E lang values self (evalNamed E lang values before) it st = y at this ⊢
    obtain ⟨y1, y2⟩ := y
    cases this
    rfl
  | cons x front ih =>
    intro hf st
    obtain ⟨s, st', hx⟩ := hf x (by simp) st
    simp only [List.cons_append, evalItems, hx]
    have := ih (fun y hy => hf y (by simp [hy])) st'
    generalize evalItems E lang values self (evalNamed E lang values before) (front ++ it :: back) st' = y at this ⊢
    obtain ⟨y1, y2⟩ := y
    cases this
    rfl

/-- What is blamed fails. -/
theorem blamed_err {E : FmtEnv D F} {lang : Str} {values : AMap Str (PValue D F)} {before : List Named} {self : Str}
    {items : List Item} {e : FormatterError} (h : Blamed E lang values before self items e) :
    Ordered E before → ∀ st, (evalItems E lang values self (evalNamed E lang values before) items st).1 = some (.err ()) := by
  induction h with
  | here before self front it back e hf hd => exact fun _ => front_err (direct_err hd) front hf
  | inside before self front it back e n later earlier hf hp hb _ ih =>
    intro ho
    subst hb
    refine front_err (fun st => ?_) front hf
    refine (kind_err (picks_kind (evalNamed_kind E lang values _) hp (ordered_name ho) st st)).2 ?_
    rw [evalNamed_found ho]
    cases ordered_tail ho with
    | cons _ _ ho' => exact ih ho' st

/-! ### Only one -/

theorem count_number {X : Icu4x D F} {k : Leaf} {v : PValue D F} {n : D} (h : k.str = "plural".toList)
    (hn : countOf X k v = some n) : numberOf X v = some n := by
  unfold countOf at hn
  rwa [if_neg (by rw [h]; decide)] at hn

theorem count_ordinal {X : Icu4x D F} {k : Leaf} {v : PValue D F} {n : D} (h : k.str = "ordinal".toList)
    (hn : countOf X k v = some n) : ordinalOf X v = some n := by
  unfold countOf at hn
  rwa [if_pos h] at hn

theorem direct_decimal {E : FmtEnv D F} {lang : Str} {values : AMap Str (PValue D F)} {id k : Leaf} {sels : List (Leaf × Leaf)}
    {v : PValue D F} {e : FormatterError} (hk : k.str = "decimal".toList) (hv : values.get id.str = some v)
    (h : Direct E lang values (.pat id (some (k, sels))) e) :
    E.icu4x.decimal lang none = .error e ∨
      ∃ f, E.icu4x.decimal lang none = .ok f ∧ NumberError E.icu4x "PatternDecimal".toList v e := by
  have hn : ¬ Counts k := fun h => (counts_not h).1 hk
  cases h with
  | missing _ _ h => rw [hv] at h; cases h
  | noDecimals _ _ _ _ _ _ _ h3 => exact .inl h3
  | noNumber _ _ _ _ f _ _ h2 h3 h4 => rw [hv] at h2; cases h2; exact .inr ⟨f, h3, h4⟩
  | noMoment _ _ _ _ _ h1 => exact absurd (hk.symm.trans h1) (by decide)
  | noRules _ _ _ _ _ h1 => exact absurd h1 hn
  | noCount _ _ _ _ _ _ h1 => exact absurd (.inr h1) hn
  | noOrdinal _ _ _ _ _ h1 => exact absurd (.inl h1) hn
  | noDigits _ _ _ _ _ _ _ h1 => exact absurd h1 hn
  | category _ _ _ _ _ _ _ _ h1 => exact absurd h1 hn
  | noChoice _ _ _ _ h1 => exact absurd (hk.symm.trans h1) (by decide)
  | choice _ _ _ _ _ _ h1 => exact absurd (hk.symm.trans h1) (by decide)

theorem direct_moment {E : FmtEnv D F} {lang : Str} {values : AMap Str (PValue D F)} {id k : Leaf} {sels : List (Leaf × Leaf)}
    {v : PValue D F} {e : FormatterError} (hk : k.str = "date_time".toList) (hv : values.get id.str = some v)
    (h : Direct E lang values (.pat id (some (k, sels))) e) : MomentError E.icu4x lang v e := by
  have hn : ¬ Counts k := fun h => (counts_not h).2.1 hk
  cases h with
  | missing _ _ h => rw [hv] at h; cases h
  | noDecimals _ _ _ _ _ h1 => exact absurd (hk.symm.trans h1) (by decide)
  | noNumber _ _ _ _ f _ h1 => exact absurd (hk.symm.trans h1) (by decide)
  | noMoment _ _ _ _ _ _ h2 h3 => rw [hv] at h2; cases h2; exact h3
  | noRules _ _ _ _ _ h1 => exact absurd h1 hn
  | noCount _ _ _ _ _ _ h1 => exact absurd (.inr h1) hn
  | noOrdinal _ _ _ _ _ h1 => exact absurd (.inl h1) hn
  | noDigits _ _ _ _ _ _ _ h1 => exact absurd h1 hn
  | category _ _ _ _ _ _ _ _ h1 => exact absurd h1 hn
  | noChoice _ _ _ _ h1 => exact absurd (hk.symm.trans h1) (by decide)
  | choice _ _ _ _ _ _ h1 => exact absurd (hk.symm.trans h1) (by decide)

theorem direct_counts {E : FmtEnv D F} {lang : Str} {values : AMap Str (PValue D F)} {id k : Leaf} {sels : List (Leaf × Leaf)}
    {v : PValue D F} {e : FormatterError} (hk : Counts k) (hv : values.get id.str = some v)
    (h : Direct E lang values (.pat id (some (k, sels))) e) :
    rulesOf E.icu4x lang k = .error e ∨ ∃ r, rulesOf E.icu4x lang k = .ok r ∧
      (countOf E.icu4x k v = none ∧
        (k.str = "plural".toList ∧ NumberError E.icu4x "PatternPlural".toList v e ∨
         k.str = "ordinal".toList ∧ e = .invalidValue "PatternOrdinal".toList) ∨
       ∃ n, countOf E.icu4x k v = some n ∧ (E.icu4x.decimal lang none = .error e ∨
        ∃ f i, E.icu4x.decimal lang none = .ok f ∧ e = .selectorsIndexNamed (categoryName (r n)) i)) := by
  obtain ⟨n1, n2, n3⟩ := counts_not hk
  cases h with
  | missing _ _ h => rw [hv] at h; cases h
  | noDecimals _ _ _ _ _ h1 => exact absurd h1 n1
  | noNumber _ _ _ _ f _ h1 => exact absurd h1 n1
  | noMoment _ _ _ _ _ h1 => exact absurd h1 n2
  | noRules _ _ _ _ _ _ _ h3 => exact .inl h3
  | noCount _ _ _ _ r _ h1 h2 h3 h4 =>
    rw [hv] at h2; cases h2
    refine .inr ⟨r, h3, .inl ⟨?_, .inl ⟨h1, h4⟩⟩⟩
    unfold countOf
    rw [if_neg (by rw [h1]; decide)]
    exact numberError_none h4
  | noOrdinal _ _ _ _ r h1 h2 h3 h4 =>
    rw [hv] at h2; cases h2
    refine .inr ⟨r, h3, .inl ⟨?_, .inr ⟨h1, rfl⟩⟩⟩
    unfold countOf
    rw [if_pos h1]
    exact h4
  | noDigits _ _ _ _ r n _ _ h2 h3 h4 h5 =>
    rw [hv] at h2; cases h2
    exact .inr ⟨r, h3, .inr ⟨n, h4, .inl h5⟩⟩
  | category _ _ _ _ r n f i _ h2 h3 h4 h5 =>
    rw [hv] at h2; cases h2
    exact .inr ⟨r, h3, .inr ⟨n, h4, .inr ⟨f, i, h5, rfl⟩⟩⟩
  | noChoice _ _ _ _ h1 => exact absurd h1 n3
  | choice _ _ _ _ _ _ h1 => exact absurd h1 n3

theorem direct_select {E : FmtEnv D F} {lang : Str} {values : AMap Str (PValue D F)} {id k : Leaf} {sels : List (Leaf × Leaf)}
    {v : PValue D F} {e : FormatterError} (hk : k.str = "select".toList) (hv : values.get id.str = some v)
    (h : Direct E lang values (.pat id (some (k, sels))) e) :
    textOf v = none ∧ e = .invalidValue "PatternSelect".toList ∨ ∃ s i, textOf v = some s ∧ e = .selectorsIndexNamed s i := by
  have hn : ¬ Counts k := fun h => (counts_not h).2.2 hk
  cases h with
  | missing _ _ h => rw [hv] at h; cases h
  | noDecimals _ _ _ _ _ h1 => exact absurd (hk.symm.trans h1) (by decide)
  | noNumber _ _ _ _ f _ h1 => exact absurd (hk.symm.trans h1) (by decide)
  | noMoment _ _ _ _ _ h1 => exact absurd (hk.symm.trans h1) (by decide)
  | noRules _ _ _ _ _ h1 => exact absurd h1 hn
  | noCount _ _ _ _ _ _ h1 => exact absurd (.inr h1) hn
  | noOrdinal _ _ _ _ _ h1 => exact absurd (.inl h1) hn
  | noDigits _ _ _ _ _ _ _ h1 => exact absurd h1 hn
  | category _ _ _ _ _ _ _ _ h1 => exact absurd h1 hn
  | noChoice _ _ _ _ _ h2 h3 => rw [hv] at h2; cases h2; exact .inl ⟨h3, rfl⟩
  | choice _ _ _ _ s i _ h2 h3 => rw [hv] at h2; cases h2; exact .inr ⟨s, i, h3, rfl⟩

/-- One item is to blame for one error only. -/
theorem direct_unique {E : FmtEnv D F} {lang : Str} {values : AMap Str (PValue D F)} {it : Item} {e e' : FormatterError}
    (h : Direct E lang values it e) (h' : Direct E lang values it e') : SameError e e' := by
  have dec : ∀ {id k : Leaf} {sels : List (Leaf × Leaf)} {v : PValue D F}, k.str = "decimal".toList →
      values.get id.str = some v → Direct E lang values (.pat id (some (k, sels))) e →
      Direct E lang values (.pat id (some (k, sels))) e' → SameError e e' := by
    intro id k sels v hk hv h h'
    rcases direct_decimal hk hv h with h | ⟨f, h1, h2⟩ <;> rcases direct_decimal hk hv h' with h' | ⟨f', h1', h2'⟩
    · rw [h] at h'; cases h'; exact .inl rfl
    · rw [h] at h1'; cases h1'
    · rw [h1] at h'; cases h'
    · exact .inl (numberError_unique h2 h2')
  have cnt : ∀ {id k : Leaf} {sels : List (Leaf × Leaf)} {v : PValue D F}, Counts k →
      values.get id.str = some v → Direct E lang values (.pat id (some (k, sels))) e →
      Direct E lang values (.pat id (some (k, sels))) e' → SameError e e' := by
    intro id k sels v hk hv h h'
    rcases direct_counts hk hv h with h | ⟨r, h1, h2⟩ <;> rcases direct_counts hk hv h' with h' | ⟨r', h1', h2'⟩
    · rw [h] at h'; cases h'; exact .inl rfl
    · rw [h] at h1'; cases h1'
    · rw [h1] at h'; cases h'
    · rw [h1] at h1'; cases h1'
      rcases h2 with ⟨g, h2⟩ | ⟨n, g, h2⟩ <;> rcases h2' with ⟨g', h2'⟩ | ⟨n', g', h2'⟩
      · rcases h2 with ⟨k1, h2⟩ | ⟨k1, rfl⟩ <;> rcases h2' with ⟨k1', h2'⟩ | ⟨k1', rfl⟩
        · exact .inl (numberError_unique h2 h2')
        · exact absurd (k1.symm.trans k1') (by decide)
        · exact absurd (k1.symm.trans k1') (by decide)
        · exact .inl rfl
      · rw [g] at g'; cases g'
      · rw [g] at g'; cases g'
      · rw [g] at g'; cases g'
        rcases h2 with h2 | ⟨f, i, h2, rfl⟩ <;> rcases h2' with h2' | ⟨f', i', h2', rfl⟩
        · rw [h2] at h2'; cases h2'; exact .inl rfl
        · rw [h2] at h2'; cases h2'
        · rw [h2] at h2'; cases h2'
        · exact .inr ⟨_, _, _, rfl, rfl⟩
  have sel : ∀ {id k : Leaf} {sels : List (Leaf × Leaf)} {v : PValue D F}, k.str = "select".toList →
      values.get id.str = some v → Direct E lang values (.pat id (some (k, sels))) e →
      Direct E lang values (.pat id (some (k, sels))) e' → SameError e e' := by
    intro id k sels v hk hv h h'
    rcases direct_select hk hv h with ⟨g, rfl⟩ | ⟨s, i, g, rfl⟩ <;>
      rcases direct_select hk hv h' with ⟨g', rfl⟩ | ⟨s', i', g', rfl⟩
    · exact .inl rfl
    · rw [g] at g'; cases g'
    · rw [g] at g'; cases g'
    · rw [g] at g'; cases g'; exact .inr ⟨_, _, _, rfl, rfl⟩
  have h0 := h
  cases h with
  | missing id k h1 =>
    cases h' with
    | missing => exact .inl rfl
    | noText _ _ h2 => rw [h1] at h2; cases h2
    | noDecimals _ _ _ _ _ _ h2 => rw [h1] at h2; cases h2
    | noNumber _ _ _ _ _ _ _ h2 => rw [h1] at h2; cases h2
    | noMoment _ _ _ _ _ _ h2 => rw [h1] at h2; cases h2
    | noRules _ _ _ _ _ _ h2 => rw [h1] at h2; cases h2
    | noCount _ _ _ _ _ _ _ h2 => rw [h1] at h2; cases h2
    | noOrdinal _ _ _ _ _ _ h2 => rw [h1] at h2; cases h2
    | noDigits _ _ _ _ _ _ _ _ h2 => rw [h1] at h2; cases h2
    | category _ _ _ _ _ _ _ _ _ h2 => rw [h1] at h2; cases h2
    | noChoice _ _ _ _ _ h2 => rw [h1] at h2; cases h2
    | choice _ _ _ _ _ _ _ h2 => rw [h1] at h2; cases h2
  | noText id v h1 _ =>
    cases h' with
    | missing _ _ h2 => rw [h1] at h2; cases h2
    | noText => exact .inl rfl
  | noDecimals _ _ _ _ _ h1 h2 => exact dec h1 h2 h0 h'
  | noNumber _ _ _ _ _ _ h1 h2 => exact dec h1 h2 h0 h'
  | noMoment _ _ _ _ _ h1 h2 => exact .inl (momentError_unique (direct_moment h1 h2 h0) (direct_moment h1 h2 h'))
  | noRules _ _ _ _ _ h1 h2 => exact cnt h1 h2 h0 h'
  | noCount _ _ _ _ _ _ h1 h2 => exact cnt (.inr h1) h2 h0 h'
  | noOrdinal _ _ _ _ _ h1 h2 => exact cnt (.inl h1) h2 h0 h'
  | noDigits _ _ _ _ _ _ _ h1 h2 => exact cnt h1 h2 h0 h'
  | category _ _ _ _ _ _ _ _ h1 h2 => exact cnt h1 h2 h0 h'
  | noChoice _ _ _ _ h1 h2 => exact sel h1 h2 h0 h'
  | choice _ _ _ _ _ _ h1 h2 => exact sel h1 h2 h0 h'
  | noCommand n h ps h1 =>
    cases h' with
    | noCommand => exact .inl rfl
    | command _ _ _ _ _ h2 => rw [h1] at h2; cases h2
  | command n h ps f c h1 h3 =>
    cases h' with
    | noCommand _ _ _ h2 => rw [h1] at h2; cases h2
    | command _ _ _ _ _ h2 h4 =>
      rw [h1] at h2; cases h2
      rw [h3] at h4; cases h4
      exact .inl rfl

theorem picks_unique {E : FmtEnv D F} {lang : Str} {values : AMap Str (PValue D F)} {it : Item} {a b : Str}
    (h : Picks E lang values it a) (h' : Picks E lang values it b) : a = b := by
  cases h with
  | count _ _ _ _ _ _ _ h1 h2 h3 h4 =>
    cases h' with
    | count _ _ _ _ _ _ _ _ g2 g3 g4 =>
      rw [h2] at g2; cases g2
      rw [h3] at g3; cases g3
      rw [h4] at g4; cases g4
      rfl
    | choice _ _ _ _ _ g1 => exact absurd g1 (counts_not h1).2.2
  | choice _ _ _ _ _ h1 h2 h3 =>
    cases h' with
    | count _ _ _ _ _ _ _ g1 => exact absurd h1 (counts_not g1).2.2
    | choice _ _ _ _ _ _ g2 g3 =>
      rw [h2] at g2; cases g2
      rw [h3] at g3; cases g3
      rfl

/-- An item that is to blame shows no named string. -/
theorem direct_not_picks {E : FmtEnv D F} {lang : Str} {values : AMap Str (PValue D F)} {it : Item} {e : FormatterError}
    {name : Str} (h : Direct E lang values it e) (h' : Picks E lang values it name) : False := by
  -- the meaning of the item where every named string has a text
  have h1 := direct_err (self := []) (sub := fun _ st => (some (.ok []), st)) h Store.empty
  by_cases hm : name = mainName
  · cases h' with
    | count _ _ _ _ _ _ _ _ _ _ _ _ _ => exact absurd hm (category_not_main _)
    | choice _ _ _ _ _ g1 g2 g3 g4 =>
      rw [eval_select g1 g2, g3] at h1
      simp only [evalSelect, if_pos g4, if_pos hm] at h1
      cases h1
  · have h2 := picks_kind (self := []) (sub := fun _ st => (some (.ok []), st)) (fun _ _ _ => trivial) h' hm Store.empty
      Store.empty
    rw [h1] at h2
    exact h2

theorem ordered_unique {E : FmtEnv D F} (before : List Named) : Ordered E before → ∀ {later n earlier later' n' earlier'},
    before = later ++ n :: earlier → before = later' ++ n' :: earlier' → n.name = n'.name → n = n' ∧ earlier = earlier' := by
  induction before with
  | nil => intro _ later; intro _ _ _ _ _ h; cases later <;> cases h
  | cons m before ih =>
    intro ho later n earlier later' n' earlier' h h' hn
    cases ho with
    | cons h1 _ ho =>
      cases later with
      | nil =>
        obtain ⟨rfl, rfl⟩ := List.cons.inj h
        cases later' with
        | nil => exact List.cons.inj h'
        | cons y later' =>
          obtain ⟨_, e⟩ := List.cons.inj h'
          exact absurd hn (fun hn => h1 (by rw [e, hn]; simp))
      | cons x later =>
        obtain ⟨_, e⟩ := List.cons.inj h
        cases later' with
        | nil =>
          obtain ⟨e', _⟩ := List.cons.inj h'
          exact absurd hn (fun hn => h1 (by rw [e, e', ← hn]; simp))
        | cons y later' =>
          obtain ⟨_, e'⟩ := List.cons.inj h'
          exact ih ho e e' hn

/-- One error is blamed, but for the number of the list of selectors. -/
theorem blamed_unique {E : FmtEnv D F} {lang : Str} {values : AMap Str (PValue D F)} {before : List Named} {self : Str}
    {items : List Item} {e : FormatterError} (h : Blamed E lang values before self items e) :
    Ordered E before → ∀ {e'}, Blamed E lang values before self items e' → SameError e e' := by
  have noText : ∀ {before : List Named} {self : Str} {it : Item} {e : FormatterError}, Direct E lang values it e →
      ¬ HasText E lang values before self it := by
    intro before self it e hd ht
    obtain ⟨s, st, h⟩ := ht Store.empty
    have := direct_err hd (self := self) (sub := evalNamed E lang values before) Store.empty
    rw [h] at this
    cases this
  have noText' : ∀ {before later earlier : List Named} {n : Named} {self : Str} {it : Item} {e : FormatterError},
      Ordered E before → before = later ++ n :: earlier → Picks E lang values it n.name →
      Blamed E lang values earlier n.name n.items e → ¬ HasText E lang values before self it := by
    intro before later earlier n self it e ho hb hp hbl ht
    subst hb
    obtain ⟨s, st, h⟩ := ht Store.empty
    have := picks_kind (self := self) (evalNamed_kind E lang values (later ++ n :: earlier)) hp (ordered_name ho) Store.empty
      Store.empty
    rw [h, evalNamed_found ho] at this
    cases ordered_tail ho with
    | cons _ _ ho' =>
      rw [blamed_err hbl ho' Store.empty] at this
      exact this
  induction h with
  | here before self front it back e hf hd =>
    intro ho e' h'
    generalize hl : front ++ it :: back = l at h'
    cases h' with
    | here _ _ front' it' back' _ hf' hd' =>
      have := first_unique _ rfl hl hf hf' (noText hd) (noText hd')
      subst this
      exact direct_unique hd hd'
    | inside _ _ front' it' back' _ n later earlier hf' hp hb hbl =>
      have := first_unique _ rfl hl hf hf' (noText hd) (noText' ho hb hp hbl)
      subst this
      exact (direct_not_picks hd hp).elim
  | inside before self front it back e n later earlier hf hp hb hbl ih =>
    intro ho e' h'
    generalize hl : front ++ it :: back = l at h'
    cases h' with
    | here _ _ front' it' back' _ hf' hd' =>
      have := first_unique _ rfl hl hf hf' (noText' ho hb hp hbl) (noText hd')
      subst this
      exact (direct_not_picks hd' hp).elim
    | inside _ _ front' it' back' _ n' later' earlier' hf' hp' hb' hbl' =>
      have := first_unique _ rfl hl hf hf' (noText' ho hb hp hbl) (noText' ho hb' hp' hbl')
      subst this
      obtain ⟨rfl, rfl⟩ := ordered_unique before ho hb hb' (picks_unique hp hp')
      subst hb
      cases ordered_tail ho with
      | cons _ _ ho' => exact ih ho' hbl'

end Verif.BlameLemmas
