import Verif.Spec.FormatterOrder
/-
The order of the entries of the maps of selectors does not matter.
-/
namespace Verif.OrderLemmas
open Verif Verif.Spec

variable {D F : Type}

/-! ### Runs -/

section
variable {ε α β : Type}

theorem SameRun.refl {r : α → α → Prop} (hr : ∀ a, r a a) (x : Outcome ε α) : SameRun r x x := by
  cases x <;> simp [SameRun, hr]

theorem SameRun.bind {r : α → α → Prop} {s : β → β → Prop} {x y : Outcome ε α} {f g : α → Outcome ε β}
    (h : SameRun r x y) (hf : ∀ a b, r a b → SameRun s (f a) (g b)) : SameRun s (x >>= f) (y >>= g) := by
  cases x <;> cases y <;> first | exact h.elim | exact hf _ _ h | trivial

theorem SameRun.bindSame {s : β → β → Prop} (x : Outcome ε α) {f g : α → Outcome ε β}
    (hf : ∀ a, SameRun s (f a) (g a)) : SameRun s (x >>= f) (x >>= g) :=
  SameRun.bind (SameRun.refl (r := Eq) (fun _ => rfl) x) fun a _ h => h ▸ hf a

theorem SameRun.trans {r : α → α → Prop} (hr : ∀ a b c, r a b → r b c → r a c) {x y z : Outcome ε α}
    (h : SameRun r x y) (h' : SameRun r y z) : SameRun r x z := by
  cases x <;> cases y <;> cases z <;> first | exact h.elim | exact h'.elim | exact hr _ _ _ h h' | trivial

theorem SameRun.mono {r s : α → α → Prop} (hr : ∀ a b, r a b → s a b) {x y : Outcome ε α}
    (h : SameRun r x y) : SameRun s x y := by
  cases x <;> cases y <;> first | exact h.elim | exact hr _ _ h | trivial
end

/-! ### The loops over the entries -/

theorem keys_perm {m m' : AMap Str Str} (h : m.Perm m') : (AMap.keys m).Perm (AMap.keys m') := h.map _

theorem get_perm {m m' : AMap Str Str} (h : m.Perm m') (hn : (AMap.keys m).Nodup) : SameMap m m' := by
  intro k
  have hn' : (AMap.keys m').Nodup := ((keys_perm h).nodup_iff).1 hn
  cases hk : AMap.get m k with
  | some v => exact (AMap.get_of_mem hn' (h.mem_iff.1 (AMap.mem_of_get hk))).symm
  | none =>
    rw [AMap.get_eq_none_iff] at hk
    exact ((AMap.get_eq_none_iff _ _).2 fun hm => hk ((keys_perm h).mem_iff.2 hm)).symm

/-- Entries of different keys, one after the other, in either order. -/
theorem nodup_swap {k k' v v' : Str} {m : AMap Str Str} (h : (AMap.keys ((k, v) :: (k', v') :: m)).Nodup) : k ≠ k' := by
  intro e
  subst e
  simp [AMap.keys] at h

/-- A value of an option is accepted or refused. -/
theorem signDisplay_cases (v : Str) : (∃ s, signDisplay v = .ok s) ∨ ∃ e, signDisplay v = .err e := by
  unfold signDisplay
  repeat' split
  all_goals simp

theorem decimalGrouping_cases (v : Str) : (∃ s, decimalGrouping v = .ok s) ∨ ∃ e, decimalGrouping v = .err e := by
  unfold decimalGrouping
  repeat' split
  all_goals simp

theorem fmtLength_cases (o v : Str) : (∃ s, fmtLength o v = .ok s) ∨ ∃ e, fmtLength o v = .err e := by
  unfold fmtLength
  repeat' split
  all_goals simp

/-- A loop that changes a state by each entry in turn and stops at the first error. -/
def updates {A : Type} (upd : Str × Str → FmtM (A → A)) : AMap Str Str → A → FmtM A
  | [], a => .ok a
  | e :: rest, a => upd e >>= fun u => updates upd rest (u a)

/-- The changes by entries of different keys do not depend on each other. -/
structure Independent {A : Type} (upd : Str × Str → FmtM (A → A)) : Prop where
  cases : ∀ e, (∃ u, upd e = .ok u) ∨ ∃ x, upd e = .err x
  comm : ∀ e e' u u', upd e = .ok u → upd e' = .ok u' → e.1 ≠ e'.1 → ∀ a, u (u' a) = u' (u a)

theorem updates_perm {A : Type} {upd : Str × Str → FmtM (A → A)} (hu : Independent upd) {m m' : AMap Str Str}
    (h : m.Perm m') : (AMap.keys m).Nodup → ∀ a, SameRun Eq (updates upd m a) (updates upd m' a) := by
  induction h with
  | nil => intro _ _; exact SameRun.refl (fun _ => rfl) _
  | cons x _ ih =>
    intro hn a
    exact SameRun.bindSame _ fun s => ih (List.nodup_cons.1 hn).2 _
  | swap x y l =>
    intro hn a
    have hne : y.1 ≠ x.1 := nodup_swap (k := y.1) (v := y.2) (k' := x.1) (v' := x.2) hn
    simp only [updates]
    rcases hu.cases x with ⟨u, hx⟩ | ⟨e, hx⟩ <;> rcases hu.cases y with ⟨w, hy⟩ | ⟨e', hy⟩ <;>
      simp only [hx, hy, Outcome.bind_ok, Outcome.bind_err]
    · rw [hu.comm y x w u hy hx hne]
      exact SameRun.refl (fun _ => rfl) _
    all_goals trivial
  | trans h1 _ ih1 ih2 =>
    intro hn a
    exact SameRun.trans (r := Eq) (fun _ _ _ => Eq.trans) (ih1 hn a) (ih2 (((keys_perm h1).nodup_iff).1 hn) a)

/-- What an option of `decimal` changes. -/
def decimalUpdate (placeholder : Str) (e : Str × Str) :
    FmtM (Option SignDisplay × Option Grouping → Option SignDisplay × Option Grouping) :=
  if e.1 = "sign".toList then signDisplay e.2 >>= fun s => .ok fun a => (some s, a.2)
  else if e.1 = "group".toList then decimalGrouping e.2 >>= fun g => .ok fun a => (a.1, some g)
  else .err (.invalidOption e.2 "decimal".toList placeholder)

theorem decimalUpdate_ok {placeholder : Str} {e : Str × Str} {u} (h : decimalUpdate placeholder e = .ok u) :
    (e.1 = "sign".toList ∧ ∃ s, u = fun a => (some s, a.2)) ∨ (e.1 = "group".toList ∧ ∃ g, u = fun a => (a.1, some g)) := by
  unfold decimalUpdate at h
  split at h
  · rename_i hk
    rcases signDisplay_cases e.2 with ⟨s, hs⟩ | ⟨s, hs⟩ <;> rw [hs] at h <;> cases h
    exact .inl ⟨hk, s, rfl⟩
  · split at h
    · rename_i hk
      rcases decimalGrouping_cases e.2 with ⟨s, hs⟩ | ⟨s, hs⟩ <;> rw [hs] at h <;> cases h
      exact .inr ⟨hk, s, rfl⟩
    · cases h

theorem decimalUpdate_independent (placeholder : Str) : Independent (decimalUpdate placeholder) where
  cases e := by
    unfold decimalUpdate
    split
    · rcases signDisplay_cases e.2 with ⟨s, hs⟩ | ⟨s, hs⟩ <;> simp [hs]
    · split
      · rcases decimalGrouping_cases e.2 with ⟨s, hs⟩ | ⟨s, hs⟩ <;> simp [hs]
      · simp
  comm e e' u u' h h' hne a := by
    rcases decimalUpdate_ok h with ⟨hk, s, rfl⟩ | ⟨hk, s, rfl⟩ <;>
      rcases decimalUpdate_ok h' with ⟨hk', s', rfl⟩ | ⟨hk', s', rfl⟩ <;>
      first | exact absurd (hk.trans hk'.symm) hne | rfl

theorem decimalOptions_eq (placeholder : Str) (m : AMap Str Str) : ∀ sign group,
    decimalOptions placeholder m sign group = updates (decimalUpdate placeholder) m (sign, group) := by
  induction m with
  | nil => intro _ _; rfl
  | cons e rest ih =>
    intro sign group
    obtain ⟨k, v⟩ := e
    show decimalOptions placeholder ((k, v) :: rest) sign group =
      (decimalUpdate placeholder (k, v) >>= fun u => updates (decimalUpdate placeholder) rest (u (sign, group)))
    generalize hu : updates (decimalUpdate placeholder) rest = w at ih
    unfold decimalOptions decimalUpdate
    split
    · rcases signDisplay_cases v with ⟨s, hs⟩ | ⟨s, hs⟩ <;> simp only [hs, Outcome.bind_ok, Outcome.bind_err, ih]
    · split
      · rcases decimalGrouping_cases v with ⟨s, hs⟩ | ⟨s, hs⟩ <;> simp only [hs, Outcome.bind_ok, Outcome.bind_err, ih]
      · rfl

/-- What an option of `date_time` changes. -/
def dateTimeUpdate (X : Icu4x D F) (lang placeholder : Str) (e : Str × Str) :
    FmtM (Option FmtLength × Option FmtLength × Option Str → Option FmtLength × Option FmtLength × Option Str) :=
  if e.1 = "date".toList then fmtLength "date".toList e.2 >>= fun l => .ok fun a => (some l, a.2.1, a.2.2)
  else if e.1 = "time".toList then fmtLength "time".toList e.2 >>= fun l => .ok fun a => (a.1, some l, a.2.2)
  else if e.1 = "calendar".toList then
    if ¬ calendars.contains e.2 then .err (.invalidOption e.2 "ordinal".toList placeholder)
    else liftE (X.parseLocale (calendarLocale lang e.2)) >>= fun l => .ok fun a => (a.1, a.2.1, some l)
  else .err (.invalidOption e.2 "date-time".toList placeholder)

theorem liftE_cases {ε α : Type} (x : Except ε α) : (∃ s, liftE x = .ok s) ∨ ∃ e, liftE x = .err e := by
  cases x <;> simp [liftE]

theorem dateTimeUpdate_cases (X : Icu4x D F) (lang placeholder : Str) (e : Str × Str) :
    (∃ u, dateTimeUpdate X lang placeholder e = .ok u ∧
      ((e.1 = "date".toList ∧ ∃ l, u = fun a => (some l, a.2.1, a.2.2)) ∨
       (e.1 = "time".toList ∧ ∃ l, u = fun a => (a.1, some l, a.2.2)) ∨
       (e.1 = "calendar".toList ∧ ∃ l, u = fun a => (a.1, a.2.1, some l)))) ∨
    ∃ x, dateTimeUpdate X lang placeholder e = .err x := by
  unfold dateTimeUpdate
  split
  · rename_i hk
    rcases fmtLength_cases "date".toList e.2 with ⟨s, hs⟩ | ⟨s, hs⟩ <;> rw [hs]
    · exact .inl ⟨_, rfl, .inl ⟨hk, s, rfl⟩⟩
    · exact .inr ⟨_, rfl⟩
  · split
    · rename_i hk
      rcases fmtLength_cases "time".toList e.2 with ⟨s, hs⟩ | ⟨s, hs⟩ <;> rw [hs]
      · exact .inl ⟨_, rfl, .inr (.inl ⟨hk, s, rfl⟩)⟩
      · exact .inr ⟨_, rfl⟩
    · split
      · rename_i hk
        split
        · exact .inr ⟨_, rfl⟩
        · rcases liftE_cases (X.parseLocale (calendarLocale lang e.2)) with ⟨s, hs⟩ | ⟨s, hs⟩ <;> rw [hs]
          · exact .inl ⟨_, rfl, .inr (.inr ⟨hk, s, rfl⟩)⟩
          · exact .inr ⟨_, rfl⟩
      · exact .inr ⟨_, rfl⟩

theorem dateTimeUpdate_independent (X : Icu4x D F) (lang placeholder : Str) :
    Independent (dateTimeUpdate X lang placeholder) where
  cases e := by
    rcases dateTimeUpdate_cases X lang placeholder e with ⟨u, h, _⟩ | h
    · exact .inl ⟨u, h⟩
    · exact .inr h
  comm e e' u u' h h' hne a := by
    rcases dateTimeUpdate_cases X lang placeholder e with ⟨w, hw, hc⟩ | ⟨x, hx⟩
    · rcases dateTimeUpdate_cases X lang placeholder e' with ⟨w', hw', hc'⟩ | ⟨x, hx⟩
      · rw [h] at hw
        rw [h'] at hw'
        cases hw
        cases hw'
        rcases hc with ⟨hk, s, rfl⟩ | ⟨hk, s, rfl⟩ | ⟨hk, s, rfl⟩ <;>
          rcases hc' with ⟨hk', s', rfl⟩ | ⟨hk', s', rfl⟩ | ⟨hk', s', rfl⟩ <;>
          first | exact absurd (hk.trans hk'.symm) hne | rfl
      · rw [hx] at h'; cases h'
    · rw [hx] at h; cases h

theorem dateTimeOptions_eq (X : Icu4x D F) (lang placeholder : Str) (m : AMap Str Str) : ∀ d t c,
    dateTimeOptions X lang placeholder m d t c = updates (dateTimeUpdate X lang placeholder) m (d, t, c) := by
  induction m with
  | nil => intro _ _ _; rfl
  | cons e rest ih =>
    intro d t c
    obtain ⟨k, v⟩ := e
    show dateTimeOptions X lang placeholder ((k, v) :: rest) d t c =
      (dateTimeUpdate X lang placeholder (k, v) >>= fun u => updates (dateTimeUpdate X lang placeholder) rest (u (d, t, c)))
    generalize hu : updates (dateTimeUpdate X lang placeholder) rest = w at ih
    unfold dateTimeOptions dateTimeUpdate
    split
    · rcases fmtLength_cases "date".toList v with ⟨s, hs⟩ | ⟨s, hs⟩ <;> simp only [hs, Outcome.bind_ok, Outcome.bind_err, ih]
    · split
      · rcases fmtLength_cases "time".toList v with ⟨s, hs⟩ | ⟨s, hs⟩ <;> simp only [hs, Outcome.bind_ok, Outcome.bind_err, ih]
      · split
        · by_cases hv : calendars.contains v = true
          · simp only [hv, not_true_eq_false, if_false]
            rcases liftE_cases (X.parseLocale (calendarLocale lang v)) with ⟨s, hs⟩ | ⟨s, hs⟩ <;> simp only [hs, Outcome.bind_ok, Outcome.bind_err, ih]
          · simp only [hv]
            rfl
        · rfl

/-- What a selector of `plural` changes: whether `other` was seen. -/
def pluralUpdate (keyword placeholder : Str) (patterns : AMap Str (List PatternPart)) (e : Str × Str) :
    FmtM (Bool → Bool) :=
  if ¬ validPlurals.contains e.1 then .err (.invalidSelector e.1 keyword placeholder)
  else if ¬ patterns.contains e.2 then .err (.selectorNamed e.2 e.1 placeholder)
  else .ok fun o => if e.1 = "other".toList then true else o

theorem pluralUpdate_independent (keyword placeholder : Str) (patterns : AMap Str (List PatternPart)) :
    Independent (pluralUpdate keyword placeholder patterns) where
  cases e := by
    unfold pluralUpdate
    repeat' split
    all_goals simp
  comm e e' u u' h h' hne a := by
    unfold pluralUpdate at h h'
    repeat' split at h
    all_goals first | cases h | skip
    repeat' split at h'
    all_goals first | cases h' | skip
    all_goals rfl

theorem pluralLoop_eq (keyword placeholder : Str) (patterns : AMap Str (List PatternPart)) (m : AMap Str Str) : ∀ o,
    pluralLoop keyword placeholder patterns m o = updates (pluralUpdate keyword placeholder patterns) m o := by
  induction m with
  | nil => intro _; rfl
  | cons e rest ih =>
    intro o
    obtain ⟨k, v⟩ := e
    simp only [pluralLoop, updates, pluralUpdate]
    split
    · rfl
    · split
      · rfl
      · exact ih _

/-- `select` only checks. -/
def selectUpdate (placeholder : Str) (patterns : AMap Str (List PatternPart)) (e : Str × Str) : FmtM (Unit → Unit) :=
  if ¬ patterns.contains e.2 then .err (.selectorNamed e.2 e.1 placeholder) else .ok id

theorem selectUpdate_independent (placeholder : Str) (patterns : AMap Str (List PatternPart)) :
    Independent (selectUpdate placeholder patterns) where
  cases e := by
    unfold selectUpdate
    split <;> simp
  comm _ _ _ _ _ _ _ _ := rfl

theorem selectLoop_eq (placeholder : Str) (patterns : AMap Str (List PatternPart)) (m : AMap Str Str) :
    selectLoop placeholder patterns m = updates (selectUpdate placeholder patterns) m () := by
  induction m with
  | nil => rfl
  | cons e rest ih =>
    obtain ⟨k, v⟩ := e
    simp only [selectLoop, updates, selectUpdate]
    split
    · rfl
    · exact ih

/-! ### Building the formatter -/

theorem patternSelectorsLoop_nodup {t : Tree} : ∀ {l : List Nat} {m m' : AMap Str Str}, (AMap.keys m).Nodup →
    patternSelectorsLoop t l m = .ok m' → (AMap.keys m').Nodup := by
  intro l
  induction l with
  | nil => intro m m' hn h; cases h; exact hn
  | cons x rest ih =>
    intro m m' hn h
    unfold patternSelectorsLoop at h
    cases h1 : t.nodeType x with
    | ok ty =>
      rw [h1] at h
      simp only [Outcome.bind_ok] at h
      split at h
      · cases h
      · cases h2 : t.first x with
        | ok fi =>
          rw [h2] at h
          simp only [Outcome.bind_ok] at h
          cases h3 : t.nodeType fi with
          | ok ty' =>
            rw [h3] at h
            simp only [Outcome.bind_ok] at h
            split at h
            · cases h
            · cases h4 : t.firstToken fi with
              | ok tok =>
                rw [h4] at h
                simp only [Outcome.bind_ok] at h
                exact ih (AMap.nodup_insert _ _ hn) h
              | err _ => rw [h4] at h; cases h
              | panic => rw [h4] at h; cases h
          | err _ => rw [h3] at h; cases h
          | panic => rw [h3] at h; cases h
        | err _ => rw [h2] at h; cases h
        | panic => rw [h2] at h; cases h
    | err _ => rw [h1] at h; cases h
    | panic => rw [h1] at h; cases h

theorem patternSelectors_nodup {t : Tree} {i : Nat} {m : AMap Str Str} (h : patternSelectors t i = .ok m) :
    (AMap.keys m).Nodup := by
  unfold patternSelectors at h
  cases hc : t.children i with
  | ok c => rw [hc] at h; exact patternSelectorsLoop_nodup (by simp [AMap.keys]) h
  | err _ => rw [hc] at h; cases h
  | panic => rw [hc] at h; cases h

/-- Two lists of the same map with each key once. -/
structure Listed (m m' : AMap Str Str) : Prop where
  perm : m.Perm m'
  nodup : (AMap.keys m).Nodup

theorem Listed.same {m m' : AMap Str Str} (h : Listed m m') : SameMap m m' := get_perm h.perm h.nodup

theorem patternSelectorsIn_same {o o' : MapOrder} (ho : IsOrder o) (ho' : IsOrder o') (t : Tree) (i : Nat) :
    SameRun Listed (patternSelectorsIn o t i) (patternSelectorsIn o' t i) := by
  unfold patternSelectorsIn
  cases h : patternSelectors t i with
  | ok m =>
    have hn := patternSelectors_nodup h
    exact ⟨(ho i m).trans (ho' i m).symm, ((keys_perm (ho i m)).nodup_iff).2 hn⟩
  | err e => trivial
  | panic => trivial

theorem SameMaps.length {a b : List (AMap Str Str)} (h : SameMaps a b) : a.length = b.length := by
  induction h with
  | nil => rfl
  | cons _ _ ih => simp [ih]

theorem SameMaps.snoc {a b : List (AMap Str Str)} (h : SameMaps a b) {m m' : AMap Str Str} (hm : SameMap m m') :
    SameMaps (a ++ [m]) (b ++ [m']) := by
  induction h with
  | nil => exact .cons hm .nil
  | cons h1 _ ih => exact .cons h1 ih

theorem SameMaps.get {a b : List (AMap Str Str)} (h : SameMaps a b) : ∀ i : Nat,
    (a[i]? = none ∧ b[i]? = none) ∨ ∃ m m', a[i]? = some m ∧ b[i]? = some m' ∧ SameMap m m' := by
  induction h with
  | nil => intro i; exact .inl ⟨rfl, rfl⟩
  | cons h1 _ ih =>
    intro i
    cases i with
    | zero => exact .inr ⟨_, _, rfl, rfl, h1⟩
    | succ i => simpa using ih i

/-- The same part, and the same maps of selectors. -/
def SamePart (p q : PatternPart × List (AMap Str Str)) : Prop := p.1 = q.1 ∧ SameMaps p.2 q.2

theorem partPlural_same (keyword placeholder : Str) (complex : ComplexType) (patterns : AMap Str (List PatternPart))
    {a b : List (AMap Str Str)} (h : SameMaps a b) {m m' : AMap Str Str} (hm : Listed m m') :
    SameRun SamePart (partPlural keyword placeholder complex patterns a m)
      (partPlural keyword placeholder complex patterns b m') := by
  unfold partPlural
  rw [pluralLoop_eq, pluralLoop_eq]
  refine SameRun.bind (updates_perm (pluralUpdate_independent _ _ _) hm.perm hm.nodup false) fun o o' e => ?_
  subst e
  split
  · trivial
  · exact ⟨by rw [SameMaps.length h], SameMaps.snoc h hm.same⟩

theorem partKeyword_same (X : Icu4x D F) (lang placeholder keyword : Str) (patterns : AMap Str (List PatternPart))
    {a b : List (AMap Str Str)} (h : SameMaps a b) {x y : FmtM (AMap Str Str)} (hx : SameRun Listed x y) :
    SameRun SamePart (partKeyword X lang placeholder keyword patterns a x)
      (partKeyword X lang placeholder keyword patterns b y) := by
  unfold partKeyword
  split
  · refine SameRun.bind hx fun m m' hm => ?_
    rw [decimalOptions_eq, decimalOptions_eq]
    refine SameRun.bind (updates_perm (decimalUpdate_independent _) hm.perm hm.nodup _) fun p q e => ?_
    subst e
    exact ⟨rfl, h⟩
  split
  · refine SameRun.bind hx fun m m' hm => ?_
    rw [dateTimeOptions_eq, dateTimeOptions_eq]
    refine SameRun.bind (updates_perm (dateTimeUpdate_independent _ _ _) hm.perm hm.nodup _) fun p q e => ?_
    subst e
    exact ⟨rfl, h⟩
  split
  · exact SameRun.bind hx fun m m' hm => partPlural_same _ _ _ _ h hm
  split
  · exact SameRun.bind hx fun m m' hm => partPlural_same _ _ _ _ h hm
  split
  · refine SameRun.bind hx fun m m' hm => ?_
    rw [selectLoop_eq, selectLoop_eq]
    refine SameRun.bind (updates_perm (selectUpdate_independent _ _) hm.perm hm.nodup _) fun p q _ => ?_
    exact ⟨by rw [SameMaps.length h], SameMaps.snoc h hm.same⟩
  · trivial

section
variable {o o' : MapOrder} (ho : IsOrder o) (ho' : IsOrder o')
include ho ho'

theorem partPatternIn_same (X : Icu4x D F) (lang : Str) (patterns : AMap Str (List PatternPart)) (t : Tree) (i : Nat)
    {a b : List (AMap Str Str)} (h : SameMaps a b) :
    SameRun SamePart (partPatternIn o X lang patterns t i a) (partPatternIn o' X lang patterns t i b) := by
  unfold partPatternIn
  refine SameRun.bindSame _ fun children => ?_
  match children with
  | [] => trivial
  | placeholder :: rest =>
    refine SameRun.bindSame _ fun ty => ?_
    split
    · trivial
    · refine SameRun.bindSame _ fun tok => ?_
      match rest with
      | [] => exact ⟨rfl, h⟩
      | keyword :: _ =>
        refine SameRun.bindSame _ fun ty => ?_
        split
        · trivial
        · exact SameRun.bindSame _ fun tok => partKeyword_same _ _ _ _ _ h (patternSelectorsIn_same ho ho' t i)

theorem buildNamedIn_same (E : FmtEnv D F) (lang : Str) (patterns : AMap Str (List PatternPart)) (t : Tree) :
    ∀ (l : List Nat) (pattern : List PatternPart) (numbers : List Str) (a b : List (AMap Str Str)), SameMaps a b →
    SameRun (fun p q => p.1 = q.1 ∧ p.2.1 = q.2.1 ∧ SameMaps p.2.2 q.2.2)
      (buildNamedIn o E lang patterns t l pattern numbers a) (buildNamedIn o' E lang patterns t l pattern numbers b) := by
  intro l
  induction l with
  | nil => intro _ _ _ _ h; exact ⟨rfl, rfl, h⟩
  | cons child rest ih =>
    intro pattern numbers a b h
    unfold buildNamedIn
    refine SameRun.bindSame _ fun ty => ?_
    split
    · exact SameRun.bindSame _ fun p => ih _ _ _ _ h
    split
    · exact ih _ _ _ _ h
    split
    · refine SameRun.bind (partPatternIn_same ho ho' _ _ _ _ _ h) fun p q hpq => ?_
      obtain ⟨p1, p2⟩ := p
      obtain ⟨q1, q2⟩ := q
      obtain ⟨rfl, hs⟩ := hpq
      exact ih _ _ _ _ hs
    split
    · exact SameRun.bindSame _ fun p => ih _ _ _ _ h
    · trivial

theorem buildGroupIn_same (E : FmtEnv D F) (lang : Str) (t : Tree) :
    ∀ (l : List Nat) (patterns : AMap Str (List PatternPart)) (numbers : List Str) (a b : List (AMap Str Str)),
    SameMaps a b → SameRun (fun p q => p.1 = q.1 ∧ p.2.1 = q.2.1 ∧ SameMaps p.2.2 q.2.2)
      (buildGroupIn o E lang t l patterns numbers a) (buildGroupIn o' E lang t l patterns numbers b) := by
  intro l
  induction l with
  | nil => intro _ _ _ _ h; exact ⟨rfl, rfl, h⟩
  | cons named rest ih =>
    intro patterns numbers a b h
    unfold buildGroupIn
    refine SameRun.bindSame _ fun identifier => SameRun.bindSame _ fun name => ?_
    split
    · trivial
    · refine SameRun.bindSame _ fun string => SameRun.bindSame _ fun children => ?_
      refine SameRun.bind (buildNamedIn_same ho ho' _ _ _ _ _ _ _ _ _ h) fun p q hpq => ?_
      obtain ⟨p1, p2, p3⟩ := p
      obtain ⟨q1, q2, q3⟩ := q
      obtain ⟨h1, h2, hs⟩ := hpq
      cases h1
      cases h2
      exact ih _ _ _ _ hs

theorem buildMainIn_same (E : FmtEnv D F) (lang : Str) (patterns : AMap Str (List PatternPart)) (t : Tree) :
    ∀ (l : List Nat) (pattern : List PatternPart) (a b : List (AMap Str Str)), SameMaps a b →
    SameRun (fun p q => p.1 = q.1 ∧ SameMaps p.2 q.2)
      (buildMainIn o E lang patterns t l pattern a) (buildMainIn o' E lang patterns t l pattern b) := by
  intro l
  induction l with
  | nil => intro _ _ _ h; exact ⟨rfl, h⟩
  | cons child rest ih =>
    intro pattern a b h
    unfold buildMainIn
    refine SameRun.bindSame _ fun ty => ?_
    split
    · exact SameRun.bindSame _ fun p => ih _ _ _ h
    split
    · refine SameRun.bind (partPatternIn_same ho ho' _ _ _ _ _ h) fun p q hpq => ?_
      obtain ⟨p1, p2⟩ := p
      obtain ⟨q1, q2⟩ := q
      obtain ⟨rfl, hs⟩ := hpq
      exact ih _ _ _ hs
    split
    · exact SameRun.bindSame _ fun p => ih _ _ _ h
    · trivial

theorem ofTreeIn_same (E : FmtEnv D F) (tag : Str) (icuLanguage : Option Str) (t : Tree) :
    SameRun SameFormatter (Formatter.ofTreeIn o E tag icuLanguage t) (Formatter.ofTreeIn o' E tag icuLanguage t) := by
  unfold Formatter.ofTreeIn
  split
  · trivial
  · refine SameRun.bindSame _ fun lang => SameRun.bindSame _ fun ty => ?_
    split
    · trivial
    · refine SameRun.bindSame _ fun rootChildren => ?_
      refine SameRun.bind (r := fun p q => p.1 = q.1 ∧ p.2.1 = q.2.1 ∧ SameMaps p.2.2 q.2.2) ?_ fun p q hpq => ?_
      · split
        · exact SameRun.bindSame _ fun named => buildGroupIn_same ho ho' _ _ _ _ _ _ _ _ .nil
        · exact ⟨rfl, rfl, .nil⟩
      · obtain ⟨p1, p2, p3⟩ := p
        obtain ⟨q1, q2, q3⟩ := q
        obtain ⟨h1, h2, hs⟩ := hpq
        cases h1
        cases h2
        refine SameRun.bindSame _ fun main => SameRun.bindSame _ fun children => ?_
        refine SameRun.bind (buildMainIn_same ho ho' _ _ _ _ _ _ _ _ hs) fun p q hpq => ?_
        obtain ⟨p1, p2⟩ := p
        obtain ⟨q1, q2⟩ := q
        obtain ⟨h1, hs⟩ := hpq
        cases h1
        exact ⟨rfl, rfl, rfl, rfl, hs⟩

theorem tryNewIn_same (E : FmtEnv D F) (string tag : Str) (icuLanguage : Option Str) :
    SameRun SameFormatter (Formatter.tryNewIn o E string tag icuLanguage)
      (Formatter.tryNewIn o' E string tag icuLanguage) :=
  SameRun.bindSame _ fun t => ofTreeIn_same ho ho' E tag icuLanguage t
end

/-! ### The order of insertion -/

/-- The order of insertion. -/
def inserted : MapOrder := fun _ m => m

theorem inserted_isOrder : IsOrder inserted := fun _ m => .refl m

theorem patternSelectorsIn_inserted (t : Tree) (i : Nat) : patternSelectorsIn inserted t i = patternSelectors t i := by
  unfold patternSelectorsIn inserted
  cases patternSelectors t i <;> rfl

theorem partPatternIn_inserted (X : Icu4x D F) (lang : Str) (patterns : AMap Str (List PatternPart)) (t : Tree) (i : Nat)
    (a : List (AMap Str Str)) : partPatternIn inserted X lang patterns t i a = partPattern X lang patterns t i a := by
  unfold partPatternIn partPattern
  rw [patternSelectorsIn_inserted]
  rfl

theorem buildNamedIn_inserted (E : FmtEnv D F) (lang : Str) (patterns : AMap Str (List PatternPart)) (t : Tree) :
    ∀ (l : List Nat) (pattern : List PatternPart) (numbers : List Str) (a : List (AMap Str Str)),
    buildNamedIn inserted E lang patterns t l pattern numbers a = buildNamed E lang patterns t l pattern numbers a := by
  intro l
  induction l with
  | nil => intro _ _ _; rfl
  | cons child rest ih =>
    intro pattern numbers a
    unfold buildNamedIn buildNamed
    simp only [ih, partPatternIn_inserted]

theorem buildGroupIn_inserted (E : FmtEnv D F) (lang : Str) (t : Tree) :
    ∀ (l : List Nat) (patterns : AMap Str (List PatternPart)) (numbers : List Str) (a : List (AMap Str Str)),
    buildGroupIn inserted E lang t l patterns numbers a = buildGroup E lang t l patterns numbers a := by
  intro l
  induction l with
  | nil => intro _ _ _; rfl
  | cons child rest ih =>
    intro pattern numbers a
    unfold buildGroupIn buildGroup
    simp only [ih, buildNamedIn_inserted]

theorem buildMainIn_inserted (E : FmtEnv D F) (lang : Str) (patterns : AMap Str (List PatternPart)) (t : Tree) :
    ∀ (l : List Nat) (pattern : List PatternPart) (a : List (AMap Str Str)),
    buildMainIn inserted E lang patterns t l pattern a = buildMain E lang patterns t l pattern a := by
  intro l
  induction l with
  | nil => intro _ _; rfl
  | cons child rest ih =>
    intro pattern a
    unfold buildMainIn buildMain
    simp only [ih, partPatternIn_inserted]

theorem tryNewIn_inserted (E : FmtEnv D F) (string tag : Str) (icuLanguage : Option Str) :
    Formatter.tryNewIn inserted E string tag icuLanguage = Formatter.tryNew E string tag icuLanguage := by
  unfold Formatter.tryNewIn Formatter.tryNew Formatter.ofTreeIn Formatter.ofTree
  simp only [buildGroupIn_inserted, buildMainIn_inserted]
  rfl

/-! ### Formatting -/

section
variable {f f' : Formatter} (h : SameFormatter f f')
include h

theorem formatPart_same (E : FmtEnv D F) (values : AMap Str (PValue D F)) (rec : Str → List Str → FmtRes)
    (part : PatternPart) (numbers : List Str) :
    formatPart E f values rec part numbers = formatPart E f' values rec part numbers := by
  have hsel : ∀ (s : Str) (i : Nat) (n : List Str), selectString f rec s i n = selectString f' rec s i n := by
    intro s i n
    unfold selectString
    rcases SameMaps.get h.selectors i with ⟨h1, h2⟩ | ⟨m, m', h1, h2, hm⟩
    · rw [h1, h2]
    · rw [h1, h2]
      simp only [hm s]
  have hnum : ∀ (cat : D → PluralCategory) (d : D) (i : Nat) (n : List Str),
      findNumberSign E.icu4x f rec cat d i n = findNumberSign E.icu4x f' rec cat d i n := by
    intro cat d i n
    unfold findNumberSign
    rw [h.icuLanguage]
    rcases SameMaps.get h.selectors i with ⟨h1, h2⟩ | ⟨m, m', h1, h2, hm⟩
    · rw [h1, h2]
    · rw [h1, h2]
      simp only [hm (pluralCategory (cat d)), h.patterns]
  unfold formatPart formatPlural
  simp only [h.icuLanguage, hsel, hnum]

theorem formatParts_same (E : FmtEnv D F) (values : AMap Str (PValue D F)) (rec : Str → List Str → FmtRes) :
    ∀ (parts : List PatternPart) (acc : Str) (numbers : List Str),
    formatParts E f values rec parts acc numbers = formatParts E f' values rec parts acc numbers := by
  intro parts
  induction parts with
  | nil => intro _ _; rfl
  | cons part rest ih =>
    intro acc numbers
    unfold formatParts
    simp only [formatPart_same h, ih]

theorem formatPattern_same (E : FmtEnv D F) (values : AMap Str (PValue D F)) : ∀ (depth : Nat),
    formatPattern E f values depth = formatPattern E f' values depth := by
  intro depth
  induction depth with
  | zero => rfl
  | succ depth ih =>
    funext named numbers
    unfold formatPattern
    simp only [formatParts_same h, ih, h.patterns]

theorem format_same (E : FmtEnv D F) (values : AMap Str (PValue D F)) :
    (f.format E values).1 = (f'.format E values).1 ∧ SameFormatter (f.format E values).2 (f'.format E values).2 := by
  unfold Formatter.format
  rw [formatPattern_same h, h.patterns, h.numbers, h.languageTag]
  split
  · exact ⟨rfl, rfl, h.icuLanguage, rfl, rfl, h.selectors⟩
  · exact ⟨rfl, rfl, h.icuLanguage, rfl, rfl, h.selectors⟩
end

end Verif.OrderLemmas
