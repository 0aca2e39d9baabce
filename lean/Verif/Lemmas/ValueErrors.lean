import Verif.Lemmas.ValueOrder
/-
Which errors there may be, over all orders of the values.
-/
namespace Verif.LocaliserLemmas
open Verif Verif.Spec

variable {D F P : Type} {L : LocEnv D F P} {tag : Str} {fb : Bool}

theorem sizeOf_nested {vs : List (Str × PValue D F)} {name c i : Str} {w : Option (List (Str × PValue D F))}
    (h : (name, PValue.localisationData c i w) ∈ vs) : sizeOf w < sizeOf (some vs) := by
  have h1 := List.sizeOf_lt_of_mem h
  simp at h1 ⊢
  omega

/-- A failure has a culprit. -/
theorem spoiled_by (c i : Str) (vs : Option (List (Str × PValue D F))) {r : LocM P (Str × Str)} (hr : ∀ x, r ≠ .ok x)
    (h : (actualData L tag fb false c i vs []).1 = r) : MaySpoil L tag fb c i vs r := by
  match vs with
  | none => exact .literal (by rw [← (Props.C34_nested_data_resolves L tag fb c i).1]; exact h)
  | some vs =>
    obtain ⟨_, h2, h3⟩ := Props.C34_nested_data_resolves L tag fb c i
    rcases Props.C34_cases L tag fb vs with ⟨ws, hw⟩ | ⟨pre, pre', name, c', i', w, rest, hvs, hp, hno⟩
    · exact .itself hw (by rw [← h2 vs ws hw]; exact h)
    · have hmem : (name, PValue.localisationData c' i' w) ∈ vs := by rw [hvs]; simp
      refine .nested hmem (spoiled_by c' i' w hr ?_)
      obtain ⟨e1, e2⟩ := h3 pre pre' name c' i' w rest hp
      rw [hvs] at h
      cases hx : (actualData L tag fb false c' i' w []).1 with
      | ok r => exact absurd hx (hno r)
      | err e => rw [e1 e hx] at h; exact h
      | panic => rw [e2 hx] at h; exact h
termination_by sizeOf vs
decreasing_by exact sizeOf_nested hmem

theorem SameValues.refl : ∀ vs : List (Str × PValue D F), SameValues vs vs
  | [] => .nil
  | (_, v) :: vs => .cons (.same v) (SameValues.refl vs)

theorem SameValues.ofPerm {vs vs' : List (Str × PValue D F)} (h : vs.Perm vs') : SameValues vs vs' := by
  induction h with
  | nil => exact .nil
  | cons x _ ih => exact .cons (.same _) ih
  | swap x y l => exact .swap _ _ _
  | trans _ _ i1 i2 => exact .trans i1 i2

theorem SameValue.trans {u v w : PValue D F} (h : SameValue u v) (h' : SameValue v w) : SameValue u w := by
  cases h with
  | same => exact h'
  | data hn hs =>
    cases h' with
    | same => exact .data hn hs
    | data _ hs' => exact .data hn (.trans hs hs')

theorem SameValues.member {vs vs' : List (Str × PValue D F)} (h : SameValues vs vs') :
    ∀ x ∈ vs', ∃ y ∈ vs, y.1 = x.1 ∧ SameValue y.2 x.2 := by
  refine SameValues.rec (motive_1 := fun _ _ _ => True)
    (motive_2 := fun vs vs' _ => ∀ x ∈ vs', ∃ y ∈ vs, y.1 = x.1 ∧ SameValue y.2 x.2) ?_ ?_ ?_ ?_ ?_ ?_ h
  · intros; trivial
  · intros; trivial
  · intro x hx; cases hx
  · intro name v v' rest rest' hv _ _ ih x hx
    rcases List.mem_cons.1 hx with rfl | hx
    · exact ⟨_, List.mem_cons_self, rfl, hv⟩
    · obtain ⟨y, hy, h1⟩ := ih x hx
      exact ⟨y, List.mem_cons_of_mem _ hy, h1⟩
  · intro a b rest x hx
    exact ⟨x, ((List.Perm.swap b a rest).mem_iff).2 hx, rfl, .same _⟩
  · intro a b c _ _ i1 i2 x hx
    obtain ⟨y, hy, e, hs⟩ := i2 x hx
    obtain ⟨z, hz, e', hs'⟩ := i1 y hy
    exact ⟨z, hz, e'.trans e, SameValue.trans hs' hs⟩

/-- The order does not matter for who can spoil it. -/
theorem MaySpoil.reorder {c i : Str} {vs' : List (Str × PValue D F)} {r : LocM P (Str × Str)}
    (h : MaySpoil L tag fb c i (some vs') r) : ∀ {vs : List (Str × PValue D F)}, (vs.map Prod.fst).Nodup → SameValues vs vs' →
      MaySpoil L tag fb c i (some vs) r := by
  generalize ho : some vs' = o at h
  induction h generalizing vs' with
  | literal _ => cases ho
  | @nested c i name c' i' vs1 w r hmem hw ih =>
    cases ho
    intro vs hn hs
    obtain ⟨⟨name2, v2⟩, hy, e, hv⟩ := SameValues.member hs _ hmem
    simp only at e hv
    subst e
    cases hv with
    | same => exact .nested hy hw
    | data hn2 hs2 => exact .nested hy (ih rfl hn2 hs2)
  | @itself c i vs1 ws r h1 h2 =>
    cases ho
    intro vs hn hs
    obtain ⟨ws', h3, h4⟩ := same_replaced L tag fb (SameValues.symm hs) ws h1
    refine .itself h3 ?_
    have hw' : (ws'.map Prod.fst).Nodup := by rw [AllReplaced.names h3]; exact hn
    have hw : (ws.map Prod.fst).Nodup := ((h4.map Prod.fst).nodup_iff).2 hw'
    rw [actualFormat_congr (values' := ws.foldl (fun m x => AMap.insert m x.1 x.2) []) (fun k => ?_)]
    · exact h2
    · rw [get_fold _ _ hw', get_fold _ _ hw, ProviderLemmas.get_perm h4 hw k]

/-- Whoever can spoil it does so in some order. -/
theorem MaySpoil.somewhere {c i : Str} {o : Option (List (Str × PValue D F))} {r : LocM P (Str × Str)}
    (h : MaySpoil L tag fb c i o r) (hr : ∀ x, r ≠ .ok x) :
    (o = none → (actualData L tag fb false c i none []).1 = r) ∧
    ∀ vs, o = some vs → (∀ w, Inside vs w → (w.map Prod.fst).Nodup) →
      ∃ vs', SameValues vs vs' ∧ (actualData L tag fb false c i (some vs') []).1 = r := by
  induction h with
  | literal h => exact ⟨fun _ => by rw [(Props.C34_nested_data_resolves L tag fb _ _).1]; exact h, fun _ h => by cases h⟩
  | @itself c i vs1 ws r h1 h2 =>
    refine ⟨(fun h => by cases h), fun vs hvs _ => ?_⟩
    cases hvs
    exact ⟨vs1, SameValues.refl _, by rw [(Props.C34_nested_data_resolves L tag fb c i).2.1 _ _ h1]; exact h2⟩
  | @nested c i name c' i' vs1 w r hmem hw ih =>
    refine ⟨(fun h => by cases h), fun vs hvs hin => ?_⟩
    cases hvs
    obtain ⟨ih1, ih2⟩ := ih hr
    have key : ∃ w', SameValue (.localisationData c' i' w) (.localisationData c' i' w') ∧
        (actualData L tag fb false c' i' w' []).1 = r := by
      cases w with
      | none => exact ⟨none, .same _, ih1 rfl⟩
      | some w =>
        obtain ⟨w', h1, h2⟩ := ih2 w rfl fun u hu => hin u (.deeper hmem hu)
        exact ⟨some w', .data (hin w (.deeper hmem (.self w))) h1, h2⟩
    obtain ⟨w', h1, h2⟩ := key
    obtain ⟨a, b, rfl⟩ := List.append_of_mem hmem
    refine ⟨(name, .localisationData c' i' w') :: (a ++ b),
      .trans (SameValues.ofPerm List.perm_middle) (.cons h1 (SameValues.refl _)), ?_⟩
    obtain ⟨e1, e2⟩ := (Props.C34_nested_data_resolves L tag fb c i).2.2 [] [] name c' i' w' (a ++ b) .nil
    cases r with
    | ok x => exact absurd rfl (hr x)
    | err e => exact e1 e h2
    | panic => exact e2 h2

theorem possible_failures {c i : Str} {vs : List (Str × PValue D F)} (hn : ∀ w, Inside vs w → (w.map Prod.fst).Nodup)
    {r : LocM P (Str × Str)} (hr : ∀ x, r ≠ .ok x) :
    (∃ vs', SameValues vs vs' ∧ (actualData L tag fb false c i (some vs') []).1 = r) ↔ MaySpoil L tag fb c i (some vs) r :=
  ⟨fun ⟨_, hs, h⟩ => MaySpoil.reorder (spoiled_by c i _ hr h) (hn vs (.self vs)) hs,
    fun h => (MaySpoil.somewhere h hr).2 vs rfl hn⟩

end Verif.LocaliserLemmas
