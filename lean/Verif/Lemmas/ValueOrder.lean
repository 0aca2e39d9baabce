import Verif.Spec.ValueOrder
import Verif.Lemmas.LocaliserCache
import Verif.Lemmas.ProviderOrder
import Verif.Props.Localiser
/-
The order of the values does not matter for the text.
-/
namespace Verif.LocaliserLemmas
open Verif Verif.Spec

variable {D F P : Type}

/-! ### Formatting asks the map of values only by names -/

section
variable {values values' : AMap Str (PValue D F)} (h : ∀ k, values.get k = values'.get k)
include h

theorem formatPart_congr (E : FmtEnv D F) (f : Formatter) (rec : Str → List Str → FmtRes) (part : PatternPart)
    (numbers : List Str) : formatPart E f values rec part numbers = formatPart E f values' rec part numbers := by
  have hc : commandValue values = commandValue values' := by
    funext s
    unfold commandValue
    rw [h]
  unfold formatPart
  cases part <;> simp only [h, hc]

theorem formatParts_congr (E : FmtEnv D F) (f : Formatter) (rec : Str → List Str → FmtRes) :
    ∀ (parts : List PatternPart) (acc : Str) (numbers : List Str),
    formatParts E f values rec parts acc numbers = formatParts E f values' rec parts acc numbers := by
  intro parts
  induction parts with
  | nil => intro _ _; rfl
  | cons part rest ih =>
    intro acc numbers
    unfold formatParts
    simp only [formatPart_congr h, ih]

theorem formatPattern_congr (E : FmtEnv D F) (f : Formatter) : ∀ (depth : Nat),
    formatPattern E f values depth = formatPattern E f values' depth := by
  intro depth
  induction depth with
  | zero => rfl
  | succ depth ih =>
    funext named numbers
    unfold formatPattern
    simp only [formatParts_congr h, ih]

theorem format_congr (E : FmtEnv D F) (f : Formatter) : f.format E values = f.format E values' := by
  unfold Formatter.format
  rw [formatPattern_congr h]

theorem actualFormat_congr (L : LocEnv D F P) (cache : Cache) (c i tag : Str) (fb ca : Bool) :
    actualFormat L cache c i values tag fb ca = actualFormat L cache c i values' tag fb ca := by
  unfold actualFormat cacheFormatter formatCached
  simp only [format_congr h]
end

/-! ### Reordering -/

theorem AllReplaced.names {L : LocEnv D F P} {tag : Str} {fb : Bool} {vs ws : List (Str × PValue D F)}
    (h : AllReplaced L tag fb vs ws) : ws.map Prod.fst = vs.map Prod.fst := by
  induction h with
  | nil => rfl
  | cons _ _ ih => simp [ih]

/-- The map made of a list with distinct names. -/
theorem get_fold : ∀ (ws : List (Str × PValue D F)) (m : AMap Str (PValue D F)), (ws.map Prod.fst).Nodup → ∀ k,
    AMap.get (ws.foldl (fun m x => m.insert x.1 x.2) m) k =
      (match AMap.get ws k with | some v => some v | none => m.get k) := by
  intro ws
  induction ws with
  | nil => intro m _ k; rfl
  | cons x ws ih =>
    intro m hn k
    obtain ⟨name, v⟩ := x
    simp only [List.map_cons, List.nodup_cons] at hn
    rw [List.foldl_cons, ih _ hn.2, AMap.get_insert, AMap.get_cons]
    by_cases hk : name = k
    · subst hk
      have : AMap.get ws name = none := (AMap.get_eq_none_iff _ _).2 hn.1
      simp [this]
    · simp [hk]

/-- Replaced values give a text exactly if all nested data do. -/
theorem data_text {L : LocEnv D F P} {tag : Str} {fb : Bool} {c i : Str} {vs : List (Str × PValue D F)} {x : Str × Str} :
    (actualData L tag fb false c i (some vs) []).1 = .ok x ↔ ∃ ws, AllReplaced L tag fb vs ws ∧
      (actualFormat L [] c i (ws.foldl (fun m x => m.insert x.1 x.2) []) tag fb false).1 = .ok x := by
  obtain ⟨_, h2, h3⟩ := Props.C34_nested_data_resolves L tag fb c i
  constructor
  · intro h
    rcases Props.C34_cases L tag fb vs with ⟨ws, hw⟩ | ⟨pre, pre', name, c', i', w, rest, rfl, hp, hno⟩
    · exact ⟨ws, hw, by rw [← h2 vs ws hw]; exact h⟩
    · obtain ⟨e1, e2⟩ := h3 pre pre' name c' i' w rest hp
      cases hx : (actualData L tag fb false c' i' w []).1 with
      | ok r => exact absurd hx (hno r)
      | err e => rw [e1 e hx] at h; cases h
      | panic => rw [e2 hx] at h; cases h
  · rintro ⟨ws, hw, h⟩
    rw [h2 vs ws hw]
    exact h

theorem SameValues.names {vs vs' : List (Str × PValue D F)} (h : SameValues vs vs') :
    (vs.map Prod.fst).Perm (vs'.map Prod.fst) := by
  refine SameValues.rec (motive_1 := fun _ _ _ => True)
    (motive_2 := fun vs vs' _ => (vs.map Prod.fst).Perm (vs'.map Prod.fst)) ?_ ?_ ?_ ?_ ?_ ?_ h
  · intros; trivial
  · intros; trivial
  · exact .nil
  · intro name v v' rest rest' _ _ _ ih; exact .cons _ ih
  · intro x y rest; exact .swap _ _ _
  · intro a b c _ _ i1 i2; exact i1.trans i2

theorem SameValues.symm {vs vs' : List (Str × PValue D F)} (h : SameValues vs vs') : SameValues vs' vs := by
  refine SameValues.rec (motive_1 := fun v v' _ => SameValue v' v)
    (motive_2 := fun vs vs' _ => SameValues vs' vs) ?_ ?_ ?_ ?_ ?_ ?_ h
  · intro v; exact .same v
  · intro c i vs vs' hn hs ih; exact .data (((SameValues.names hs).nodup_iff).1 hn) ih
  · exact .nil
  · intro name v v' rest rest' _ _ i1 i2; exact .cons i1 i2
  · intro x y rest; exact .swap _ _ _
  · intro a b c _ _ i1 i2; exact .trans i2 i1

theorem same_replaced (L : LocEnv D F P) (tag : Str) (fb : Bool) {vs vs' : List (Str × PValue D F)} (h : SameValues vs vs') :
    ∀ ws, AllReplaced L tag fb vs ws → ∃ ws', AllReplaced L tag fb vs' ws' ∧ ws.Perm ws' := by
  refine SameValues.rec (motive_1 := fun v v' _ => ∀ w, Replaced L tag fb v w → Replaced L tag fb v' w)
    (motive_2 := fun vs vs' _ => ∀ ws, AllReplaced L tag fb vs ws → ∃ ws', AllReplaced L tag fb vs' ws' ∧ ws.Perm ws')
    ?_ ?_ ?_ ?_ ?_ ?_ h
  · intro v w hw; exact hw
  · intro c i vs vs' hn hs ih w hw
    cases hw with
    | nested ha =>
      refine .nested ?_
      obtain ⟨ws, h1, h2⟩ := data_text.1 ha
      obtain ⟨ws', h3, h4⟩ := ih ws h1
      refine data_text.2 ⟨ws', h3, ?_⟩
      have hw : (ws.map Prod.fst).Nodup := by rw [AllReplaced.names h1]; exact hn
      have hw' : (ws'.map Prod.fst).Nodup := ((h4.map Prod.fst).nodup_iff).1 hw
      rw [actualFormat_congr (values' := ws.foldl (fun m x => AMap.insert m x.1 x.2) []) (fun k => ?_)]
      · exact h2
      · rw [get_fold _ _ hw', get_fold _ _ hw, ProviderLemmas.get_perm h4 hw k]
    | other ho => exact absurd rfl (ho c i _)
  · intro ws hw; exact ⟨ws, hw, .refl _⟩
  · intro name v v' rest rest' _ _ i1 i2 ws hw
    cases hw with
    | cons h1 h2 =>
      obtain ⟨ws', h3, h4⟩ := i2 _ h2
      exact ⟨_, .cons (i1 _ h1) h3, .cons _ h4⟩
  · intro x y rest ws hw
    cases hw with
    | cons h1 h2 =>
      cases h2 with
      | cons h3 h4 => exact ⟨_, .cons h3 (.cons h1 h4), .swap _ _ _⟩
  · intro a b c _ _ i1 i2 ws hw
    obtain ⟨ws', h1, h2⟩ := i1 ws hw
    obtain ⟨ws'', h3, h4⟩ := i2 ws' h1
    exact ⟨ws'', h3, h2.trans h4⟩

theorem data_same (L : LocEnv D F P) (tag : Str) (fb : Bool) {c i : Str} {vs vs' : List (Str × PValue D F)}
    (hn : (vs.map Prod.fst).Nodup) (h : SameValues vs vs') {x : Str × Str}
    (hx : (actualData L tag fb false c i (some vs) []).1 = .ok x) :
    (actualData L tag fb false c i (some vs') []).1 = .ok x := by
  obtain ⟨ws, h1, h2⟩ := data_text.1 hx
  obtain ⟨ws', h3, h4⟩ := same_replaced L tag fb h ws h1
  refine data_text.2 ⟨ws', h3, ?_⟩
  have hw : (ws.map Prod.fst).Nodup := by rw [AllReplaced.names h1]; exact hn
  have hw' : (ws'.map Prod.fst).Nodup := ((h4.map Prod.fst).nodup_iff).1 hw
  rw [actualFormat_congr (values' := ws.foldl (fun m x => AMap.insert m x.1 x.2) []) (fun k => ?_)]
  · exact h2
  · rw [get_fold _ _ hw', get_fold _ _ hw, ProviderLemmas.get_perm h4 hw k]

end Verif.LocaliserLemmas
