import Verif.Lemmas.Provider
/-
Lemmas on asking again with the tag that was reported.
-/
namespace Verif.ProviderLemmas
open Verif Verif.Spec

variable {E : Type}

theorem begins_trans {a b c : Str} (h : Begins a b) (h' : Begins b c) : Begins a c := List.IsPrefix.trans h h'

theorem toLower_hyphen {x : Char} (h : x.toLower = '-') : x = '-' := by
  unfold Char.toLower at h
  split at h
  · next hx =>
    have h2 := congrArg (fun c : Char => c.val.toNat) h
    simp only [UInt32.toNat_add] at h2
    have h3 : 65 ≤ x.val.toNat := UInt32.le_iff_toNat_le.1 hx.1
    have h4 : x.val.toNat ≤ 90 := UInt32.le_iff_toNat_le.1 hx.2
    have h5 : ('-' : Char).val.toNat = 45 := rfl
    have h6 : ('a'.val - 'A'.val).toNat = 32 := rfl
    omega
  · exact h

/-- Whatever begins with a truncation of a tag that begins with a truncation of another, begins with a truncation of that
other. -/
theorem truncation_back {tag t u v : Str} (hv : Truncation v tag) (hb : Begins v t) (hu : Truncation u t) :
    ∃ w, Truncation w tag ∧ Begins w u := by
  have hut : lower u <+: lower t := by
    rcases hu.2 with h | ⟨r, h⟩
    · rw [h]; exact List.prefix_refl _
    · rw [h]; unfold lower; simp
  by_cases hlen : v.length ≤ u.length
  · exact ⟨v, hv, List.prefix_of_prefix_length_le hb hut (by simpa [lower] using hlen)⟩
  · have hlt : u.length < v.length := by omega
    have hvt : v.length ≤ t.length := by simpa [lower] using hb.length_le
    rcases hu.2 with h | ⟨r, h⟩
    · rw [h] at hlt; omega
    · -- the character of `v` after the length of `u` is a hyphen
      have hpre : lower u <+: lower v := List.prefix_of_prefix_length_le hut hb (by simp [lower]; omega)
      have hget : v[u.length]? = some '-' := by
        obtain ⟨rest, hrest⟩ := hb
        have h1 : (lower t)[u.length]? = some '-' := by
          rw [h]
          simp [lower]
        rw [← hrest, List.getElem?_append_left (by simpa [lower] using hlt)] at h1
        simp only [lower, List.getElem?_map, Option.map_eq_some_iff] at h1
        obtain ⟨x, hx, hl⟩ := h1
        rw [hx, toLower_hyphen hl]
      have hsplit : v = v.take u.length ++ '-' :: v.drop (u.length + 1) := by
        have := List.take_append_drop u.length v
        rw [List.drop_eq_getElem_cons hlt] at this
        have hg : v[u.length] = '-' := by
          have := List.getElem?_eq_getElem hlt
          rw [this] at hget
          exact Option.some.inj hget
        rw [hg] at this
        exact this.symm
      have hu0 : u ≠ [] := hu.1
      refine ⟨v.take u.length, ⟨?_, .inr ?_⟩, ?_⟩
      · intro e
        have := congrArg List.length e
        simp only [List.length_take, List.length_nil] at this
        have : u.length = 0 := by omega
        exact hu0 (List.eq_nil_of_length_eq_zero this)
      · rcases hv.2 with h' | ⟨r', h'⟩
        · exact ⟨_, by rw [← h']; exact hsplit⟩
        · refine ⟨v.drop (u.length + 1) ++ '-' :: r', ?_⟩
          rw [h']
          conv => lhs; rw [hsplit]
          simp
      · unfold Begins
        have : lower (v.take u.length) = lower u := by
          unfold lower
          rw [List.map_take]
          have := List.prefix_iff_eq_take.1 hpre
          simpa [lower] using this.symm
        rw [this]
        exact List.prefix_refl _

/-- The first of the rows that begin with a truncation is the first of those that begin with its tag. -/
theorem rowsAt_again {rows : List PatternRow} {c i v t : Str} {r : PatternRow} {rest : List PatternRow}
    (h : rowsAt rows c i false v = r :: rest) (ht : lower t = lower r.tag) :
    ∃ rest', rowsAt rows c i false t = r :: rest' := by
  have hr : r ∈ rowsAt rows c i false v := by rw [h]; simp
  have hb : Begins v r.tag := by simpa using (mem_rowsAt.1 hr).2.2
  have hfor := (mem_rowsAt.1 hr).2.1
  have hsub : rowsAt rows c i false t = (rowsAt rows c i false v).filter fun x => Begins t x.tag := by
    unfold rowsAt
    rw [List.filter_filter]
    apply List.filter_congr
    intro x _
    simp only [Bool.false_eq_true, if_false, decide_eq_decide, ← Bool.decide_and]
    constructor
    · rintro ⟨h1, h2⟩
      refine ⟨h2, h1, ?_⟩
      unfold Begins at hb h2 ⊢
      rw [← ht] at hb
      exact hb.trans h2
    · rintro ⟨h1, h2, _⟩
      exact ⟨h2, h1⟩
  refine ⟨rest.filter fun x => Begins t x.tag, ?_⟩
  rw [hsub, h, List.filter_cons_of_pos]
  simp only [decide_eq_true_eq]
  unfold Begins
  rw [ht]
  exact List.prefix_refl _

theorem decides_again {rows : Str → List PatternRow} {c i tag t : Str} {r : PatternRow} (ht : lower t = lower r.tag)
    (hne : t ≠ []) : ∀ {names : List Str} {found : List PatternRow} {rest : List PatternRow},
    Decides rows c i false tag names found → found = r :: rest → (∃ v, Truncation v tag ∧ Begins v r.tag) →
    ∃ rest', Decides rows c i false t names (r :: rest') := by
  intro names found rest hd
  induction hd with
  | none => intro h; cases h
  | @here name names found hl hf =>
    intro he _
    cases hl with
    | none => exact absurd rfl hf
    | «at» v hv _ _ =>
      obtain ⟨rest', h'⟩ := rowsAt_again he ht
      refine ⟨rest', .here ?_ (by simp)⟩
      rw [← h']
      refine .at t ⟨hne, .inl rfl⟩ (by rw [h']; simp) fun u hu hlt => ?_
      have := truncation_length hu
      omega
  | @later name names found hl hd ih =>
    intro he hv
    obtain ⟨rest', h'⟩ := ih he hv
    refine ⟨rest', .later (.none fun u hu => ?_) h'⟩
    obtain ⟨v, hv1, hv2⟩ := hv
    have hb : Begins v t := by unfold Begins at hv2 ⊢; rw [ht]; exact hv2
    obtain ⟨w, hw, hwu⟩ := truncation_back hv1 hb hu
    have hnone : rowsAt (rows name) c i false w = [] := by
      generalize hnil : ([] : List PatternRow) = f at hl
      cases hl with
      | none hall => rw [hnil]; exact hall w hw
      | «at» v' _ h2 _ => exact absurd hnil.symm h2
    rw [List.eq_nil_iff_forall_not_mem] at hnone ⊢
    intro x hx
    have hm := mem_rowsAt.1 hx
    exact hnone x (mem_rowsAt.2 ⟨hm.1, hm.2.1, by simpa using begins_trans hwu (by simpa using hm.2.2)⟩)

theorem decides_truncation {rows : Str → List PatternRow} {c i tag : Str} : ∀ {names : List Str} {found : List PatternRow},
    Decides rows c i false tag names found → ∀ r ∈ found, ∃ name ∈ names, r ∈ rows name ∧ ∃ v, Truncation v tag ∧ Begins v r.tag := by
  intro names found hd
  induction hd with
  | none => intro r hr; cases hr
  | @here name names found hl hf =>
    intro r hr
    cases hl with
    | none => exact absurd rfl hf
    | «at» v hv _ _ =>
      have hm := mem_rowsAt.1 hr
      exact ⟨name, by simp, hm.1, v, hv, by simpa using hm.2.2⟩
  | @later name names found hl hd ih =>
    intro r hr
    obtain ⟨n, hn, h⟩ := ih r hr
    exact ⟨n, by simp [hn], h⟩

theorem _root_.Verif.Spec.Decides.unique {rows : Str → List PatternRow} {c i tag : Str} {exact : Bool} :
    ∀ {names : List Str} {found found' : List PatternRow}, Decides rows c i exact tag names found →
    Decides rows c i exact tag names found' → found = found' := by
  intro names found found' h
  induction h with
  | none => intro h'; cases h'; rfl
  | here hl hf =>
    intro h'
    cases h' with
    | here hl' _ => exact hl.unique hl'
    | later hl' _ => exact absurd (hl.unique hl') hf
  | later hl hd ih =>
    intro h'
    cases h' with
    | here hl' hf' => exact absurd (hl'.unique hl) hf'
    | later _ hd' => exact ih hd'

theorem truncation_trans {u v tag : Str} (h : Truncation u v) (h' : Truncation v tag) : Truncation u tag := by
  refine ⟨h.1, ?_⟩
  rcases h.2 with rfl | ⟨x, rfl⟩
  · exact h'.2
  · rcases h'.2 with rfl | ⟨y, rfl⟩
    · exact .inr ⟨x, rfl⟩
    · exact .inr ⟨x ++ '-' :: y, by simp⟩

/-- A row that is found under a tag is found under a text with which its own tag begins. -/
theorem decides_beginning {rows : Str → List PatternRow} {c i tag : Str} {r : PatternRow} : ∀ {names : List Str}
    {found rest : List PatternRow}, Decides rows c i false tag names found → found = r :: rest →
    ∃ v, Truncation v tag ∧ Begins v r.tag ∧ Decides rows c i false v names (r :: rest) := by
  intro names found rest hd
  induction hd with
  | none => intro h; cases h
  | @here name names found hl hf =>
    intro he
    cases hl with
    | none h => exact (hf rfl).elim
    | «at» v hv hne hlong =>
      have hm := mem_rowsAt.1 (by rw [he]; exact List.mem_cons_self .. : r ∈ rowsAt (rows name) c i false v)
      refine ⟨v, hv, by simpa using hm.2.2, ?_⟩
      rw [← he]
      refine .here (.at v ⟨hv.1, .inl rfl⟩ hne ?_) hne
      rintro t' ⟨_, rfl | ⟨x, rfl⟩⟩ hlt
      · omega
      · simp at hlt
        omega
  | @later name names found hl hd ih =>
    intro he
    obtain ⟨v, hv, hb, hd'⟩ := ih he
    refine ⟨v, hv, hb, .later (.none fun t ht => ?_) hd'⟩
    generalize hn : ([] : List PatternRow) = nothing at hl
    cases hl with
    | none h => exact h t (truncation_trans ht hv)
    | «at» u _ hne _ => exact (hne hn.symm).elim

end Verif.ProviderLemmas
