/-
`std::collections::HashMap` modelled as an association list. `insert` replaces the value of an existing key
in place and appends otherwise; iteration order of the real map is arbitrary, so theorems never rely on the
order of the list.
-/
namespace Verif

/-- A hash map from `κ` to `ν`. -/
abbrev AMap (κ ν : Type) := List (κ × ν)

namespace AMap
variable {κ ν : Type} [DecidableEq κ]

/-- `HashMap::get`. -/
def get (m : AMap κ ν) (k : κ) : Option ν :=
  match m with
  | [] => none
  | (k', v) :: rest => if k' = k then some v else get rest k

/-- `HashMap::insert` (the replaced value is not needed by the modelled code). -/
def insert (m : AMap κ ν) (k : κ) (v : ν) : AMap κ ν :=
  match m with
  | [] => [(k, v)]
  | (k', v') :: rest => if k' = k then (k, v) :: rest else (k', v') :: insert rest k v

/-- `HashMap::contains_key`. -/
def contains (m : AMap κ ν) (k : κ) : Bool := (m.get k).isSome

/-- `HashMap::keys`. -/
def keys (m : AMap κ ν) : List κ := m.map Prod.fst

/-- `HashMap::values`. -/
def values (m : AMap κ ν) : List ν := m.map Prod.snd

@[simp] theorem get_nil (k : κ) : get ([] : AMap κ ν) k = none := rfl

theorem get_cons (k' : κ) (v : ν) (m : AMap κ ν) (k : κ) :
    get ((k', v) :: m) k = if k' = k then some v else get m k := rfl

theorem get_insert (m : AMap κ ν) (k : κ) (v : ν) (k' : κ) :
    (m.insert k v).get k' = if k = k' then some v else m.get k' := by
  induction m with
  | nil => simp [insert, get]
  | cons a rest ih =>
    obtain ⟨k2, v2⟩ := a
    simp only [insert]
    by_cases h : k2 = k
    · subst h
      simp only [if_true, get]
      by_cases h2 : k2 = k' <;> simp [h2]
    · simp only [h, if_false, get, ih]
      by_cases h2 : k2 = k'
      · subst h2; simp [Ne.symm h]
      · simp [h2]

theorem get_insert_self (m : AMap κ ν) (k : κ) (v : ν) : (m.insert k v).get k = some v := by
  simp [get_insert]

theorem get_insert_ne (m : AMap κ ν) {k k' : κ} (v : ν) (h : k ≠ k') :
    (m.insert k v).get k' = m.get k' := by
  simp [get_insert, h]

theorem mem_keys_iff (m : AMap κ ν) (k : κ) : k ∈ m.keys ↔ ∃ v, m.get k = some v := by
  induction m with
  | nil => simp [keys]
  | cons a rest ih =>
    obtain ⟨k', v'⟩ := a
    simp only [keys, List.map_cons, List.mem_cons, get_cons]
    by_cases h : k' = k
    · simp [h]
    · have : k ≠ k' := fun e => h e.symm
      simp only [this, false_or, h, if_false]; exact ih

theorem get_eq_none_iff (m : AMap κ ν) (k : κ) : m.get k = none ↔ k ∉ m.keys := by
  rw [mem_keys_iff]
  cases m.get k <;> simp

theorem mem_of_get {m : AMap κ ν} {k : κ} {v : ν} (h : m.get k = some v) : (k, v) ∈ m := by
  induction m with
  | nil => simp at h
  | cons a rest ih =>
    obtain ⟨k', v'⟩ := a
    rw [get_cons] at h
    by_cases hk : k' = k
    · simp [hk] at h; simp [hk, h]
    · simp [hk] at h; exact List.mem_cons_of_mem _ (ih h)

theorem keys_insert_mem {m : AMap κ ν} {k : κ} (v : ν) (h : k ∈ m.keys) :
    (m.insert k v).keys = m.keys := by
  induction m with
  | nil => simp [keys] at h
  | cons a rest ih =>
    obtain ⟨k', v'⟩ := a
    simp only [insert]
    by_cases hk : k' = k
    · simp [hk, keys]
    · simp only [hk, if_false, keys, List.map_cons]
      have : k ∈ keys rest := by
        simp only [keys, List.map_cons, List.mem_cons] at h
        rcases h with h | h
        · exact absurd h.symm hk
        · exact h
      have := ih this
      simp only [keys] at this
      rw [this]

theorem keys_insert_not_mem {m : AMap κ ν} {k : κ} (v : ν) (h : k ∉ m.keys) :
    m.insert k v = m ++ [(k, v)] := by
  induction m with
  | nil => rfl
  | cons a rest ih =>
    obtain ⟨k', v'⟩ := a
    simp only [keys, List.map_cons, List.mem_cons, not_or] at h
    simp only [insert]
    rw [if_neg (fun e => h.1 e.symm), ih h.2]; rfl

theorem mem_keys_insert (m : AMap κ ν) (k : κ) (v : ν) (k' : κ) :
    k' ∈ (m.insert k v).keys ↔ k' = k ∨ k' ∈ m.keys := by
  rw [mem_keys_iff, mem_keys_iff]
  by_cases h : k = k'
  · subst h; simp [get_insert]
  · simp [get_insert, h, Ne.symm h]

theorem nodup_insert {m : AMap κ ν} (k : κ) (v : ν) (h : m.keys.Nodup) : (m.insert k v).keys.Nodup := by
  by_cases hk : k ∈ m.keys
  · rw [keys_insert_mem v hk]; exact h
  · rw [keys_insert_not_mem v hk]
    simp only [keys, List.map_append, List.map_cons, List.map_nil] at *
    rw [List.nodup_append]
    refine ⟨h, by simp, ?_⟩
    intro a ha b hb
    simp at hb
    subst hb
    intro e; subst e; exact hk ha

theorem get_of_mem {m : AMap κ ν} {k : κ} {v : ν} (hn : m.keys.Nodup) (h : (k, v) ∈ m) :
    m.get k = some v := by
  induction m with
  | nil => simp at h
  | cons a rest ih =>
    obtain ⟨k', v'⟩ := a
    simp only [keys, List.map_cons, List.nodup_cons] at hn
    rw [get_cons]
    rcases List.mem_cons.1 h with h | h
    · cases h; simp
    · have : k' ≠ k := by
        rintro rfl
        exact hn.1 (List.mem_map.2 ⟨(k', v), h, rfl⟩)
      simp only [this, if_false]
      exact ih hn.2 h

theorem mem_iff_get {m : AMap κ ν} (hn : m.keys.Nodup) (k : κ) (v : ν) :
    (k, v) ∈ m ↔ m.get k = some v := ⟨get_of_mem hn, mem_of_get⟩

theorem contains_insert (m : AMap κ ν) (k k' : κ) (v : ν) :
    (m.insert k v).contains k' = (decide (k' = k) || m.contains k') := by
  unfold contains
  by_cases h : k' = k
  · subst h; simp [get_insert_self]
  · rw [get_insert_ne _ _ (Ne.symm h)]; simp [h]

end AMap
end Verif
