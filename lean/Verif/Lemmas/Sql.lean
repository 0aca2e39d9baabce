import Verif.Spec.Sql
import Verif.Spec.ProviderOpen
/-
Queries as texts and as list functions.
-/
namespace Verif.SqlLemmas
open Verif Verif.Spec

/-! ### `LIKE` -/

theorem like_iff : ∀ (p s : Str), like p s = true ↔ Likes p s
  | [], [] => by simp [like, Likes.nil]
  | [], d :: t => by
    simp only [like, Bool.false_eq_true, false_iff]
    exact (nomatch ·)
  | c :: p, [] => by
    rw [like]
    by_cases hc : c = '%'
    · subst hc
      simp only [if_true]
      rw [like_iff p []]
      constructor
      · exact fun h => Likes.any [] h
      · intro h
        generalize he : ([] : Str) = t at h
        cases h with
        | any s h =>
          obtain ⟨rfl, rfl⟩ := List.append_eq_nil_iff.1 he.symm
          exact h
        | char h _ _ _ => cases he
    · simp only [hc, if_false, Bool.false_eq_true, false_iff]
      intro h
      generalize he : ([] : Str) = t at h
      cases h with
      | any s h => exact hc rfl
      | one d h => cases he
      | char h _ _ _ => cases he
  | c :: p, d :: t => by
    rw [like]
    by_cases hc : c = '%'
    · subst hc
      simp only [if_true, Bool.or_eq_true]
      rw [like_iff p (d :: t), like_iff ('%' :: p) t]
      constructor
      · rintro (h | h)
        · exact Likes.any [] h
        · cases h with
          | any s h => exact Likes.any (d :: s) h
          | char h _ _ _ => exact absurd rfl h
      · intro h
        generalize he : d :: t = u at h
        cases h with
        | any s h =>
          cases s with
          | nil => rw [List.nil_append] at he; subst he; exact .inl h
          | cons e s =>
            rw [List.cons_append] at he
            injection he with _ he
            subst he
            exact .inr (Likes.any s h)
        | char h _ _ _ => exact absurd rfl h
    · simp only [hc, if_false]
      by_cases hu : c = '_'
      · subst hu
        simp only [if_true]
        rw [like_iff p t]
        constructor
        · exact fun h => Likes.one d h
        · intro h
          cases h with
          | one _ h => exact h
          | char _ h _ _ => exact absurd rfl h
      · simp only [hu, if_false, Bool.and_eq_true, beq_iff_eq]
        rw [like_iff p t]
        constructor
        · exact fun h => Likes.char hc hu h.1 h.2
        · intro h
          generalize he : d :: t = u at h
          cases h with
          | any s h => exact absurd rfl hc
          | one _ h => exact absurd rfl hu
          | char _ _ h1 h2 => cases he; exact ⟨h1, h2⟩
termination_by p s => p.length + s.length

/-! ### `DISTINCT` -/

theorem eraseDups_loop {α : Type} [BEq α] [LawfulBEq α] (l : List α) : ∀ acc : List α,
    List.eraseDupsBy.loop (· == ·) l acc = l.foldl (fun l x => if x ∈ l then l else l ++ [x]) acc.reverse := by
  induction l with
  | nil => intro acc; simp [List.eraseDupsBy.loop]
  | cons x l ih =>
    intro acc
    rw [List.eraseDupsBy.loop, List.foldl_cons]
    by_cases hx : x ∈ acc
    · have : (acc.any fun b => x == b) = true := by simpa using hx
      rw [this]
      simp only [List.mem_reverse, hx, if_true]
      exact ih acc
    · have : (acc.any fun b => x == b) = false := by
        rw [List.any_eq_false]
        intro y hy e
        exact hx (eq_of_beq e ▸ hy)
      rw [this]
      simp only [List.mem_reverse, hx, if_false]
      rw [ih (x :: acc)]
      simp

theorem foldl_map {α β : Type} [BEq α] [LawfulBEq α] [BEq β] [LawfulBEq β] {f : α → β} (hf : ∀ a b, f a = f b → a = b)
    (l : List α) : ∀ acc : List α,
    (l.map f).foldl (fun l x => if x ∈ l then l else l ++ [x]) (acc.map f) =
      (l.foldl (fun l x => if x ∈ l then l else l ++ [x]) acc).map f := by
  induction l with
  | nil => intro acc; rfl
  | cons x l ih =>
    intro acc
    have : f x ∈ acc.map f ↔ x ∈ acc := by
      rw [List.mem_map]
      constructor
      · rintro ⟨y, hy, e⟩; rwa [hf y x e] at hy
      · exact fun h => ⟨x, h, rfl⟩
    rw [List.map_cons, List.foldl_cons, List.foldl_cons]
    by_cases hx : x ∈ acc
    · rw [if_pos (this.2 hx), if_pos hx, ih]
    · rw [if_neg (fun h => hx (this.1 h)), if_neg hx, ← List.map_singleton, ← List.map_append, ih]

/-- Repeated results are left out. -/
theorem eraseDups_distinct (l : List Str) :
    (l.map fun s => [Cell.text s]).eraseDups = (distinct l).map fun s => [Cell.text s] := by
  have h1 := eraseDups_loop (l.map fun s => [Cell.text s]) []
  have h2 := foldl_map (f := fun s : Str => [Cell.text s]) (fun a b h => by simpa using h) l []
  rw [List.map_nil] at h2
  exact h1.trans h2

/-! ### The texts are read -/

theorem read_pattern (onlyOne exact : Bool) : readQuery (words (patternText onlyOne exact)) =
    some ⟨false, some ["string".toList, "languageTag".toList], "pattern".toList,
      [⟨"identifier".toList, false, 1⟩, ⟨"languageTag".toList, !exact, 2⟩, ⟨"component".toList, false, 3⟩],
      if onlyOne then some 1 else none⟩ := by
  cases onlyOne <;> cases exact <;> decide +kernel

theorem read_languages : readQuery (words languagesText) =
    some ⟨true, some ["languageTag".toList], "contributor".toList, [⟨"component".toList, false, 1⟩], none⟩ := by
  decide +kernel

theorem read_identifier : readQuery (words identifierText) =
    some ⟨false, some ["languageTag".toList], "pattern".toList,
      [⟨"identifier".toList, false, 1⟩, ⟨"component".toList, false, 2⟩], none⟩ := by decide +kernel

theorem read_contributors : readQuery (words contributorsText) =
    some ⟨true, some ["contributor".toList], "contributor".toList,
      [⟨"languageTag".toList, false, 1⟩, ⟨"component".toList, false, 2⟩], none⟩ := by decide +kernel

theorem read_count : readQuery (words countText) =
    some ⟨false, none, "pattern".toList, [⟨"languageTag".toList, false, 1⟩, ⟨"component".toList, false, 2⟩], none⟩ := by
  decide +kernel

theorem read_default : readQuery (words defaultText) =
    some ⟨false, some ["languageTag".toList], "component".toList, [⟨"identifier".toList, false, 1⟩], none⟩ := by
  decide +kernel

/-! ### What the texts mean -/

theorem run_of {text : Str} {q : SqlQuery} (h : readQuery (words text) = some q) (db : SqlDb) (ps : List Str) :
    sqlRun text db ps = q.run db ps := by rw [sqlRun, h]

/-! ### Columns -/

theorem column_mem {rows : List Column} {ws : List Declared}
    (h : ∀ (n : Nat) (row : Column) (d : Declared), rows[n]? = some row → ws[n]? = some d → Agrees row d) {k : Nat}
    (hk : k < ws.length ∧ ∀ i, i < k → (ws.map (·.name))[i]? ≠ (ws.map (·.name))[k]?) :
    ((ws.map (·.name))[k]?.getD [] ∈ rows.map (·.name)) ↔ k < rows.length := by
  obtain ⟨hk, hu⟩ := hk
  have hg : (ws.map (·.name))[k]? = some ws[k].name := by
    rw [List.getElem?_map, List.getElem?_eq_getElem hk]; rfl
  rw [hg, Option.getD_some]
  constructor
  · intro hm
    obtain ⟨row, hr, he⟩ := List.mem_map.1 hm
    obtain ⟨n, hn, rfl⟩ := List.mem_iff_getElem.1 hr
    refine Nat.lt_of_not_le fun hle => ?_
    have hnw : n < ws.length := by omega
    have := h n _ _ (List.getElem?_eq_getElem hn) (List.getElem?_eq_getElem hnw)
    refine hu n (by omega) ?_
    rw [hg, List.getElem?_map, List.getElem?_eq_getElem hnw, ← he, this.1]; rfl
  · intro hl
    have := h k _ _ (List.getElem?_eq_getElem hl) (List.getElem?_eq_getElem hk)
    exact List.mem_map.2 ⟨rows[k], List.getElem_mem hl, this.1⟩

theorem prepares_of {db : DbFile} {text : Str} {q : SqlQuery} (h : readQuery (words text) = some q)
    (hp : Prepares db text) : ∀ cs, db.columns q.table = .ok cs → ∀ c ∈ q.mentions, c ∈ cs.map (·.name) := by
  obtain ⟨q', tables, columns, h1, h2, h3, h4, h5⟩ := hp
  rw [h] at h1
  cases h1
  intro cs e
  rw [h4] at e
  cases e
  exact h5

end Verif.SqlLemmas
