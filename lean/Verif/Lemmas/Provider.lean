import Verif.Spec.Provider
/-
Lemmas on the look-up of strings in databases.
-/
namespace Verif.ProviderLemmas
open Verif Verif.Spec

variable {E : Type}

/-! ### `LIKE` -/

theorem like_any : ∀ s : Str, like ['%'] s = true := by
  intro s
  induction s with
  | nil => simp [like]
  | cons d s ih => rw [like]; simp [ih]

theorem like_begins : ∀ (t s : Str), NoWildcards t → (like (t ++ ['%']) s = true ↔ Begins t s) := by
  intro t
  induction t with
  | nil => intro s _; simp [like_any, Begins, lower]
  | cons c t ih =>
    intro s hw
    have h1 : c ≠ '%' := fun h => hw.1 (by simp [h])
    have h2 : c ≠ '_' := fun h => hw.2 (by simp [h])
    have hw' : NoWildcards t := ⟨fun h => hw.1 (by simp [h]), fun h => hw.2 (by simp [h])⟩
    cases s with
    | nil => simp [like, h1, Begins, lower]
    | cons d s =>
      rw [List.cons_append, like]
      simp only [h1, h2, if_false, Bool.and_eq_true, beq_iff_eq, ih s hw']
      simp [Begins, lower, List.cons_prefix_cons]

/-! ### Truncations -/

theorem dropWhile_nil {p : Char → Bool} : ∀ {l : Str}, l.dropWhile p = [] → ∀ x ∈ l, p x = true
  | [], _, x, hx => by simp at hx
  | a :: l, h, x, hx => by
    rw [List.dropWhile_cons] at h
    split at h
    · next ha =>
      rcases List.mem_cons.1 hx with rfl | hx
      · exact ha
      · exact dropWhile_nil h x hx
    · cases h

theorem mem_takeWhile {p : Char → Bool} : ∀ {l : Str} {x : Char}, x ∈ l.takeWhile p → p x = true
  | [], x, hx => by simp at hx
  | a :: l, x, hx => by
    rw [List.takeWhile_cons] at hx
    split at hx
    · next ha =>
      rcases List.mem_cons.1 hx with rfl | hx
      · exact ha
      · exact mem_takeWhile hx
    · cases hx

theorem rsplit_none {s : Str} (h : rsplitBefore '-' s = none) : '-' ∉ s := by
  unfold rsplitBefore at h
  split at h
  · next hd =>
    intro hm
    have := dropWhile_nil hd '-' (by simpa using hm)
    simp at this
  · cases h

theorem rsplit_some {s b : Str} (h : rsplitBefore '-' s = some b) : ∃ rest, s = b ++ '-' :: rest ∧ '-' ∉ rest := by
  unfold rsplitBefore at h
  split at h
  · cases h
  · next x before hd =>
    cases h
    have hx : x = '-' := by
      have := List.head?_dropWhile_not (fun x => decide (x ≠ '-')) s.reverse
      rw [hd] at this
      simpa using this
    subst hx
    refine ⟨(s.reverse.takeWhile (· ≠ '-')).reverse, ?_, ?_⟩
    · have := List.takeWhile_append_dropWhile (p := fun x => decide (x ≠ '-')) (l := s.reverse)
      rw [hd] at this
      have := congrArg List.reverse this
      simpa using this.symm
    · intro hm
      have := mem_takeWhile (List.mem_reverse.1 hm)
      simp at this

theorem truncation_nil (t : Str) : ¬ Truncation t [] := by
  rintro ⟨h, h' | ⟨rest, h'⟩⟩
  · exact h h'
  · cases t <;> simp at h'

theorem truncation_whole {t tag : Str} (h : '-' ∉ tag) (ht : Truncation t tag) : t = tag := by
  rcases ht.2 with h' | ⟨rest, h'⟩
  · exact h'
  · exact absurd (by simp [h']) h

theorem split_last {b rest t r2 : Str} (h : b ++ '-' :: rest = t ++ '-' :: r2) (hr : '-' ∉ rest) :
    t = b ∨ ∃ r, b = t ++ '-' :: r := by
  rcases List.append_eq_append_iff.1 h with ⟨a, h1, h2⟩ | ⟨a, h1, h2⟩
  · cases a with
    | nil => exact .inl (by simpa using h1)
    | cons x a =>
      simp only [List.cons_append, List.cons.injEq] at h2
      exact absurd (by simp [h2.2]) hr
  · cases a with
    | nil => exact .inl (by simpa using h1.symm)
    | cons x a =>
      simp only [List.cons_append, List.cons.injEq] at h2
      exact .inr ⟨a, by rw [h1, h2.1]⟩

theorem truncation_step {tag b rest t : Str} (h : tag = b ++ '-' :: rest) (hr : '-' ∉ rest) (hne : tag ≠ []) :
    Truncation t tag ↔ t = tag ∨ Truncation t b := by
  constructor
  · rintro ⟨h1, h2 | ⟨r2, h2⟩⟩
    · exact .inl h2
    · refine .inr ⟨h1, ?_⟩
      rcases split_last (h.symm.trans h2) hr with h3 | ⟨r, h3⟩
      · exact .inl h3
      · exact .inr ⟨r, h3⟩
  · rintro (h1 | ⟨h1, h2 | ⟨r2, h2⟩⟩)
    · exact ⟨h1 ▸ hne, .inl h1⟩
    · exact ⟨h1, .inr ⟨rest, h2 ▸ h⟩⟩
    · exact ⟨h1, .inr ⟨r2 ++ '-' :: rest, by rw [h, h2]; simp⟩⟩

theorem truncation_length {t tag : Str} (h : Truncation t tag) : t.length ≤ tag.length := by
  rcases h.2 with h | ⟨r, h⟩
  · rw [h]; exact Nat.le_refl _
  · rw [h]; simp

theorem truncation_wild {t tag : Str} (h : Truncation t tag) (hw : NoWildcards tag) : NoWildcards t := by
  rcases h.2 with h | ⟨r, h⟩
  · rwa [h]
  · rw [h] at hw
    exact ⟨fun h => hw.1 (by simp [h]), fun h => hw.2 (by simp [h])⟩

/-! ### The loop -/

theorem select_rows (rows : List PatternRow) (onlyOne exact : Bool) (i t c : Str) (hw : exact = false → NoWildcards t) :
    selectPattern rows onlyOne exact i (if exact then t else t ++ ['%']) c =
      (limit onlyOne (rowsAt rows c i exact t)).map fun r => (r.string, r.tag) := by
  unfold selectPattern rowsAt
  congr 2
  apply List.filter_congr
  intro r _
  cases exact with
  | true => simp only [For, if_true, decide_eq_decide]; constructor <;> rintro ⟨a, b, c⟩ <;> simp_all
  | false =>
    simp only [For, Bool.false_eq_true, if_false, decide_eq_decide, like_begins t r.tag (hw rfl)]
    exact ⟨fun h => ⟨⟨h.2.2, h.1⟩, h.2.1⟩, fun h => ⟨h.1.2, h.2, h.1.1⟩⟩

theorem readRows_ok (canon : Str → Except E Str) (rows : List PatternRow) (h : ∀ r ∈ rows, Readable canon r) :
    ∃ xs, readRows canon (rows.map fun r => (r.string, r.tag)) = .ok xs ∧ AllGive canon rows xs := by
  induction rows with
  | nil => exact ⟨[], rfl, .nil⟩
  | cons r rest ih =>
    obtain ⟨t, ht⟩ := h r (by simp)
    obtain ⟨xs, h1, h2⟩ := ih fun r hr => h r (by simp [hr])
    refine ⟨(r.string, t) :: xs, ?_, .cons ⟨rfl, ht⟩ h2⟩
    simp [readRows, askTag, ht, h1]

theorem allGive_nil {canon : Str → Except E Str} {rows : List PatternRow} {xs : List (Str × Str)}
    (h : AllGive canon rows xs) : xs = [] ↔ rows = [] := by
  cases h <;> simp

theorem limit_nil {α : Type} (only : Bool) (l : List α) : limit only l = [] ↔ l = [] := by
  unfold limit; cases only <;> cases l <;> simp

theorem limit_sub {α : Type} {only : Bool} {l : List α} {x : α} (h : x ∈ limit only l) : x ∈ l := by
  unfold limit at h
  cases only with
  | true => exact List.mem_of_mem_take (by simpa using h)
  | false => simpa using h

theorem mem_rowsAt {rows : List PatternRow} {c i : Str} {exact : Bool} {t : Str} {r : PatternRow} :
    r ∈ rowsAt rows c i exact t ↔ r ∈ rows ∧ For c i r ∧ if exact then r.tag = t else Begins t r.tag := by
  simp [rowsAt]

/-- The loop gives the rows at the longest truncation that has some. -/
theorem findLoop_longest (canon : Str → Except E Str) (rows : List PatternRow) (c i : Str) (onlyOne exact : Bool)
    (hread : ∀ r ∈ rows, For c i r → Readable canon r) : ∀ (n : Nat) (tag : Str), tag.length ≤ n →
    (exact = false → NoWildcards tag) →
    ∃ found xs, Longest rows c i exact tag found ∧ AllGive canon (limit onlyOne found) xs ∧
      findLoop canon rows c i onlyOne exact tag = .ok xs := by
  intro n
  induction n with
  | zero =>
    intro tag hn _
    have : tag = [] := by simpa using hn
    subst this
    exact ⟨[], [], .none fun t ht => absurd ht (truncation_nil t), by simp [limit]; exact .nil, by rw [findLoop]; simp⟩
  | succ n ih =>
    intro tag hn hw
    by_cases hne : tag = []
    · subst hne
      exact ⟨[], [], .none fun t ht => absurd ht (truncation_nil t), by simp [limit]; exact .nil, by rw [findLoop]; simp⟩
    · obtain ⟨xs, hx1, hx2⟩ := readRows_ok canon (limit onlyOne (rowsAt rows c i exact tag)) fun r hr => by
        have := mem_rowsAt.1 (limit_sub hr)
        exact hread r this.1 this.2.1
      have hpat : rsplitBefore '-' (if exact then tag else tag ++ ['%']) = rsplitBefore '-' tag := by
        cases exact with
        | true => rfl
        | false => exact rsplitBefore_snoc (by decide)
      rw [findLoop]
      simp only [hne, if_false]
      rw [select_rows rows onlyOne exact i tag c hw, hx1]
      simp only
      by_cases hxs : xs = []
      · have hnil : rowsAt rows c i exact tag = [] := (limit_nil _ _).1 ((allGive_nil hx2).1 hxs)
        simp only [hxs, ne_eq, not_true, if_false]
        split
        · next h =>
          rw [hpat] at h
          refine ⟨[], [], .none fun t ht => ?_, by simp [limit]; exact .nil, rfl⟩
          rw [truncation_whole (rsplit_none h) ht]
          exact hnil
        · next b h =>
          rw [hpat] at h
          obtain ⟨rest, hr1, hr2⟩ := rsplit_some h
          have hlen : b.length ≤ n := by have := rsplitBefore_length h; omega
          have hwb : exact = false → NoWildcards b := fun he => by
            have := hw he
            rw [hr1] at this
            exact ⟨fun h => this.1 (by simp [h]), fun h => this.2 (by simp [h])⟩
          obtain ⟨found, ys, h1, h2, h3⟩ := ih b hlen hwb
          refine ⟨found, ys, ?_, h2, h3⟩
          cases h1 with
          | none h1 =>
            refine .none fun t ht => ?_
            rcases (truncation_step hr1 hr2 hne).1 ht with h | h
            · rw [h]; exact hnil
            · exact h1 t h
          | «at» t h1 h4 h5 =>
            refine .at t ((truncation_step hr1 hr2 hne).2 (.inr h1)) h4 fun t' ht' hlt => ?_
            rcases (truncation_step hr1 hr2 hne).1 ht' with h | h
            · rw [h]; exact hnil
            · exact h5 t' h hlt
      · have hnn : rowsAt rows c i exact tag ≠ [] := fun h => hxs ((allGive_nil hx2).2 ((limit_nil _ _).2 h))
        simp only [hxs, ne_eq, not_false_eq_true, if_true]
        refine ⟨_, xs, .at tag ⟨hne, .inl rfl⟩ hnn fun t' ht' hlt => ?_, hx2, rfl⟩
        have := truncation_length ht'
        omega

/-- There is one answer. -/
theorem _root_.Verif.Spec.Longest.unique {rows : List PatternRow} {c i tag : Str} {exact : Bool} {found found' : List PatternRow}
    (h : Longest rows c i exact tag found) (h' : Longest rows c i exact tag found') : found = found' := by
  have hlen : ∀ t t', Truncation t tag → Truncation t' tag → t.length = t'.length → t = t' := by
    intro t t' h h' hl
    have hp : ∀ t, Truncation t tag → t = tag.take t.length := by
      intro t h
      rcases h.2 with h | ⟨r, h⟩
      · simp [h]
      · simp [h]
    rw [hp t h, hp t' h', hl]
  cases h with
  | none h =>
    cases h' with
    | none => rfl
    | «at» t h1 h2 _ => exact absurd (h t h1) h2
  | «at» t h1 h2 h3 =>
    cases h' with
    | none h => exact absurd (h t h1) h2
    | «at» t' h1' h2' h3' =>
      rcases Nat.lt_trichotomy t.length t'.length with h | h | h
      · exact absurd (h3 t' h1' h) h2'
      · rw [hlen t t' h1 h1' h]
      · exact absurd (h3' t h1 h) h2

/-! ### The two places -/

theorem connection_shared {p : Sqlite} (hc : Connected p) {c : Str} {files : Bool × Bool}
    (h : p.components.get c = some files) (hf : files.1 = true) : p.connection (E := E) c true = .ok allInOne := by
  have := hc.shared c files h hf
  unfold Sqlite.connection
  rw [h]
  obtain ⟨v, hv⟩ := Option.isSome_iff_exists.1 this
  simp [hf, hv, Outcome.unwrap]

theorem connection_own {p : Sqlite} (hc : Connected p) {c : Str} {files : Bool × Bool} {aio : Bool}
    (h : p.components.get c = some files) (hf : files.2 = true) (ha : (aio && files.1) = false) :
    p.connection (E := E) c aio = .ok c := by
  have := hc.own c files h hf
  unfold Sqlite.connection
  rw [h]
  obtain ⟨v, hv⟩ := Option.isSome_iff_exists.1 this
  simp [ha, hf, hv, Outcome.unwrap]

theorem find_shared {p : Sqlite} (hc : Connected p) {c : Str} {files : Bool × Bool} {canon : Str → Except E Str}
    {st : Store} {rows : List PatternRow} (h : p.components.get c = some files) (hf : files.1 = true)
    (hr : (st allInOne).pattern = .ok rows) (i tag : Str) (one exact : Bool) :
    p.findStrings canon st c i tag true one exact = findLoop canon rows c i one exact tag := by
  unfold Sqlite.findStrings
  simp [connection_shared hc h hf, readTable, hr]

theorem find_own {p : Sqlite} (hc : Connected p) {c : Str} {files : Bool × Bool} {canon : Str → Except E Str}
    {st : Store} {rows : List PatternRow} (h : p.components.get c = some files) (hf : files.2 = true)
    (hr : (st c).pattern = .ok rows) (i tag : Str) (one exact : Bool) :
    p.findStrings canon st c i tag false one exact = findLoop canon rows c i one exact tag := by
  unfold Sqlite.findStrings
  simp [connection_own hc h hf (aio := false) rfl, readTable, hr]

theorem allGive_one {canon : Str → Except E Str} {rows : List PatternRow} {xs : List (Str × Str)}
    (h : AllGive canon (limit true rows) xs) : xs.getLast? = xs.head? := by
  cases rows with
  | nil => cases h; rfl
  | cons r rows =>
    have h : AllGive canon [r] xs := by simpa [limit] using h
    cases h with
    | cons _ h2 => cases h2; rfl

theorem oneString_decides {p : Sqlite} (hc : Connected p) {c i tag : Str} {files : Bool × Bool}
    {canon : Str → Except E Str} {st : Store} {rows : Str → List PatternRow} (h : p.components.get c = some files)
    (exact : Bool) (hr : Holds canon st (places files c) rows) (hw : exact = false → NoWildcards tag) :
    ∃ found xs, Decides rows c i exact tag (places files c) found ∧ AllGive canon (limit true found) xs ∧
      p.oneString canon st c i tag exact = .ok xs.head? := by
  have hloop : ∀ name ∈ places files c, ∃ found xs, Longest (rows name) c i exact tag found ∧
      AllGive canon (limit true found) xs ∧ findLoop canon (rows name) c i true exact tag = .ok xs := fun name hn =>
    findLoop_longest canon (rows name) c i true exact (fun r hr' _ => (hr name hn).2 r hr') tag.length tag
      (Nat.le_refl _) hw
  obtain ⟨f1, f2⟩ := files
  unfold Sqlite.oneString
  rw [h]
  cases f1 with
  | false =>
    cases f2 with
    | false => exact ⟨[], [], .none, by simp [limit]; exact .nil, by simp [askIf]⟩
    | true =>
      obtain ⟨found, xs, h1, h2, h3⟩ := hloop c (by simp [places])
      have hlast := allGive_one h2
      refine ⟨found, xs, ?_, h2, ?_⟩
      · by_cases hf : found = []
        · subst hf; exact .later h1 .none
        · exact .here h1 hf
      · simp [askIf, find_own hc h rfl (hr c (by simp [places])).1, h3, hlast]
  | true =>
    obtain ⟨found, xs, h1, h2, h3⟩ := hloop allInOne (by simp [places])
    have hlast := allGive_one h2
    have he := find_shared hc h rfl (hr allInOne (by simp [places])).1 (canon := canon) i tag true exact
    by_cases hf : found = []
    · subst hf
      have hx : xs = [] := (allGive_nil h2).2 (by simp [limit])
      subst hx
      cases f2 with
      | false => exact ⟨[], [], .later h1 .none, h2, by simp [askIf, he, h3]⟩
      | true =>
        obtain ⟨found', xs', h1', h2', h3'⟩ := hloop c (by simp [places])
        have hlast' := allGive_one h2'
        refine ⟨found', xs', .later h1 ?_, h2', ?_⟩
        · by_cases hf : found' = []
          · subst hf; exact .later h1' .none
          · exact .here h1' hf
        · simp [askIf, he, h3, find_own hc h rfl (hr c (by simp [places])).1, h3', hlast']
    · have hx : xs ≠ [] := fun hx => hf ((limit_nil _ _).1 ((allGive_nil h2).1 hx))
      exact ⟨found, xs, .here h1 hf, h2, by simp [askIf, he, h3, hx, hlast]⟩

theorem strings_decides {p : Sqlite} (hc : Connected p) {c i tag : Str} {files : Bool × Bool}
    {canon : Str → Except E Str} {st : Store} {rows : Str → List PatternRow} (h : p.components.get c = some files)
    (hr : Holds canon st (places files c) rows) (hw : NoWildcards tag) :
    ∃ found xs, Decides rows c i false tag (places files c) found ∧ AllGive canon found xs ∧
      p.strings canon st c i tag = .ok xs := by
  have hloop : ∀ name ∈ places files c, ∃ found xs, Longest (rows name) c i false tag found ∧
      AllGive canon found xs ∧ findLoop canon (rows name) c i false false tag = .ok xs := fun name hn =>
    findLoop_longest canon (rows name) c i false false (fun r hr' _ => (hr name hn).2 r hr') tag.length tag
      (Nat.le_refl _) fun _ => hw
  obtain ⟨f1, f2⟩ := files
  unfold Sqlite.strings
  rw [h]
  cases f1 with
  | false =>
    cases f2 with
    | false => exact ⟨[], [], .none, .nil, by simp [askIf]⟩
    | true =>
      obtain ⟨found, xs, h1, h2, h3⟩ := hloop c (by simp [places])
      refine ⟨found, xs, ?_, h2, ?_⟩
      · by_cases hf : found = []
        · subst hf; exact .later h1 .none
        · exact .here h1 hf
      · simp [askIf, find_own hc h rfl (hr c (by simp [places])).1, h3]
  | true =>
    obtain ⟨found, xs, h1, h2, h3⟩ := hloop allInOne (by simp [places])
    have he := find_shared hc h rfl (hr allInOne (by simp [places])).1 (canon := canon) i tag false false
    by_cases hf : found = []
    · subst hf
      have hx : xs = [] := (allGive_nil h2).2 rfl
      subst hx
      cases f2 with
      | false => exact ⟨[], [], .later h1 .none, h2, by simp [askIf, he, h3]⟩
      | true =>
        obtain ⟨found', xs', h1', h2', h3'⟩ := hloop c (by simp [places])
        refine ⟨found', xs', .later h1 ?_, h2', ?_⟩
        · by_cases hf : found' = []
          · subst hf; exact .later h1' .none
          · exact .here h1' hf
        · simp [askIf, he, h3, find_own hc h rfl (hr c (by simp [places])).1, h3']
    · have hx : xs ≠ [] := fun hx => hf ((allGive_nil h2).1 hx)
      exact ⟨found, xs, .here h1 hf, h2, by simp [askIf, he, h3, hx]⟩

end Verif.ProviderLemmas
