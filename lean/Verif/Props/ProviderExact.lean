import Verif.Props.ProviderEvery
/-
C35, C36, C37, C38, exactly: with which contents of the databases the requests are answered as they should be.
-/
namespace Verif.Props
open Verif Verif.Spec Verif.ProviderLemmas

variable {E : Type}

/-- The tags in the places are canonical. -/
def CanonicalRows (canon : Str → Except E Str) (rows : List PatternRow) : Prop := ∀ r ∈ rows, canon r.tag = .ok r.tag

theorem truncation_length {t tag : Str} (h : Truncation t tag) : t.length ≤ tag.length := by
  rcases h.2 with rfl | ⟨rest, rfl⟩ <;> simp

/-- Of two truncations the shorter one is a prefix of the longer one. -/
theorem truncation_prefix {t t' tag : Str} (h : Truncation t tag) (h' : Truncation t' tag) (hl : t.length ≤ t'.length) :
    t <+: t' := by
  have key : ∀ {t}, Truncation t tag → t <+: tag := by
    intro t h
    rcases h.2 with rfl | ⟨rest, rfl⟩
    · exact List.prefix_rfl
    · exact List.prefix_append _ _
  exact List.prefix_of_prefix_length_le (key h) (key h') hl

/-- Rows at a longer truncation are rows at a shorter one. -/
theorem rowsAt_shorter {rows : List PatternRow} {c i t t' tag : Str} (h : Truncation t tag) (h' : Truncation t' tag)
    (hl : t.length ≤ t'.length) {r : PatternRow} (hr : r ∈ rowsAt rows c i false t') : r ∈ rowsAt rows c i false t := by
  rw [mem_rowsAt] at hr ⊢
  refine ⟨hr.1, hr.2.1, ?_⟩
  simp only [Bool.false_eq_true, if_false] at hr ⊢
  have hp : lower t <+: lower t' := (truncation_prefix h h' hl).map _
  exact hp.trans hr.2.2

/-- If a truncation has rows, there is a longest one that has. -/
theorem longest_truncation {rows : List PatternRow} {c i tag : Str} {exact : Bool} {t : Str} (ht : Truncation t tag)
    (hne : rowsAt rows c i exact t ≠ []) :
    ∃ t₀, Truncation t₀ tag ∧ t.length ≤ t₀.length ∧ rowsAt rows c i exact t₀ ≠ [] ∧
      ∀ t', Truncation t' tag → t₀.length < t'.length → rowsAt rows c i exact t' = [] := by
  have key : ∀ n, ∀ t, t.length + n = tag.length → Truncation t tag → rowsAt rows c i exact t ≠ [] →
      ∃ t₀, Truncation t₀ tag ∧ t.length ≤ t₀.length ∧ rowsAt rows c i exact t₀ ≠ [] ∧
        ∀ t', Truncation t' tag → t₀.length < t'.length → rowsAt rows c i exact t' = [] := by
    intro n
    induction n using Nat.strongRecOn with
    | _ n ih =>
      intro t hn ht hne
      by_cases hlong : ∃ t', Truncation t' tag ∧ t.length < t'.length ∧ rowsAt rows c i exact t' ≠ []
      · obtain ⟨t', ht', hl, hne'⟩ := hlong
        have hle := truncation_length ht'
        obtain ⟨t₀, h1, h2, h3, h4⟩ := ih (tag.length - t'.length) (by omega) t' (by omega) ht' hne'
        exact ⟨t₀, h1, by omega, h3, h4⟩
      · refine ⟨t, ht, Nat.le_refl _, hne, fun t' ht' hl => ?_⟩
        by_cases he : rowsAt rows c i exact t' = []
        · exact he
        · exact absurd ⟨t', ht', hl, he⟩ hlong
  exact key (tag.length - t.length) t (by have := truncation_length ht; omega) ht hne

theorem longest_not_nil {rows : List PatternRow} {c i tag : Str} {exact : Bool} {found : List PatternRow}
    (h : Longest rows c i exact tag found) (hne : found ≠ []) : ∃ t, Truncation t tag ∧ found = rowsAt rows c i exact t ∧
      ∀ t', Truncation t' tag → t.length < t'.length → rowsAt rows c i exact t' = [] := by
  cases h with
  | none _ => exact absurd rfl hne
  | «at» t ht _ hl => exact ⟨t, ht, rfl, hl⟩

/-- A component with one database: its rows at the longest truncation are what answers. -/
theorem answering_one {st : Store} {c i tag : Str} {exact : Bool} {names : List Str} {name : Str} (hone : names = [name])
    {rows : List PatternRow} (hrows : (st name).pattern = .ok rows) {found : List PatternRow} :
    Answering st c i exact tag names found ↔ Longest rows c i exact tag found ∧ found ≠ [] := by
  subst hone
  constructor
  · rintro ⟨n, rs, ⟨before, after, e, _⟩, hp, hl, hne⟩
    have : n = name := by
      cases before with
      | nil => simp at e; exact e.1.symm
      | cons _ bs => simp at e
    subst this
    rw [hrows] at hp; cases hp
    exact ⟨hl, hne⟩
  · rintro ⟨hl, hne⟩
    exact ⟨name, rows, ⟨[], [], rfl, nofun⟩, hrows, hl, hne⟩

/-- A component in both places: the database of all components answers if it has anything, otherwise its own does. -/
theorem answering_both {st : Store} {c i tag : Str} {exact : Bool} {shared own : List PatternRow}
    (hs : (st allInOne).pattern = .ok shared) (ho : (st c).pattern = .ok own) {found : List PatternRow} :
    Answering st c i exact tag (places (true, true) c) found ↔ found ≠ [] ∧
      (Longest shared c i exact tag found ∨ Longest shared c i exact tag [] ∧ Longest own c i exact tag found) := by
  have hp : places (true, true) c = [allInOne, c] := rfl
  rw [hp]
  constructor
  · rintro ⟨n, rs, ⟨before, after, e, hb⟩, hpat, hl, hne⟩
    refine ⟨hne, ?_⟩
    match before, e with
    | [], e =>
      obtain ⟨rfl, _⟩ := List.cons.inj e
      rw [hs] at hpat; cases hpat
      exact .inl hl
    | [b], e =>
      obtain ⟨e1, e2⟩ := List.cons.inj e
      have e2 : c = n := (List.cons.inj e2).1
      subst e2
      rw [ho] at hpat; cases hpat
      obtain ⟨rs, h1, h2⟩ := hb allInOne (by rw [e1]; simp)
      rw [hs] at h1; cases h1
      exact .inr ⟨h2, hl⟩
    | b :: b' :: bs, e => simp at e
  · rintro ⟨hne, hl | ⟨h0, hl⟩⟩
    · exact ⟨allInOne, shared, ⟨[], [c], rfl, nofun⟩, hs, hl, hne⟩
    · refine ⟨c, own, ⟨[allInOne], [], rfl, fun n hn => ?_⟩, ho, hl, hne⟩
      rw [List.mem_singleton.1 hn]
      exact ⟨shared, hs, h0⟩

theorem longest_nil_iff {rows : List PatternRow} {c i tag : Str} {exact : Bool} :
    Longest rows c i exact tag [] ↔ ∀ t, Truncation t tag → rowsAt rows c i exact t = [] := by
  constructor
  · intro h t ht
    by_cases hne : rowsAt rows c i exact t = []
    · exact hne
    · obtain ⟨t₀, h1, _, h3, h4⟩ := longest_truncation ht hne
      exact absurd (Longest.unique (.at t₀ h1 h3 h4) h) h3
  · exact .none

/-- The answer is right for C35: it is the string of a row at the longest truncation that has rows in any of the places. -/
def LongestAnswer (canon : Str → Except E Str) (rows : List PatternRow) (c i tag : Str) (x : Str × Str) : Prop :=
  ∃ t, Truncation t tag ∧ (∃ r ∈ rowsAt rows c i false t, Gives canon r x) ∧
    ∀ t', Truncation t' tag → t.length < t'.length → rowsAt rows c i false t' = []

/-- **C35, exactly.** A component is in both places, and the tags in them are canonical. The request is answered from the
longest truncation that has rows, if and only if the database of all components has no rows at any truncation, or has rows
at every truncation at which the own database has some. -/
theorem C35_exactly_partial {canon : Str → Except E Str} {p : Sqlite} (hc : Connected p) {st : Store} {c i tag : Str}
    (h : p.components.get c = some (true, true)) {shared own : List PatternRow} (hs : (st allInOne).pattern = .ok shared)
    (ho : (st c).pattern = .ok own) (hcs : CanonicalRows canon shared) (hco : CanonicalRows canon own)
    (hw : NoWildcards tag) :
    (∀ x, p.string canon st c i tag = .ok (some x) → LongestAnswer canon (shared ++ own) c i tag x) ↔
      (∀ t, Truncation t tag → rowsAt shared c i false t = []) ∨
      (∀ t, Truncation t tag → rowsAt own c i false t ≠ [] → rowsAt shared c i false t ≠ []) := by
  have hans := fun x => C90_answer (canon := canon) hc (st := st) (c := c) (i := i) (tag := tag) (x := x) false fun _ => hw
  have happ : ∀ t, rowsAt (shared ++ own) c i false t = rowsAt shared c i false t ++ rowsAt own c i false t := by
    intro t; simp [rowsAt]
  constructor
  · intro hall
    by_cases h0 : ∀ t, Truncation t tag → rowsAt shared c i false t = []
    · exact .inl h0
    right
    intro t ht hown hsh
    obtain ⟨u, hu⟩ := Classical.not_forall.1 h0
    obtain ⟨hut, hune⟩ := Classical.not_imp.1 hu
    obtain ⟨t₀, h1, _, h3, h4⟩ := longest_truncation hut hune
    obtain ⟨r, rest, hr⟩ := List.exists_cons_of_ne_nil h3
    have hrm : r ∈ rowsAt shared c i false t₀ := by rw [hr]; simp
    have hrs := mem_rowsAt.1 hrm
    obtain ⟨u, hut, ⟨r', hr', hg⟩, hul⟩ := hall (r.string, r.tag) ((hans _).2 ⟨_, _, r, h,
      (answering_both hs ho).2 ⟨h3, .inl (.at t₀ h1 h3 h4)⟩, by rw [hr]; rfl, rfl, hcs r hrs.1⟩)
    -- the shared rows are at shorter truncations only
    have hlt : t₀.length < t.length := by
      by_cases hlt : t₀.length < t.length
      · exact hlt
      · have := rowsAt_shorter ht h1 (by omega) hrm
        rw [hsh] at this
        cases this
    have hle : t.length ≤ u.length := by
      by_cases hle : t.length ≤ u.length
      · exact hle
      · have := hul t ht (by omega)
        rw [happ, List.append_eq_nil_iff] at this
        exact absurd this.2 hown
    -- so the row found has another tag
    have hr't := mem_rowsAt.1 hr'
    have htag : r'.tag = r.tag := by
      have : canon r'.tag = .ok r'.tag := by
        rcases List.mem_append.1 hr't.1 with hm | hm
        · exact hcs r' hm
        · exact hco r' hm
      have h2 := hg.2
      rw [this] at h2
      exact Except.ok.inj h2
    have hmem : r ∈ rowsAt shared c i false u := by
      refine mem_rowsAt.2 ⟨hrs.1, hrs.2.1, ?_⟩
      rw [← htag]
      exact hr't.2.2
    have := rowsAt_shorter ht hut hle hmem
    rw [hsh] at this
    cases this
  · intro hcond x hx
    obtain ⟨files, found, r, hf, hfound, hhead, hg⟩ := (hans x).1 hx
    rw [h] at hf; cases hf
    obtain ⟨hne, hl | ⟨h0, hl⟩⟩ := (answering_both hs ho).1 hfound
    · obtain ⟨t, ht, rfl, hlong⟩ := longest_not_nil hl hne
      refine ⟨t, ht, ⟨r, by rw [happ]; exact List.mem_append_left _ (List.mem_of_head? hhead), hg⟩, fun t' ht' hl' => ?_⟩
      rcases hcond with hcond | hcond
      · exact absurd (hcond t ht) hne
      · rw [happ, hlong t' ht' hl', List.nil_append]
        by_cases he : rowsAt own c i false t' = []
        · exact he
        · exact absurd (hlong t' ht' hl') (hcond t' ht' he)
    · obtain ⟨t, ht, rfl, hlong⟩ := longest_not_nil hl hne
      refine ⟨t, ht, ⟨r, by rw [happ]; exact List.mem_append_right _ (List.mem_of_head? hhead), hg⟩, fun t' ht' hl' => ?_⟩
      rw [happ, longest_nil_iff.1 h0 t' ht', List.nil_append]
      exact hlong t' ht' hl'

/-- **C36, exactly.** A component has one database, with canonical tags, in which the string is in exactly the language
asked for. That string is returned whatever the order of the rows, if and only if no other tag that the string is in begins
with the tag asked for. -/
theorem C36_exactly_partial {canon : Str → Except E Str} {p : Sqlite} (hc : Connected p) {c i tag name : Str}
    {files : Bool × Bool} (h : p.components.get c = some files) (hone : places files c = [name]) {rows : List PatternRow}
    (hcanon : CanonicalRows canon rows) (hw : NoWildcards tag) (htag : tag ≠ []) (hex : ∃ r ∈ rows, For c i r ∧ r.tag = tag) :
    (∀ (st : Store) (rows' : List PatternRow), rows'.Perm rows → (st name).pattern = .ok rows' →
      ∀ x, p.string canon st c i tag = .ok (some x) → ∃ r ∈ rows, For c i r ∧ r.tag = tag ∧ Gives canon r x) ↔
    ∀ r ∈ rows, For c i r → Begins tag r.tag → r.tag = tag := by
  have hself : Truncation tag tag := ⟨htag, .inl rfl⟩
  have hans := fun st x => C90_answer (canon := canon) hc (st := st) (c := c) (i := i) (tag := tag) (x := x) false fun _ => hw
  constructor
  · intro hall r hr hfor hb
    obtain ⟨a, b, rfl⟩ := List.append_of_mem hr
    let st : Store := fun _ => ⟨.ok (r :: (a ++ b)), .ok [], .ok []⟩
    have hat : rowsAt (r :: (a ++ b)) c i false tag = r :: rowsAt (a ++ b) c i false tag := by
      simp [rowsAt, hfor, hb]
    have hx := (hans st (r.string, r.tag)).2 ⟨files, _, r, h, (answering_one hone (rows := r :: (a ++ b)) rfl).2
      ⟨.at tag hself (by rw [hat]; simp) fun t' ht' hl => absurd (truncation_length ht') (by omega), by rw [hat]; simp⟩,
      by rw [hat]; rfl, rfl, hcanon r hr⟩
    obtain ⟨r', hr', _, ht', hg⟩ := hall st _ List.perm_middle.symm rfl _ hx
    have h1 := hcanon r' hr'
    rw [hg.2] at h1
    rw [← ht']
    exact Except.ok.inj h1
  · intro hcond st rows' hperm hpat x hx
    obtain ⟨files', found, r, hf, hfound, hhead, hg⟩ := (hans st x).1 hx
    rw [h] at hf; cases hf
    obtain ⟨hl, hne⟩ := (answering_one hone hpat).1 hfound
    obtain ⟨t, ht, rfl, hlong⟩ := longest_not_nil hl hne
    have hr := mem_rowsAt.1 (List.mem_of_head? hhead)
    obtain ⟨r₁, h1, h2, h3⟩ := hex
    have hm : r₁ ∈ rowsAt rows' c i false tag := by
      refine mem_rowsAt.2 ⟨hperm.mem_iff.2 h1, h2, ?_⟩
      simp only [Bool.false_eq_true, if_false, h3]
      exact List.prefix_rfl
    have hge : ¬ t.length < tag.length := by
      intro hlt
      rw [hlong tag hself hlt] at hm
      cases hm
    have : t = tag := by
      rcases ht.2 with e | ⟨rest, e⟩
      · exact e
      · rw [e] at hge; simp at hge
    subst this
    have hb : Begins t r.tag := by simpa using hr.2.2
    have hmem := hperm.mem_iff.1 hr.1
    exact ⟨r, hmem, hr.2.1, hcond r hmem hr.2.1 hb, hg⟩

theorem mem_rowsAt_exact {rows : List PatternRow} {c i t : Str} {r : PatternRow} :
    r ∈ rowsAt rows c i true t ↔ r ∈ rows ∧ For c i r ∧ r.tag = t := by
  rw [mem_rowsAt]; simp

/-- **C37, exactly, in both places.** A component is in both places, and the tags in them are canonical. The exact request is
answered only with strings of exactly the tag, if and only if the database of all components has such a string, or it has
none for any truncation of the tag and the own database has such a string or also none for any truncation. -/
theorem C37_both_exactly_partial {canon : Str → Except E Str} {p : Sqlite} (hc : Connected p) {st : Store} {c i tag : Str}
    (h : p.components.get c = some (true, true)) {shared own : List PatternRow} (hs : (st allInOne).pattern = .ok shared)
    (ho : (st c).pattern = .ok own) (hcs : CanonicalRows canon shared) (hco : CanonicalRows canon own) (htag : tag ≠ []) :
    (∀ x, p.stringExactMatch canon st c i tag = .ok (some x) →
      ∃ r ∈ shared ++ own, For c i r ∧ r.tag = tag ∧ Gives canon r x) ↔
    (∃ r ∈ shared, For c i r ∧ r.tag = tag) ∨
      (∀ t, Truncation t tag → ∀ r ∈ shared, For c i r → r.tag ≠ t) ∧
        ((∃ r ∈ own, For c i r ∧ r.tag = tag) ∨ ∀ t, Truncation t tag → ∀ r ∈ own, For c i r → r.tag ≠ t) := by
  have hans := fun x => C90_answer (canon := canon) hc (st := st) (c := c) (i := i) (tag := tag) (x := x) true nofun
  have hself : Truncation tag tag := ⟨htag, .inl rfl⟩
  have hnone : ∀ rows : List PatternRow, (∀ t, Truncation t tag → ∀ r ∈ rows, For c i r → r.tag ≠ t) ↔
      Longest rows c i true tag [] := by
    intro rows
    rw [longest_nil_iff]
    constructor
    · intro hr t ht
      rw [List.eq_nil_iff_forall_not_mem]
      intro r hm
      have := mem_rowsAt_exact.1 hm
      exact hr t ht r this.1 this.2.1 this.2.2
    · intro hr t ht r hm hf e
      have : r ∈ rowsAt rows c i true t := mem_rowsAt_exact.2 ⟨hm, hf, e⟩
      rw [hr t ht] at this
      cases this
  -- what answers has exactly the tag if some row has
  have hexact : ∀ {rows found : List PatternRow}, Longest rows c i true tag found → found ≠ [] →
      (∃ r ∈ rows, For c i r ∧ r.tag = tag) → ∀ r ∈ found, r.tag = tag := by
    rintro rows found hl hne ⟨r₁, h1, h2, h3⟩ r hr
    obtain ⟨t, ht, rfl, hlong⟩ := longest_not_nil hl hne
    have heq : t = tag := by
      by_cases hlt : t.length < tag.length
      · have hm := mem_rowsAt_exact.2 ⟨h1, h2, h3⟩
        rw [hlong tag hself hlt] at hm
        cases hm
      · rcases ht.2 with e | ⟨rest, e⟩
        · exact e
        · rw [e] at hlt; simp at hlt
    rw [← heq]
    exact (mem_rowsAt_exact.1 hr).2.2
  -- some row answers if there is one
  have hsome : ∀ {rows : List PatternRow}, ¬ Longest rows c i true tag [] →
      ∃ t r rest, rowsAt rows c i true t = r :: rest ∧ Longest rows c i true tag (r :: rest) ∧ r ∈ rows ∧ For c i r := by
    intro rows hn
    rw [longest_nil_iff] at hn
    obtain ⟨t, hn⟩ := Classical.not_forall.1 hn
    obtain ⟨ht, hne⟩ := Classical.not_imp.1 hn
    obtain ⟨t₀, h1, _, h3, h4⟩ := longest_truncation ht hne
    obtain ⟨r, rest, hr⟩ := List.exists_cons_of_ne_nil h3
    have hm := mem_rowsAt_exact.1 (show r ∈ rowsAt rows c i true t₀ by rw [hr]; simp)
    exact ⟨t₀, r, rest, hr, hr ▸ .at t₀ h1 h3 h4, hm.1, hm.2.1⟩
  constructor
  · intro hall
    have hgot : ∀ {rows : List PatternRow} {r : PatternRow} {rest : List PatternRow}, CanonicalRows canon rows →
        Answering st c i true tag (places (true, true) c) (r :: rest) → r ∈ rows → r.tag = tag := by
      intro rows r rest hcan ha hm
      obtain ⟨r', h1, h2, h3, h4⟩ := hall (r.string, r.tag) ((hans _).2 ⟨_, _, r, h, ha, rfl, rfl, hcan r hm⟩)
      have hcr : canon r'.tag = .ok r'.tag := by
        rcases List.mem_append.1 h1 with hm | hm
        · exact hcs r' hm
        · exact hco r' hm
      have h5 := h4.2
      rw [hcr] at h5
      exact (Except.ok.inj h5).symm.trans h3
    by_cases h0 : Longest shared c i true tag []
    · refine .inr ⟨(hnone shared).2 h0, ?_⟩
      by_cases h1 : Longest own c i true tag []
      · exact .inr ((hnone own).2 h1)
      · obtain ⟨t, r, rest, hr, hl, hm, hf⟩ := hsome h1
        exact .inl ⟨r, hm, hf, hgot hco ((answering_both hs ho).2 ⟨by simp, .inr ⟨h0, hl⟩⟩) hm⟩
    · obtain ⟨t, r, rest, hr, hl, hm, hf⟩ := hsome h0
      exact .inl ⟨r, hm, hf, hgot hcs ((answering_both hs ho).2 ⟨by simp, .inl hl⟩) hm⟩
  · intro hcond x hx
    obtain ⟨files, found, r, hf, hfound, hhead, hg⟩ := (hans x).1 hx
    rw [h] at hf; cases hf
    have hmr := List.mem_of_head? hhead
    have hin : ∀ {rows : List PatternRow}, Longest rows c i true tag found → r ∈ rows ∧ For c i r := by
      intro rows hl
      obtain ⟨t, ht, rfl, hlong⟩ := longest_not_nil hl (List.ne_nil_of_mem hmr)
      have := mem_rowsAt_exact.1 hmr
      exact ⟨this.1, this.2.1⟩
    obtain ⟨hne, hl | ⟨h0, hl⟩⟩ := (answering_both hs ho).1 hfound
    · rcases hcond with hcond | ⟨hcond, _⟩
      · exact ⟨r, List.mem_append_left _ (hin hl).1, (hin hl).2, hexact hl hne hcond r hmr, hg⟩
      · exact absurd (Longest.unique hl ((hnone shared).1 hcond)) hne
    · rcases hcond with ⟨r', h1, h2, h3⟩ | ⟨_, hcond | hcond⟩
      · exact absurd h3 ((hnone shared).2 h0 tag hself r' h1 h2)
      · exact ⟨r, List.mem_append_right _ (hin hl).1, (hin hl).2, hexact hl hne hcond r hmr, hg⟩
      · exact absurd (Longest.unique hl ((hnone own).1 hcond)) hne

/-- The tag has the truncation itself for its beginning, by subtags. -/
def Extends (t tag : Str) : Prop := lower tag = lower t ∨ ∃ rest, lower tag = lower t ++ '-' :: rest

/-- **C38, exactly.** A component has one database, with canonical tags. Whatever the order of the rows, the language of the
answer extends a truncation of the tag asked for, if and only if every row at the longest truncation that has rows does. -/
theorem C38_exactly_partial {canon : Str → Except E Str} {p : Sqlite} (hc : Connected p) {c i tag name : Str}
    {files : Bool × Bool} (h : p.components.get c = some files) (hone : places files c = [name]) {rows : List PatternRow}
    (hcanon : CanonicalRows canon rows) (hw : NoWildcards tag) :
    (∀ (st : Store) (rows' : List PatternRow), rows'.Perm rows → (st name).pattern = .ok rows' →
      ∀ x, p.string canon st c i tag = .ok (some x) → ∃ t, Truncation t tag ∧ Extends t x.2) ↔
    ∀ found, Longest rows c i false tag found → ∀ r ∈ found, ∃ t, Truncation t tag ∧ Extends t r.tag := by
  have hans := fun st x => C90_answer (canon := canon) hc (st := st) (c := c) (i := i) (tag := tag) (x := x) false fun _ => hw
  have hperm' : ∀ {rows rows' : List PatternRow}, rows'.Perm rows → ∀ t,
      (rowsAt rows' c i false t).Perm (rowsAt rows c i false t) := fun hp t => hp.filter _
  constructor
  · intro hall found hl r hr
    obtain ⟨t, ht, rfl, hlong⟩ := longest_not_nil hl (List.ne_nil_of_mem hr)
    have hrm := mem_rowsAt.1 hr
    obtain ⟨a, b, rfl⟩ := List.append_of_mem hrm.1
    let st : Store := fun _ => ⟨.ok (r :: (a ++ b)), .ok [], .ok []⟩
    have hp : (r :: (a ++ b)).Perm (a ++ r :: b) := List.perm_middle.symm
    have hat : rowsAt (r :: (a ++ b)) c i false t = r :: rowsAt (a ++ b) c i false t := by
      have hb : Begins t r.tag := by simpa using hrm.2.2
      simp [rowsAt, hrm.2.1, hb]
    have hx := (hans st (r.string, r.tag)).2 ⟨files, _, r, h, (answering_one hone (rows := r :: (a ++ b)) rfl).2
      ⟨.at t ht (by rw [hat]; simp) fun t' ht' hl' => by
        have := hperm' hp t'
        rw [hlong t' ht' hl'] at this
        exact this.eq_nil, by rw [hat]; simp⟩,
      by rw [hat]; rfl, rfl, hcanon r hrm.1⟩
    exact hall st _ hp rfl _ hx
  · intro hcond st rows' hperm hpat x hx
    obtain ⟨files', found, r, hf, hfound, hhead, hg⟩ := (hans st x).1 hx
    rw [h] at hf; cases hf
    obtain ⟨hl, hne⟩ := (answering_one hone hpat).1 hfound
    obtain ⟨t, ht, rfl, hlong⟩ := longest_not_nil hl hne
    have hr := List.mem_of_head? hhead
    have hmem := (hperm' hperm t).mem_iff.1 hr
    have hlong' : Longest rows c i false tag (rowsAt rows c i false t) :=
      .at t ht (List.ne_nil_of_mem hmem) fun t' ht' hl' => by
        have := hperm' hperm t'
        rw [hlong t' ht' hl'] at this
        exact this.symm.eq_nil
    have hrt : x.2 = r.tag := by
      have h1 := hcanon r (mem_rowsAt.1 hmem).1
      rw [hg.2] at h1
      exact Except.ok.inj h1
    rw [hrt]
    exact hcond _ hlong' r hmem

/-! The conditions at work, with the component of `DemoStore`. -/

open DemoStore

/-- Both databases have rows for `en`, only the own one for `en-ZA`: what is asked for `en-ZA` is wrong, for `en` right. -/
example (tag : Str) (htag : tag = en ∨ tag = enZA) :
    (∀ x, (provider (true, true)).string DemoStore.canon (store [row en hello] [row en hello, row enZA howzit]) app greeting tag =
      .ok (some x) → LongestAnswer DemoStore.canon ([row en hello] ++ [row en hello, row enZA howzit]) app greeting tag x) ↔
    tag = en := by
  have hself : ∀ tag, tag = en ∨ tag = enZA → Truncation tag tag := by
    rintro tag (rfl | rfl) <;> exact ⟨by decide, .inl rfl⟩
  refine (C35_exactly_partial (connected _) rfl rfl rfl (fun r hr => ?_) (fun r hr => ?_) ?_).trans ⟨fun hcond => ?_, ?_⟩
  · rw [List.mem_singleton.1 hr]; rfl
  · simp only [List.mem_cons, List.not_mem_nil, or_false] at hr
    rcases hr with rfl | rfl <;> rfl
  · rcases htag with rfl | rfl <;> constructor <;> decide
  · rcases htag with rfl | rfl
    · rfl
    · exfalso
      rcases hcond with h | h
      · exact absurd (h en ⟨by decide, .inr ⟨"ZA".toList, rfl⟩⟩) (by decide +kernel)
      · exact h enZA (hself _ (.inr rfl)) (by decide +kernel) (by decide +kernel)
  · rintro rfl
    refine .inr fun t ht _ => ?_
    have : t = en := by
      rcases ht.2 with e | ⟨rest, e⟩
      · exact e
      · have h1 : '-' ∈ en := by rw [e]; simp
        exact absurd h1 (by decide)
    subst this
    decide +kernel

/-- `en` with `en-ZA`, and with `de`. -/
example : ¬ (∀ r ∈ [row en hello, row enZA howzit], For app greeting r → Begins en r.tag → r.tag = en) ∧
    (∀ r ∈ [row "de".toList howzit, row en hello], For app greeting r → Begins en r.tag → r.tag = en) ∧
    places (false, true) app = [app] ∧ CanonicalRows DemoStore.canon [row en hello, row enZA howzit] := by
  refine ⟨by decide +kernel, by decide +kernel, rfl, fun r hr => ?_⟩
  simp only [List.mem_cons, List.not_mem_nil, or_false] at hr
  rcases hr with rfl | rfl <;> rfl

/-- `enm` does not extend `en`; `en-ZA` does. -/
example : ¬ (∃ t, Truncation t en ∧ Extends t enm) ∧ Truncation en en ∧ Extends en enZA := by
  refine ⟨?_, ⟨by decide, .inl rfl⟩, .inr ⟨"za".toList, by decide +kernel⟩⟩
  rintro ⟨t, ht, hx⟩
  have : t = en := by
    rcases ht.2 with e | ⟨rest, e⟩
    · exact e
    · have h1 : '-' ∈ en := by rw [e]; simp
      exact absurd h1 (by decide)
  subst this
  rcases hx with e | ⟨rest, e⟩
  · exact absurd e (by decide +kernel)
  · have h1 : '-' ∈ lower enm := by rw [e]; simp
    exact absurd h1 (by decide +kernel)

end Verif.Props
