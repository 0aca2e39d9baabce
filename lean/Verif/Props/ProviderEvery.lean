import Verif.Props.ProviderBlame
/-
C35, C36, C37, C38: the violations are not those of special tags. For every tag there are contents of the database with which the
request is answered wrongly; and for the exact request, exactly which contents these are.
-/
namespace Verif.Props
open Verif Verif.Spec Verif.ProviderLemmas DemoStore

variable {E : Type}

/-- What a component that has only its own database answers. -/
theorem own_answer {canon : Str → Except E Str} (rows : List PatternRow) (tag : Str) (exact : Bool)
    (hw : exact = false → NoWildcards tag) (t : Str) (ht : Truncation t tag) {r : PatternRow} {rest : List PatternRow}
    (hrow : rowsAt rows app greeting exact t = r :: rest)
    (hlonger : ∀ t', Truncation t' tag → t.length < t'.length → rowsAt rows app greeting exact t' = [])
    {x : Str × Str} (hg : Gives canon r x) :
    requestOne canon (provider (false, true)) (store [] rows) app greeting tag exact = .ok (some x) := by
  refine (C90_answer (connected _) exact hw).2 ⟨(false, true), r :: rest, r, by decide, ?_, rfl, hg⟩
  refine ⟨app, rows, ⟨[], [], rfl, nofun⟩, ?_, ?_, by simp⟩
  · have : app ≠ allInOne := by decide
    simp [store, database, this]
  · rw [← hrow]
    exact .at t ht (by rw [hrow]; simp) hlonger

theorem begins_self_append (t s : Str) : Begins t (t ++ s) := by
  simp only [Begins, lower, List.map_append]
  exact List.prefix_append _ _

theorem not_begins_shorter {t s : Str} (h : s.length < t.length) : ¬ Begins t s := by
  intro hb
  have := hb.length_le
  simp [lower] at this
  omega

theorem lower_hyphen (c : Char) : c.toLower = '-' ↔ c = '-' := by
  constructor
  · intro h
    have hn := congrArg Char.toNat h
    rw [Char.toLower] at hn
    split at hn
    · next hc =>
      exfalso
      have h1 := UInt32.le_iff_toNat_le.1 hc.1
      have h2 := UInt32.le_iff_toNat_le.1 hc.2
      simp at hn h1 h2
      omega
    · next hc => rw [Char.toLower, dif_neg hc] at h; exact h
  · rintro rfl; decide

/-- **C35 is violated for every tag of several subtags.** If a truncation of it is in the database of all components, the
string of the tag itself in the own database is not found. -/
theorem C35_violated_for_every_tag (canon : Str → Except E Str) (tag t t' : Str) (hw : NoWildcards tag)
    (ht : Truncation t tag) (hne : t ≠ tag) (hcanon : canon t = .ok t') :
    (provider (true, true)).string canon (store [row t hello] [row tag howzit]) app greeting tag = .ok (some (hello, t')) ∧
      t.length < tag.length := by
  constructor
  · refine (C90_answer (connected _) (exact := false) fun _ => hw).2
      ⟨(true, true), [row t hello], row t hello, by decide, ?_, rfl, rfl, hcanon⟩
    refine ⟨allInOne, [row t hello], ⟨[], [app], rfl, nofun⟩, rfl, ?_, by simp⟩
    have hat : rowsAt [row t hello] app greeting false t = [row t hello] := by
      have : Begins t t := by simpa using begins_self_append t []
      simp [rowsAt, For, row, this]
    conv => rhs; rw [← hat]
    refine .at t ht (by rw [hat]; simp) fun t2 _ hl => ?_
    simp [rowsAt, row, not_begins_shorter hl]
  · rcases ht.2 with e | ⟨rest, e⟩
    · exact absurd e hne
    · rw [e]; simp

/-- **C36 is violated for every tag.** Whatever the tag, if the row of a longer tag is stored before its own row, its own
string is not returned. -/
theorem C36_violated_for_every_tag (canon : Str → Except E Str) (tag : Str) (hne : tag ≠ []) (hw : NoWildcards tag)
    (longer : Str) (hb : Begins tag longer) {t' : Str} (hcanon : canon longer = .ok t') :
    (provider (false, true)).string canon (store [] [row longer howzit, row tag hello]) app greeting tag =
      .ok (some (howzit, t')) := by
  refine own_answer (canon := canon) [row longer howzit, row tag hello] tag false (fun _ => hw) tag ⟨hne, .inl rfl⟩
    (r := row longer howzit) (rest := [row tag hello]) ?_ ?_ ⟨rfl, hcanon⟩
  · have h2 : Begins tag tag := by simpa using begins_self_append tag []
    simp [rowsAt, For, row, hb, h2]
  · intro t' ht hl
    rcases ht.2 with rfl | ⟨rest, rfl⟩
    · omega
    · simp at hl; omega

example : Begins "pt".toList "pt-BR".toList := by decide +kernel

/-- **C37 is violated for every tag of several subtags.** Each of its truncations is taken for it, if only that is stored. -/
theorem C37_violated_for_every_tag (canon : Str → Except E Str) (tag t t' : Str) (ht : Truncation t tag) (hne : t ≠ tag)
    (hcanon : canon t = .ok t') :
    (provider (false, true)).stringExactMatch canon (store [] [row t hello]) app greeting tag = .ok (some (hello, t')) ∧
      ∀ r ∈ [row t hello], r.tag ≠ tag := by
  refine ⟨?_, by simpa [row] using hne⟩
  refine own_answer (canon := canon) [row t hello] tag true nofun t ht (r := row t hello) (rest := []) ?_ ?_ ⟨rfl, hcanon⟩
  · simp [rowsAt, For, row]
  · intro t2 _ hl
    have : t ≠ t2 := by rintro rfl; omega
    simp [rowsAt, row, this]

example : Truncation "pt".toList "pt-BR".toList ∧ "pt".toList ≠ "pt-BR".toList :=
  ⟨⟨by decide, .inr ⟨"BR".toList, rfl⟩⟩, by decide⟩

/-- **C37, exactly.** For a component with one database that can be read, the exact request is answered with strings of
exactly the tag, and only then, if and only if there is such a string or there is none for any truncation of the tag. -/
theorem C37_exactly_partial {canon : Str → Except E Str} {p : Sqlite} (hc : Connected p) {st : Store} {c i tag : Str}
    {files : Bool × Bool} (h : p.components.get c = some files) {name : Str} (hone : places files c = [name])
    {rows : List PatternRow} (hrows : (st name).pattern = .ok rows) (hread : ∀ r ∈ rows, Readable canon r)
    (htag : tag ≠ []) :
    (∀ x, p.stringExactMatch canon st c i tag = .ok (some x) → ∃ r ∈ rows, For c i r ∧ r.tag = tag ∧ Gives canon r x) ↔
      (∃ r ∈ rows, For c i r ∧ r.tag = tag) ∨ (∀ t, Truncation t tag → ∀ r ∈ rows, For c i r → r.tag ≠ t) := by
  have key : ∀ found, Answering st c i true tag (places files c) found ↔ Longest rows c i true tag found ∧ found ≠ [] := by
    intro found
    rw [hone]
    constructor
    · rintro ⟨n, rs, ⟨before, after, e, _⟩, hp, hl, hne⟩
      have : n = name := by
        cases before with
        | nil => simp at e; exact e.1.symm
        | cons _ bs => simp at e
      subst this
      rw [hrows] at hp; cases hp
      exact ⟨hl, hne⟩
    · rintro ⟨hl, hne⟩
      exact ⟨name, rows, ⟨[], [], rfl, nofun⟩, hrows, hl, hne⟩
  have hans := fun x => C90_answer (canon := canon) hc (st := st) (c := c) (i := i) (tag := tag) (x := x) true nofun
  have hself : Truncation tag tag := ⟨htag, .inl rfl⟩
  have hmem : ∀ t r, r ∈ rowsAt rows c i true t ↔ r ∈ rows ∧ For c i r ∧ r.tag = t := by
    intro t r; rw [mem_rowsAt]; simp
  constructor
  · intro hall
    by_cases hex : ∃ r ∈ rows, For c i r ∧ r.tag = tag
    · exact .inl hex
    right
    intro t ht r hr hfor he
    -- the longest truncation with rows answers
    have hfind : ∀ n, ∀ t, t.length + n = tag.length → Truncation t tag → (∃ r ∈ rows, For c i r ∧ r.tag = t) →
        ∃ t0, Truncation t0 tag ∧ rowsAt rows c i true t0 ≠ [] ∧
          ∀ t', Truncation t' tag → t0.length < t'.length → rowsAt rows c i true t' = [] := by
      intro n
      induction n using Nat.strongRecOn with
      | _ n ih =>
        intro t hn ht hr
        by_cases hlong : ∃ t', Truncation t' tag ∧ t.length < t'.length ∧ rowsAt rows c i true t' ≠ []
        · obtain ⟨t', ht', hl, hne⟩ := hlong
          obtain ⟨r, hr⟩ := List.exists_mem_of_ne_nil _ hne
          have hle : t'.length ≤ tag.length := by
            rcases ht'.2 with rfl | ⟨rest, rfl⟩
            · exact Nat.le_refl _
            · simp
          exact ih (tag.length - t'.length) (by omega) t' (by omega) ht' ⟨r, (hmem t' r).1 hr⟩
        · refine ⟨t, ht, ?_, fun t' ht' hl => ?_⟩
          · obtain ⟨r, hr⟩ := hr
            exact List.ne_nil_of_mem ((hmem t r).2 hr)
          · by_cases he : rowsAt rows c i true t' = []
            · exact he
            · exact absurd ⟨t', ht', hl, he⟩ hlong
    have hle : t.length ≤ tag.length := by
      rcases ht.2 with rfl | ⟨rest, rfl⟩
      · exact Nat.le_refl _
      · simp
    obtain ⟨t0, ht0, hne0, hl0⟩ := hfind (tag.length - t.length) t (by omega) ht ⟨r, hr, hfor, he⟩
    obtain ⟨r0, rest0, e0⟩ := List.exists_cons_of_ne_nil hne0
    have hr0 := (hmem t0 r0).1 (by rw [e0]; simp)
    obtain ⟨u, hu⟩ := hread r0 hr0.1
    have := hall (r0.string, u) ((hans _).2 ⟨files, _, r0, h, (key _).2 ⟨.at t0 ht0 hne0 hl0, hne0⟩, by rw [e0]; rfl, rfl, hu⟩)
    obtain ⟨r1, h1, h2, h3, _⟩ := this
    exact hex ⟨r1, h1, h2, h3⟩
  · intro hcond x hx
    obtain ⟨files', found, r, hf, hfound, hhead, hg⟩ := (hans x).1 hx
    rw [h] at hf; cases hf
    obtain ⟨hl, hne⟩ := (key found).1 hfound
    cases hl with
    | none _ => exact absurd rfl hne
    | «at» t ht _ hlonger =>
      have hr := (hmem t r).1 (List.mem_of_head? hhead)
      rcases hcond with ⟨r1, h1, h2, h3⟩ | hnone
      · have heq : t = tag := by
          by_cases hlt : t.length < tag.length
          · have := hlonger tag hself hlt
            have hm := (hmem tag r1).2 ⟨h1, h2, h3⟩
            rw [this] at hm; cases hm
          · rcases ht.2 with e | ⟨rest, e⟩
            · exact e
            · rw [e] at hlt; simp at hlt
        exact ⟨r, hr.1, hr.2.1, heq ▸ hr.2.2, hg⟩
      · exact absurd hr.2.2 (hnone t ht r hr.1 hr.2.1)

/-- **C38 is violated for every tag.** A string of another language, whose code is longer, is returned if nothing else is
stored. -/
theorem C38_violated_for_every_tag (canon : Str → Except E Str) (tag : Str) (hne : primary tag ≠ []) (hw : NoWildcards tag)
    (ext : Str) (hext : ext ≠ []) (hhyphen : '-' ∉ ext) {t' : Str} (hcanon : canon (primary tag ++ ext) = .ok t') :
    (provider (false, true)).string canon (store [] [row (primary tag ++ ext) hello]) app greeting tag =
      .ok (some (hello, t')) ∧ primary (primary tag ++ ext) ≠ primary tag := by
  have hnot : '-' ∉ primary tag := fun h => by
    have := List.all_eq_true.1 (List.all_takeWhile (p := fun x : Char => decide (x ≠ '-')) (l := tag)) '-' h
    simp at this
  have hshort : ∀ t, Truncation t tag → t ≠ primary tag → ¬ Begins t (primary tag ++ ext) := by
    intro t ht hne hb
    have hmem : '-' ∈ t := by
      by_cases hm : '-' ∈ t
      · exact hm
      · exfalso
        apply hne
        have ha : ∀ x ∈ t, decide (x ≠ '-') = true := fun x hx => decide_eq_true fun e => hm (e ▸ hx)
        rcases ht.2 with rfl | ⟨rest, rfl⟩
        · have := List.takeWhile_append_of_pos (l₂ := []) ha
          simp only [List.append_nil, List.takeWhile_nil] at this
          exact this.symm
        · simp only [primary]
          rw [List.takeWhile_append_of_pos ha]
          simp
    have hm := hb.subset (List.mem_map.2 ⟨'-', hmem, (by decide : Char.toLower '-' = '-')⟩)
    obtain ⟨x, hx, hxl⟩ := List.mem_map.1 hm
    rw [lower_hyphen] at hxl
    subst hxl
    rcases List.mem_append.1 hx with h | h
    · exact hnot h
    · exact hhyphen h
  have hp : Truncation (primary tag) tag := by
    refine ⟨hne, ?_⟩
    have := List.takeWhile_append_dropWhile (p := fun x : Char => decide (x ≠ '-')) (l := tag)
    cases hd : tag.dropWhile (fun x : Char => decide (x ≠ '-')) with
    | nil => left; rw [hd, List.append_nil] at this; exact this
    | cons c rest =>
      right
      refine ⟨rest, ?_⟩
      have hc : c = '-' := by
        have hh := List.head_dropWhile_not (fun x : Char => decide (x ≠ '-')) (l := tag) (by rw [hd]; simp)
        simp only [hd, List.head_cons] at hh
        simpa using hh
      rw [hd, hc] at this
      exact this.symm
  constructor
  · refine own_answer (canon := canon) [row (primary tag ++ ext) hello] tag false (fun _ => hw) (primary tag) hp
      (r := row (primary tag ++ ext) hello) (rest := []) ?_ ?_ ⟨rfl, hcanon⟩
    · simp [rowsAt, For, row, begins_self_append]
    · intro t2 ht2 hl
      have : t2 ≠ primary tag := by rintro rfl; omega
      simp [rowsAt, row, hshort t2 ht2 this]
  · intro e
    have hall : primary (primary tag ++ ext) = primary tag ++ ext := by
      have ha : ∀ x ∈ primary tag ++ ext, decide (x ≠ '-') = true := by
        intro x hx
        refine decide_eq_true ?_
        rintro rfl
        rcases List.mem_append.1 hx with h | h
        · exact hnot h
        · exact hhyphen h
      show (primary tag ++ ext).takeWhile (fun x => decide (x ≠ '-')) = _
      conv => lhs; rw [← List.append_nil (primary tag ++ ext), List.takeWhile_append_of_pos ha]
      simp
    rw [hall] at e
    simp at e
    exact hext e

/-- Also for tags of several subtags. -/
example : (provider (false, true)).string DemoStore.canon (store [] [row "ptx".toList hello]) app greeting "pt-BR".toList =
    .ok (some (hello, "ptx".toList)) :=
  (C38_violated_for_every_tag DemoStore.canon "pt-BR".toList (by decide) (by constructor <;> decide) "x".toList (by decide)
    (by decide) rfl).1

end Verif.Props
