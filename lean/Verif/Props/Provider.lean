import Verif.Lemmas.Provider
/-
Properties of the look-up of strings by the SQLite provider.
-/
namespace Verif.Props
open Verif Verif.Spec Verif.ProviderLemmas

variable {E : Type}

/-! ### A provider for the examples -/

namespace DemoStore

def app : Str := "application".toList
def greeting : Str := "greeting".toList
def en : Str := "en".toList
def enZA : Str := "en-ZA".toList
def enm : Str := "enm".toList
def hello : Str := "Hello".toList
def howzit : Str := "Howzit".toList
def canon : Str → Except Unit Str := fun t => .ok t

def row (tag text : Str) : PatternRow := { component := app, identifier := greeting, tag := tag, string := text }

def database (rows : List PatternRow) : Database := { pattern := .ok rows, contributor := .ok [], component := .ok [] }

/-- The component in the two places. -/
def provider (files : Bool × Bool) : Sqlite :=
  { components := [(app, files)], connections := [(allInOne, "1.0".toList), (app, "1.0".toList)] }

theorem connected (files : Bool × Bool) : Connected (provider files) := by
  have hc : ∀ c v, (provider files).components.get c = some v → c = app := by
    intro c v h
    by_cases hc : c = app
    · exact hc
    · have hc' : ¬ app = c := fun h => hc h.symm
      simp [provider, AMap.get, hc'] at h
  constructor
  · intro c v _ _
    exact (by decide : ((provider (true, true)).connections.get allInOne).isSome = true)
  · intro c v h _
    rw [hc c v h]
    exact (by decide : ((provider (true, true)).connections.get app).isSome = true)

/-- `shared` in the database of all components, `own` in the own one. -/
def store (shared own : List PatternRow) : Store := fun name =>
  if name = allInOne then database shared else if name = app then database own else database []

def rowsOf (shared own : List PatternRow) : Str → List PatternRow := fun name =>
  if name = allInOne then shared else if name = app then own else []

theorem holds (shared own : List PatternRow) (names : List Str) : Holds canon (store shared own) names (rowsOf shared own) := by
  intro name _
  refine ⟨?_, fun r _ => ⟨r.tag, rfl⟩⟩
  unfold store rowsOf
  split
  · rfl
  · split <;> rfl

end DemoStore

open DemoStore

/-- `LIKE` is what it is documented to be. -/
theorem C35_like_as_documented : ∀ (p t : Str), like p t = true ↔ HasForm p t
  | [], [] => by simp [like]; exact .nil
  | [], x :: t => by
    simp only [like, Bool.false_eq_true, false_iff]
    intro h
    cases h
  | c :: p, [] => by
    have ih := C35_like_as_documented p []
    unfold like
    split
    · next hc =>
      subst hc
      rw [ih]
      constructor
      · exact fun h => .any [] h
      · intro h
        generalize ht : ([] : Str) = t at h
        cases h with
        | any s h =>
          have := List.append_eq_nil_iff.1 ht.symm
          rw [this.2] at h
          rw [← ht]
          exact h
        | char h => exact absurd rfl h
    · next hc =>
      simp only [Bool.false_eq_true, false_iff]
      intro h
      generalize ht : ([] : Str) = t at h
      cases h with
      | any s h => exact hc rfl
      | one => cases ht
      | char => cases ht
  | c :: p, d :: t => by
    have ih1 := C35_like_as_documented p (d :: t)
    have ih2 := C35_like_as_documented (c :: p) t
    have ih3 := C35_like_as_documented p t
    unfold like
    split
    · next hc =>
      subst hc
      rw [Bool.or_eq_true, ih1, ih2]
      constructor
      · rintro (h | h)
        · exact .any [] h
        · generalize hq : '%' :: p = q at h
          cases h with
          | nil => cases hq
          | @any p' t' s h => cases hq; exact .any (d :: s) h
          | one => exact absurd (List.cons.inj hq).1 (by decide)
          | char h1 => exact absurd (List.cons.inj hq).1.symm h1
      · intro h
        generalize hq : '%' :: p = q at h
        generalize ht : d :: t = u at h
        cases h with
        | nil => cases hq
        | @any p' t' s h =>
          cases hq
          cases s with
          | nil => left; exact h
          | cons x s =>
            right
            rw [(List.cons.inj ht).2]
            exact .any s h
        | one => exact absurd (List.cons.inj hq).1 (by decide)
        | char h1 => exact absurd (List.cons.inj hq).1.symm h1
    · next hc =>
      split
      · next hc' =>
        subst hc'
        rw [ih3]
        constructor
        · exact .one d
        · intro h
          cases h with
          | one _ h => exact h
          | char _ h => exact absurd rfl h
      · next hc' =>
        rw [Bool.and_eq_true, beq_iff_eq, ih3]
        constructor
        · exact fun ⟨h1, h2⟩ => .char hc hc' h1 h2
        · intro h
          generalize ht : d :: t = u at h
          cases h with
          | any => exact absurd rfl hc
          | one => exact absurd rfl hc'
          | char _ _ h1 h2 => cases ht; exact ⟨h1, h2⟩
termination_by p t => p.length + t.length

example : HasForm "e%-z_%".toList "en-x-ZAR".toList := (C35_like_as_documented _ _).1 (by decide +kernel)

/-! ### C35 -/

/-- A component in one place: a request for one string is answered from the first row, and a request for all strings from
all rows, of those whose tags begin with the longest truncation of the requested tag that any row begins with. What is
missing: a component in both places, where the place is chosen before the truncation (`C35_violated`). -/
theorem C35_longest_truncation_partial {canon : Str → Except E Str} {p : Sqlite} (hc : Connected p) {st : Store}
    {c name : Str} {files : Bool × Bool} (h : p.components.get c = some files) (hone : places files c = [name])
    {rows : Str → List PatternRow} (hr : Holds canon st [name] rows) (i tag : Str) (hw : NoWildcards tag) :
    ∃ found, Longest (rows name) c i false tag found ∧
      (∃ xs, AllGive canon (found.take 1) xs ∧ p.string canon st c i tag = .ok xs.head?) ∧
      ∃ xs, AllGive canon found xs ∧ p.strings canon st c i tag = .ok xs := by
  have key : ∀ {found}, Decides rows c i false tag (places files c) found → Longest (rows name) c i false tag found := by
    intro found hd
    rw [hone] at hd
    cases hd with
    | here h1 _ => exact h1
    | later h1 h2 => cases h2; exact h1
  obtain ⟨found, xs, h1, h2, h3⟩ := oneString_decides hc (i := i) (tag := tag) h false (by rw [hone]; exact hr)
    fun _ => hw
  obtain ⟨found', xs', h1', h2', h3'⟩ := strings_decides hc (i := i) (tag := tag) h (by rw [hone]; exact hr) hw
  have : found' = found := (key h1').unique (key h1)
  subst this
  exact ⟨found', key h1, ⟨xs, by simpa [limit] using h2, h3⟩, xs', h2', h3'⟩

/-- Wherever the component is: no string is returned exactly when no truncation of the tag has a row in any place, and
otherwise the string and tag of a row for the component and identifier are returned whose tag begins with a truncation
of the requested tag. -/
theorem C35_found_unless_none_matches {canon : Str → Except E Str} {p : Sqlite} (hc : Connected p) {st : Store} {c : Str}
    {files : Bool × Bool} (h : p.components.get c = some files) {rows : Str → List PatternRow}
    (hr : Holds canon st (places files c) rows) (i tag : Str) (hw : NoWildcards tag) :
    (p.string canon st c i tag = .ok none ∧
      ∀ name ∈ places files c, ∀ t, Truncation t tag → ∀ r ∈ rows name, For c i r → ¬ Begins t r.tag) ∨
    ∃ x name r t, p.string canon st c i tag = .ok (some x) ∧ name ∈ places files c ∧ r ∈ rows name ∧ For c i r ∧
      Truncation t tag ∧ Begins t r.tag ∧ Gives canon r x := by
  obtain ⟨found, xs, h1, h2, h3⟩ := oneString_decides hc (i := i) (tag := tag) h false hr fun _ => hw
  have key : ∀ (names : List Str) (found : List PatternRow), Decides rows c i false tag names found →
      (found = [] → ∀ name ∈ names, ∀ t, Truncation t tag → ∀ r ∈ rows name, For c i r → ¬ Begins t r.tag) ∧
      (found ≠ [] → ∃ name ∈ names, ∃ t, Truncation t tag ∧ found = rowsAt (rows name) c i false t) := by
    intro names found hd
    induction hd with
    | none => exact ⟨fun _ name hn => by simp at hn, fun h => absurd rfl h⟩
    | @here name names found hl hne =>
      refine ⟨fun h => absurd h hne, fun _ => ?_⟩
      cases hl with
      | none => exact absurd rfl hne
      | «at» t ht => exact ⟨name, by simp, t, ht, rfl⟩
    | @later name names found hl hd ih =>
      constructor
      · intro hf n hn t ht r hr' hfor hb
        rcases List.mem_cons.1 hn with rfl | hn
        · generalize hnil : ([] : List PatternRow) = f at hl
          cases hl with
          | none hall =>
            have : r ∈ rowsAt (rows n) c i false t := mem_rowsAt.2 ⟨hr', hfor, by simpa using hb⟩
            rw [hall t ht] at this
            cases this
          | «at» t' _ hne => exact hne hnil.symm
        · exact ih.1 hf n hn t ht r hr' hfor hb
      · intro hf
        obtain ⟨n, hn, t, ht, e⟩ := ih.2 hf
        exact ⟨n, by simp [hn], t, ht, e⟩
  cases hfound : found with
  | nil =>
    subst hfound
    refine .inl ⟨?_, (key _ _ h1).1 rfl⟩
    have : xs = [] := (allGive_nil h2).2 (by simp [limit])
    rw [this] at h3
    exact h3
  | cons r rest =>
    obtain ⟨name, hn, t, ht, e⟩ := (key _ _ h1).2 (by simp [hfound])
    have hr' : r ∈ rowsAt (rows name) c i false t := by rw [← e, hfound]; simp
    rw [hfound] at h2
    have h2 : AllGive canon [r] xs := by simpa [limit] using h2
    cases h2 with
    | @cons _ x _ _ hg h2 =>
      have hm := mem_rowsAt.1 hr'
      exact .inr ⟨x, name, r, t, h3, hn, hm.1, hm.2.1, ht, by simpa using hm.2.2, hg⟩

/-- The database of all components has the string in `en`, the own database has it in `en-ZA`: the request for `en-ZA` is
answered in `en`, although a row for the longer truncation exists. -/
theorem C35_violated : (provider (true, true)).string DemoStore.canon (store [row en hello] [row enZA howzit]) app greeting enZA =
    .ok (some (hello, en)) ∧ Truncation enZA enZA ∧ row enZA howzit ∈ rowsOf [row en hello] [row enZA howzit] app := by
  refine ⟨by decide +kernel, ⟨by decide, .inl rfl⟩, by decide⟩

/-- Two subtags are dropped before a row matches, the rows of other strings notwithstanding. -/
example : (provider (false, true)).string DemoStore.canon
    (store [] [row enm "Heil".toList, row enZA howzit, row "en-GB".toList hello]) app greeting "en-GB-x-a".toList =
    .ok (some (hello, "en-GB".toList)) := by decide +kernel

example : ∃ found, Longest (rowsOf [] [row enm hello, row enZA howzit] app) app greeting false "en-ZA-x-a".toList found ∧
    (∃ xs, AllGive DemoStore.canon (found.take 1) xs ∧ (provider (false, true)).string DemoStore.canon
      (store [] [row enm hello, row enZA howzit]) app greeting "en-ZA-x-a".toList = .ok xs.head?) ∧
    ∃ xs, AllGive DemoStore.canon found xs ∧ (provider (false, true)).strings DemoStore.canon
      (store [] [row enm hello, row enZA howzit]) app greeting "en-ZA-x-a".toList = .ok xs :=
  C35_longest_truncation_partial (connected _) (files := (false, true)) (by decide) (by decide) (holds _ _ _) _ _
    (by constructor <;> decide)

/-! ### C36 -/

/-- Exactly the requested tag is stored, but the row of a longer tag comes first: the longer one is returned. -/
theorem C36_violated : (provider (false, true)).string DemoStore.canon (store [] [row enZA howzit, row en hello]) app greeting en =
    .ok (some (howzit, enZA)) ∧ row en hello ∈ rowsOf [] [row enZA howzit, row en hello] app := by
  refine ⟨by decide +kernel, by decide⟩

/-- A row with exactly the requested tag, in the first place that is asked, is returned if no row before it has a tag
that begins with the requested tag. What is missing: rows before it (`C36_violated`), and rows in the second place. -/
theorem C36_exact_preferred_partial {canon : Str → Except E Str} {p : Sqlite} (hc : Connected p) {st : Store} {c name : Str}
    {others : List Str} {files : Bool × Bool} (h : p.components.get c = some files)
    (hplace : places files c = name :: others) {rows : Str → List PatternRow} (hr : Holds canon st (places files c) rows)
    {i tag : Str} (hw : NoWildcards tag) (hne : tag ≠ []) {before after : List PatternRow} {r : PatternRow}
    (hrows : rows name = before ++ r :: after) (hfor : For c i r) (htag : r.tag = tag)
    (hbefore : ∀ r' ∈ before, For c i r' → ¬ Begins tag r'.tag) {t : Str} (ht : canon tag = .ok t) :
    p.string canon st c i tag = .ok (some (r.string, t)) := by
  obtain ⟨found, xs, h1, h2, h3⟩ := oneString_decides hc (i := i) (tag := tag) h false hr fun _ => hw
  have hat : rowsAt (rows name) c i false tag = r :: rowsAt after c i false tag := by
    have hb : before.filter (fun r => decide (For c i r ∧ if false = true then r.tag = tag else Begins tag r.tag)) = [] := by
      rw [List.filter_eq_nil_iff]
      intro r' hr' hd
      simp only [Bool.false_eq_true, if_false, decide_eq_true_eq] at hd
      exact hbefore r' hr' hd.1 hd.2
    unfold rowsAt
    rw [hrows, List.filter_append, hb, List.filter_cons]
    have : Begins tag r.tag := by rw [htag]; exact List.prefix_refl _
    simp [hfor, this]
  have hl : Longest (rows name) c i false tag (rowsAt (rows name) c i false tag) :=
    .at tag ⟨hne, .inl rfl⟩ (by rw [hat]; simp) fun t' ht' hlt => by have := truncation_length ht'; omega
  have hfound : found = r :: rowsAt after c i false tag := by
    rw [hplace] at h1
    cases h1 with
    | here h1 _ => rw [h1.unique hl, hat]
    | later h1 _ =>
      have := h1.unique hl
      rw [hat] at this
      cases this
  rw [hfound] at h2
  have h2 : AllGive canon [r] xs := by simpa [limit] using h2
  cases h2 with
  | @cons _ x _ _ hg h2 =>
    have hx : x = (r.string, t) := by
      obtain ⟨x1, x2⟩ := x
      have h1 := hg.1
      have h2 := hg.2
      rw [htag, ht] at h2
      cases h2
      simp at h1
      simp [h1]
    subst hx
    exact h3

example : (provider (true, true)).string DemoStore.canon (store [row enm "Heil".toList, row enZA howzit, row en hello] [])
    app greeting enZA = .ok (some (howzit, enZA)) :=
  C36_exact_preferred_partial (connected _) (files := (true, true)) (by decide) rfl (holds _ _ _)
    (by constructor <;> decide) (by decide) (before := [row enm "Heil".toList]) (after := [row en hello]) rfl
    (by decide) rfl (by decide) rfl

/-- If the rows of the string come in the order of their tags (as from the index of the constraint in
crates/provider/sqlite3/l10n/schema.sql, which is not verified on opening), and the tags that begin with the requested one
have its case, the exact row is returned. -/
theorem C36_sorted_partial {canon : Str → Except E Str} {p : Sqlite} (hc : Connected p) {st : Store} {c name : Str}
    {others : List Str} {files : Bool × Bool} (h : p.components.get c = some files)
    (hplace : places files c = name :: others) {rows : Str → List PatternRow} (hr : Holds canon st (places files c) rows)
    {i tag : Str} (hw : NoWildcards tag) (hne : tag ≠ [])
    (hsorted : (rows name).Pairwise fun r r' => For c i r → For c i r' → r.tag < r'.tag)
    (hcase : ∀ r ∈ rows name, For c i r → Begins tag r.tag → tag <+: r.tag)
    {r : PatternRow} (hrow : r ∈ rows name) (hfor : For c i r) (htag : r.tag = tag) {t : Str} (ht : canon tag = .ok t) :
    p.string canon st c i tag = .ok (some (r.string, t)) := by
  obtain ⟨before, after, hrows⟩ := List.append_of_mem hrow
  refine C36_exact_preferred_partial hc h hplace hr hw hne hrows hfor htag (fun r' hr' hfor' hb => ?_) ht
  have h1 := hcase r' (by rw [hrows]; simp [hr']) hfor' hb
  rw [hrows, List.pairwise_append] at hsorted
  have h2 := hsorted.2.2 r' hr' r (by simp) hfor' hfor
  rw [htag] at h2
  exact List.not_lt.2 h1.le h2

example : (provider (false, true)).string DemoStore.canon (store [] [row en hello, row enZA howzit]) app greeting en =
    .ok (some (hello, en)) :=
  C36_sorted_partial (p := provider (false, true)) (c := app) (i := greeting)
    (rows := rowsOf [] [row en hello, row enZA howzit]) (name := app) (connected _) (files := (false, true)) (by decide) rfl
    (holds _ _ _) (by constructor <;> decide) (by decide) (by decide) (by decide) (r := row en hello) (by decide) (by decide)
    rfl rfl

/-! ### C37 -/

/-- Not exactly the requested tag is stored, and yet a string is returned. -/
theorem C37_violated : (provider (false, true)).stringExactMatch DemoStore.canon (store [] [row en hello]) app greeting enZA =
    .ok (some (hello, en)) := by decide +kernel

/-- Exactly the requested tag is stored, in the own database, and another string is returned. -/
theorem C37_violated_missed : (provider (true, true)).stringExactMatch DemoStore.canon
    (store [row en hello] [row enZA howzit]) app greeting enZA = .ok (some (hello, en)) := by decide +kernel

/-- If none of the places has the string for a tag obtained by dropping subtags from the requested one, an exact request
returns a string exactly when one with the requested tag is stored, and it is such a one. What is missing: stores with
the string for shorter tags (`C37_violated`, `C37_violated_missed`). -/
theorem C37_only_exact_partial {canon : Str → Except E Str} {p : Sqlite} (hc : Connected p) {st : Store} {c : Str}
    {files : Bool × Bool} (h : p.components.get c = some files) {rows : Str → List PatternRow}
    (hr : Holds canon st (places files c) rows) {i tag : Str} (hne : tag ≠ [])
    (hshort : ∀ name ∈ places files c, ∀ r ∈ rows name, For c i r → ¬ (Truncation r.tag tag ∧ r.tag ≠ tag)) :
    (p.stringExactMatch canon st c i tag = .ok none ∧ ∀ name ∈ places files c, ∀ r ∈ rows name, For c i r → r.tag ≠ tag) ∨
    ∃ x name r, p.stringExactMatch canon st c i tag = .ok (some x) ∧ name ∈ places files c ∧ r ∈ rows name ∧ For c i r ∧
      r.tag = tag ∧ Gives canon r x := by
  obtain ⟨found, xs, h1, h2, h3⟩ := oneString_decides hc (i := i) (tag := tag) h true hr fun h => by cases h
  have key : ∀ (names : List Str) (found : List PatternRow),
      (∀ name ∈ names, ∀ r ∈ rows name, For c i r → ¬ (Truncation r.tag tag ∧ r.tag ≠ tag)) →
      Decides rows c i true tag names found →
      (found = [] → ∀ name ∈ names, ∀ r ∈ rows name, For c i r → r.tag ≠ tag) ∧
      (found ≠ [] → ∃ name ∈ names, found = rowsAt (rows name) c i true tag) := by
    intro names found hs hd
    induction hd with
    | none => exact ⟨fun _ name hn => by simp at hn, fun h => absurd rfl h⟩
    | @here name names found hl hne' =>
      refine ⟨fun h => absurd h hne', fun _ => ⟨name, by simp, ?_⟩⟩
      cases hl with
      | none => exact absurd rfl hne'
      | «at» t ht _ hlonger =>
        by_cases he : t = tag
        · rw [he]
        · exfalso
          obtain ⟨r, hr'⟩ := List.exists_mem_of_ne_nil _ hne'
          have := mem_rowsAt.1 hr'
          have htag : r.tag = t := by simpa using this.2.2
          exact hs name (by simp) r this.1 this.2.1 ⟨by rw [htag]; exact ht, by rw [htag]; exact he⟩
    | @later name names found hl hd ih =>
      have ih := ih fun n hn => hs n (by simp [hn])
      constructor
      · intro hf n hn r hr' hfor htag
        rcases List.mem_cons.1 hn with rfl | hn
        · generalize hnil : ([] : List PatternRow) = f at hl
          cases hl with
          | none hall =>
            have : r ∈ rowsAt (rows n) c i true tag := mem_rowsAt.2 ⟨hr', hfor, by simpa using htag⟩
            rw [hall tag ⟨hne, .inl rfl⟩] at this
            cases this
          | «at» t' _ hne => exact hne hnil.symm
        · exact ih.1 hf n hn r hr' hfor htag
      · intro hf
        obtain ⟨n, hn, e⟩ := ih.2 hf
        exact ⟨n, by simp [hn], e⟩
  have key := key _ _ hshort h1
  cases hfound : found with
  | nil =>
    subst hfound
    refine .inl ⟨?_, key.1 rfl⟩
    have : xs = [] := (allGive_nil h2).2 (by simp [limit])
    rw [this] at h3
    exact h3
  | cons r rest =>
    obtain ⟨name, hn, e⟩ := key.2 (by simp [hfound])
    have hr' : r ∈ rowsAt (rows name) c i true tag := by rw [← e, hfound]; simp
    rw [hfound] at h2
    have h2 : AllGive canon [r] xs := by simpa [limit] using h2
    cases h2 with
    | @cons _ x _ _ hg h2 =>
      have hm := mem_rowsAt.1 hr'
      exact .inr ⟨x, name, r, h3, hn, hm.1, hm.2.1, by simpa using hm.2.2, hg⟩

/-- What an exact request returns is in any case stored for the requested tag or for one obtained by dropping subtags from
it, and never for a longer tag. -/
theorem C37_never_longer {canon : Str → Except E Str} {p : Sqlite} (hc : Connected p) {st : Store} {c : Str}
    {files : Bool × Bool} (h : p.components.get c = some files) {rows : Str → List PatternRow}
    (hr : Holds canon st (places files c) rows) {i tag : Str} {x : Str × Str}
    (hx : p.stringExactMatch canon st c i tag = .ok (some x)) :
    ∃ name ∈ places files c, ∃ r ∈ rows name, For c i r ∧ Truncation r.tag tag ∧ Gives canon r x := by
  obtain ⟨found, xs, h1, h2, h3⟩ := oneString_decides hc (i := i) (tag := tag) h true hr fun h => by cases h
  unfold Sqlite.stringExactMatch at hx
  rw [h3] at hx
  have hx : xs.head? = some x := by injection hx
  have key : ∀ (names : List Str) (found : List PatternRow), Decides rows c i true tag names found → found ≠ [] →
      ∃ name ∈ names, ∃ t, Truncation t tag ∧ found = rowsAt (rows name) c i true t := by
    intro names found hd
    induction hd with
    | none => exact fun h => absurd rfl h
    | @here name names found hl hne =>
      intro _
      cases hl with
      | none => exact absurd rfl hne
      | «at» t ht => exact ⟨name, by simp, t, ht, rfl⟩
    | @later name names found hl hd ih =>
      intro hf
      obtain ⟨n, hn, t, ht, e⟩ := ih hf
      exact ⟨n, by simp [hn], t, ht, e⟩
  cases hfound : found with
  | nil =>
    rw [hfound] at h2
    have : xs = [] := (allGive_nil h2).2 (by simp [limit])
    rw [this] at hx
    cases hx
  | cons r rest =>
    obtain ⟨name, hn, t, ht, e⟩ := key _ _ h1 (by simp [hfound])
    have hr' : r ∈ rowsAt (rows name) c i true t := by rw [← e, hfound]; simp
    rw [hfound] at h2
    have h2 : AllGive canon [r] xs := by simpa [limit] using h2
    cases h2 with
    | @cons _ y _ _ hg h2 =>
      have hxy : y = x := by simpa using hx
      subst hxy
      have hm := mem_rowsAt.1 hr'
      have htag : r.tag = t := by simpa using hm.2.2
      exact ⟨name, hn, r, hm.1, hm.2.1, by rw [htag]; exact ht, hg⟩

example : (provider (true, true)).stringExactMatch DemoStore.canon (store [row "en-ZA-x-a".toList hello] [row enZA howzit])
    app greeting enZA = .ok (some (howzit, enZA)) := by decide +kernel

example : (∀ name ∈ places (true, true) app, ∀ r ∈ rowsOf [row "en-ZA-x-a".toList hello] [row enZA howzit] name,
    For app greeting r → ¬ (Truncation r.tag enZA ∧ r.tag ≠ enZA)) := by
  intro name hn r hr _ ⟨h1, h2⟩
  have : r = row "en-ZA-x-a".toList hello ∨ r = row enZA howzit := by
    unfold rowsOf at hr
    split at hr
    · simp at hr; exact .inl hr
    · split at hr
      · simp at hr; exact .inr hr
      · cases hr
  rcases this with rfl | rfl
  · exact absurd (truncation_length h1) (by decide)
  · exact h2 rfl

/-! ### C38 -/

/-- A string of Middle English for a request in English. -/
theorem C38_violated : (provider (false, true)).string DemoStore.canon (store [] [row enm hello]) app greeting en =
    .ok (some (hello, enm)) := by decide +kernel

theorem takeWhile_lower (s : Str) : (lower s).takeWhile (· ≠ '-') = lower (primary s) := by
  have hd : ∀ c : Char, c.toLower = '-' ↔ c = '-' := by
    intro c
    constructor
    · intro h
      have hn := congrArg Char.toNat h
      rw [Char.toLower] at hn
      split at hn
      · next hc =>
        exfalso
        have h1 := UInt32.le_iff_toNat_le.1 hc.1
        have h2 := UInt32.le_iff_toNat_le.1 hc.2
        simp at hn h1 h2
        omega
      · next hc => rw [Char.toLower, dif_neg hc] at h; exact h
    · rintro rfl; decide
  unfold lower primary
  induction s with
  | nil => rfl
  | cons c s ih =>
    rw [List.map_cons, List.takeWhile_cons, List.takeWhile_cons]
    by_cases hc : c = '-'
    · simp [hc]
    · have : c.toLower ≠ '-' := fun h => hc ((hd c).1 h)
      simpa [hc, this] using ih

/-- The primary language of a returned string is that of the request, provided that the primary subtags of the tags stored
for it have the same number of characters (as when all languages have codes of two letters). What is missing: primary
subtags of different lengths (`C38_violated`). -/
theorem C38_same_language_partial {canon : Str → Except E Str} {p : Sqlite} (hc : Connected p) {st : Store} {c : Str}
    {files : Bool × Bool} (h : p.components.get c = some files) {rows : Str → List PatternRow}
    (hr : Holds canon st (places files c) rows) {i tag : Str} (hw : NoWildcards tag)
    (hlen : ∀ name ∈ places files c, ∀ r ∈ rows name, For c i r → (primary r.tag).length = (primary tag).length)
    {x : Str × Str} (hx : p.string canon st c i tag = .ok (some x)) :
    ∃ name ∈ places files c, ∃ r ∈ rows name, For c i r ∧ Gives canon r x ∧
      lower (primary r.tag) = lower (primary tag) ∧ ∃ t, Truncation t tag ∧ Begins t r.tag := by
  rcases C35_found_unless_none_matches hc h hr i tag hw with ⟨h1, _⟩ | ⟨x', name, r, t, h1, h2, h3, h4, h5, h6, h7⟩
  · rw [hx] at h1; cases h1
  · rw [hx] at h1
    cases h1
    refine ⟨name, h2, r, h3, h4, h7, ?_, t, h5, h6⟩
    have hl := hlen name h2 r h3 h4
    have hp : primary t = primary tag := by
      rcases h5.2 with h | ⟨rest, h⟩
      · rw [h]
      · unfold primary
        rw [h, List.takeWhile_append]
        split
        · next hf => simpa using (List.takeWhile_prefix _).eq_of_length hf
        · rfl
    obtain ⟨rest, h6⟩ := h6
    have h8 := takeWhile_lower r.tag
    rw [← h6, List.takeWhile_append] at h8
    split at h8
    · next hall =>
      rw [takeWhile_lower] at hall
      have h9 : primary t = t := by
        unfold primary at hall ⊢
        exact (List.takeWhile_prefix _).eq_of_length (by simpa [lower] using hall)
      have h10 := congrArg List.length h8
      simp only [List.length_append] at h10
      have h11 : (lower (primary r.tag)).length = (lower t).length := by
        simp only [lower, List.length_map]
        rw [hl, ← hp, h9]
      have h12 : (rest.takeWhile (fun x => decide (x ≠ '-'))).length = 0 := by omega
      rw [List.length_eq_zero_iff.1 h12, List.append_nil] at h8
      rw [← h8, ← hp, h9]
    · rw [takeWhile_lower] at h8
      rw [← h8, hp]

example : (∀ name ∈ places (true, true) app, ∀ r ∈ rowsOf [row "fr-ZA".toList hello] [row enZA howzit, row "de".toList hello] name,
    For app greeting r → (primary r.tag).length = (primary en).length) ∧
    (provider (true, true)).string DemoStore.canon (store [row "fr-ZA".toList hello] [row enZA howzit, row "de".toList hello])
      app greeting en = .ok (some (howzit, enZA)) := by
  refine ⟨?_, by decide +kernel⟩
  decide

/-! ### C43 -/

/-- A component in both places: a request for one string or for all strings is answered from the database of all components
if any truncation of the tag has a row there, and otherwise from its own database; a string is found if either has one. -/
theorem C43_shared_then_own {canon : Str → Except E Str} {p : Sqlite} (hc : Connected p) {st : Store} {c : Str}
    (h : p.components.get c = some (true, true)) {shared own : List PatternRow} (hs : (st allInOne).pattern = .ok shared)
    (ho : (st c).pattern = .ok own) (hrs : ∀ r ∈ shared, Readable canon r) (hro : ∀ r ∈ own, Readable canon r)
    (i tag : Str) (hw : NoWildcards tag) :
    ∃ found, ((Longest shared c i false tag found ∧ found ≠ []) ∨
        (Longest shared c i false tag [] ∧ Longest own c i false tag found)) ∧
      (∃ xs, AllGive canon (found.take 1) xs ∧ p.string canon st c i tag = .ok xs.head?) ∧
      (∃ xs, AllGive canon found xs ∧ p.strings canon st c i tag = .ok xs) ∧
      ((∃ t, Truncation t tag ∧ ∃ r ∈ shared ++ own, For c i r ∧ Begins t r.tag) →
        ∃ x, p.string canon st c i tag = .ok (some x)) := by
  by_cases hname : c = allInOne
  · subst hname
    rw [hs] at ho
    cases ho
    have hr : Holds canon st (places (true, true) allInOne) (fun _ => shared) := by
      intro name hn
      have : name = allInOne := by simpa [places] using hn
      subst this
      exact ⟨hs, hrs⟩
    obtain ⟨found, xs, h1, h2, h3⟩ := oneString_decides hc (i := i) (tag := tag) h false hr fun _ => hw
    obtain ⟨found', xs', h1', h2', h3'⟩ := strings_decides hc (i := i) (tag := tag) h hr hw
    have key : ∀ {found}, Decides (fun _ => shared) allInOne i false tag (places (true, true) allInOne) found →
        Longest shared allInOne i false tag found := by
      intro found hd
      simp only [places, if_true, List.cons_append, List.nil_append] at hd
      cases hd with
      | here h _ => exact h
      | later h1 h2 =>
        cases h2 with
        | here h _ => exact h
        | later h1 h2 => cases h2; exact h1
    have : found' = found := (key h1').unique (key h1)
    subst this
    refine ⟨found', ?_, ⟨xs, by simpa [limit] using h2, h3⟩, ⟨xs', h2', h3'⟩, ?_⟩
    · by_cases hf : found' = []
      · subst hf; exact .inr ⟨key h1, key h1⟩
      · exact .inl ⟨key h1, hf⟩
    · rintro ⟨t, ht, r, hr', hfor, hb⟩
      rcases C35_found_unless_none_matches hc h hr i tag hw with ⟨_, h5⟩ | ⟨x, _, _, _, h5, _⟩
      · exact absurd hb (h5 allInOne (by simp [places]) t ht r (by simpa using hr') hfor)
      · exact ⟨x, h5⟩
  · have hr : Holds canon st (places (true, true) c) (fun n => if n = allInOne then shared else own) := by
      intro name hn
      simp only [places, if_true, List.cons_append, List.nil_append, List.mem_cons, List.not_mem_nil, or_false] at hn
      rcases hn with rfl | rfl
      · simpa using ⟨hs, hrs⟩
      · simpa [hname] using ⟨ho, hro⟩
    obtain ⟨found, xs, h1, h2, h3⟩ := oneString_decides hc (i := i) (tag := tag) h false hr fun _ => hw
    obtain ⟨found', xs', h1', h2', h3'⟩ := strings_decides hc (i := i) (tag := tag) h hr hw
    have key : ∀ {found}, Decides (fun n => if n = allInOne then shared else own) c i false tag (places (true, true) c)
        found → ((Longest shared c i false tag found ∧ found ≠ []) ∨
        (Longest shared c i false tag [] ∧ Longest own c i false tag found)) := by
      intro found hd
      simp only [places, if_true, List.cons_append, List.nil_append] at hd
      cases hd with
      | here h hne => exact .inl ⟨by simpa using h, hne⟩
      | later h1 h2 =>
        refine .inr ⟨by simpa using h1, ?_⟩
        cases h2 with
        | here h _ => simpa [hname] using h
        | later h1 h2 => cases h2; simpa [hname] using h1
    have : found' = found := by
      rcases key h1 with ⟨a, b⟩ | ⟨a, b⟩ <;> rcases key h1' with ⟨a', b'⟩ | ⟨a', b'⟩
      · exact a'.unique a
      · exact absurd (a.unique a') b
      · exact absurd (a'.unique a) b'
      · exact b'.unique b
    subst this
    refine ⟨found', key h1, ⟨xs, by simpa [limit] using h2, h3⟩, ⟨xs', h2', h3'⟩, ?_⟩
    rintro ⟨t, ht, r, hr', hfor, hb⟩
    rcases C35_found_unless_none_matches hc h hr i tag hw with ⟨_, h5⟩ | ⟨x, _, _, _, h5, _⟩
    · rcases List.mem_append.1 hr' with hr' | hr'
      · exact absurd hb (h5 allInOne (by simp [places]) t ht r (by simpa using hr') hfor)
      · exact absurd hb (h5 c (by simp [places]) t ht r (by simpa [hname] using hr') hfor)
    · exact ⟨x, h5⟩

/-- The database of all components has a match for the shorter tag only, and it is preferred; the own database is asked for
a string that is only there. -/
example : (provider (true, true)).string DemoStore.canon (store [row en hello] [row enZA howzit]) app greeting enZA =
      .ok (some (hello, en)) ∧
    (provider (true, true)).strings DemoStore.canon (store [row "fr".toList hello] [row enZA howzit, row en hello]) app greeting en =
      .ok [(howzit, enZA), (hello, en)] := by
  constructor <;> decide +kernel

end Verif.Props
