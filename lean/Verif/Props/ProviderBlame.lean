import Verif.Lemmas.ProviderBlame
import Verif.Props.Provider
/-
Properties of the answers of the SQLite provider to requests for a string, errors included.
-/
namespace Verif.Props
open Verif Verif.Spec Verif.ProviderLemmas

variable {E : Type}

/-- The request for one string; exactly, or not. -/
abbrev requestOne (canon : Str → Except E Str) (p : Sqlite) (st : Store) (c i tag : Str) : Bool → ProvM E (Option (Str × Str))
  | true => p.stringExactMatch canon st c i tag
  | false => p.string canon st c i tag

/-- **C90** An unknown component is told exactly when the component is not served, and it is the asked one. -/
theorem C90_unknown_component {canon : Str → Except E Str} {p : Sqlite} (hc : Connected p) {st : Store} {c i tag c' : Str}
    (exact : Bool) (hw : exact = false → NoWildcards tag) :
    requestOne canon p st c i tag exact = .err (.componentNotFound c') ↔ c' = c ∧ p.components.get c = none := by
  have he : requestOne canon p st c i tag exact = p.oneString canon st c i tag exact := by cases exact <;> rfl
  rw [he]
  cases h : p.components.get c with
  | none => simp [Sqlite.oneString, h, eq_comm]
  | some files =>
    obtain ⟨r, h1, h2⟩ := oneString_askedFor hc (canon := canon) (st := st) (i := i) h exact hw
    rw [h2]
    simp only [reduceCtorEq, and_false, iff_false]
    cases r with
    | ok xs => simp
    | panic => simp
    | err e =>
      intro hh
      have : e = .componentNotFound c' := by simpa using hh
      subst this
      rcases askedFor_err.1 h1 with ⟨_, _, _, _, h⟩ | ⟨_, _, h⟩
      · cases h
      · obtain ⟨_, _, _, _, _, _, _, h⟩ := reading_err.1 h
        cases h

/-- **C90** An error of the database is told exactly when a place that is asked cannot be read: the first place, or the
second if the first has nothing. -/
theorem C90_database {canon : Str → Except E Str} {p : Sqlite} (hc : Connected p) {st : Store} {c i tag : Str} {code : Nat}
    (exact : Bool) (hw : exact = false → NoWildcards tag) :
    requestOne canon p st c i tag exact = .err (.sql code) ↔
      ∃ files name, p.components.get c = some files ∧ AskedAt st c i exact tag (places files c) name ∧
        (st name).pattern = .error code := by
  have he : requestOne canon p st c i tag exact = p.oneString canon st c i tag exact := by cases exact <;> rfl
  rw [he]
  cases h : p.components.get c with
  | none => simp [Sqlite.oneString, h]
  | some files =>
    obtain ⟨r, h1, h2⟩ := oneString_askedFor hc (canon := canon) (st := st) (i := i) h exact hw
    rw [h2]
    constructor
    · intro hh
      cases r with
      | ok xs => simp at hh
      | panic => simp at hh
      | err e =>
        have : e = .sql code := by simpa using hh
        subst this
        rcases askedFor_err.1 h1 with ⟨name, code', h3, h4, h⟩ | ⟨_, _, h⟩
        · cases h; exact ⟨files, name, rfl, h3, h4⟩
        · obtain ⟨_, _, _, _, _, _, _, h⟩ := reading_err.1 h
          cases h
    · rintro ⟨_, name, hf, h3, h4⟩
      cases hf
      rw [askedFor_unique h1 (askedFor_err.2 (.inl ⟨name, code, h3, h4, rfl⟩))]
      rfl

theorem reading_first {canon : Str → Except E Str} {found : List PatternRow} {e : ProvErr E} :
    Reading canon (found.take 1) (.err e) ↔ ∃ r e', found.head? = some r ∧ canon r.tag = .error e' ∧ e = .registry e' := by
  rw [reading_err]
  cases found with
  | nil => simp
  | cons r found =>
    constructor
    · rintro ⟨before, x, after, e', h1, _, h3, h4⟩
      cases before with
      | nil =>
        obtain ⟨rfl, _⟩ : r = x ∧ _ := by simpa using h1
        exact ⟨r, e', rfl, h3, h4⟩
      | cons b before => simp at h1
    · rintro ⟨_, e', h1, h3, h4⟩
      cases h1
      exact ⟨[], r, [], e', rfl, by simp, h3, h4⟩

/-- **C90** An error of the registry is told exactly when the row that would be answered has a tag that the registry does not
accept. Other rows do not matter, whatever their tags. -/
theorem C90_refused_tag {canon : Str → Except E Str} {p : Sqlite} (hc : Connected p) {st : Store} {c i tag : Str} {e : E}
    (exact : Bool) (hw : exact = false → NoWildcards tag) :
    requestOne canon p st c i tag exact = .err (.registry e) ↔
      ∃ files found r, p.components.get c = some files ∧ Answering st c i exact tag (places files c) found ∧
        found.head? = some r ∧ canon r.tag = .error e := by
  have he : requestOne canon p st c i tag exact = p.oneString canon st c i tag exact := by cases exact <;> rfl
  rw [he]
  cases h : p.components.get c with
  | none => simp [Sqlite.oneString, h]
  | some files =>
    obtain ⟨r, h1, h2⟩ := oneString_askedFor hc (canon := canon) (st := st) (i := i) h exact hw
    rw [h2]
    constructor
    · intro hh
      cases r with
      | ok xs => simp at hh
      | panic => simp at hh
      | err e' =>
        have : e' = .registry e := by simpa using hh
        subst this
        rcases askedFor_err.1 h1 with ⟨_, _, _, _, h⟩ | ⟨found, h3, h⟩
        · cases h
        · obtain ⟨r, e', h4, h5, h6⟩ := reading_first.1 h
          cases h6
          exact ⟨files, found, r, rfl, h3, h4, h5⟩
    · rintro ⟨_, found, x, hf, h3, h4, h5⟩
      cases hf
      rw [askedFor_unique h1 (askedFor_err.2 (.inr ⟨found, h3, reading_first.2 ⟨x, e, h4, h5, rfl⟩⟩))]
      rfl

/-- **C90** Nothing is answered exactly when the places are readable and none has a row. -/
theorem C90_nothing {canon : Str → Except E Str} {p : Sqlite} (hc : Connected p) {st : Store} {c i tag : Str}
    (exact : Bool) (hw : exact = false → NoWildcards tag) :
    requestOne canon p st c i tag exact = .ok none ↔
      ∃ files, p.components.get c = some files ∧ ∀ name ∈ places files c, Passed st c i exact tag name := by
  have he : requestOne canon p st c i tag exact = p.oneString canon st c i tag exact := by cases exact <;> rfl
  rw [he]
  cases h : p.components.get c with
  | none => simp [Sqlite.oneString, h]
  | some files =>
    obtain ⟨r, h1, h2⟩ := oneString_askedFor hc (canon := canon) (st := st) (i := i) h exact hw
    rw [h2]
    constructor
    · intro hh
      cases r with
      | err e => simp at hh
      | panic => simp at hh
      | ok xs =>
        have : xs = [] := by simpa using hh
        subst this
        rcases askedFor_ok.1 h1 with ⟨_, h3⟩ | ⟨found, ⟨_, _, _, _, _, hne⟩, h3⟩
        · exact ⟨files, rfl, h3⟩
        · have : found.take 1 = [] := (allGive_nil h3).1 rfl
          exact absurd (by simpa using this) hne
    · rintro ⟨_, hf, h3⟩
      cases hf
      rw [askedFor_unique h1 (askedFor_ok.2 (.inl ⟨rfl, h3⟩))]
      rfl

/-- **C90** A string is answered exactly when it is that of the first row of the first place that has rows, and the registry
accepts the tag of the row. -/
theorem C90_answer {canon : Str → Except E Str} {p : Sqlite} (hc : Connected p) {st : Store} {c i tag : Str}
    {x : Str × Str} (exact : Bool) (hw : exact = false → NoWildcards tag) :
    requestOne canon p st c i tag exact = .ok (some x) ↔
      ∃ files found r, p.components.get c = some files ∧ Answering st c i exact tag (places files c) found ∧
        found.head? = some r ∧ Gives canon r x := by
  have he : requestOne canon p st c i tag exact = p.oneString canon st c i tag exact := by cases exact <;> rfl
  rw [he]
  cases h : p.components.get c with
  | none => simp [Sqlite.oneString, h]
  | some files =>
    obtain ⟨r, h1, h2⟩ := oneString_askedFor hc (canon := canon) (st := st) (i := i) h exact hw
    rw [h2]
    constructor
    · intro hh
      cases r with
      | err e => simp at hh
      | panic => simp at hh
      | ok xs =>
        have hx : xs.head? = some x := by simpa using hh
        rcases askedFor_ok.1 h1 with ⟨rfl, _⟩ | ⟨found, h3, h4⟩
        · cases hx
        · cases found with
          | nil => exact absurd rfl h3.choose_spec.choose_spec.2.2.2
          | cons r found =>
            have h4 : AllGive canon [r] xs := by simpa using h4
            cases h4 with
            | cons h5 _ =>
              cases hx
              exact ⟨files, _, r, rfl, h3, rfl, h5⟩
    · rintro ⟨_, found, r, hf, h3, h4, h5⟩
      cases hf
      have : AllGive canon (if true then found.take 1 else found) [x] := by
        cases found with
        | nil => cases h4
        | cons r found => cases h4; exact .cons h5 .nil
      rw [askedFor_unique h1 (askedFor_ok.2 (.inr ⟨found, h3, this⟩))]
      rfl

/-- **C90** There is no other answer. -/
theorem C90_no_other {canon : Str → Except E Str} {p : Sqlite} (hc : Connected p) (st : Store) (c i tag : Str)
    (exact : Bool) (hw : exact = false → NoWildcards tag) :
    (∃ x, requestOne canon p st c i tag exact = .ok x) ∨
      requestOne canon p st c i tag exact = .err (.componentNotFound c) ∨
      (∃ code, requestOne canon p st c i tag exact = .err (.sql code)) ∨
      ∃ e, requestOne canon p st c i tag exact = .err (.registry e) := by
  have he : requestOne canon p st c i tag exact = p.oneString canon st c i tag exact := by cases exact <;> rfl
  rw [he]
  cases h : p.components.get c with
  | none => exact .inr (.inl (by simp [Sqlite.oneString, h]))
  | some files =>
    obtain ⟨r, h1, h2⟩ := oneString_askedFor hc (canon := canon) (st := st) (i := i) h exact hw
    rw [h2]
    cases r with
    | ok xs => exact .inl ⟨_, rfl⟩
    | panic => exact absurd h1 askedFor_not_panic
    | err e =>
      rcases askedFor_err.1 h1 with ⟨_, code, _, _, rfl⟩ | ⟨_, _, h⟩
      · exact .inr (.inr (.inl ⟨code, rfl⟩))
      · obtain ⟨_, _, _, e', _, _, _, rfl⟩ := reading_err.1 h
        exact .inr (.inr (.inr ⟨e', rfl⟩))

/-- **C90** The request for all strings: the rows of the first place that has rows, or the cause why not: the component is not
served, a place that is asked cannot be read, or one of these rows has a tag that the registry does not accept. -/
theorem C90_strings {canon : Str → Except E Str} {p : Sqlite} (hc : Connected p) (st : Store) (c i tag : Str)
    (hw : NoWildcards tag) (res : ProvM E (List (Str × Str))) :
    p.strings canon st c i tag = res ↔
      (p.components.get c = none ∧ res = .err (.componentNotFound c)) ∨
      ∃ files, p.components.get c = some files ∧
        ((res = .ok [] ∧ ∀ name ∈ places files c, Passed st c i false tag name) ∨
         (∃ found xs, res = .ok xs ∧ Answering st c i false tag (places files c) found ∧ AllGive canon found xs) ∨
         (∃ name code, res = .err (.sql code) ∧ AskedAt st c i false tag (places files c) name ∧
            (st name).pattern = .error code) ∨
         (∃ before r after e, res = .err (.registry e) ∧
            Answering st c i false tag (places files c) (before ++ r :: after) ∧ (∀ x ∈ before, Readable canon x) ∧
            canon r.tag = .error e)) := by
  cases h : p.components.get c with
  | none => simp [Sqlite.strings, h, eq_comm]
  | some files =>
    have h1 := strings_askedFor hc (canon := canon) (st := st) (i := i) h hw
    have hiff : p.strings canon st c i tag = res ↔ AskedFor canon st c i false false tag (places files c) res :=
      ⟨fun h => h ▸ h1, fun h => askedFor_unique h1 h⟩
    rw [hiff]
    simp only [reduceCtorEq, false_and, false_or, Option.some.injEq, exists_eq_left']
    cases res with
    | panic => simp [askedFor_not_panic]
    | ok xs =>
      rw [askedFor_ok]
      simp
    | err e =>
      rw [askedFor_err]
      simp only [reduceCtorEq, false_and, exists_false, false_or, Bool.false_eq_true, if_false, reading_err]
      constructor
      · rintro (⟨n, code, h1, h2, rfl⟩ | ⟨_, h1, before, r, after, e', rfl, h2, h3, rfl⟩)
        · exact .inl ⟨n, code, rfl, h1, h2⟩
        · exact .inr ⟨before, r, after, e', rfl, h1, h2, h3⟩
      · rintro (⟨n, code, h0, h1, h2⟩ | ⟨before, r, after, e', h0, h1, h2, h3⟩)
        · cases h0; exact .inl ⟨n, code, h1, h2, rfl⟩
        · cases h0; exact .inr ⟨_, h1, before, r, after, e', rfl, h2, h3, rfl⟩

/-! ### Examples -/

section
open DemoStore

/-- A registry that does not accept one tag. -/
def pickyCanon : Str → Except Nat Str := fun t => if t = enZA then .error 7 else .ok t

/-- The own database cannot be read. -/
def brokenStore (shared : List PatternRow) : Store := fun name =>
  if name = allInOne then database shared else { pattern := .error 11, contributor := .ok [], component := .ok [] }

/-- An unserved component, an unreadable second place, a second place that is not reached, a refused tag, and a refused tag
that does not matter. -/
example :
    (provider (true, true)).string pickyCanon (store [] []) "other".toList greeting en = .err (.componentNotFound "other".toList) ∧
    (provider (true, true)).string pickyCanon (brokenStore []) app greeting en = .err (.sql 11) ∧
    (provider (true, true)).string pickyCanon (brokenStore [row en hello]) app greeting en = .ok (some (hello, en)) ∧
    (provider (true, true)).string pickyCanon (store [row enZA howzit] []) app greeting en = .err (.registry 7) ∧
    (provider (true, true)).string pickyCanon (store [row en hello, row enZA howzit] []) app greeting en =
      .ok (some (hello, en)) ∧
    (provider (true, true)).strings pickyCanon (store [row en hello, row enZA howzit] []) app greeting en =
      .err (.registry 7) := by
  refine ⟨?_, ?_, ?_, ?_, ?_, ?_⟩ <;> decide +kernel

/-- The hypotheses of the theorems are met, and so are the conditions for the error of the database. -/
example : Connected (provider (true, true)) ∧ NoWildcards en ∧
    ∃ files name, (provider (true, true)).components.get app = some files ∧
      AskedAt (brokenStore []) app greeting false en (places files app) name ∧ (brokenStore [] name).pattern = .error 11 :=
  ⟨connected _, by constructor <;> decide,
    (C90_database (canon := pickyCanon) (connected _) false fun _ => by constructor <;> decide).1 (by decide +kernel)⟩

end

end Verif.Props
