import Verif.Spec.Provider
/-
Words for what a request for a string may answer, errors included.
-/
namespace Verif.Spec
open Verif

variable {E : Type}

/-- The rows up to one that is not accepted by the registry. -/
inductive Reading (canon : Str → Except E Str) : List PatternRow → ProvM E (List (Str × Str)) → Prop
  | nil : Reading canon [] (.ok [])
  | refused {r rs e} : canon r.tag = .error e → Reading canon (r :: rs) (.err (.registry e))
  | cons {r rs x xs} : Gives canon r x → Reading canon rs (.ok xs) → Reading canon (r :: rs) (.ok (x :: xs))
  | later {r rs e} : Readable canon r → Reading canon rs (.err e) → Reading canon (r :: rs) (.err e)

/-- What is answered when the places are asked one after the other: a place that cannot be read is an error, and a place
that has rows at some truncation answers with these rows, or with the first of them. -/
inductive AskedFor (canon : Str → Except E Str) (st : Store) (c i : Str) (exact one : Bool) (tag : Str) :
    List Str → ProvM E (List (Str × Str)) → Prop
  | none : AskedFor canon st c i exact one tag [] (.ok [])
  | unreadable {name names code} : (st name).pattern = .error code →
      AskedFor canon st c i exact one tag (name :: names) (.err (.sql code))
  | here {name names rows found res} : (st name).pattern = .ok rows → Longest rows c i exact tag found → found ≠ [] →
      Reading canon (if one then found.take 1 else found) res → AskedFor canon st c i exact one tag (name :: names) res
  | later {name names rows res} : (st name).pattern = .ok rows → Longest rows c i exact tag [] →
      AskedFor canon st c i exact one tag names res → AskedFor canon st c i exact one tag (name :: names) res

/-- The place can be read and has no row for the string at any truncation of the tag. -/
def Passed (st : Store) (c i : Str) (exact : Bool) (tag name : Str) : Prop :=
  ∃ rows, (st name).pattern = .ok rows ∧ Longest rows c i exact tag []

/-- The place is asked: those before it have nothing. -/
def AskedAt (st : Store) (c i : Str) (exact : Bool) (tag : Str) (names : List Str) (name : Str) : Prop :=
  ∃ before after, names = before ++ name :: after ∧ ∀ n ∈ before, Passed st c i exact tag n

/-- The place is the first to have something, and these are its rows. -/
def Answering (st : Store) (c i : Str) (exact : Bool) (tag : Str) (names : List Str) (found : List PatternRow) : Prop :=
  ∃ name rows, AskedAt st c i exact tag names name ∧ (st name).pattern = .ok rows ∧ Longest rows c i exact tag found ∧
    found ≠ []

end Verif.Spec
