import Verif.Lemmas.RequestBlame
import Verif.Props.Localiser
/-
Property theorem C87: an error of a request to the localiser tells why it fails, /repo/crates/localiser/src/localiser.rs.
-/
namespace Verif.Props
open Verif Verif.Spec Verif.LocaliserLemmas

variable {D F P S : Type}

/-- The last answer is an error with this property. -/
def lastFails (L : LocEnv Nat Unit Unit) (l : Localiser Unit) (calls : List (Request Nat Unit)) (r : Request Nat Unit)
    (p : LocErr Unit → Bool) : Bool :=
  match ((l.after L (fun _ => ()) calls).call L (fun _ => ()) r).1 with
  | some (.err e) => p e
  | _ => false

/-- Strings for the witness and the examples. -/
def blameRows : Demo.Rows := Demo.rows [("c", "hi", "en", "hello {x}"), ("c", "bad", "en", "hello {x"),
  ("c", "odd", "en", "{x maximal a#a}#{a b}"), ("a/b", "c", "en", "one {x}"), ("a", "b/c", "en", "two")]

/-- **C87 is violated**: a pattern string that was formatted cannot be had as it is any more, and neither can a string of
another component with the same key, though the provider has both. -/
theorem C87_violated :
    lastFails (Demo.loc blameRows) (Demo.start true) [Demo.fmt "c" "hi" [("x", .inl "you")]] (Demo.lit "c" "hi")
      (fun e => match e with | .cacheEntry c i => c = "c".toList ∧ i = "hi".toList | _ => false) = true ∧
    lastFails (Demo.loc blameRows) (Demo.start true) [Demo.fmt "a/b" "c" [("x", .inl "you")]] (Demo.lit "a" "b/c")
      (fun e => match e with | .cacheEntry c i => c = "a".toList ∧ i = "b/c".toList | _ => false) = true ∧
    Demo.answers (Demo.loc blameRows) (Demo.start true) [Demo.lit "c" "hi"] = [Demo.say "hello {x}"] ∧
    Demo.answers (Demo.loc blameRows) (Demo.start true) [Demo.lit "a" "b/c"] = [Demo.say "two"] := by decide +kernel

/-- **C87, what holds.** If no component name has a slash, then after any history without panics an error of a request has a
cause in a string that the request needs, itself or for a value: the provider has none or fails, it is no pattern string, it is
rejected, or the values are wrong — with the very error that describes this cause (C80, C81). The only other error is that a
pattern string is wanted as it is which was formatted before. Missing: component names with slash. -/
theorem C87_error_tells_the_cause_partial (L : LocEnv D F P) (scriptOf : Str → S) (l : Localiser S) (hl : l.cache = [])
    (calls : List (Request D F)) (r : Request D F)
    (hs : ∀ u ∈ callsUses l.tag l.fallback (calls ++ [r]), '/' ∉ u.component) (hp : NoPanic L scriptOf l calls)
    (e : LocErr P) (he : ((l.after L scriptOf calls).call L scriptOf r).1 = some (.err e)) :
    ∃ u vs, Needs (l.after L scriptOf calls).tag (l.after L scriptOf calls).fallback r u vs ∧
      (Cause L u vs e ∨ FormattedBefore L (callsUses l.tag l.fallback (calls ++ [r])) u e) := by
  obtain ⟨h1, h2⟩ := history_told hs scriptOf r calls l (by rw [hl]; intro tag m h; cases h) (fun u h => h) hp
  rcases call_told hs scriptOf _ h1 r h2 with h3 | ⟨_, h3⟩
  · rw [h3] at he; cases he
  · exact h3 e he

/-- **C87, strings not found.** If a string is said not to be found, the request needs it, and the provider has it neither in
the language told nor, with fallback, in the default language of the component. -/
theorem C87_not_found_partial (L : LocEnv D F P) (scriptOf : Str → S) (l : Localiser S) (hl : l.cache = [])
    (calls : List (Request D F)) (r : Request D F)
    (hs : ∀ u ∈ callsUses l.tag l.fallback (calls ++ [r]), '/' ∉ u.component) (hp : NoPanic L scriptOf l calls)
    (c i t : Str) (fb : Bool) (he : ((l.after L scriptOf calls).call L scriptOf r).1 = some (.err (.stringNotFound c i t fb))) :
    (∃ formatted vs, Needs (l.after L scriptOf calls).tag (l.after L scriptOf calls).fallback r ⟨c, i, t, fb, formatted⟩ vs) ∧
    L.provider.string c i t = .ok none ∧
    (fb = true → ∃ d, L.provider.default c = .ok d ∧ L.provider.string c i d = .ok none) := by
  obtain ⟨u, vs, h1, h2 | ⟨h2, _⟩⟩ := C87_error_tells_the_cause_partial L scriptOf l hl calls r hs hp _ he
  · obtain ⟨c', i', t', fb', fo⟩ := u
    cases h2 with
    | provider _ h =>
      cases h with
      | missing h => exact ⟨⟨fo, vs, h1⟩, h, fun h => by cases h⟩
      | missingDefault h h' h'' => exact ⟨⟨fo, vs, h1⟩, h, fun _ => ⟨_, h', h''⟩⟩
  · cases h2

/-- **C87, errors of the provider.** An error of the provider is its answer to a question about a string that the request
needs, or about the default language of its component. -/
theorem C87_provider_error_partial (L : LocEnv D F P) (scriptOf : Str → S) (l : Localiser S) (hl : l.cache = [])
    (calls : List (Request D F)) (r : Request D F)
    (hs : ∀ u ∈ callsUses l.tag l.fallback (calls ++ [r]), '/' ∉ u.component) (hp : NoPanic L scriptOf l calls)
    (e : P) (he : ((l.after L scriptOf calls).call L scriptOf r).1 = some (.err (.provider e))) :
    ∃ u vs, Needs (l.after L scriptOf calls).tag (l.after L scriptOf calls).fallback r u vs ∧
      (L.provider.string u.component u.identifier u.tag = .error e ∨
        u.fallback = true ∧ (L.provider.default u.component = .error e ∨
          ∃ d, L.provider.default u.component = .ok d ∧ L.provider.string u.component u.identifier d = .error e)) := by
  obtain ⟨u, vs, h1, h2 | ⟨h2, _⟩⟩ := C87_error_tells_the_cause_partial L scriptOf l hl calls r hs hp _ he
  · obtain ⟨c', i', t', fb', fo⟩ := u
    refine ⟨_, vs, h1, ?_⟩
    cases h2 with
    | provider _ h =>
      cases h with
      | broken h => exact .inl h
      | noDetails _ h => exact .inr ⟨rfl, .inl h⟩
      | brokenDefault _ h h' => exact .inr ⟨rfl, .inr ⟨_, h, h'⟩⟩
  · cases h2

/-- **C87, the rest.** The error that is said never to be reached is never reached. -/
theorem C87_never_partial (L : LocEnv D F P) (scriptOf : Str → S) (l : Localiser S) (hl : l.cache = [])
    (calls : List (Request D F)) (r : Request D F)
    (hs : ∀ u ∈ callsUses l.tag l.fallback (calls ++ [r]), '/' ∉ u.component) (hp : NoPanic L scriptOf l calls) :
    ((l.after L scriptOf calls).call L scriptOf r).1 ≠ some (.err .neverReached) := by
  intro he
  obtain ⟨u, vs, h1, h2 | ⟨h2, _⟩⟩ := C87_error_tells_the_cause_partial L scriptOf l hl calls r hs hp _ he
  · obtain ⟨c', i', t', fb', fo⟩ := u
    cases h2 with
    | provider _ h => cases h
  · cases h2

/-- The examples: each kind of error, after a request for another string. -/
example :
    lastFails (Demo.loc blameRows) (Demo.start true) [Demo.lit "a" "b/c"] (Demo.lit "c" "none" "de")
      (fun e => match e with
        | .stringNotFound c i t fb => c = "c".toList ∧ i = "none".toList ∧ t = "de".toList ∧ fb = true
        | _ => false) = true ∧
    lastFails (Demo.loc blameRows) (Demo.start true) [Demo.lit "a" "b/c"] (Demo.fmt "c" "bad" [])
      (fun e => match e with | .formatter (.tree _) => true | _ => false) = true ∧
    lastFails (Demo.loc blameRows) (Demo.start true) [Demo.lit "a" "b/c"] (Demo.fmt "c" "odd" [])
      (fun e => match e with | .formatter e => e = .invalidKeyword "maximal".toList "x".toList | _ => false) = true ∧
    lastFails (Demo.loc blameRows) (Demo.start true) [Demo.lit "a" "b/c"] (Demo.fmt "c" "hi" [])
      (fun e => match e with
        | .formatter e => e = .placeholderValue "PatternString".toList "x".toList
        | _ => false) = true ∧
    -- an error of a value
    lastFails (Demo.loc blameRows) (Demo.start true) [Demo.lit "a" "b/c"]
      (.data "c".toList "hi".toList (some [("x".toList, .localisationData "c".toList "none".toList none)]) none none none)
      (fun e => match e with | .stringNotFound _ i _ _ => i = "none".toList | _ => false) = true ∧
    (∀ u ∈ callsUses "en".toList true
      [Demo.lit "a" "b/c", .data "c".toList "hi".toList
        (some [("x".toList, .localisationData "c".toList "none".toList none)]) none none none], '/' ∉ u.component) := by
  refine ⟨?_, ?_, ?_, ?_, ?_, ?_⟩ <;> decide +kernel

end Verif.Props
