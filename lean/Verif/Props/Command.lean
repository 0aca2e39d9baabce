import Verif.Model.Value
import Verif.Model.Script
/-
Property theorems C27, C28 (commands, /repo/crates/localiser/src/command.rs) and C45 (script directions,
/repo/crates/utility/src/script.rs).
-/
namespace Verif.Props
open Verif

variable {D F : Type}

/-! ### C27: the command registry -/

/-- A registry after a sequence of `insert` calls. -/
def registered (ops : List (Str × CommandFn D F)) : CommandRegistry D F :=
  ops.foldl (fun r o => (CommandRegistry.insert r o.1 o.2).2) []

/-- The function of the first of the calls with the given name. -/
def firstNamed (name : Str) : List (Str × CommandFn D F) → Option (CommandFn D F)
  | [] => none
  | (n, f) :: rest => if n = name then some f else firstNamed name rest

theorem insert_get (r : CommandRegistry D F) (n m : Str) (f : CommandFn D F) :
    AMap.get (CommandRegistry.insert r n f).2 m = (AMap.get r m).or (if n = m then some f else none) := by
  unfold CommandRegistry.insert AMap.contains
  cases h : AMap.get r n with
  | some g =>
    simp only [Option.isSome_some, if_true]
    by_cases hm : n = m
    · subst hm; simp [h]
    · simp [hm]
  | none =>
    simp only [Option.isSome_none, Bool.false_eq_true, if_false, AMap.get_insert]
    by_cases hm : n = m
    · subst hm; simp [h]
    · simp [hm]

theorem registered_get_from (ops : List (Str × CommandFn D F)) (m : Str) : ∀ r : CommandRegistry D F,
    AMap.get (ops.foldl (fun r o => (CommandRegistry.insert r o.1 o.2).2) r) m = (AMap.get r m).or (firstNamed m ops) := by
  induction ops with
  | nil => intro r; simp [firstNamed]
  | cons o rest ih =>
    intro r
    obtain ⟨n, f⟩ := o
    rw [List.foldl_cons, ih, insert_get]
    simp only [firstNamed]
    by_cases hm : n = m <;> cases AMap.get r m <;> simp [hm]

theorem registered_get (ops : List (Str × CommandFn D F)) (m : Str) :
    AMap.get (registered ops) m = firstNamed m ops := by
  rw [registered, registered_get_from]; simp

theorem firstNamed_none_iff (ops : List (Str × CommandFn D F)) (m : Str) :
    firstNamed m ops = none ↔ m ∉ ops.map Prod.fst := by
  induction ops with
  | nil => simp [firstNamed]
  | cons o rest ih =>
    obtain ⟨n, f⟩ := o
    by_cases h : n = m
    · simp [firstNamed, h]
    · simp only [firstNamed, h, if_false, ih, List.map_cons, List.mem_cons, not_or]
      exact ⟨fun x => ⟨fun e => h e.symm, x⟩, fun x => x.2⟩

/-- **C27, lookup.** After any sequence of insertions a lookup gives the function inserted first with that name, and
fails with `NotFound` if there is none. -/
theorem C27_lookup_gives_first_insertion (ops : List (Str × CommandFn D F)) (name : Str) :
    CommandRegistry.command (registered ops) name =
      match firstNamed name ops with
      | some f => .ok f
      | none => .err (.notFound name) := by
  unfold CommandRegistry.command
  rw [registered_get]
  cases firstNamed name ops <;> rfl

/-- **C27, insertion.** Inserting a name for the second time fails with `AlreadyExists` and changes nothing; inserting
a new name succeeds. -/
theorem C27_write_once (ops : List (Str × CommandFn D F)) (name : Str) (f : CommandFn D F) :
    (name ∈ ops.map Prod.fst →
      CommandRegistry.insert (registered ops) name f = (.error (.alreadyExists name), registered ops)) ∧
    (name ∉ ops.map Prod.fst →
      (CommandRegistry.insert (registered ops) name f).1 = .ok () ∧
      CommandRegistry.command (CommandRegistry.insert (registered ops) name f).2 name = .ok f) := by
  have hc : AMap.contains (registered ops) name = true ↔ name ∈ ops.map Prod.fst := by
    unfold AMap.contains
    rw [registered_get, Option.isSome_iff_ne_none, Ne, firstNamed_none_iff, Classical.not_not]
  constructor
  · intro h
    unfold CommandRegistry.insert
    rw [if_pos (hc.2 h)]
  · intro h
    have h' : ¬ AMap.contains (registered ops) name = true := fun x => h (hc.1 x)
    unfold CommandRegistry.insert
    rw [if_neg h']
    exact ⟨rfl, by simp [CommandRegistry.command, AMap.get_insert]⟩

theorem nodup_registered_from (ops : List (Str × CommandFn D F)) : ∀ r : CommandRegistry D F, (AMap.keys r).Nodup →
    (AMap.keys (ops.foldl (fun r o => (CommandRegistry.insert r o.1 o.2).2) r)).Nodup := by
  induction ops with
  | nil => intro r h; exact h
  | cons o rest ih =>
    intro r h
    refine ih _ ?_
    obtain ⟨n, f⟩ := o
    simp only [CommandRegistry.insert]
    by_cases hc : AMap.contains r n = true
    · simp only [hc, if_true]; exact h
    · simp only [hc]; exact AMap.nodup_insert _ _ h

/-- **C27, listing.** The list holds each inserted name exactly once, and nothing else. -/
theorem C27_list_holds_each_name_once (ops : List (Str × CommandFn D F)) :
    (CommandRegistry.list (registered ops)).Nodup ∧
    ∀ name, name ∈ CommandRegistry.list (registered ops) ↔ name ∈ ops.map Prod.fst := by
  refine ⟨nodup_registered_from ops [] (by simp [AMap.keys]), fun name => ?_⟩
  have h : AMap.get (registered ops) name = none ↔ name ∉ AMap.keys (registered ops) := AMap.get_eq_none_iff _ _
  rw [registered_get, firstNamed_none_iff] at h
  exact ⟨fun x => Classical.byContradiction fun y => h.1 y x, fun x => Classical.byContradiction fun y => h.2 y x⟩

example : let ops : List (Str × CommandFn Unit Unit) := [(['f'], filePath), (['g'], englishAOrAn), (['f'], englishAOrAn)]
    CommandRegistry.list (registered ops) = [['f'], ['g']] ∧
    (CommandRegistry.insert (registered ops) ['g'] filePath).1 = .error (.alreadyExists ['g']) ∧
    CommandRegistry.command (registered ops) ['f'] = .ok filePath ∧
    CommandRegistry.command (registered ops) ['h'] = .err (.notFound ['h']) := ⟨rfl, rfl, rfl, rfl⟩

/-! ### C28: the shipped commands -/

/-- **C28 is violated**: no parameters at all, or an empty word. -/
theorem C28_violated : (filePath ([] : List (PValue Unit Unit)) : Outcome CommandError Str) = .panic ∧
    (englishAOrAn ([] : List (PValue Unit Unit)) : Outcome CommandError Str) = .panic ∧
    (englishAOrAn ([.string "english_a_or_an".toList, .string []] : List (PValue Unit Unit)) :
      Outcome CommandError Str) = .panic := ⟨rfl, rfl, rfl⟩

/-- **C28, what holds.** The commands panic on these inputs only: `file_path` on an empty vector, `english_a_or_an`
also when called with a name and an empty word. In particular `file_path` called by the formatter, which always passes
the name first, never panics. Missing: that these inputs do not panic, which `C28_violated` refutes. -/
theorem C28_panics_exactly_partial (parameters : List (PValue D F)) :
    (filePath parameters = .panic ↔ parameters = []) ∧
    (englishAOrAn parameters = .panic ↔
      parameters = [] ∨ ∃ name rest, parameters = .string name :: .string [] :: rest) := by
  constructor
  · cases parameters with
    | nil => simp [filePath, firstParameter]
    | cons p rest =>
      simp only [reduceCtorEq, iff_false]
      intro h
      cases p <;> simp [filePath, firstParameter] at h
      rcases rest with _ | ⟨q, rest⟩
      · simp at h
      · cases q <;> simp at h
  · cases parameters with
    | nil => simp [englishAOrAn, firstParameter]
    | cons p rest =>
      cases p <;> simp [englishAOrAn, firstParameter]
      rcases rest with _ | ⟨q, rest⟩
      · simp
      · cases q <;> simp
        rename_i s
        rcases s with _ | ⟨c, s⟩
        · simp
        · simp only [reduceCtorEq, iff_false]
          split <;> simp

/-- **C28, results.** With a name and a non-empty word `english_a_or_an` gives `an` exactly for a word that starts with
one of the vowels `a e i o u`, otherwise `a`; `file_path` gives its parameter back. -/
theorem C28_results_partial (name s : Str) (c : Char) (rest : List (PValue D F)) :
    filePath (.string name :: .string s :: rest) = .ok s ∧
    englishAOrAn (.string name :: .string (c :: s) :: rest) = .ok (if c ∈ "aeiou".toList then "an".toList else "a".toList) := by
  refine ⟨rfl, ?_⟩
  simp only [englishAOrAn, firstParameter, Outcome.bind_ok, Outcome.pure_eq]
  by_cases h : c = 'a' ∨ c = 'e' ∨ c = 'i' ∨ c = 'o' ∨ c = 'u'
  · rw [if_pos h, if_pos (by simpa using h)]; rfl
  · rw [if_neg h, if_neg (by simpa using h)]; rfl

/-- **C28, errors.** Both commands refuse the same way: a first parameter that is not a text, a missing word, and a
word that is not a text. -/
theorem C28_errors_partial (parameters : List (PValue D F)) (e : CommandError)
    (h : filePath parameters = .err e ∨ englishAOrAn parameters = .err e) :
    (∃ p rest, parameters = p :: rest ∧ (∀ s, p ≠ .string s) ∧ e = .invalidType "command identifier".toList 0) ∨
    (∃ name, parameters = [.string name] ∧ e = .parameterMissing name 1) ∨
    (∃ name p rest, parameters = .string name :: p :: rest ∧ (∀ s, p ≠ .string s) ∧ e = .invalidType name 1) := by
  have hf : firstParameter parameters = .err e := by
    rcases h with h | h
    · unfold filePath at h
      cases hp : firstParameter parameters <;> simp [hp] at h ⊢
      exact h
    · unfold englishAOrAn at h
      cases hp : firstParameter parameters with
      | ok s =>
        rw [hp, Outcome.bind_ok] at h
        cases s with
        | nil => cases h
        | cons c s => simp only at h; split at h <;> cases h
      | err e' => rw [hp] at h; exact h
      | panic => rw [hp] at h; cases h
  unfold firstParameter at hf
  match parameters, hf with
  | [], hf => cases hf
  | p :: rest, hf =>
    cases p with
    | string name =>
      match rest, hf with
      | [], hf => cases hf; exact .inr (.inl ⟨name, rfl, rfl⟩)
      | q :: rest, hf =>
        cases q with
        | string s => cases hf
        | _ => cases hf; exact .inr (.inr ⟨name, _, rest, rfl, by simp, rfl⟩)
    | _ => cases hf; exact .inl ⟨_, rest, rfl, by simp, rfl⟩

example : filePath ([.string "file_path".toList] : List (PValue Unit Unit)) = .err (.parameterMissing "file_path".toList 1) :=
  rfl

/-! ### C45: script directions -/

/-- Both directions are vertical or both are horizontal. -/
def parallel (a b : Direction) : Prop :=
  (a = .topToBottom ∨ a = .bottomToTop) ↔ (b = .topToBottom ∨ b = .bottomToTop)

/-- **C45.** -/
theorem C45_directions_coherent :
    (∀ s : ScriptDirection, s.directions = (s.line, s.grapheme)) ∧
    (∀ s : ScriptDirection, ¬ parallel s.line s.grapheme) ∧
    (∀ s t : ScriptDirection, s.directions = t.directions → s = t) ∧
    (∀ a b : Direction, ¬ parallel a b → ∃ s : ScriptDirection, s.directions = (a, b)) := by
  refine ⟨fun s => by cases s <;> rfl, fun s => ?_, fun s t h => ?_, fun a b h => ?_⟩
  · cases s <;> simp [parallel, ScriptDirection.line, ScriptDirection.grapheme]
  · cases s <;> cases t <;> first | rfl | cases h
  cases a <;> cases b <;> first
    | exact ⟨.topToBottomLeftToRight, rfl⟩
    | exact ⟨.topToBottomRightToLeft, rfl⟩
    | exact ⟨.bottomToTopLeftToRight, rfl⟩
    | exact ⟨.bottomToTopRightToLeft, rfl⟩
    | exact ⟨.leftToRightTopToBottom, rfl⟩
    | exact ⟨.leftToRightBottomToTop, rfl⟩
    | exact ⟨.rightToLeftTopToBottom, rfl⟩
    | exact ⟨.rightToLeftBottomToTop, rfl⟩
    | exact absurd (by simp [parallel]) h

example : ScriptDirection.directions .rightToLeftTopToBottom = (.rightToLeft, .topToBottom) ∧
    ¬ parallel .rightToLeft .topToBottom := ⟨rfl, by simp [parallel]⟩

end Verif.Props
