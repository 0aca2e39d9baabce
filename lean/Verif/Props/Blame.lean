import Verif.Lemmas.BlameBuild
import Verif.Spec.DemoDoc
/-
Property theorems C80 and C81: an error of the formatter tells what is wrong with the values or with the pattern string,
/repo/crates/localiser/src/formatter.rs.
-/
namespace Verif.Props
open Verif Verif.Spec Verif.FormatLemmas Verif.BlameLemmas

variable {D F : Type}

/-- The error of a call, as a truth value to be computed. -/
def failsWith (E : FmtEnv D F) (s : Str) (values : AMap Str (PValue D F)) (e : FormatterError) : Bool :=
  match Formatter.tryNew E s "en".toList (some "en".toList) with
  | .ok f => match (f.format E values).1 with
    | .err e' => e' = e
    | _ => false
  | _ => false

/-- The error of a pattern string, as a truth value to be computed. -/
def rejectedWith (E : FmtEnv D F) (s : Str) (p : FormatterError → Bool) : Bool :=
  match Formatter.tryNew E s "en".toList (some "en".toList) with
  | .err e => p e
  | _ => false

/-! ### C80: the error of formatting -/

/-- **C80.** The error of `format` is that of the first item, in the order of the text, that has none: its placeholder has no
value, the value has the wrong type, ICU has no data or no decimal, the date or time cannot be read, the category or text is
not among the selectors, the command is missing or fails; or it is the error of the named string that the item selects. There
are no other errors, whatever calls went before. -/
theorem C80_error_tells_the_cause (E : FmtEnv D F) {s tag lang : Str} {d : Doc} {f : Formatter} (hr : Reads E s d)
    (hf : Formatter.tryNew E s tag (some lang) = .ok f) (history : List (AMap Str (PValue D F)))
    (hh : Ended E lang d history) (values : AMap Str (PValue D F)) (e : FormatterError)
    (he : ((after E f history).format E values).1 = .err e) :
    Blamed E lang values d.named.reverse mainName d.main e := by
  obtain ⟨_, hl, owners, hrep, hn⟩ := rep_of hr hf
  subst hl
  obtain ⟨h1, _, h2, _, _, h3⟩ := rep_after history f Store.empty hrep hn hh
  rw [← h2]
  exact rep_blame h1 values _ h3 e he

/-- **C80, ISO.** Only a date can be blamed as no number: a time that cannot be read is always an error of the calendar, even
for letters. -/
theorem C80_time_is_calendar (s : Str) (i : IsoError) (h : decomposeIsoTime s = .error i) : i = .calendar := by
  have hu : ∀ {a b : Nat} {x : Str} {i : IsoError}, parseUnit a b x = .error i → i = .calendar := by
    intro a b x i h
    unfold parseUnit at h
    repeat' split at h
    all_goals first | cases h; rfl | cases h
  have hb : ∀ {α β : Type} {x : Except IsoError α} {k : α → Except IsoError β} {i : IsoError}, x >>= k = .error i →
      x = .error i ∨ ∃ a, x = .ok a ∧ k a = .error i := by
    intro α β x k i h
    cases x with
    | error j => exact .inl (by cases h; rfl)
    | ok a => exact .inr ⟨a, rfl, h⟩
  simp only [decomposeIsoTime] at h
  split at h
  · cases h
  rcases hb h with h | ⟨_, _, h⟩
  · exact hu h
  split at h
  · cases h
  rcases hb h with h | ⟨_, _, h⟩
  · exact hu h
  split at h
  · cases h
  rcases hb h with h | ⟨_, _, h⟩
  · exact hu h
  rcases hb h with h | ⟨_, _, h⟩
  · exact hu h
  cases h

example : (∃ f, Formatter.tryNew Demo.env Demo.dogs "en".toList (some "en".toList) = .ok f) ∧
    Reads Demo.env Demo.dogs Demo.dogsDoc ∧
    -- no value
    failsWith Demo.env Demo.dogs (Demo.vals []) (.placeholderValue "PatternComplex".toList "n".toList) = true ∧
    -- a text for a number
    failsWith Demo.env Demo.dogs (Demo.vals [("n", .inl "x")]) (.invalidValue "PatternPlural".toList) = true := by
  refine ⟨?_, Demo.dogs_reads, by decide +kernel, by decide +kernel⟩
  have h : Demo.accepts (String.ofList Demo.dogs) = true := by decide +kernel
  unfold Demo.accepts at h
  rw [String.toList_ofList] at h
  generalize Formatter.tryNew Demo.env Demo.dogs "en".toList (some "en".toList) = x at h ⊢
  match x, h with
  | .ok f, _ => exact ⟨f, rfl⟩

-- The other causes: text that is not among the selectors, a named string that lacks a value, ISO dates and times, commands.
example :
    failsWith Demo.env "{g select f#f}#{f hers}".toList (Demo.vals [("g", .inl "m")])
      (.selectorsIndexNamed "m".toList 0) = true ∧
    failsWith Demo.env "{g select f#f}#{f to {who}}".toList (Demo.vals [("g", .inl "f")])
      (.placeholderValue "PatternString".toList "who".toList) = true ∧
    failsWith Demo.env "{d date_time}".toList (Demo.vals [("d", .inl "2024-x1-01")]) .parseInt = true ∧
    failsWith Demo.env "{d date_time}".toList (Demo.vals [("d", .inl "2024-13-01")]) .calendar = true ∧
    failsWith Demo.env "{d date_time}".toList (Demo.vals [("d", .inl "2024-12-01Txx:10")]) .calendar = true ∧
    failsWith Demo.env "{#nothing # x}".toList (Demo.vals []) (.command (.notFound "nothing".toList)) = true := by
  refine ⟨?_, ?_, ?_, ?_, ?_, ?_⟩ <;> decide +kernel

/-! ### C81: the error of a pattern string -/

/-- **C81.** A pattern string is rejected because it is no sentence of the syntax (with the error of the tree), or has no
grammar character, or because of the first named string or item that cannot be accepted: it is named as one before it, has an
option, a keyword that does not exist, a selector that is no category, a selector without named string before it, no selector
`other`, or a command that is missing or fails. There are no other errors. -/
theorem C81_rejection_tells_the_cause (E : FmtEnv D F) (s tag lang : Str) (e : FormatterError)
    (h : Formatter.tryNew E s tag (some lang) = .err e) :
    (∃ te, Tree.tryNew E.icu E.grammar s = .err te ∧ e = .tree te) ∨
    (e = .noGrammar ∧ ∃ ts, lex E.icu E.grammar s = .ok ts ∧ ∀ t ∈ ts, t.tokenType ≠ .grammar) ∨
    ∃ d, Reads E s d ∧ DocError E d e := by
  unfold Formatter.tryNew at h
  cases ht : Tree.tryNew E.icu E.grammar s with
  | err te => rw [ht] at h; cases h; exact .inl ⟨te, rfl, rfl⟩
  | panic => rw [ht] at h; cases h
  | ok t =>
    rw [ht] at h
    simp only [Outcome.mapErr, Outcome.bind_ok] at h
    obtain ⟨d, hs, hn, hr⟩ := tree_reads ht
    rcases ofTree_err E tag lang hs hn e h with ⟨hg, rfl⟩ | ⟨hg, hd⟩
    · refine .inr (.inl ⟨rfl, ?_⟩)
      unfold Tree.tryNew at ht
      cases hl : lex E.icu E.grammar s with
      | error e => rw [hl] at ht; cases ht
      | ok ts =>
        rw [hl] at ht
        obtain ⟨_, _, _, _, rfl⟩ := Verif.TreeLemmas.sound ht
        refine ⟨ts, rfl, fun t h1 h2 => ?_⟩
        have := (anyGr_iff ts).2 ⟨t, h1, h2⟩
        rw [show Verif.TreeLemmas.anyGr ts = false from hg] at this
        cases this
    · exact .inr (.inr ⟨d, hr hg, hd⟩)

/-- **C81, the three causes exclude each other.** -/
theorem C81_causes_exclude (E : FmtEnv D F) (s : Str) :
    (∀ te d, Tree.tryNew E.icu E.grammar s = .err te → ¬ Reads E s d) ∧
    (∀ ts d, lex E.icu E.grammar s = .ok ts → (∀ t ∈ ts, t.tokenType ≠ .grammar) → ¬ Reads E s d) := by
  constructor
  · intro te d h hr
    obtain ⟨t, ht, _⟩ := Reads.tree hr
    rw [ht] at h; cases h
  · rintro ts d h hg ⟨ts', h', _, _, _, t, ht, hgr⟩
    rw [h] at h'; cases h'
    exact hg t ht hgr

/-- A string to read with causes of rejection. -/
example :
    rejectedWith Demo.env "{n".toList (fun e => match e with | .tree _ => true | _ => false) = true ∧
    rejectedWith Demo.env "text".toList (· = .noGrammar) = true ∧
    rejectedWith Demo.env "{n decimal sign#always}".toList
      (· = .invalidOptionValue "sign".toList "sign".toList "decimal".toList) = true ∧
    rejectedWith Demo.env "{n maximal a#a}#{a x}".toList (· = .invalidKeyword "maximal".toList "n".toList) = true ∧
    rejectedWith Demo.env "{n plural some#some}#{some x}".toList
      (· = .invalidSelector "some".toList "plural".toList "n".toList) = true ∧
    rejectedWith Demo.env "{n plural one#one other#other}#{one x}".toList
      (· = .selectorNamed "other".toList "other".toList "n".toList) = true ∧
    rejectedWith Demo.env "{n ordinal one#one}#{one x}".toList (· = .selectorOther "ordinal".toList "n".toList) = true ∧
    rejectedWith Demo.env "{g select a#a}#{a x}{_ y}".toList (· = .namedStringIdentifier "_".toList) = true ∧
    rejectedWith Demo.env "{#nothing}".toList (· = .command (.notFound "nothing".toList)) = true ∧
    rejectedWith Demo.env "{g select a#a}#{a x {h select b#b}}{b x}".toList
      (· = .selectorNamed "b".toList "b".toList "h".toList) = true := by
  refine ⟨?_, ?_, ?_, ?_, ?_, ?_, ?_, ?_, ?_, ?_⟩ <;> decide +kernel

end Verif.Props
