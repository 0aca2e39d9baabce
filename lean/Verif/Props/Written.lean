import Verif.Lemmas.WrittenBack
import Verif.Props.Format
import Verif.Props.Blame
/-
Readings of pattern strings: there is at most one (C85); every composition of texts, number signs, placeholders, patterns
and commands can be written, and is read back; two spellings of the same composition behave alike (C86).
-/
namespace Verif.Props
open Verif Verif.Spec Verif.FormatLemmas

variable {D F : Type}

/-! ### C85: one reading -/

/-- **C85.** The syntax of pattern strings is unambiguous: tokens are a sentence of one syntax only. -/
theorem C85_one_reading {d d' : Doc} {ts : List Token} (h : Sentence d ts) (h' : Sentence d' ts) : d = d' :=
  Unambiguous.sentence_unique h h'

/-- **C85, strings.** A string is read in one way only. -/
theorem C85_string_one_reading {E : FmtEnv D F} {s : Str} {d d' : Doc} (h : Reads E s d) (h' : Reads E s d') : d = d' := by
  obtain ⟨ts, hl, hs, _⟩ := h
  obtain ⟨ts', hl', hs', _⟩ := h'
  rw [hl] at hl'
  cases hl'
  exact C85_one_reading hs hs'

example (d : Doc) (h : Reads Demo.env Demo.dogs d) : d = Demo.dogsDoc := C85_string_one_reading h Demo.dogs_reads

/-! ### C86: writing and reading -/

/-- **C86.** What can be written, and has a grammar character when written, is read back, and nothing else is read. -/
theorem C86_written_is_read {E : FmtEnv D F} (hE : Standard E) (hsp : E.icu.whiteSpace ' ' = true) {c : Composition}
    (hc : Composed E.icu c) (hg : ∃ g ∈ patternGrammar, g ∈ c.written) :
    ∃ d, Reads E c.written d ∧ d.composition = c ∧ ∀ d', Reads E c.written d' → d' = d := by
  obtain ⟨d, h, e⟩ := written_reads hE hsp hc hg
  exact ⟨d, h, e, fun d' h' => C85_string_one_reading h' h⟩

/-- **C86, nothing else is read.** What is read from any string can be written. -/
theorem C86_read_is_composed {E : FmtEnv D F} {s : Str} {d : Doc} (h : Reads E s d) : Composed E.icu d.composition :=
  reads_composed h

/-- **C86, different compositions.** They are written differently. -/
theorem C86_written_injective {E : FmtEnv D F} (hE : Standard E) (hsp : E.icu.whiteSpace ' ' = true) {c c' : Composition}
    (hc : Composed E.icu c) (hc' : Composed E.icu c') (hg : ∃ g ∈ patternGrammar, g ∈ c.written)
    (he : c.written = c'.written) : c = c' := by
  obtain ⟨d, h, e⟩ := written_reads hE hsp hc hg
  obtain ⟨d', h', e'⟩ := written_reads hE hsp hc' (he ▸ hg)
  rw [← he] at h'
  rw [← e, ← e', C85_string_one_reading h h']

theorem storeAfter_same (E : FmtEnv D F) (lang : Str) {d d' : Doc} (h : AllMeant d) (h' : AllMeant d')
    (he : d.composition = d'.composition) (history : List (AMap Str (PValue D F))) :
    d.storeAfter E lang history = d'.storeAfter E lang history := by
  unfold Doc.storeAfter
  simp only [eval_same E h h' he]

/-- **C86, spelling.** Two strings that are read as the same composition, however they are spaced and whatever is escaped,
are accepted alike, and their formatters give the same after the same calls. -/
theorem C86_spelling_does_not_matter (E : FmtEnv D F) {s s' : Str} {d d' : Doc} (h : Reads E s d) (h' : Reads E s' d')
    (he : d.composition = d'.composition) (tag lang : Str) :
    ((∃ f, Formatter.tryNew E s tag (some lang) = .ok f) ↔ ∃ f, Formatter.tryNew E s' tag (some lang) = .ok f) ∧
    ∀ f f', Formatter.tryNew E s tag (some lang) = .ok f → Formatter.tryNew E s' tag (some lang) = .ok f' →
      ∀ history, Ended E lang d history → ∀ values,
        forget ((after E f history).format E values).1 = forget ((after E f' history).format E values).1 := by
  have hm := reads_meant h
  have hm' := reads_meant h'
  constructor
  · rw [C48_accepted_exactly, C48_accepted_exactly]
    constructor
    · rintro ⟨x, hx, ok⟩
      rw [C85_string_one_reading hx h] at ok
      exact ⟨d', h', (docOk_same E hm hm' he).1 ok⟩
    · rintro ⟨x, hx, ok⟩
      rw [C85_string_one_reading hx h'] at ok
      exact ⟨d, h, (docOk_same E hm hm' he).2 ok⟩
  · intro f f' hf hf' history hh values
    have hh' : Ended E lang d' history := fun v hv => by
      rw [← eval_same E hm hm' he]
      exact hh v hv
    obtain ⟨a, b⟩ := C48_format_gives_the_meaning E h hf history hh values
    obtain ⟨a', b'⟩ := C48_format_gives_the_meaning E h' hf' history hh' values
    rw [← storeAfter_same E lang hm hm' he, ← eval_same E hm hm' he] at a' b'
    cases hy : (d.eval E lang values (d.storeAfter E lang history)).1 with
    | none => rw [(b hy).1, (b' hy).1]
    | some o => rw [a o hy, a' o hy]

/-- The causes of a rejection other than the syntax are not the missing grammar characters. -/
theorem docError_not_plain {E : FmtEnv D F} {d : Doc} : ¬ DocError E d .noGrammar := by
  have hi : ∀ {known it}, ¬ ItemError E known it .noGrammar := by
    intro known it h
    generalize he : FormatterError.noGrammar = e at h
    cases h with
    | decimal id k sels key => unfold decimalBlame at he; split at he <;> cases he
    | dateTime id k sels key =>
      unfold dateTimeBlame at he
      split at he
      · cases he
      · split at he <;> cases he
    | _ => cases he
  have hs : ∀ {known items}, ¬ ItemsError E known items .noGrammar := fun ⟨_, _, _, _, _, h⟩ => hi h
  have hg : ∀ {known ns e}, GroupError E known ns e → e ≠ .noGrammar := by
    intro known ns e h
    induction h with
    | twice => exact fun h => (nomatch h)
    | items _ _ _ _ _ h => rintro rfl; exact hs h
    | later _ _ _ _ _ _ _ ih => exact ih
  rintro (h | ⟨_, h⟩)
  · exact hg h rfl
  · exact hs h

/-- A string that is read is not taken for a string without grammar characters. -/
theorem reads_not_plain {E : FmtEnv D F} {s : Str} {d : Doc} (h : Reads E s d) (tag lang : Str) :
    Formatter.tryNew E s tag (some lang) ≠ .err .noGrammar := by
  intro hn
  obtain ⟨ts, hl, hs, hp, hq, t, ht, hg⟩ := h
  rcases C81_rejection_tells_the_cause E s tag lang _ hn with ⟨_, _, h⟩ | ⟨_, ts', hl', h⟩ | ⟨_, _, h⟩
  · cases h
  · rw [hl] at hl'
    cases hl'
    exact h t ht hg
  · exact docError_not_plain h

/-- What is formatted from a string that is read. -/
theorem formatString_meaning {E : FmtEnv D F} {s : Str} {d : Doc} (h : Reads E s d) (tag lang : Str)
    (values : AMap Str (PValue D F)) (r : Str × Str) :
    formatString E s tag (some lang) values = .ok r ↔
      DocOk E d ∧ ∃ t, (d.eval E lang values Store.empty).1 = some (.ok t) ∧ r = (t, tag) := by
  have hs : s ≠ [] := by
    rintro rfl
    obtain ⟨ts, hl, _⟩ := h
    unfold lex LexerIterator.tryNew at hl
    by_cases hg : E.grammar.isEmpty = true
    · simp [hg] at hl
    · simp [hg, charIndices] at hl
  have hp := reads_not_plain h tag lang
  have hk := C48_accepted_exactly E s tag lang
  unfold formatString
  rw [if_neg hs]
  cases hf : Formatter.tryNew E s tag (some lang) with
  | panic =>
    refine ⟨fun x => (nomatch x), fun x => ?_⟩
    rw [hf] at hk
    obtain ⟨_, h⟩ := hk.2 ⟨d, h, x.1⟩
    cases h
  | err e =>
    rw [hf] at hk hp
    have : ¬ DocOk E d := fun x => by
      obtain ⟨_, h⟩ := hk.2 ⟨d, h, x⟩
      cases h
    constructor
    · intro x
      cases e <;> first | exact absurd rfl hp | cases x
    · exact fun x => absurd x.1 this
  | ok f =>
    have ok := accepted_ok h hf
    obtain ⟨a, b⟩ := C48_format_gives_the_meaning E h hf [] (fun v hv => nomatch hv) values
    change (∀ o, (d.eval E lang values Store.empty).1 = some o → forget (f.format E values).1 = tagged o tag) at a
    change ((d.eval E lang values Store.empty).1 = none → (f.format E values).1 = .panic ∧ _) at b
    simp only
    cases hy : (d.eval E lang values Store.empty).1 with
    | none =>
      rw [(b hy).1]
      exact ⟨fun x => (nomatch x), fun ⟨_, _, x, _⟩ => (nomatch x)⟩
    | some o =>
      have a := a o hy
      constructor
      · intro x
        rw [x] at a
        cases o with
        | ok t => simp [forget, Outcome.mapErr, tagged] at a; exact ⟨ok, t, rfl, a⟩
        | err _ => simp [forget, Outcome.mapErr, tagged] at a
        | panic => simp [forget, Outcome.mapErr, tagged] at a
      · rintro ⟨_, t, x, rfl⟩
        cases x
        generalize (f.format E values).1 = y at a
        cases y with
        | ok r => simp [forget, Outcome.mapErr, tagged] at a; rw [a]
        | err _ => simp [forget, Outcome.mapErr, tagged] at a
        | panic => simp [forget, Outcome.mapErr, tagged] at a

/-- A text without grammar characters is written as it is. -/
theorem escape_plain {s : Str} (h : ∀ g ∈ patternGrammar, g ∉ escape s) : escape s = s := by
  induction s with
  | nil => rfl
  | cons c s ih =>
    have e : escape (c :: s) = (if c ∈ patternGrammar then ['`', c] else [c]) ++ escape s := rfl
    rw [e] at h ⊢
    by_cases hc : c ∈ patternGrammar
    · exact absurd (by rw [if_pos hc]; simp) (h c hc)
    · rw [if_neg hc] at h ⊢
      rw [ih fun g hg hm => h g hg (by simp [hm])]
      rfl

/-- What is written without grammar characters is a text or nothing. -/
theorem plain_composition {icu : Icu} {c : Composition} (hc : Composed icu c) (h : ∀ g ∈ patternGrammar, g ∉ c.written) :
    c.named = none ∧ (c.main = [] ∨ ∃ t, c.main = [.text t]) := by
  have hn : c.named = none := by
    cases hn : c.named with
    | none => rfl
    | some l => exact absurd (by simp [Composition.written, hn]) (h '#' (by decide))
  refine ⟨hn, ?_⟩
  have hw : c.written = writtenPieces c.main := by simp [Composition.written, hn]
  rw [hw] at h
  have ht : ∀ p ∈ c.main, ∃ t, p = .text t := by
    intro p hp
    have hb : ∀ g ∈ patternGrammar, g ∉ p.written := fun g hg hm => h g hg (List.mem_flatMap.2 ⟨p, hp, hm⟩)
    cases p with
    | text t => exact ⟨t, rfl⟩
    | number => exact absurd (by simp [Piece.written]) (hb '#' (by decide))
    | placeholder id => exact absurd (by simp [Piece.written]) (hb '{' (by decide))
    | pattern id k s => exact absurd (by simp [Piece.written]) (hb '{' (by decide))
    | command n b p => exact absurd (by simp [Piece.written]) (hb '{' (by decide))
  have ha := hc.main.2
  match hm : c.main with
  | [] => exact .inl rfl
  | [p] =>
    obtain ⟨t, rfl⟩ := ht p (by simp [hm])
    exact .inr ⟨t, rfl⟩
  | p :: q :: rest =>
    obtain ⟨t, rfl⟩ := ht p (by simp [hm])
    obtain ⟨t', rfl⟩ := ht q (by simp [hm])
    rw [hm] at ha
    exact absurd ha.1 id

/-- **C86, normal form.** Every string that is read gives, with any values, the same text as what it is read as, written
with single spaces and only the backticks needed. -/
theorem C86_normal_form {E : FmtEnv D F} (hE : Standard E) (hsp : E.icu.whiteSpace ' ' = true) {s : Str} {d : Doc}
    (h : Reads E s d) (tag lang : Str) (values : AMap Str (PValue D F)) (r : Str × Str) :
    formatString E d.composition.written tag (some lang) values = .ok r ↔
      formatString E s tag (some lang) values = .ok r := by
  have hc := reads_composed h
  have hm := reads_meant h
  rw [formatString_meaning h]
  by_cases hg : ∃ g ∈ patternGrammar, g ∈ d.composition.written
  · obtain ⟨d', h', e⟩ := written_reads hE hsp hc hg
    have hm' := reads_meant h'
    rw [formatString_meaning h', eval_same E hm' hm e, docOk_same E hm' hm e]
  · have hg : ∀ g ∈ patternGrammar, g ∉ d.composition.written := fun g hg' hm => hg ⟨g, hg', hm⟩
    obtain ⟨hn, ht⟩ := plain_composition hc hg
    have hw : d.composition.written = writtenPieces d.composition.main := by simp [Composition.written, hn]
    rw [hw] at hg ⊢
    rw [eval_pieces E lang values hm, docOk_pieces E hm, hn]
    rcases ht with ht | ⟨t, ht⟩
    · rw [ht]
      simp [writtenPieces, formatString, evalPieces, AcceptedNamed, eq_comm]
    · rw [ht] at hg ⊢
      have hw : writtenPieces [Piece.text t] = escape t := by simp [writtenPieces, Piece.written]
      rw [hw, C13_escaped_text_round_trips E hE]
      simp [evalPieces, evalPiece, AcceptedNamed, AcceptedPiece, eq_comm]

/-- The example: the composition of `Demo.dogs`. -/
example : Demo.dogsDoc.composition =
    ⟨[.pattern "n".toList "plural".toList [("one".toList, "one".toList), ("other".toList, "other".toList)]],
      some [("one".toList, [.text "a dog".toList]), ("other".toList, [.number, .text " dogs".toList])]⟩ := by
  decide +kernel

/-- It is written without the space before the named strings. -/
example : Demo.dogsDoc.composition.written = "{n plural one#one other#other}#{one a dog}{other # dogs}".toList := by
  decide +kernel

example (tag lang : Str) (values : AMap Str (PValue Nat Unit)) (r : Str × Str) :
    formatString Demo.env "{n plural one#one other#other}#{one a dog}{other # dogs}".toList tag (some lang) values = .ok r ↔
      formatString Demo.env Demo.dogs tag (some lang) values = .ok r := by
  have e : Demo.dogsDoc.composition.written = "{n plural one#one other#other}#{one a dog}{other # dogs}".toList := by
    decide +kernel
  rw [← e]
  exact C86_normal_form demo_standard (by decide +kernel) Demo.dogs_reads tag lang values r

end Verif.Props
