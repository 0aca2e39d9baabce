import Verif.Lemmas.LocaliserMessages
import Verif.Lemmas.SqliteMessages
import Verif.Lemmas.RejectionMessages
import Verif.Props.BlameOrder
import Verif.Props.RequestBlame
import Verif.Spec.DemoLocaliser
/-
Property theorems C99: different errors have different messages,
/repo/crates/localiser/src/error.rs.
-/
namespace Verif.Props
open Verif Verif.Spec Verif.MessageLemmas

variable {D F : Type}

/-! ### C99: different errors have different messages -/

theorem told_quoted (e : TreeError) : QuotedTree e.told := by
  cases e with
  | lexer x => cases x <;> trivial
  | invalidToken state position token => cases state <;> (show NoQuote _; decide +kernel)
  | _ => trivial

theorem told_inj {e e' : TreeError} (h : e.told = e'.told) : e = e' := by
  cases e with
  | lexer x => cases x <;> cases e' with
    | lexer y => cases y <;> first | rfl | cases h
    | _ => cases h
  | invalidToken state position token => cases e' with
    | lexer y => cases y <;> cases h
    | invalidToken state' position' token' =>
      obtain ⟨h1, rfl, rfl⟩ := Errors.TreeError.invalidToken.inj h
      have : state = state' := by
        revert h1
        cases state <;> cases state' <;> first | (intro _; rfl) | (intro h; exact absurd h (by decide +kernel))
      rw [this]
    | _ => cases h
  | _ => cases e' with
    | lexer y => cases y <;> cases h
    | _ => cases h <;> rfl

/-- **C99, syntax errors.** The message of a rejected pattern string tells the error: two different errors of the parser have
different messages, whatever the tokens and identifiers in them. -/
theorem C99_syntax_errors (e e' : TreeError) (h : e.told.display = e'.told.display) : e = e' :=
  told_inj (tree_display (told_quoted e) (told_quoted e') h)

theorem node_inj {n n' : NodeType} (h : n.display = n'.display) : n = n' := by
  revert h
  cases n <;> cases n' <;> first | (intro _; rfl) | (intro h; exact absurd h (by decide +kernel))

theorem command_told_inj {custom : Nat → Errors.Custom D F} {c c' : CommandError} (hc : ∀ code, c ≠ .custom code)
    (h : c.told custom = c'.told custom) : c = c' := by
  cases c with
  | custom code => exact (hc code rfl).elim
  | _ => cases c' <;> cases h <;> rfl

theorem formatter_told_inj {library : Str} {custom : Nat → Errors.Custom D F} {e e' : FormatterError}
    (hc : ∀ code, e ≠ .command (.custom code)) (h : e.told library custom = e'.told library custom) : e = e' := by
  cases e with
  | tree x => cases e' with
    | tree y => rw [told_inj (Errors.FormatterError.tree.inj h)]
    | _ => cases h
  | command x => cases e' with
    | command y =>
      rw [command_told_inj (fun code h => hc code (by rw [h])) (Errors.FormatterError.command.inj h)]
    | _ => cases h
  | nodeNotFound x => cases e' with
    | nodeNotFound y => rw [node_inj (Errors.FormatterError.nodeNotFound.inj h)]
    | _ => cases h
  | invalidNode x => cases e' with
    | invalidNode y => rw [node_inj (Errors.FormatterError.invalidNode.inj h)]
    | _ => cases h
  | noChildren x => cases e' with
    | noChildren y => rw [node_inj (Errors.FormatterError.noChildren.inj h)]
    | _ => cases h
  | _ => cases e' <;> cases h <;> rfl

/-- **C99, rejected pattern strings.** If the closing quotation mark is a syntax character (for ICU it is), then the message with
which a pattern string is rejected tells the error, in all orders of the hash maps: two pattern strings that are rejected with
the same message are rejected with the same error, whatever the identifiers in them, unless a command returns an error of unknown
type. -/
theorem C99_rejected_patterns (E : FmtEnv D F) (hq : E.icu.syn '’' = true) (library : Str) (custom : Nat → Errors.Custom D F)
    (s tag lang s' tag' lang' : Str) (e e' : FormatterError) (o o' : MapOrder) (ho : IsOrder o) (ho' : IsOrder o')
    (h : Formatter.tryNewIn o E s tag (some lang) = .err e) (h' : Formatter.tryNewIn o' E s' tag' (some lang') = .err e')
    (hc : ∀ code, e ≠ .command (.custom code)) (hc' : ∀ code, e' ≠ .command (.custom code))
    (hm : (e.told library custom).display = (e'.told library custom).display) : e = e' := by
  have key : ∀ {s tag lang : Str} {e : FormatterError} {o : MapOrder}, IsOrder o →
      Formatter.tryNewIn o E s tag (some lang) = .err e → (∀ code, e ≠ .command (.custom code)) →
      Quoted (e.told library custom) := by
    intro s tag lang e o ho h hc
    rcases (C81_possible_errors E s tag lang e).1 ⟨o, ho, h⟩ with ⟨te, _, rfl⟩ | ⟨rfl, _⟩ | ⟨d, hr, hd⟩
    · exact told_quoted te
    · trivial
    · exact doc_clean hq hr hd hc library custom
  exact formatter_told_inj hc (formatter_display (key ho h hc) (key ho' h' hc') hm)

/-- **C99, failed formatting.** If the functions of ICU4X fail with their own errors only, the message with which formatting fails
tells the error, whatever the pattern strings, the values and the calls before: two failures with the same message are failures
with the same error, unless a command returns an error of unknown type. -/
theorem C99_failed_formatting (E : FmtEnv D F) (hX : LibraryOnly E.icu4x) (library : Str) (custom : Nat → Errors.Custom D F)
    {s tag lang s' tag' lang' : Str} {d d' : Doc} {f f' : Formatter} (hr : Reads E s d) (hr' : Reads E s' d')
    (hf : Formatter.tryNew E s tag (some lang) = .ok f) (hf' : Formatter.tryNew E s' tag' (some lang') = .ok f')
    (history history' : List (AMap Str (PValue D F))) (hh : Ended E lang d history) (hh' : Ended E lang' d' history')
    (values values' : AMap Str (PValue D F)) (e e' : FormatterError)
    (he : ((after E f history).format E values).1 = .err e) (he' : ((after E f' history').format E values').1 = .err e')
    (hc : ∀ code, e ≠ .command (.custom code)) (hc' : ∀ code, e' ≠ .command (.custom code))
    (hm : (e.told library custom).display = (e'.told library custom).display) : e = e' :=
  formatter_told_inj hc (formatter_display
    (blamed_clean hX (C80_error_tells_the_cause E hr hf history hh values e he) hc library custom)
    (blamed_clean hX (C80_error_tells_the_cause E hr' hf' history' hh' values' e' he') hc' library custom) hm)

/-- **C99, positions.** The message of an invalid token, and that of repeated number signs, ends with the position in decimal
digits. -/
theorem C99_position (e : TreeError) (position : Nat)
    (he : (∃ state token, e = .invalidToken state position token) ∨ e = .multiNumberSign position) :
    ∃ before number, e.told.display = before ++ (" at the position ".toList ++ (number ++ " of the string.".toList)) ∧
      (∀ c ∈ number, '0' ≤ c ∧ c ≤ '9') ∧ decimal number = position := by
  have hd : ∀ c ∈ Errors.digits position, '0' ≤ c ∧ c ≤ '9' := fun c hc => by
    have := digits_digit hc
    simp only [Char.isDigit, Bool.and_eq_true, decide_eq_true_eq] at this
    exact this
  rcases he with ⟨state, token, rfl⟩ | rfl
  · refine ⟨"TreeError::InvalidToken: In the parser state ‘".toList ++ state.display ++ "’ an invalid token ‘".toList ++ token ++
      "’ was found".toList, Errors.digits position, ?_, hd, decimal_digits _⟩
    show "TreeError::InvalidToken: In the parser state ‘".toList ++ state.display ++ "’ an invalid token ‘".toList ++ token ++
      "’ was found at the position ".toList ++ Errors.digits position ++ " of the string.".toList = _
    rw [show "’ was found at the position ".toList = "’ was found".toList ++ " at the position ".toList by decide +kernel]
    simp only [List.append_assoc]
  · refine ⟨"TreeError::MultiNumberSign: Found sequential number signs".toList, Errors.digits position, ?_, hd, decimal_digits _⟩
    show "TreeError::MultiNumberSign: Found sequential number signs at the position ".toList ++ Errors.digits position ++
      " of the string.".toList = _
    rw [show "TreeError::MultiNumberSign: Found sequential number signs at the position ".toList =
      "TreeError::MultiNumberSign: Found sequential number signs".toList ++ " at the position ".toList by decide +kernel]
    simp only [List.append_assoc]

/-- **C99, errors of the formatter.** Two different errors of the formatter have different messages, if the texts that are quoted in
them, but for the last, have no closing quotation mark, and the errors of commands are not of unknown type. What is missing is
in `C99_violated`. -/
theorem C99_formatter_errors_partial (e e' : Errors.FormatterError D F) (he : Quoted e) (he' : Quoted e')
    (h : e.display = e'.display) : e = e' := formatter_display he he' h

/-- **C99, errors of the localiser.** Two different errors of the localiser, of whatever cause, have different messages, under the
same conditions; so the message for a missing string tells the component, the identifier, the language and whether a fallback was
used. -/
theorem C99_localiser_errors_partial (e e' : Errors.LocaliserError D F) (he : QuotedLocaliser e) (he' : QuotedLocaliser e')
    (h : e.display = e'.display) : e = e' := localiser_display he he' h

/-- **C99, errors of the provider for Sqlite3.** The same for its errors, those of the schema of a database included. -/
theorem C99_sqlite_errors_partial (e e' : Errors.ProviderSqlite3Error) (he : QuotedSqlite e) (he' : QuotedSqlite e')
    (h : e.display = e'.display) : e = e' := sqlite_display he he' h

/-- **C99 is violated** by texts with quotation marks: the same message for a keyword and a placeholder that are not the same. -/
theorem C99_violated :
    let e : Errors.FormatterError D F := .invalidKeyword "a’ for the placeholder ‘b".toList "c".toList
    let e' : Errors.FormatterError D F := .invalidKeyword "a".toList "b’ for the placeholder ‘c".toList
    e ≠ e' ∧ e.display = e'.display := by
  constructor
  · intro h
    exact absurd (Errors.FormatterError.invalidKeyword.inj h).1 (by decide +kernel)
  · show "FormatterError::InvalidKeyword: Invalid keyword ‘".toList ++ "a’ for the placeholder ‘b".toList ++
      "’ for the placeholder ‘".toList ++ "c".toList ++ "’.".toList =
      "FormatterError::InvalidKeyword: Invalid keyword ‘".toList ++ "a".toList ++
      "’ for the placeholder ‘".toList ++ "b’ for the placeholder ‘c".toList ++ "’.".toList
    decide +kernel

theorem cause_clean {P : Type} {L : LocEnv D F P} (hq : L.fmt.icu.syn '’' = true) (hX : LibraryOnly L.fmt.icu4x)
    {provider : P → Errors.ProviderError D F} (hp : ∀ x, QuotedProvider (provider x)) {library : Str}
    {custom : Nat → Errors.Custom D F} {u : Use} (hu : NoQuote u.component ∧ NoQuote u.identifier) {values : AMap Str (PValue D F)}
    {e : LocErr P} (h : Cause L u values e) (hc : ∀ code, e ≠ .formatter (.command (.custom code))) :
    QuotedLocaliser (e.told provider library custom) := by
  obtain ⟨c, i, t, fb, fo⟩ := u
  cases h with
  | provider e h =>
    cases h with
    | missing _ => exact hu
    | missingDefault _ _ _ => exact hu
    | _ => exact hp _
  | syntactic s t te _ _ _ => exact told_quoted te
  | rejected s t lang d e _ _ _ hr hd => exact doc_clean hq hr hd (fun code h => hc code (by rw [h])) library custom
  | values fallback s t lang d e _ _ _ _ _ hb => exact blamed_clean hX hb (fun code h => hc code (by rw [h])) library custom

theorem locErr_inj {P : Type} {provider : P → Errors.ProviderError D F} (hi : ∀ x y, provider x = provider y → x = y) {library : Str}
    {custom : Nat → Errors.Custom D F} {e e' : LocErr P} (hc : ∀ code, e ≠ .formatter (.command (.custom code)))
    (h : e.told provider library custom = e'.told provider library custom) : e = e' := by
  cases e with
  | provider x => cases e' with
    | provider y => rw [hi x y (Errors.LocaliserError.provider.inj h)]
    | _ => cases h
  | formatter x => cases e' with
    | formatter y =>
      rw [formatter_told_inj (fun code h => hc code (by rw [h])) (Errors.LocaliserError.formatter.inj h)]
    | _ => cases h
  | _ => cases e' <;> cases h <;> rfl

/-- **C99, failed requests.** The message with which a request to the localiser fails tells the error, after all histories without
panics: if the names of the components and the identifiers of the strings that are needed have no closing quotation mark, and no
component a slash, then two requests that fail with the same message fail with the same error, unless a command returns an error
of unknown type. Missing: other names, see `C99_violated_by_requests`. -/
theorem C99_failed_requests_partial {P S : Type} (L : LocEnv D F P) (hq : L.fmt.icu.syn '’' = true) (hX : LibraryOnly L.fmt.icu4x)
    (provider : P → Errors.ProviderError D F) (hp : ∀ x, QuotedProvider (provider x))
    (hi : ∀ x y, provider x = provider y → x = y) (library : Str) (custom : Nat → Errors.Custom D F) (scriptOf : Str → S)
    (l : Localiser S) (hl : l.cache = []) (calls calls' : List (Request D F)) (r r' : Request D F)
    (hs : ∀ u ∈ callsUses l.tag l.fallback (calls ++ [r]), '/' ∉ u.component)
    (hs' : ∀ u ∈ callsUses l.tag l.fallback (calls' ++ [r']), '/' ∉ u.component)
    (hn : NoPanic L scriptOf l calls) (hn' : NoPanic L scriptOf l calls')
    (hu : ∀ tag fallback u vs, Needs tag fallback r u vs → NoQuote u.component ∧ NoQuote u.identifier)
    (hu' : ∀ tag fallback u vs, Needs tag fallback r' u vs → NoQuote u.component ∧ NoQuote u.identifier) (e e' : LocErr P)
    (he : ((l.after L scriptOf calls).call L scriptOf r).1 = some (.err e))
    (he' : ((l.after L scriptOf calls').call L scriptOf r').1 = some (.err e'))
    (hc : ∀ code, e ≠ .formatter (.command (.custom code))) (hc' : ∀ code, e' ≠ .formatter (.command (.custom code)))
    (hm : (e.told provider library custom).display = (e'.told provider library custom).display) : e = e' := by
  have key : ∀ {calls : List (Request D F)} {r : Request D F} {e : LocErr P},
      (∀ u ∈ callsUses l.tag l.fallback (calls ++ [r]), '/' ∉ u.component) → NoPanic L scriptOf l calls →
      (∀ tag fallback u vs, Needs tag fallback r u vs → NoQuote u.component ∧ NoQuote u.identifier) →
      ((l.after L scriptOf calls).call L scriptOf r).1 = some (.err e) → (∀ code, e ≠ .formatter (.command (.custom code))) →
      QuotedLocaliser (e.told provider library custom) := by
    intro calls r e hs hn hu he hc
    obtain ⟨u, vs, h1, h2 | ⟨rfl, _⟩⟩ := C87_error_tells_the_cause_partial L scriptOf l hl calls r hs hn e he
    · exact cause_clean hq hX hp (hu _ _ u vs h1) h2 hc
    · exact (hu _ _ u vs h1).1
  exact locErr_inj hi hc (localiser_display (key hs hn hu he hc) (key hs' hn' hu' he' hc') hm)

/-- **C99 is violated** by requests: for components and identifiers with quotation marks, two requests for strings that do not exist
fail with different errors and the same message. -/
theorem C99_violated_by_requests (provider : Unit → Errors.ProviderError Nat Unit) (library : Str)
    (custom : Nat → Errors.Custom Nat Unit) :
    ∃ (r r' : Request Nat Unit) (e e' : LocErr Unit),
      ((Demo.start false).call (Demo.loc []) (fun _ => ()) r).1 = some (.err e) ∧
      ((Demo.start false).call (Demo.loc []) (fun _ => ()) r').1 = some (.err e') ∧ e ≠ e' ∧
      (e.told provider library custom).display = (e'.told provider library custom).display := by
  refine ⟨.literal "a’ with identifier ‘b".toList "c".toList none (some false) none,
    .literal "a".toList "b’ with identifier ‘c".toList none (some false) none,
    .stringNotFound "a’ with identifier ‘b".toList "c".toList "en".toList false,
    .stringNotFound "a".toList "b’ with identifier ‘c".toList "en".toList false, rfl, rfl, ?_, ?_⟩
  · intro h
    exact absurd (LocErr.stringNotFound.inj h).1 (by decide +kernel)
  · show "LocaliserError::StringNotFound: No string was found for the component ‘".toList ++ "a’ with identifier ‘b".toList ++
        "’ with identifier ‘".toList ++ "c".toList ++ "’ for the language tag ‘".toList ++ "en".toList ++
        "’. Fallback was used: ".toList ++ Errors.flagDisplay false ++ ".".toList =
      "LocaliserError::StringNotFound: No string was found for the component ‘".toList ++ "a".toList ++
        "’ with identifier ‘".toList ++ "b’ with identifier ‘c".toList ++ "’ for the language tag ‘".toList ++ "en".toList ++
        "’. Fallback was used: ".toList ++ Errors.flagDisplay false ++ ".".toList
    decide +kernel

/-- A token that looks like the rest of a message does not matter. -/
example : (TreeError.invalidToken .pattern 12 "’ was found at the position 3 of the string.".toList).told.display =
    ("TreeError::InvalidToken: In the parser state ‘Pattern’ an invalid token ‘’ was found at the position 3 of the string.’ " ++
      "was found at the position 12 of the string.").toList := by decide +kernel

/-- An environment in which the quotation mark is a syntax character. -/
def quoting : FmtEnv Nat Unit :=
  { Demo.env with icu := { Demo.env.icu with syn := fun c => c == '’' || Demo.env.icu.syn c } }

/-- The conditions of `C99_rejected_patterns` are met, and an apostrophe in a keyword is told as an invalid token. -/
example : quoting.icu.syn '’' = true ∧
    rejectedWith quoting "{n colour}".toList (· = .invalidKeyword "colour".toList "n".toList) = true ∧
    rejectedWith quoting "{n colour’s}".toList
      (fun e => match e with
        | .tree (.invalidToken .keyword position token) => decide (position = 9 ∧ token = "’".toList)
        | _ => false) = true := by
  refine ⟨rfl, ?_, ?_⟩ <;> decide +kernel

/-- The message of a rejected pattern string, of a command that is missing, and of a value that is missing. -/
example :
    let library : Str := []
    let custom : Nat → Errors.Custom Nat Unit := fun _ => ⟨⟨[], [], none⟩, []⟩
    ((FormatterError.invalidSelector "many more".toList "plural".toList "n".toList).told library custom).display =
      "FormatterError::InvalidSelector: Invalid selector ‘many more’ for the keyword ‘plural’ of the placeholder ‘n’.".toList ∧
    ((FormatterError.command (.parameterMissing "join".toList 2)).told library custom).display =
      "FormatterError::Command: [CommandError::ParameterMissing: The parameter number 2 is missing for the command ‘join’.].".toList ∧
    ((FormatterError.placeholderValue "PatternString".toList "n".toList).told library custom).display =
      ("FormatterError::PlaceholderValue: The placeholder value was not found for the pattern part ‘PatternString’ of the " ++
        "placeholder ‘n’.").toList := by
  refine ⟨?_, ?_, ?_⟩ <;> decide +kernel

/-- The condition of `C99_failed_formatting` is met by an ICU4X that has no dates. -/
example : LibraryOnly { Demo.icu4x with date := fun _ _ => .error .dateTime } where
  decimal _ _ _ h := nomatch h
  ofFloat _ _ h := nomatch h
  cardinal _ _ h := nomatch h
  ordinal _ _ h := nomatch h
  date _ _ e h := by cases h; exact .inr (.inr (.inr (.inr (.inl rfl))))
  showDate _ _ _ _ _ h _ := nomatch h
  time _ _ _ h := nomatch h
  dateTime _ _ _ _ h := nomatch h
  showDateTime _ _ _ _ _ _ _ h h' := by cases h; cases h'

/-- The conditions of `C99_failed_requests_partial` about a request are met, with nested localisation data. -/
example : ∀ tag fallback u vs, Needs tag fallback
    (.data "c".toList "i".toList (some [("x".toList, .localisationData "d".toList "j".toList none)]) none none none : Request Nat Unit) u vs →
    NoQuote u.component ∧ NoQuote u.identifier := by
  intro tag fallback u vs h
  cases h with
  | data _ _ _ _ _ _ _ _ h =>
    cases h with
    | format => exact (by decide +kernel : NoQuote "c".toList ∧ NoQuote "i".toList)
    | nested c i vs name c' i' ws u vs' hm h =>
      rcases List.mem_cons.1 hm with hm | hm
      · cases hm
        cases h with
        | literal => exact (by decide +kernel : NoQuote "d".toList ∧ NoQuote "j".toList)
      · cases hm

/-- A value that is not among the selectors and looks like the rest of the message does not matter. -/
example : ((FormatterError.selectorsIndexNamed "x’ of the selectors index 3.".toList 0).told (D := Nat) (F := Unit) []
      (fun _ => ⟨⟨[], [], none⟩, []⟩)).display =
    ("FormatterError::SelectorsIndexNamed: Failed to retrieve the string for the named string ‘x’ of the selectors index 3.’ of " ++
      "the selectors index 0.").toList := by decide +kernel

/-- The conditions are met by an error with three texts. -/
example : Quoted (.invalidOption "size".toList "decimal".toList "count’s".toList : Errors.FormatterError Nat Unit) ∧
    Errors.FormatterError.display (.invalidOption "size".toList "decimal".toList "count’s".toList : Errors.FormatterError Nat Unit) =
      "FormatterError::InvalidOption: Invalid option ‘size’ for the keyword ‘decimal’ of the placeholder ‘count’s’.".toList :=
  ⟨⟨by decide +kernel, by decide +kernel⟩, by decide +kernel⟩

/-- And by a string that is not found. -/
example : QuotedLocaliser (.stringNotFound "application".toList "greeting".toList "en-ZA".toList true : Errors.LocaliserError Nat Unit) ∧
    Errors.LocaliserError.display
      (.stringNotFound "application".toList "greeting".toList "en-ZA".toList true : Errors.LocaliserError Nat Unit) =
      ("LocaliserError::StringNotFound: No string was found for the component ‘application’ with identifier ‘greeting’ for the " ++
        "language tag ‘en-ZA’. Fallback was used: True.").toList :=
  ⟨⟨by decide +kernel, by decide +kernel⟩, by decide +kernel⟩

/-- And by a column of a database. -/
example : QuotedSqlite (.schemaInvalid (.columnDefault "metadata".toList "value".toList "0".toList)) ∧
    Errors.ProviderSqlite3Error.display (.schemaInvalid (.columnDefault "metadata".toList "value".toList "0".toList)) =
      ("ProviderSqlite3Error::SchemaInvalid: [The column ‘value’ of table ‘metadata’ must have a default value of ‘0’.].").toList :=
  ⟨⟨by decide +kernel, by decide +kernel⟩, by decide +kernel⟩

end Verif.Props
