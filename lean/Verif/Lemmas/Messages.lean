import Verif.Spec.Messages
/-
Helper lemmas: reading messages.
-/
namespace Verif.MessageLemmas
open Verif Verif.Spec Verif.Errors

variable {D F : Type}

/-- A text without the character that begins the next part. -/
theorem part_inj {c : Char} {p : Str} (hp : p.head? = some c) {a a' : Str} : ∀ {x x' : Str}, c ∉ x → c ∉ x' →
    x ++ (p ++ a) = x' ++ (p ++ a') → x = x' ∧ a = a'
  | [], [], _, _, h => ⟨rfl, List.append_cancel_left h⟩
  | [], y :: _, _, hx', h => by
    cases p with
    | nil => cases hp
    | cons b p =>
      cases hp
      exact absurd (List.mem_cons.2 (.inl (List.cons.inj h).1)) hx'
  | y :: _, [], hx, _, h => by
    cases p with
    | nil => cases hp
    | cons b p =>
      cases hp
      exact absurd (List.mem_cons.2 (.inl (List.cons.inj h).1.symm)) hx
  | y :: x, y' :: x', hx, hx', h => by
    obtain ⟨h1, h2⟩ := List.cons.inj h
    obtain ⟨h3, h4⟩ := part_inj (x := x) (x' := x') hp (fun hm => hx (List.mem_cons_of_mem _ hm))
      (fun hm => hx' (List.mem_cons_of_mem _ hm)) h2
    exact ⟨by rw [h1, h3], h4⟩

theorem digits_eq (n : Nat) : digits n = Nat.toDigits 10 n := by
  unfold digits Nat.repr
  simp

theorem digits_digit {n : Nat} {c : Char} (h : c ∈ digits n) : c.isDigit = true := by
  rw [digits_eq] at h
  exact Nat.isDigit_of_mem_toDigits (by omega) (by omega) h

theorem digits_not {n : Nat} {c : Char} (hc : c.isDigit = false) : c ∉ digits n := fun h => by
  rw [digits_digit h] at hc
  cases hc

theorem decimal_digits (n : Nat) : decimal (digits n) = n := by
  rw [digits_eq]
  have := Nat.ofDigitChars_ten_toDigits (n := n)
  rwa [Nat.ofDigitChars_eq_foldl] at this

theorem digits_inj {n m : Nat} (h : digits n = digits m) : n = m := by
  rw [← decimal_digits n, ← decimal_digits m, h]

/-- A number at the end. -/
theorem last_inj {c : Char} (hc : c.isDigit = false) {p : Str} (hp : p.getLast? = some c) {x x' : Str} {n n' : Nat}
    (h : x ++ (p ++ digits n) = x' ++ (p ++ digits n')) : x = x' ∧ n = n' := by
  have h := congrArg List.reverse h
  simp only [List.reverse_append, List.append_assoc] at h
  have hp' : p.reverse.head? = some c := by rw [List.head?_reverse]; exact hp
  obtain ⟨h1, h2⟩ := part_inj hp' (fun hm => digits_not hc (List.mem_reverse.1 hm))
    (fun hm => digits_not hc (List.mem_reverse.1 hm)) h
  exact ⟨List.reverse_inj.1 h2, digits_inj (List.reverse_inj.1 h1)⟩

/-- The first word. -/
def word (s : Str) : Str := s.takeWhile (· ≠ ' ')

theorem word_append {h t : Str} (hm : ' ' ∈ h) : word (h ++ t) = word h := by
  unfold word
  induction h with
  | nil => cases hm
  | cons c h ih =>
    rw [List.cons_append, List.takeWhile_cons, List.takeWhile_cons]
    by_cases hc : c = ' '
    · simp [hc]
    · rcases List.mem_cons.1 hm with rfl | hm
      · exact (hc rfl).elim
      · rw [ih hm]

/-- The texts with which the messages begin. -/
def treeHeads : List Str :=
  ["TreeError::LexerError: [".toList, "TreeError::EndedAbruptly: The string ended abruptly.".toList,
   "TreeError::InvalidToken: In the parser state ‘".toList,
   "TreeError::UniquePattern: Pattern identifiers must be unique. The identifier ‘".toList,
   "TreeError::MultiNumberSign: Found sequential number signs at the position ".toList,
   "TreeError::UniqueNamed: Named substrings must have unique identifiers. The identifier ‘".toList]

def commandHeads : List Str :=
  ["CommandError::Custom: [".toList, "CommandError::AlreadyExists: The command ‘".toList,
   "CommandError::NotFound: The command ‘".toList, "CommandError::ParameterMissing: The parameter number ".toList,
   "CommandError::InvalidType: The parameter number ".toList]

/-- Two messages that begin with texts of a list in which the first words differ. -/
theorem heads_inj {heads : List Str} (hs : ∀ h ∈ heads, ' ' ∈ h)
    (hn : (heads.map word).Nodup) {i j : Nat} {s : Str} (hi : ∃ h, heads[i]? = some h ∧ h <+: s)
    (hj : ∃ h, heads[j]? = some h ∧ h <+: s) : i = j := by
  obtain ⟨h, h1, t, rfl⟩ := hi
  obtain ⟨h', h1', t', e⟩ := hj
  have hw : word h = word h' := by
    rw [← word_append (t := t) (hs h (List.mem_of_getElem? h1)), ← e, word_append (hs h' (List.mem_of_getElem? h1'))]
  have hi : i < (heads.map word).length := by
    rw [List.length_map]; exact (List.getElem?_eq_some_iff.1 h1).1
  refine (List.getElem?_inj hi hn).1 ?_
  rw [List.getElem?_map, List.getElem?_map, h1, h1', Option.map_some, Option.map_some, hw]

def formatterHeads : List Str :=
  ["FormatterError::Localiser: [".toList,
   "FormatterError::Tree: [".toList,
   "FormatterError::Locale: [".toList,
   "FormatterError::Calendar: [".toList,
   "FormatterError::ParseInt: [".toList,
   "FormatterError::Decimal: [".toList,
   "FormatterError::DateTime: [".toList,
   "FormatterError::PluralRules: [".toList,
   "FormatterError::FixedDecimal: [".toList,
   "FormatterError::Command: [".toList,
   "FormatterError::InvalidRoot: The tree root must be a ‘Root’ node.".toList,
   "FormatterError::NoGrammar: No grammar syntax characters was found in the provided localisation string.".toList,
   "FormatterError::RetrieveChildren: Failed to retrieve the children for the ‘".toList,
   "FormatterError::NodeNotFound: The expected node ‘".toList,
   "FormatterError::FirstChild: The first child of the ‘".toList,
   "FormatterError::RetrieveNodeData: Failed to retrieve the data for the ‘".toList,
   "FormatterError::RetrieveNodeToken: Failed to retrieve the token for the ‘".toList,
   "FormatterError::LastChild: The last child of the ‘".toList,
   "FormatterError::InvalidNode: Invalid child node found in the ‘".toList,
   "FormatterError::PatternNamed: Failed to retrieve the pattern for the named string ‘".toList,
   "FormatterError::PatternPart: Failed to retrieve the part ‘".toList,
   "FormatterError::InvalidOptionValue: The value ‘".toList,
   "FormatterError::InvalidKeyword: Invalid keyword ‘".toList,
   "FormatterError::SelectorNamed: The named string identifier ‘".toList,
   "FormatterError::SelectorOther: The required ‘other’ selector was not found for the keyword ‘".toList,
   "FormatterError::NoChildren: No children nodes was found for ‘".toList,
   "FormatterError::InvalidOption: Invalid option ‘".toList,
   "FormatterError::InvalidSelector: Invalid selector ‘".toList,
   "FormatterError::NumberSignString: Unable to retrieve the formatted string for the NumberSign index ".toList,
   "FormatterError::SelectorsIndex: The index ".toList,
   "FormatterError::SelectorsIndexNamed: Failed to retrieve the string for the named string ‘".toList,
   "FormatterError::PlaceholderValue: The placeholder value was not found for the pattern part ‘".toList,
   "FormatterError::InvalidValue: Invalid value type was provided for the pattern part ‘".toList,
   "FormatterError::NamedStringIdentifier: The named string identifier ‘".toList,
   "FormatterError::NoIcuProvider: Build error: At least one ICU4X data provider must be specified for the crate ‘i18n_icu’ using the crate's features.".toList,
   "FormatterError::NeverReached: Build error: Should never have reached this match branch.".toList]

theorem tree_head (e : Errors.TreeError) : ∃ h, treeHeads[e.ctorIdx]? = some h ∧ h <+: e.display := by
  cases e with
  | lexer error =>
    refine ⟨"TreeError::LexerError: [".toList, rfl, ?_⟩
    show _ <+: "TreeError::LexerError: [".toList ++ error.display ++ "].".toList
    rw [List.append_assoc]
    exact List.prefix_append _ _
  | endedAbruptly => exact ⟨_, rfl, List.prefix_rfl⟩
  | invalidToken state position token =>
    refine ⟨"TreeError::InvalidToken: In the parser state ‘".toList, rfl, ?_⟩
    show _ <+: "TreeError::InvalidToken: In the parser state ‘".toList ++ state ++ "’ an invalid token ‘".toList ++ token ++ "’ was found at the position ".toList ++ digits position ++ " of the string.".toList
    rw [List.append_assoc, List.append_assoc, List.append_assoc, List.append_assoc, List.append_assoc]
    exact List.prefix_append _ _
  | uniquePattern identifier =>
    refine ⟨"TreeError::UniquePattern: Pattern identifiers must be unique. The identifier ‘".toList, rfl, ?_⟩
    show _ <+: "TreeError::UniquePattern: Pattern identifiers must be unique. The identifier ‘".toList ++ identifier ++ "’ already exists.".toList
    rw [List.append_assoc]
    exact List.prefix_append _ _
  | multiNumberSign position =>
    refine ⟨"TreeError::MultiNumberSign: Found sequential number signs at the position ".toList, rfl, ?_⟩
    show _ <+: "TreeError::MultiNumberSign: Found sequential number signs at the position ".toList ++ digits position ++ " of the string.".toList
    rw [List.append_assoc]
    exact List.prefix_append _ _
  | uniqueNamed identifier =>
    refine ⟨"TreeError::UniqueNamed: Named substrings must have unique identifiers. The identifier ‘".toList, rfl, ?_⟩
    show _ <+: "TreeError::UniqueNamed: Named substrings must have unique identifiers. The identifier ‘".toList ++ identifier ++ "’ already exists.".toList
    rw [List.append_assoc]
    exact List.prefix_append _ _

theorem command_head (e : Errors.CommandError D F) : ∃ h, commandHeads[e.ctorIdx]? = some h ∧ h <+: e.display := by
  cases e with
  | custom error =>
    refine ⟨"CommandError::Custom: [".toList, rfl, ?_⟩
    show _ <+: "CommandError::Custom: [".toList ++ error.display ++ "].".toList
    rw [List.append_assoc]
    exact List.prefix_append _ _
  | alreadyExists command =>
    refine ⟨"CommandError::AlreadyExists: The command ‘".toList, rfl, ?_⟩
    show _ <+: "CommandError::AlreadyExists: The command ‘".toList ++ command ++ "’ already exists in the CommandRegistry.".toList
    rw [List.append_assoc]
    exact List.prefix_append _ _
  | notFound command =>
    refine ⟨"CommandError::NotFound: The command ‘".toList, rfl, ?_⟩
    show _ <+: "CommandError::NotFound: The command ‘".toList ++ command ++ "’ was not found in the CommandRegistry.".toList
    rw [List.append_assoc]
    exact List.prefix_append _ _
  | parameterMissing command index =>
    refine ⟨"CommandError::ParameterMissing: The parameter number ".toList, rfl, ?_⟩
    show _ <+: "CommandError::ParameterMissing: The parameter number ".toList ++ digits index ++ " is missing for the command ‘".toList ++ command ++ "’.".toList
    rw [List.append_assoc, List.append_assoc, List.append_assoc]
    exact List.prefix_append _ _
  | invalidType command index =>
    refine ⟨"CommandError::InvalidType: The parameter number ".toList, rfl, ?_⟩
    show _ <+: "CommandError::InvalidType: The parameter number ".toList ++ digits index ++ " has invalid type for the command ‘".toList ++ command ++ "’.".toList
    rw [List.append_assoc, List.append_assoc, List.append_assoc]
    exact List.prefix_append _ _

theorem formatter_head (e : Errors.FormatterError D F) : ∃ h, formatterHeads[e.ctorIdx]? = some h ∧ h <+: e.display := by
  cases e with
  | localiser error =>
    refine ⟨"FormatterError::Localiser: [".toList, rfl, ?_⟩
    show _ <+: "FormatterError::Localiser: [".toList ++ error ++ "].".toList
    rw [List.append_assoc]
    exact List.prefix_append _ _
  | tree error =>
    refine ⟨"FormatterError::Tree: [".toList, rfl, ?_⟩
    show _ <+: "FormatterError::Tree: [".toList ++ error.display ++ "].".toList
    rw [List.append_assoc]
    exact List.prefix_append _ _
  | locale error =>
    refine ⟨"FormatterError::Locale: [".toList, rfl, ?_⟩
    show _ <+: "FormatterError::Locale: [".toList ++ error ++ "].".toList
    rw [List.append_assoc]
    exact List.prefix_append _ _
  | calendar error =>
    refine ⟨"FormatterError::Calendar: [".toList, rfl, ?_⟩
    show _ <+: "FormatterError::Calendar: [".toList ++ error ++ "].".toList
    rw [List.append_assoc]
    exact List.prefix_append _ _
  | parseInt error =>
    refine ⟨"FormatterError::ParseInt: [".toList, rfl, ?_⟩
    show _ <+: "FormatterError::ParseInt: [".toList ++ error ++ "].".toList
    rw [List.append_assoc]
    exact List.prefix_append _ _
  | decimal error =>
    refine ⟨"FormatterError::Decimal: [".toList, rfl, ?_⟩
    show _ <+: "FormatterError::Decimal: [".toList ++ error ++ "].".toList
    rw [List.append_assoc]
    exact List.prefix_append _ _
  | dateTime error =>
    refine ⟨"FormatterError::DateTime: [".toList, rfl, ?_⟩
    show _ <+: "FormatterError::DateTime: [".toList ++ error ++ "].".toList
    rw [List.append_assoc]
    exact List.prefix_append _ _
  | pluralRules error =>
    refine ⟨"FormatterError::PluralRules: [".toList, rfl, ?_⟩
    show _ <+: "FormatterError::PluralRules: [".toList ++ error ++ "].".toList
    rw [List.append_assoc]
    exact List.prefix_append _ _
  | fixedDecimal error =>
    refine ⟨"FormatterError::FixedDecimal: [".toList, rfl, ?_⟩
    show _ <+: "FormatterError::FixedDecimal: [".toList ++ error ++ "].".toList
    rw [List.append_assoc]
    exact List.prefix_append _ _
  | command error =>
    refine ⟨"FormatterError::Command: [".toList, rfl, ?_⟩
    show _ <+: "FormatterError::Command: [".toList ++ error.display ++ "].".toList
    rw [List.append_assoc]
    exact List.prefix_append _ _
  | invalidRoot => exact ⟨_, rfl, List.prefix_rfl⟩
  | noGrammar => exact ⟨_, rfl, List.prefix_rfl⟩
  | retrieveChildren nodeType =>
    refine ⟨"FormatterError::RetrieveChildren: Failed to retrieve the children for the ‘".toList, rfl, ?_⟩
    show _ <+: "FormatterError::RetrieveChildren: Failed to retrieve the children for the ‘".toList ++ nodeType ++ "’ node.".toList
    rw [List.append_assoc]
    exact List.prefix_append _ _
  | nodeNotFound nodeType =>
    refine ⟨"FormatterError::NodeNotFound: The expected node ‘".toList, rfl, ?_⟩
    show _ <+: "FormatterError::NodeNotFound: The expected node ‘".toList ++ nodeType ++ "’ was not found.".toList
    rw [List.append_assoc]
    exact List.prefix_append _ _
  | firstChild nodeType =>
    refine ⟨"FormatterError::FirstChild: The first child of the ‘".toList, rfl, ?_⟩
    show _ <+: "FormatterError::FirstChild: The first child of the ‘".toList ++ nodeType ++ "’ node was not found.".toList
    rw [List.append_assoc]
    exact List.prefix_append _ _
  | retrieveNodeData nodeType =>
    refine ⟨"FormatterError::RetrieveNodeData: Failed to retrieve the data for the ‘".toList, rfl, ?_⟩
    show _ <+: "FormatterError::RetrieveNodeData: Failed to retrieve the data for the ‘".toList ++ nodeType ++ "’ node.".toList
    rw [List.append_assoc]
    exact List.prefix_append _ _
  | retrieveNodeToken nodeType =>
    refine ⟨"FormatterError::RetrieveNodeToken: Failed to retrieve the token for the ‘".toList, rfl, ?_⟩
    show _ <+: "FormatterError::RetrieveNodeToken: Failed to retrieve the token for the ‘".toList ++ nodeType ++ "’ node.".toList
    rw [List.append_assoc]
    exact List.prefix_append _ _
  | lastChild nodeType =>
    refine ⟨"FormatterError::LastChild: The last child of the ‘".toList, rfl, ?_⟩
    show _ <+: "FormatterError::LastChild: The last child of the ‘".toList ++ nodeType ++ "’ node was not found.".toList
    rw [List.append_assoc]
    exact List.prefix_append _ _
  | invalidNode nodeType =>
    refine ⟨"FormatterError::InvalidNode: Invalid child node found in the ‘".toList, rfl, ?_⟩
    show _ <+: "FormatterError::InvalidNode: Invalid child node found in the ‘".toList ++ nodeType ++ "’ node.".toList
    rw [List.append_assoc]
    exact List.prefix_append _ _
  | patternNamed identifier =>
    refine ⟨"FormatterError::PatternNamed: Failed to retrieve the pattern for the named string ‘".toList, rfl, ?_⟩
    show _ <+: "FormatterError::PatternNamed: Failed to retrieve the pattern for the named string ‘".toList ++ identifier ++ "’.".toList
    rw [List.append_assoc]
    exact List.prefix_append _ _
  | patternPart identifier index =>
    refine ⟨"FormatterError::PatternPart: Failed to retrieve the part ‘".toList, rfl, ?_⟩
    show _ <+: "FormatterError::PatternPart: Failed to retrieve the part ‘".toList ++ identifier ++ "’ of the pattern for the named string ‘".toList ++ digits index ++ "’.".toList
    rw [List.append_assoc, List.append_assoc, List.append_assoc]
    exact List.prefix_append _ _
  | invalidOptionValue value option keyword =>
    refine ⟨"FormatterError::InvalidOptionValue: The value ‘".toList, rfl, ?_⟩
    show _ <+: "FormatterError::InvalidOptionValue: The value ‘".toList ++ value ++ "’ is invalid for the option ‘".toList ++ option ++ "’ for the keyword ‘".toList ++ keyword ++ "’.".toList
    rw [List.append_assoc, List.append_assoc, List.append_assoc, List.append_assoc, List.append_assoc]
    exact List.prefix_append _ _
  | invalidKeyword keyword placeholder =>
    refine ⟨"FormatterError::InvalidKeyword: Invalid keyword ‘".toList, rfl, ?_⟩
    show _ <+: "FormatterError::InvalidKeyword: Invalid keyword ‘".toList ++ keyword ++ "’ for the placeholder ‘".toList ++ placeholder ++ "’.".toList
    rw [List.append_assoc, List.append_assoc, List.append_assoc]
    exact List.prefix_append _ _
  | selectorNamed named selector identifier =>
    refine ⟨"FormatterError::SelectorNamed: The named string identifier ‘".toList, rfl, ?_⟩
    show _ <+: "FormatterError::SelectorNamed: The named string identifier ‘".toList ++ named ++ "’ was not found for the selector ‘".toList ++ selector ++ "’ of the placeholder ‘".toList ++ identifier ++ "’.".toList
    rw [List.append_assoc, List.append_assoc, List.append_assoc, List.append_assoc, List.append_assoc]
    exact List.prefix_append _ _
  | selectorOther keyword placeholder =>
    refine ⟨"FormatterError::SelectorOther: The required ‘other’ selector was not found for the keyword ‘".toList, rfl, ?_⟩
    show _ <+: "FormatterError::SelectorOther: The required ‘other’ selector was not found for the keyword ‘".toList ++ keyword ++ "’ of the placeholder ‘".toList ++ placeholder ++ "’.".toList
    rw [List.append_assoc, List.append_assoc, List.append_assoc]
    exact List.prefix_append _ _
  | noChildren nodeType =>
    refine ⟨"FormatterError::NoChildren: No children nodes was found for ‘".toList, rfl, ?_⟩
    show _ <+: "FormatterError::NoChildren: No children nodes was found for ‘".toList ++ nodeType ++ "’ node.".toList
    rw [List.append_assoc]
    exact List.prefix_append _ _
  | invalidOption option keyword placeholder =>
    refine ⟨"FormatterError::InvalidOption: Invalid option ‘".toList, rfl, ?_⟩
    show _ <+: "FormatterError::InvalidOption: Invalid option ‘".toList ++ option ++ "’ for the keyword ‘".toList ++ keyword ++ "’ of the placeholder ‘".toList ++ placeholder ++ "’.".toList
    rw [List.append_assoc, List.append_assoc, List.append_assoc, List.append_assoc, List.append_assoc]
    exact List.prefix_append _ _
  | invalidSelector option keyword placeholder =>
    refine ⟨"FormatterError::InvalidSelector: Invalid selector ‘".toList, rfl, ?_⟩
    show _ <+: "FormatterError::InvalidSelector: Invalid selector ‘".toList ++ option ++ "’ for the keyword ‘".toList ++ keyword ++ "’ of the placeholder ‘".toList ++ placeholder ++ "’.".toList
    rw [List.append_assoc, List.append_assoc, List.append_assoc, List.append_assoc, List.append_assoc]
    exact List.prefix_append _ _
  | numberSignString index =>
    refine ⟨"FormatterError::NumberSignString: Unable to retrieve the formatted string for the NumberSign index ".toList, rfl, ?_⟩
    show _ <+: "FormatterError::NumberSignString: Unable to retrieve the formatted string for the NumberSign index ".toList ++ digits index ++ ".".toList
    rw [List.append_assoc]
    exact List.prefix_append _ _
  | selectorsIndex index =>
    refine ⟨"FormatterError::SelectorsIndex: The index ".toList, rfl, ?_⟩
    show _ <+: "FormatterError::SelectorsIndex: The index ".toList ++ digits index ++ " is not found in the collected selectors.".toList
    rw [List.append_assoc]
    exact List.prefix_append _ _
  | selectorsIndexNamed identifier index =>
    refine ⟨"FormatterError::SelectorsIndexNamed: Failed to retrieve the string for the named string ‘".toList, rfl, ?_⟩
    show _ <+: "FormatterError::SelectorsIndexNamed: Failed to retrieve the string for the named string ‘".toList ++ identifier ++ "’ of the selectors index ".toList ++ digits index ++ ".".toList
    rw [List.append_assoc, List.append_assoc, List.append_assoc]
    exact List.prefix_append _ _
  | placeholderValue part placeholder =>
    refine ⟨"FormatterError::PlaceholderValue: The placeholder value was not found for the pattern part ‘".toList, rfl, ?_⟩
    show _ <+: "FormatterError::PlaceholderValue: The placeholder value was not found for the pattern part ‘".toList ++ part ++ "’ of the placeholder ‘".toList ++ placeholder ++ "’.".toList
    rw [List.append_assoc, List.append_assoc, List.append_assoc]
    exact List.prefix_append _ _
  | invalidValue part =>
    refine ⟨"FormatterError::InvalidValue: Invalid value type was provided for the pattern part ‘".toList, rfl, ?_⟩
    show _ <+: "FormatterError::InvalidValue: Invalid value type was provided for the pattern part ‘".toList ++ part ++ "’.".toList
    rw [List.append_assoc]
    exact List.prefix_append _ _
  | namedStringIdentifier identifier =>
    refine ⟨"FormatterError::NamedStringIdentifier: The named string identifier ‘".toList, rfl, ?_⟩
    show _ <+: "FormatterError::NamedStringIdentifier: The named string identifier ‘".toList ++ identifier ++ "’ already exists. The identifiers must be unique and not ‘_’.".toList
    rw [List.append_assoc]
    exact List.prefix_append _ _
  | noIcuProvider => exact ⟨_, rfl, List.prefix_rfl⟩
  | neverReached => exact ⟨_, rfl, List.prefix_rfl⟩

theorem tree_ctor {e e' : Errors.TreeError} (h : e.display = e'.display) : e.ctorIdx = e'.ctorIdx :=
  heads_inj (heads := treeHeads) (by decide +kernel) (by decide +kernel) (tree_head e) (by rw [h]; exact tree_head e')

theorem command_ctor {e e' : Errors.CommandError D F} (h : e.display = e'.display) : e.ctorIdx = e'.ctorIdx :=
  heads_inj (heads := commandHeads) (by decide +kernel) (by decide +kernel) (command_head e) (by rw [h]; exact command_head e')

theorem formatter_ctor {e e' : Errors.FormatterError D F} (h : e.display = e'.display) : e.ctorIdx = e'.ctorIdx :=
  heads_inj (heads := formatterHeads) (by decide +kernel) (by decide +kernel) (formatter_head e) (by rw [h]; exact formatter_head e')

theorem lexer_display {e e' : Errors.LexerError} (h : e.display = e'.display) : e = e' := by
  cases e <;> cases e' <;> first | rfl | exact absurd h (by decide +kernel)

/-- A text between two others. -/
theorem between {a x x' b : Str} (h : a ++ x ++ b = a ++ x' ++ b) : x = x' :=
  List.append_cancel_left (List.append_cancel_right h)

/-- Two texts, the first without quotation mark. -/
theorem two_texts {a p b x x' y y' : Str} (hp : p.head? = some '’') (hx : NoQuote x) (hx' : NoQuote x')
    (h : a ++ x ++ p ++ y ++ b = a ++ x' ++ p ++ y' ++ b) : x = x' ∧ y = y' := by
  have h := List.append_cancel_right h
  simp only [List.append_assoc, List.append_cancel_left_eq] at h
  exact part_inj hp hx hx' h

/-- A number and a text. -/
theorem number_text {a p b y y' : Str} {n n' : Nat} (hp : p.head? = some ' ')
    (h : a ++ digits n ++ p ++ y ++ b = a ++ digits n' ++ p ++ y' ++ b) : n = n' ∧ y = y' := by
  have h := List.append_cancel_right h
  simp only [List.append_assoc, List.append_cancel_left_eq] at h
  obtain ⟨h1, h2⟩ := part_inj hp (digits_not rfl) (digits_not rfl) h
  exact ⟨digits_inj h1, h2⟩

/-- A text and a number at the end. -/
theorem text_last {a p b x x' : Str} {c : Char} {n n' : Nat} (hc : c.isDigit = false) (hp : p.getLast? = some c)
    (h : a ++ x ++ p ++ digits n ++ b = a ++ x' ++ p ++ digits n' ++ b) : x = x' ∧ n = n' := by
  have h := List.append_cancel_right h
  simp only [List.append_assoc, List.append_cancel_left_eq] at h
  exact last_inj hc hp h

/-- A text and a number before the end. -/
theorem text_number {a p q b x x' y y' : Str} {n n' : Nat} (hp : p.head? = some '’') (hq : q.getLast? = some ' ') (hx : NoQuote x)
    (hx' : NoQuote x') (h : a ++ x ++ p ++ y ++ q ++ digits n ++ b = a ++ x' ++ p ++ y' ++ q ++ digits n' ++ b) :
    x = x' ∧ n = n' ∧ y = y' := by
  have h := List.append_cancel_right h
  simp only [List.append_assoc, List.append_cancel_left_eq] at h
  obtain ⟨h1, h⟩ := part_inj hp hx hx' h
  exact ⟨h1, (last_inj rfl hq h).symm⟩

/-- Three texts, the first two without quotation mark. -/
theorem three_texts {a p q b x x' y y' z z' : Str} (hp : p.head? = some '’') (hq : q.head? = some '’') (hx : NoQuote x)
    (hx' : NoQuote x') (hy : NoQuote y) (hy' : NoQuote y')
    (h : a ++ x ++ p ++ y ++ q ++ z ++ b = a ++ x' ++ p ++ y' ++ q ++ z' ++ b) : x = x' ∧ y = y' ∧ z = z' := by
  have h := List.append_cancel_right h
  simp only [List.append_assoc, List.append_cancel_left_eq] at h
  obtain ⟨h1, h⟩ := part_inj hp hx hx' h
  exact ⟨h1, part_inj hq hy hy' h⟩

theorem tree_display {e e' : Errors.TreeError} (he : QuotedTree e) (he' : QuotedTree e') (h : e.display = e'.display) : e = e' := by
  have hi := tree_ctor h
  cases e with
  | lexer error =>
    cases e' with
    | lexer error' =>
      have h : "TreeError::LexerError: [".toList ++ error.display ++ "].".toList = "TreeError::LexerError: [".toList ++ error'.display ++ "].".toList := h
      rw [lexer_display (between h)]
    | _ => cases hi
  | endedAbruptly =>
    cases e' with
    | endedAbruptly =>
      rfl
    | _ => cases hi
  | invalidToken state position token =>
    cases e' with
    | invalidToken state' position' token' =>
      have h : "TreeError::InvalidToken: In the parser state ‘".toList ++ state ++ "’ an invalid token ‘".toList ++ token ++ "’ was found at the position ".toList ++ digits position ++ " of the string.".toList = "TreeError::InvalidToken: In the parser state ‘".toList ++ state' ++ "’ an invalid token ‘".toList ++ token' ++ "’ was found at the position ".toList ++ digits position' ++ " of the string.".toList := h
      obtain ⟨rfl, rfl, rfl⟩ := text_number (by decide +kernel) (by decide +kernel) he he' h
      rfl
    | _ => cases hi
  | uniquePattern identifier =>
    cases e' with
    | uniquePattern identifier' =>
      have h : "TreeError::UniquePattern: Pattern identifiers must be unique. The identifier ‘".toList ++ identifier ++ "’ already exists.".toList = "TreeError::UniquePattern: Pattern identifiers must be unique. The identifier ‘".toList ++ identifier' ++ "’ already exists.".toList := h
      rw [between h]
    | _ => cases hi
  | multiNumberSign position =>
    cases e' with
    | multiNumberSign position' =>
      have h : "TreeError::MultiNumberSign: Found sequential number signs at the position ".toList ++ digits position ++ " of the string.".toList = "TreeError::MultiNumberSign: Found sequential number signs at the position ".toList ++ digits position' ++ " of the string.".toList := h
      rw [digits_inj (between h)]
    | _ => cases hi
  | uniqueNamed identifier =>
    cases e' with
    | uniqueNamed identifier' =>
      have h : "TreeError::UniqueNamed: Named substrings must have unique identifiers. The identifier ‘".toList ++ identifier ++ "’ already exists.".toList = "TreeError::UniqueNamed: Named substrings must have unique identifiers. The identifier ‘".toList ++ identifier' ++ "’ already exists.".toList := h
      rw [between h]
    | _ => cases hi

theorem command_display {e e' : Errors.CommandError D F} (he : QuotedCommand e) (h : e.display = e'.display) : e = e' := by
  have hi := command_ctor h
  cases e with
  | custom error =>
    cases e' with
    | custom error' =>
      exact he.elim
    | _ => cases hi
  | alreadyExists command =>
    cases e' with
    | alreadyExists command' =>
      have h : "CommandError::AlreadyExists: The command ‘".toList ++ command ++ "’ already exists in the CommandRegistry.".toList = "CommandError::AlreadyExists: The command ‘".toList ++ command' ++ "’ already exists in the CommandRegistry.".toList := h
      rw [between h]
    | _ => cases hi
  | notFound command =>
    cases e' with
    | notFound command' =>
      have h : "CommandError::NotFound: The command ‘".toList ++ command ++ "’ was not found in the CommandRegistry.".toList = "CommandError::NotFound: The command ‘".toList ++ command' ++ "’ was not found in the CommandRegistry.".toList := h
      rw [between h]
    | _ => cases hi
  | parameterMissing command index =>
    cases e' with
    | parameterMissing command' index' =>
      have h : "CommandError::ParameterMissing: The parameter number ".toList ++ digits index ++ " is missing for the command ‘".toList ++ command ++ "’.".toList = "CommandError::ParameterMissing: The parameter number ".toList ++ digits index' ++ " is missing for the command ‘".toList ++ command' ++ "’.".toList := h
      obtain ⟨rfl, rfl⟩ := number_text (by decide +kernel) h
      rfl
    | _ => cases hi
  | invalidType command index =>
    cases e' with
    | invalidType command' index' =>
      have h : "CommandError::InvalidType: The parameter number ".toList ++ digits index ++ " has invalid type for the command ‘".toList ++ command ++ "’.".toList = "CommandError::InvalidType: The parameter number ".toList ++ digits index' ++ " has invalid type for the command ‘".toList ++ command' ++ "’.".toList := h
      obtain ⟨rfl, rfl⟩ := number_text (by decide +kernel) h
      rfl
    | _ => cases hi

theorem formatter_display {e e' : Errors.FormatterError D F} (he : Quoted e) (he' : Quoted e') (h : e.display = e'.display) : e = e' := by
  have hi := formatter_ctor h
  cases e with
  | localiser error =>
    cases e' with
    | localiser error' =>
      have h : "FormatterError::Localiser: [".toList ++ error ++ "].".toList = "FormatterError::Localiser: [".toList ++ error' ++ "].".toList := h
      rw [between h]
    | _ => cases hi
  | tree error =>
    cases e' with
    | tree error' =>
      have h : "FormatterError::Tree: [".toList ++ error.display ++ "].".toList = "FormatterError::Tree: [".toList ++ error'.display ++ "].".toList := h
      rw [tree_display he he' (between h)]
    | _ => cases hi
  | locale error =>
    cases e' with
    | locale error' =>
      have h : "FormatterError::Locale: [".toList ++ error ++ "].".toList = "FormatterError::Locale: [".toList ++ error' ++ "].".toList := h
      rw [between h]
    | _ => cases hi
  | calendar error =>
    cases e' with
    | calendar error' =>
      have h : "FormatterError::Calendar: [".toList ++ error ++ "].".toList = "FormatterError::Calendar: [".toList ++ error' ++ "].".toList := h
      rw [between h]
    | _ => cases hi
  | parseInt error =>
    cases e' with
    | parseInt error' =>
      have h : "FormatterError::ParseInt: [".toList ++ error ++ "].".toList = "FormatterError::ParseInt: [".toList ++ error' ++ "].".toList := h
      rw [between h]
    | _ => cases hi
  | decimal error =>
    cases e' with
    | decimal error' =>
      have h : "FormatterError::Decimal: [".toList ++ error ++ "].".toList = "FormatterError::Decimal: [".toList ++ error' ++ "].".toList := h
      rw [between h]
    | _ => cases hi
  | dateTime error =>
    cases e' with
    | dateTime error' =>
      have h : "FormatterError::DateTime: [".toList ++ error ++ "].".toList = "FormatterError::DateTime: [".toList ++ error' ++ "].".toList := h
      rw [between h]
    | _ => cases hi
  | pluralRules error =>
    cases e' with
    | pluralRules error' =>
      have h : "FormatterError::PluralRules: [".toList ++ error ++ "].".toList = "FormatterError::PluralRules: [".toList ++ error' ++ "].".toList := h
      rw [between h]
    | _ => cases hi
  | fixedDecimal error =>
    cases e' with
    | fixedDecimal error' =>
      have h : "FormatterError::FixedDecimal: [".toList ++ error ++ "].".toList = "FormatterError::FixedDecimal: [".toList ++ error' ++ "].".toList := h
      rw [between h]
    | _ => cases hi
  | command error =>
    cases e' with
    | command error' =>
      have h : "FormatterError::Command: [".toList ++ error.display ++ "].".toList = "FormatterError::Command: [".toList ++ error'.display ++ "].".toList := h
      rw [command_display he (between h)]
    | _ => cases hi
  | invalidRoot =>
    cases e' with
    | invalidRoot =>
      rfl
    | _ => cases hi
  | noGrammar =>
    cases e' with
    | noGrammar =>
      rfl
    | _ => cases hi
  | retrieveChildren nodeType =>
    cases e' with
    | retrieveChildren nodeType' =>
      have h : "FormatterError::RetrieveChildren: Failed to retrieve the children for the ‘".toList ++ nodeType ++ "’ node.".toList = "FormatterError::RetrieveChildren: Failed to retrieve the children for the ‘".toList ++ nodeType' ++ "’ node.".toList := h
      rw [between h]
    | _ => cases hi
  | nodeNotFound nodeType =>
    cases e' with
    | nodeNotFound nodeType' =>
      have h : "FormatterError::NodeNotFound: The expected node ‘".toList ++ nodeType ++ "’ was not found.".toList = "FormatterError::NodeNotFound: The expected node ‘".toList ++ nodeType' ++ "’ was not found.".toList := h
      rw [between h]
    | _ => cases hi
  | firstChild nodeType =>
    cases e' with
    | firstChild nodeType' =>
      have h : "FormatterError::FirstChild: The first child of the ‘".toList ++ nodeType ++ "’ node was not found.".toList = "FormatterError::FirstChild: The first child of the ‘".toList ++ nodeType' ++ "’ node was not found.".toList := h
      rw [between h]
    | _ => cases hi
  | retrieveNodeData nodeType =>
    cases e' with
    | retrieveNodeData nodeType' =>
      have h : "FormatterError::RetrieveNodeData: Failed to retrieve the data for the ‘".toList ++ nodeType ++ "’ node.".toList = "FormatterError::RetrieveNodeData: Failed to retrieve the data for the ‘".toList ++ nodeType' ++ "’ node.".toList := h
      rw [between h]
    | _ => cases hi
  | retrieveNodeToken nodeType =>
    cases e' with
    | retrieveNodeToken nodeType' =>
      have h : "FormatterError::RetrieveNodeToken: Failed to retrieve the token for the ‘".toList ++ nodeType ++ "’ node.".toList = "FormatterError::RetrieveNodeToken: Failed to retrieve the token for the ‘".toList ++ nodeType' ++ "’ node.".toList := h
      rw [between h]
    | _ => cases hi
  | lastChild nodeType =>
    cases e' with
    | lastChild nodeType' =>
      have h : "FormatterError::LastChild: The last child of the ‘".toList ++ nodeType ++ "’ node was not found.".toList = "FormatterError::LastChild: The last child of the ‘".toList ++ nodeType' ++ "’ node was not found.".toList := h
      rw [between h]
    | _ => cases hi
  | invalidNode nodeType =>
    cases e' with
    | invalidNode nodeType' =>
      have h : "FormatterError::InvalidNode: Invalid child node found in the ‘".toList ++ nodeType ++ "’ node.".toList = "FormatterError::InvalidNode: Invalid child node found in the ‘".toList ++ nodeType' ++ "’ node.".toList := h
      rw [between h]
    | _ => cases hi
  | patternNamed identifier =>
    cases e' with
    | patternNamed identifier' =>
      have h : "FormatterError::PatternNamed: Failed to retrieve the pattern for the named string ‘".toList ++ identifier ++ "’.".toList = "FormatterError::PatternNamed: Failed to retrieve the pattern for the named string ‘".toList ++ identifier' ++ "’.".toList := h
      rw [between h]
    | _ => cases hi
  | patternPart identifier index =>
    cases e' with
    | patternPart identifier' index' =>
      have h : "FormatterError::PatternPart: Failed to retrieve the part ‘".toList ++ identifier ++ "’ of the pattern for the named string ‘".toList ++ digits index ++ "’.".toList = "FormatterError::PatternPart: Failed to retrieve the part ‘".toList ++ identifier' ++ "’ of the pattern for the named string ‘".toList ++ digits index' ++ "’.".toList := h
      obtain ⟨rfl, rfl⟩ := text_last (c := '‘') rfl (by decide +kernel) h
      rfl
    | _ => cases hi
  | invalidOptionValue value option keyword =>
    cases e' with
    | invalidOptionValue value' option' keyword' =>
      have h : "FormatterError::InvalidOptionValue: The value ‘".toList ++ value ++ "’ is invalid for the option ‘".toList ++ option ++ "’ for the keyword ‘".toList ++ keyword ++ "’.".toList = "FormatterError::InvalidOptionValue: The value ‘".toList ++ value' ++ "’ is invalid for the option ‘".toList ++ option' ++ "’ for the keyword ‘".toList ++ keyword' ++ "’.".toList := h
      obtain ⟨rfl, rfl, rfl⟩ := three_texts (by decide +kernel) (by decide +kernel) he.1 he'.1 he.2 he'.2 h
      rfl
    | _ => cases hi
  | invalidKeyword keyword placeholder =>
    cases e' with
    | invalidKeyword keyword' placeholder' =>
      have h : "FormatterError::InvalidKeyword: Invalid keyword ‘".toList ++ keyword ++ "’ for the placeholder ‘".toList ++ placeholder ++ "’.".toList = "FormatterError::InvalidKeyword: Invalid keyword ‘".toList ++ keyword' ++ "’ for the placeholder ‘".toList ++ placeholder' ++ "’.".toList := h
      obtain ⟨rfl, rfl⟩ := two_texts (by decide +kernel) he he' h
      rfl
    | _ => cases hi
  | selectorNamed named selector identifier =>
    cases e' with
    | selectorNamed named' selector' identifier' =>
      have h : "FormatterError::SelectorNamed: The named string identifier ‘".toList ++ named ++ "’ was not found for the selector ‘".toList ++ selector ++ "’ of the placeholder ‘".toList ++ identifier ++ "’.".toList = "FormatterError::SelectorNamed: The named string identifier ‘".toList ++ named' ++ "’ was not found for the selector ‘".toList ++ selector' ++ "’ of the placeholder ‘".toList ++ identifier' ++ "’.".toList := h
      obtain ⟨rfl, rfl, rfl⟩ := three_texts (by decide +kernel) (by decide +kernel) he.1 he'.1 he.2 he'.2 h
      rfl
    | _ => cases hi
  | selectorOther keyword placeholder =>
    cases e' with
    | selectorOther keyword' placeholder' =>
      have h : "FormatterError::SelectorOther: The required ‘other’ selector was not found for the keyword ‘".toList ++ keyword ++ "’ of the placeholder ‘".toList ++ placeholder ++ "’.".toList = "FormatterError::SelectorOther: The required ‘other’ selector was not found for the keyword ‘".toList ++ keyword' ++ "’ of the placeholder ‘".toList ++ placeholder' ++ "’.".toList := h
      obtain ⟨rfl, rfl⟩ := two_texts (by decide +kernel) he he' h
      rfl
    | _ => cases hi
  | noChildren nodeType =>
    cases e' with
    | noChildren nodeType' =>
      have h : "FormatterError::NoChildren: No children nodes was found for ‘".toList ++ nodeType ++ "’ node.".toList = "FormatterError::NoChildren: No children nodes was found for ‘".toList ++ nodeType' ++ "’ node.".toList := h
      rw [between h]
    | _ => cases hi
  | invalidOption option keyword placeholder =>
    cases e' with
    | invalidOption option' keyword' placeholder' =>
      have h : "FormatterError::InvalidOption: Invalid option ‘".toList ++ option ++ "’ for the keyword ‘".toList ++ keyword ++ "’ of the placeholder ‘".toList ++ placeholder ++ "’.".toList = "FormatterError::InvalidOption: Invalid option ‘".toList ++ option' ++ "’ for the keyword ‘".toList ++ keyword' ++ "’ of the placeholder ‘".toList ++ placeholder' ++ "’.".toList := h
      obtain ⟨rfl, rfl, rfl⟩ := three_texts (by decide +kernel) (by decide +kernel) he.1 he'.1 he.2 he'.2 h
      rfl
    | _ => cases hi
  | invalidSelector option keyword placeholder =>
    cases e' with
    | invalidSelector option' keyword' placeholder' =>
      have h : "FormatterError::InvalidSelector: Invalid selector ‘".toList ++ option ++ "’ for the keyword ‘".toList ++ keyword ++ "’ of the placeholder ‘".toList ++ placeholder ++ "’.".toList = "FormatterError::InvalidSelector: Invalid selector ‘".toList ++ option' ++ "’ for the keyword ‘".toList ++ keyword' ++ "’ of the placeholder ‘".toList ++ placeholder' ++ "’.".toList := h
      obtain ⟨rfl, rfl, rfl⟩ := three_texts (by decide +kernel) (by decide +kernel) he.1 he'.1 he.2 he'.2 h
      rfl
    | _ => cases hi
  | numberSignString index =>
    cases e' with
    | numberSignString index' =>
      have h : "FormatterError::NumberSignString: Unable to retrieve the formatted string for the NumberSign index ".toList ++ digits index ++ ".".toList = "FormatterError::NumberSignString: Unable to retrieve the formatted string for the NumberSign index ".toList ++ digits index' ++ ".".toList := h
      rw [digits_inj (between h)]
    | _ => cases hi
  | selectorsIndex index =>
    cases e' with
    | selectorsIndex index' =>
      have h : "FormatterError::SelectorsIndex: The index ".toList ++ digits index ++ " is not found in the collected selectors.".toList = "FormatterError::SelectorsIndex: The index ".toList ++ digits index' ++ " is not found in the collected selectors.".toList := h
      rw [digits_inj (between h)]
    | _ => cases hi
  | selectorsIndexNamed identifier index =>
    cases e' with
    | selectorsIndexNamed identifier' index' =>
      have h : "FormatterError::SelectorsIndexNamed: Failed to retrieve the string for the named string ‘".toList ++ identifier ++ "’ of the selectors index ".toList ++ digits index ++ ".".toList = "FormatterError::SelectorsIndexNamed: Failed to retrieve the string for the named string ‘".toList ++ identifier' ++ "’ of the selectors index ".toList ++ digits index' ++ ".".toList := h
      obtain ⟨rfl, rfl⟩ := text_last (c := ' ') rfl (by decide +kernel) h
      rfl
    | _ => cases hi
  | placeholderValue part placeholder =>
    cases e' with
    | placeholderValue part' placeholder' =>
      have h : "FormatterError::PlaceholderValue: The placeholder value was not found for the pattern part ‘".toList ++ part ++ "’ of the placeholder ‘".toList ++ placeholder ++ "’.".toList = "FormatterError::PlaceholderValue: The placeholder value was not found for the pattern part ‘".toList ++ part' ++ "’ of the placeholder ‘".toList ++ placeholder' ++ "’.".toList := h
      obtain ⟨rfl, rfl⟩ := two_texts (by decide +kernel) he he' h
      rfl
    | _ => cases hi
  | invalidValue part =>
    cases e' with
    | invalidValue part' =>
      have h : "FormatterError::InvalidValue: Invalid value type was provided for the pattern part ‘".toList ++ part ++ "’.".toList = "FormatterError::InvalidValue: Invalid value type was provided for the pattern part ‘".toList ++ part' ++ "’.".toList := h
      rw [between h]
    | _ => cases hi
  | namedStringIdentifier identifier =>
    cases e' with
    | namedStringIdentifier identifier' =>
      have h : "FormatterError::NamedStringIdentifier: The named string identifier ‘".toList ++ identifier ++ "’ already exists. The identifiers must be unique and not ‘_’.".toList = "FormatterError::NamedStringIdentifier: The named string identifier ‘".toList ++ identifier' ++ "’ already exists. The identifiers must be unique and not ‘_’.".toList := h
      rw [between h]
    | _ => cases hi
  | noIcuProvider =>
    cases e' with
    | noIcuProvider =>
      rfl
    | _ => cases hi
  | neverReached =>
    cases e' with
    | neverReached =>
      rfl
    | _ => cases hi

end Verif.MessageLemmas
