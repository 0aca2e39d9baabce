import Verif.Model.Errors
import Verif.Model.Localiser
/-
The messages of the errors of the parser, the formatter and the localiser.
-/
namespace Verif
open Verif.Errors

/-- `Display` for `ParserState`, crates/localiser/src/tree.rs:917-931. -/
def ParserState.display : ParserState → Str
  | .command => "Command".toList
  | .keyword => "Keyword".toList
  | .literal => "Literal".toList
  | .literalText => "LiteralText".toList
  | .namedGroup => "NamedGroup".toList
  | .namedString => "NamedString".toList
  | .pattern => "Pattern".toList
  | .string => "String".toList
  | .subString => "SubString".toList

/-- The error of the parser (crates/localiser/src/tree.rs) as the error that is displayed (crates/localiser/src/error.rs:46-53): the
state is displayed by its name (error.rs:226-232), the rest is the same. -/
def TreeError.told : TreeError → Errors.TreeError
  | .lexer .noGrammar => .lexer .noGrammar
  | .lexer .emptyString => .lexer .emptyString
  | .endedAbruptly => .endedAbruptly
  | .invalidToken state position token => .invalidToken state.display position token
  | .uniquePattern identifier => .uniquePattern identifier
  | .multiNumberSign position => .multiNumberSign position
  | .uniqueNamed identifier => .uniqueNamed identifier

/-- `Display` for `NodeType`, crates/localiser/src/tree.rs:88-103. -/
def NodeType.display : NodeType → Str
  | .root => "Root".toList
  | .namedGroup => "NamedGroup".toList
  | .namedString => "NamedString".toList
  | .string => "String".toList
  | .text => "Text".toList
  | .numberSign => "NumberSign".toList
  | .command => "Command".toList
  | .pattern => "Pattern".toList
  | .identifier => "Identifier".toList
  | .selector => "Selector".toList

variable {D F : Type}

/-- The error of a command as the error that is displayed (crates/localiser/src/error.rs:274-280). The error in `Custom` is a number in
the one and any error in the other. -/
def CommandError.told (custom : Nat → Errors.Custom D F) : CommandError → Errors.CommandError D F
  | .custom code => .custom (custom code)
  | .alreadyExists name => .alreadyExists name
  | .notFound name => .notFound name
  | .parameterMissing name index => .parameterMissing name index
  | .invalidType name index => .invalidType name index

/-- The error of the formatter (crates/localiser/src/formatter.rs) as the error that is displayed (crates/localiser/src/error.rs:767-806).
The errors of other libraries are not told apart in the former: `library` is their text. -/
def FormatterError.told (library : Str) (custom : Nat → Errors.Custom D F) : FormatterError → Errors.FormatterError D F
  | .tree e => .tree e.told
  | .locale => .locale library
  | .calendar => .calendar library
  | .parseInt => .parseInt library
  | .decimal => .decimal library
  | .dateTime => .dateTime library
  | .pluralRules => .pluralRules library
  | .fixedDecimal => .fixedDecimal library
  | .command e => .command (e.told custom)
  | .noGrammar => .noGrammar
  | .invalidRoot => .invalidRoot
  | .nodeNotFound n => .nodeNotFound n.display
  | .invalidNode n => .invalidNode n.display
  | .patternNamed name => .patternNamed name
  | .invalidOptionValue value option keyword => .invalidOptionValue value option keyword
  | .invalidKeyword keyword placeholder => .invalidKeyword keyword placeholder
  | .selectorNamed named selector placeholder => .selectorNamed named selector placeholder
  | .selectorOther keyword placeholder => .selectorOther keyword placeholder
  | .noChildren n => .noChildren n.display
  | .invalidOption value keyword placeholder => .invalidOption value keyword placeholder
  | .invalidSelector selector keyword placeholder => .invalidSelector selector keyword placeholder
  | .numberSignString index => .numberSignString index
  | .selectorsIndex index => .selectorsIndex index
  | .selectorsIndexNamed name index => .selectorsIndexNamed name index
  | .placeholderValue part placeholder => .placeholderValue part placeholder
  | .invalidValue part => .invalidValue part
  | .namedStringIdentifier name => .namedStringIdentifier name
  | .noIcuProvider => .noIcuProvider

/-- The error of the localiser (crates/localiser/src/localiser.rs) as the error that is displayed
(crates/localiser/src/error.rs:472-479). -/
def LocErr.told {P : Type} (provider : P → Errors.ProviderError D F) (library : Str) (custom : Nat → Errors.Custom D F) :
    LocErr P → Errors.LocaliserError D F
  | .provider e => .provider (provider e)
  | .formatter e => .formatter (e.told library custom)
  | .stringNotFound component identifier tag fallback => .stringNotFound component identifier tag fallback
  | .cacheEntry component identifier => .cacheEntry component identifier
  | .neverReached => .neverReached

end Verif
