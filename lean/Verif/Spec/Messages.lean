import Verif.Model.ErrorTexts
/-
Words for the property that messages tell errors apart.
-/
namespace Verif.Spec
open Verif Verif.Errors

variable {D F : Type}

/-- The number that the decimal digits stand for. -/
def decimal (s : Str) : Nat := s.foldl (fun n c => 10 * n + (c.toNat - '0'.toNat)) 0

/-- No closing quotation mark. -/
def NoQuote (s : Str) : Prop := '’' ∉ s

instance (s : Str) : Decidable (NoQuote s) := inferInstanceAs (Decidable (_ ∉ _))

/-- The errors of the parser; the name of a state has no quotation mark. -/
def QuotedTree : Errors.TreeError → Prop
  | .invalidToken state _ _ => NoQuote state
  | _ => True

/-- The errors of commands that are not of unknown type. -/
def QuotedCommand : Errors.CommandError D F → Prop
  | .custom _ => False
  | _ => True

/-- Errors of the formatter: of the texts that are quoted, those before the last have no quotation mark. -/
def Quoted : Errors.FormatterError D F → Prop
  | .tree e => QuotedTree e
  | .command e => QuotedCommand e
  | .invalidOptionValue x y _ => NoQuote x ∧ NoQuote y
  | .invalidKeyword x _ => NoQuote x
  | .selectorNamed x y _ => NoQuote x ∧ NoQuote y
  | .selectorOther x _ => NoQuote x
  | .invalidOption x y _ => NoQuote x ∧ NoQuote y
  | .invalidSelector x y _ => NoQuote x ∧ NoQuote y
  | .placeholderValue x _ => NoQuote x
  | _ => True

/-- Errors of the providers that are not of unknown type. -/
def QuotedProvider : Errors.ProviderError D F → Prop
  | .defaultLanguageCount x _ => NoQuote x
  | .custom _ => False
  | _ => True

/-- Errors of the localiser: of the texts that are quoted, those before the last have no quotation mark. -/
def QuotedLocaliser : Errors.LocaliserError D F → Prop
  | .formatter e => Quoted e
  | .provider e => QuotedProvider e
  | .stringNotFound x y _ _ => NoQuote x ∧ NoQuote y
  | .cacheEntry x _ => NoQuote x
  | _ => True

/-- Errors of the schema of a database: of the texts that are quoted, those before the last have no quotation mark. -/
def QuotedSchema : Errors.SchemaError → Prop
  | .version x _ => NoQuote x
  | .missingColumn x _ => NoQuote x
  | .columnProperty x y _ => NoQuote x ∧ NoQuote y
  | .columnDefault x y _ => NoQuote x ∧ NoQuote y
  | .columnMismatch x _ => NoQuote x
  | _ => True

/-- The same for errors of the provider for Sqlite3. -/
def QuotedSqlite : Errors.ProviderSqlite3Error → Prop
  | .schemaInvalid e => QuotedSchema e
  | _ => True

/-- An error of another library. -/
def FromLibrary (e : FormatterError) : Prop :=
  e = .locale ∨ e = .calendar ∨ e = .parseInt ∨ e = .decimal ∨ e = .dateTime ∨ e = .pluralRules ∨ e = .fixedDecimal

/-- The functions of ICU4X fail with their own errors only. -/
structure LibraryOnly (X : Icu4x D F) : Prop where
  decimal : ∀ lang g e, X.decimal lang g = .error e → FromLibrary e
  ofFloat : ∀ x e, X.ofFloat x = .error e → FromLibrary e
  cardinal : ∀ lang e, X.cardinal lang = .error e → FromLibrary e
  ordinal : ∀ lang e, X.ordinal lang = .error e → FromLibrary e
  date : ∀ lang l e, X.date lang l = .error e → FromLibrary e
  showDate : ∀ lang l f d e, X.date lang l = .ok f → f d = .error e → FromLibrary e
  time : ∀ lang l e, X.time lang l = .error e → FromLibrary e
  dateTime : ∀ lang l l' e, X.dateTime lang l l' = .error e → FromLibrary e
  showDateTime : ∀ lang l l' f d t e, X.dateTime lang l l' = .ok f → f d t = .error e → FromLibrary e

end Verif.Spec
