import Verif.Model.Errors
import Verif.Model.Shipped
import Verif.Spec.ProviderLocaliser
import Verif.Spec.Text
/-
Words for the properties of errors: the errors of all crates, a localiser that has the databases that the crates ship,
and which errors it has a text for.
-/
namespace Verif.Errors
open Verif Verif.Spec

variable {D F P E : Type}

/-- An error of one of the crates. -/
inductive AnyError (D F : Type) where
  | registry (error : RegistryError)
  | lexer (error : LexerError)
  | icu (error : IcuError)
  | tree (error : TreeError)
  | command (error : CommandError D F)
  | provider (error : ProviderError D F)
  | schema (error : SchemaError)
  | sqlite3 (error : ProviderSqlite3Error)
  | formatter (error : FormatterError D F)
  | localiser (error : LocaliserError D F)

/-- Its localisation data. -/
def AnyError.localisation : AnyError D F → LData D F
  | .registry e => e.localisation
  | .lexer e => e.localisation
  | .icu e => e.localisation
  | .tree e => e.localisation
  | .command e => e.localisation
  | .provider e => e.localisation
  | .schema e => e.localisation
  | .sqlite3 e => e.localisation
  | .formatter e => e.localisation
  | .localiser e => e.localisation

/-- The text `Display` writes. -/
def AnyError.display : AnyError D F → Str
  | .registry e => e.display
  | .lexer e => e.display
  | .icu e => e.display
  | .tree e => e.display
  | .command e => e.display
  | .provider e => e.display
  | .schema e => e.display
  | .sqlite3 e => e.display
  | .formatter e => e.display
  | .localiser e => e.display

def localiserName : Str := "i18n_localiser".toList
def providerName : Str := "i18n_provider".toList
def sqlite3Name : Str := "i18n_provider_sqlite3".toList
def lexerName : Str := "i18n_lexer".toList
def english : Str := "en-ZA".toList
def italian : Str := "it".toList

/-- The provider has the databases that the crates ship for the localiser and the providers, each as a file of its own;
there are no databases for the other components that errors name, as the crates ship none (for `i18n_lexer` see
`C58_lexer_database_breaks_details`). Other components may be there. -/
structure HasShipped (canon : Str → Except E Str) (p : Sqlite) (st : Verif.Store) : Prop where
  connected : Connected p
  keys : p.components.keys.Nodup
  localiser : p.components.get localiserName = some (false, true) ∧ st localiserName = Shipped.localiser
  provider : p.components.get providerName = some (false, true) ∧ st providerName = Shipped.provider
  sqlite3 : p.components.get sqlite3Name = some (false, true) ∧ st sqlite3Name = Shipped.sqlite3
  absent : ∀ c ∈ ["i18n_pattern".toList, "i18n_icu".toList, lexerName], p.components.get c = none
  details : ∃ x, p.buildCache canon st = .ok x
  english : canon english = .ok english
  italian : canon italian = .ok italian

/-- What is assumed of ICU: the properties of the characters that the strings use, and that it reads the tags of the
strings. -/
structure Reader (L : LocEnv D F P) : Prop where
  standard : Standard L.fmt
  letters : Letters L.fmt.icu
  english : ∃ lang, L.icuLanguage english = some lang
  italian : ∃ lang, L.icuLanguage italian = some lang

/-- The localiser gives a text for the data, in the language or with fallback. -/
def Localised (L : LocEnv D F P) (tag : Str) (d : LData D F) : Prop := ∃ x, (formatError L tag true false d []).1 = .ok x

/-! ### Which errors have a text

`ok` tells which errors of unknown type have one. -/

def IcuError.HasText : IcuError → Prop
  | .properties _ | .segmenter _ | .data _ => True
  | .grapheme | .syntax | .whiteSpace => False

def CommandError.HasText (ok : LData D F → Prop) : CommandError D F → Prop
  | .custom e => ok e.localisation
  | .alreadyExists _ | .notFound _ | .parameterMissing _ _ | .invalidType _ _ => False

def ProviderError.HasText (ok : LData D F → Prop) : ProviderError D F → Prop
  | .custom e => ok e.localisation
  | _ => True

def SchemaError.HasText : SchemaError → Prop
  | .version _ _ | .missingVersion _ => False
  | _ => True

def ProviderSqlite3Error.HasText : ProviderSqlite3Error → Prop
  | .noSqlite3Files _ => False
  | .schemaInvalid e => SchemaError.HasText e
  | _ => True

def FormatterError.HasText (ok : LData D F → Prop) : FormatterError D F → Prop
  | .command e => CommandError.HasText ok e
  | .patternPart _ _ | .invalidKeyword _ _ | .selectorOther _ _ | .invalidOption _ _ _ | .invalidSelector _ _ _
  | .numberSignString _ | .selectorsIndex _ | .selectorsIndexNamed _ _ | .namedStringIdentifier _ => False
  | _ => True

def LocaliserError.HasText (ok : LData D F → Prop) : LocaliserError D F → Prop
  | .formatter e => FormatterError.HasText ok e
  | .provider e => ProviderError.HasText ok e
  | _ => True

/-- The errors for which the databases have a text that can be formatted with the values of the error. -/
def AnyError.HasText (ok : LData D F → Prop) : AnyError D F → Prop
  | .registry _ => True
  | .lexer _ => False
  | .icu e => IcuError.HasText e
  | .tree _ => False
  | .command e => CommandError.HasText ok e
  | .provider e => ProviderError.HasText ok e
  | .schema e => SchemaError.HasText e
  | .sqlite3 e => ProviderSqlite3Error.HasText e
  | .formatter e => FormatterError.HasText ok e
  | .localiser e => LocaliserError.HasText ok e

/-! ### Agreement with `Display` -/

/-- The text of the localiser agrees with the text of `Display`: it is the same, or there is the same type, variant and
message, the message in quotes, or the same type and variant around texts that agree. -/
inductive Agrees : Str → Str → Prop
  | same (s : Str) : Agrees s s
  | message (type variant m : Str) (ht : ' ' ∉ type) (hv : ' ' ∉ variant) :
    Agrees (type ++ "::".toList ++ variant ++ ": ".toList ++ m)
      (type ++ "::".toList ++ variant ++ ": ‘".toList ++ m ++ "’.".toList)
  | embedded (type variant d l : Str) (ht : ' ' ∉ type) (hv : ' ' ∉ variant) (h : Agrees d l) :
    Agrees (type ++ "::".toList ++ variant ++ ": [".toList ++ d ++ "].".toList)
      (type ++ "::".toList ++ variant ++ ": [".toList ++ l ++ "].".toList)

/-- For the language that the messages of `Display` are in, the localiser gives a text that agrees with `display`. -/
def Speaks (L : LocEnv D F P) (d : LData D F) (display : Str) : Prop :=
  ∃ x, (formatError L Errors.english true false d []).1 = .ok x ∧ Agrees display x.1

/-! Which errors have a text that agrees; `ok` tells it for the errors of unknown type. -/

def ProviderError.Faithful (ok : Custom D F → Prop) : ProviderError D F → Prop
  | .custom e => ok e
  | .languageTagRegistry _ => False
  | _ => True

def SchemaError.Faithful : SchemaError → Prop
  | .sqlite3 _ | .missingColumn _ _ => True
  | _ => False

def ProviderSqlite3Error.Faithful : ProviderSqlite3Error → Prop
  | .io _ | .sqlite3 _ | .notDirectory _ | .notExists _ => True
  | _ => False

def FormatterError.Faithful : FormatterError D F → Prop
  | .command _ | .invalidRoot | .noIcuProvider => False
  | .patternPart _ _ | .invalidKeyword _ _ | .selectorOther _ _ | .invalidOption _ _ _ | .invalidSelector _ _ _
  | .numberSignString _ | .selectorsIndex _ | .selectorsIndexNamed _ _ | .namedStringIdentifier _ => False
  | _ => True

def LocaliserError.Faithful (ok : Custom D F → Prop) : LocaliserError D F → Prop
  | .registry _ | .cacheEntry _ _ => False
  | .formatter e => FormatterError.Faithful e
  | .provider e => ProviderError.Faithful ok e
  | _ => True

/-- The errors with a text that agrees with `Display`. -/
def AnyError.Faithful (ok : Custom D F → Prop) : AnyError D F → Prop
  | .registry _ | .lexer _ | .tree _ | .command _ => False
  | .icu e => IcuError.HasText e
  | .provider e => ProviderError.Faithful ok e
  | .schema e => SchemaError.Faithful e
  | .sqlite3 e => ProviderSqlite3Error.Faithful e
  | .formatter e => FormatterError.Faithful e
  | .localiser e => LocaliserError.Faithful ok e

end Verif.Errors
