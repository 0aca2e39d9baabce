import Verif.Model.Localiser
/-
The errors of the crates: what `Display` writes and the localisation data that `format_error` of the localiser uses.

Errors of other libraries are the texts that `Display` writes for them, node types and parser states too. An error of
unknown type (`dyn LocalisationErrorTrait`, `dyn ProviderErrorTrait`) is what it gives: its localisation data and its
text. A map of values is the list of its insertions (the keys differ). Texts of numbers are decimal digits.
-/
namespace Verif.Errors

/-- `LocalisationData`, crates/utility/src/types.rs:25-29. -/
structure LData (D F : Type) where
  component : Str
  identifier : Str
  values : Option (List (Str × PValue D F))

/-- `LocalisationData` as a value. -/
def LData.value {D F : Type} (d : LData D F) : PValue D F := .localisationData d.component d.identifier d.values

/-- An error of unknown type. -/
structure Custom (D F : Type) where
  localisation : LData D F
  display : Str

variable {D F : Type}

/-- A message without values. -/
def bare (component identifier : String) : LData D F := ⟨component.toList, identifier.toList, none⟩

/-- A message with values. -/
def message (component identifier : String) (values : List (String × PValue D F)) : LData D F :=
  ⟨component.toList, identifier.toList, some (values.map fun x => (x.1.toList, x.2))⟩

/-- The data of a variant with a message; the same lines for every variant, e.g. crates/localiser/src/error.rs:78-99.
-/
def enumFormat (type variant : String) (m : LData D F) : LData D F :=
  message "i18n_localiser" "error_format_enum"
    [("type", .string type.toList), ("variant", .string variant.toList), ("message", m.value)]

/-- The data of a variant that wraps an error; the same lines for every variant, e.g.
crates/localiser/src/error.rs:61-77. -/
def embedded (type variant : String) (error : PValue D F) : LData D F :=
  message "i18n_localiser" "error_format_enum_embedded"
    [("type", .string type.toList), ("variant", .string variant.toList), ("error", error)]

/-- The digits of a number. -/
def digits (n : Nat) : Str := (Nat.repr n).toList

/-- `RegistryError`, crates/utility/src/error.rs:23-28: `LanguageIdentifier` without and `Locale` with feature
`extend`. -/
inductive RegistryError where
  | languageIdentifier (error : Str)
  | locale (error : Str)
  deriving DecidableEq

/-- `localisation_data`, crates/utility/src/error.rs:32-77. The text for the type is that of another one (line 34). -/
def RegistryError.localisation : RegistryError → LData D F
  | .languageIdentifier error =>
    embedded "IcuError" "LanguageIdentifier" (.string error)
  | .locale error =>
    embedded "IcuError" "Locale" (.string error)

/-- `Display`, crates/utility/src/error.rs:79-93. -/
def RegistryError.display : RegistryError → Str
  | .languageIdentifier error =>
    "RegistryError::LanguageIdentifier: [".toList ++ error ++ "].".toList
  | .locale error =>
    "RegistryError::Locale: [".toList ++ error ++ "].".toList

/-- `LexerError`, crates/lexer/src/error.rs:261-264. -/
inductive LexerError where
  | noGrammar
  | emptyString
  deriving DecidableEq

/-- `localisation_data`, crates/lexer/src/error.rs:268-318. -/
def LexerError.localisation : LexerError → LData D F
  | .noGrammar =>
    enumFormat "LexerError" "NoGrammar" (bare "i18n_lexer" "no_grammar_syntax")
  | .emptyString =>
    enumFormat "LexerError" "EmptyString" (bare "i18n_lexer" "empty_string")

/-- `Display`, crates/lexer/src/error.rs:320-333. -/
def LexerError.display : LexerError → Str
  | .noGrammar =>
    "LexerError::NoGrammar: No grammar syntax characters was supplied.".toList
  | .emptyString =>
    "LexerError::EmptyString: Empty string was supplied.".toList

/-- `IcuError`, crates/lexer/src/error.rs:45-58 with feature `buffer`. -/
inductive IcuError where
  | properties (error : Str)
  | segmenter (error : Str)
  | data (error : Str)
  | grapheme
  | syntax
  | whiteSpace
  deriving DecidableEq

/-- `localisation_data`, crates/lexer/src/error.rs:62-194. Three variants are called `Grapheme` (lines 134, 156, 178).
-/
def IcuError.localisation : IcuError → LData D F
  | .properties error =>
    embedded "IcuError" "Properties" (.string error)
  | .segmenter error =>
    embedded "IcuError" "Segmenter" (.string error)
  | .data error =>
    embedded "IcuError" "Data" (.string error)
  | .grapheme =>
    enumFormat "IcuError" "Grapheme" (bare "i18n_icu" "grapheme")
  | .syntax =>
    enumFormat "IcuError" "Grapheme" (bare "i18n_icu" "syntax")
  | .whiteSpace =>
    enumFormat "IcuError" "Grapheme" (bare "i18n_icu" "white_space")

/-- `Display`, crates/lexer/src/error.rs:196-228. -/
def IcuError.display : IcuError → Str
  | .properties error =>
    "IcuError::Properties: [".toList ++ error ++ "].".toList
  | .segmenter error =>
    "IcuError::Segmenter: [".toList ++ error ++ "].".toList
  | .data error =>
    "IcuError::Data: [".toList ++ error ++ "].".toList
  | .grapheme =>
    "No data provider is available for the ‘GraphemeClusterSegmenter’.".toList
  | .syntax =>
    "No data provider is available for the ‘Pattern_Syntax’.".toList
  | .whiteSpace =>
    "No data provider is available for the ‘Pattern_White_Space’.".toList

/-- `TreeError`, crates/localiser/src/error.rs:46-53. -/
inductive TreeError where
  | lexer (error : LexerError)
  | endedAbruptly
  | invalidToken (state : Str) (position : Nat) (token : Str)
  | uniquePattern (identifier : Str)
  | multiNumberSign (position : Nat)
  | uniqueNamed (identifier : Str)
  deriving DecidableEq

/-- `localisation_data`, crates/localiser/src/error.rs:57-215. -/
def TreeError.localisation : TreeError → LData D F
  | .lexer error =>
    embedded "TreeError" "LexerError" error.localisation.value
  | .endedAbruptly =>
    enumFormat "TreeError" "EndedAbruptly" (bare "i18n_pattern" "string_ended_abruptly")
  | .invalidToken state position token =>
    enumFormat "TreeError" "InvalidToken" (message "i18n_pattern" "invalid_token"
      [("state", .string state), ("position", .unsigned position), ("token", .string token)])
  | .uniquePattern identifier =>
    enumFormat "TreeError" "UniquePattern" (message "i18n_pattern" "unique_pattern"
      [("identifier", .string identifier)])
  | .multiNumberSign position =>
    enumFormat "TreeError" "MultiNumberSign" (message "i18n_pattern" "multi_number_sign"
      [("position", .unsigned position)])
  | .uniqueNamed identifier =>
    enumFormat "TreeError" "UniqueNamed" (message "i18n_pattern" "unique_named" [("identifier", .string identifier)])

/-- `Display`, crates/localiser/src/error.rs:217-251. -/
def TreeError.display : TreeError → Str
  | .lexer error =>
    "TreeError::LexerError: [".toList ++ error.display ++ "].".toList
  | .endedAbruptly =>
    "TreeError::EndedAbruptly: The string ended abruptly.".toList
  | .invalidToken state position token =>
    "TreeError::InvalidToken: In the parser state ‘".toList ++ state ++ "’ an invalid token ‘".toList ++ token ++
      "’ was found at the position ".toList ++ digits position ++ " of the string.".toList
  | .uniquePattern identifier =>
    "TreeError::UniquePattern: Pattern identifiers must be unique. The identifier ‘".toList ++ identifier ++
      "’ already exists.".toList
  | .multiNumberSign position =>
    "TreeError::MultiNumberSign: Found sequential number signs at the position ".toList ++ digits position ++
      " of the string.".toList
  | .uniqueNamed identifier =>
    "TreeError::UniqueNamed: Named substrings must have unique identifiers. The identifier ‘".toList ++
      identifier ++ "’ already exists.".toList

/-- `CommandError`, crates/localiser/src/error.rs:274-280. -/
inductive CommandError (D F : Type) where
  | custom (error : Custom D F)
  | alreadyExists (command : Str)
  | notFound (command : Str)
  | parameterMissing (command : Str) (index : Nat)
  | invalidType (command : Str) (index : Nat)

/-- `localisation_data`, crates/localiser/src/error.rs:284-423. `Custom` is called `Registry` (line 294). -/
def CommandError.localisation : CommandError D F → LData D F
  | .custom error =>
    embedded "CommandError" "Registry" error.localisation.value
  | .alreadyExists command =>
    enumFormat "CommandError" "AlreadyExists" (message "i18n_pattern" "already_exists" [("command", .string command)])
  | .notFound command =>
    enumFormat "CommandError" "NotFound" (message "i18n_pattern" "command_not_found" [("command", .string command)])
  | .parameterMissing command index =>
    enumFormat "CommandError" "ParameterMissing" (message "i18n_pattern" "parameter_missing"
      [("command", .string command), ("index", .unsigned index)])
  | .invalidType command index =>
    enumFormat "CommandError" "InvalidType" (message "i18n_pattern" "invalid_type"
      [("command", .string command), ("index", .unsigned index)])

/-- `Display`, crates/localiser/src/error.rs:425-455. -/
def CommandError.display : CommandError D F → Str
  | .custom error =>
    "CommandError::Custom: [".toList ++ error.display ++ "].".toList
  | .alreadyExists command =>
    "CommandError::AlreadyExists: The command ‘".toList ++ command ++ "’ already exists in the CommandRegistry.".toList
  | .notFound command =>
    "CommandError::NotFound: The command ‘".toList ++ command ++ "’ was not found in the CommandRegistry.".toList
  | .parameterMissing command index =>
    "CommandError::ParameterMissing: The parameter number ".toList ++ digits index ++
      " is missing for the command ‘".toList ++ command ++ "’.".toList
  | .invalidType command index =>
    "CommandError::InvalidType: The parameter number ".toList ++ digits index ++
      " has invalid type for the command ‘".toList ++ command ++ "’.".toList

/-- `ProviderError`, crates/provider/core/src/error.rs:39-46. -/
inductive ProviderError (D F : Type) where
  | componentNotFound (component : Str)
  | languageTagRegistry (error : RegistryError)
  | defaultLanguage (component : Str)
  | invalidDefaultLanguage (component : Str)
  | defaultLanguageCount (component : Str) (language : Str)
  | custom (error : Custom D F)

/-- `localisation_data`, crates/provider/core/src/error.rs:50-202. -/
def ProviderError.localisation : ProviderError D F → LData D F
  | .componentNotFound component =>
    enumFormat "ProviderError" "ComponentNotFound" (message "i18n_provider" "component_not_found"
      [("component", .string component)])
  | .languageTagRegistry error =>
    embedded "ProviderError" "LanguageTagRegistry" error.localisation.value
  | .defaultLanguage component =>
    enumFormat "ProviderError" "DefaultLanguage" (message "i18n_provider" "default_language"
      [("component", .string component)])
  | .invalidDefaultLanguage component =>
    enumFormat "ProviderError" "InvalidDefaultLanguage" (message "i18n_provider" "invalid_default_language"
      [("component", .string component)])
  | .defaultLanguageCount component language =>
    enumFormat "ProviderError" "DefaultLanguageCount" (message "i18n_provider" "default_language_count"
      [("component", .string component), ("language", .string language)])
  | .custom error =>
    embedded "ProviderError" "Custom" error.localisation.value

/-- `Display`, crates/provider/core/src/error.rs:204-235. -/
def ProviderError.display : ProviderError D F → Str
  | .componentNotFound component =>
    "ProviderError::ComponentNotFound: The component ‘".toList ++ component ++ "’ could not found.".toList
  | .languageTagRegistry error =>
    "ProviderError::LanguageTagRegistry: [".toList ++ error.display ++ "].".toList
  | .defaultLanguage component =>
    "ProviderError::DefaultLanguage: The default language tag is missing for the component ‘".toList ++ component ++
      "’.".toList
  | .invalidDefaultLanguage component =>
    "ProviderError::InvalidDefaultLanguage: The default language tag is invalid for the component ‘".toList ++
      component ++ "’.".toList
  | .defaultLanguageCount component language =>
    "ProviderError::DefaultLanguageCount: There are no localisation strings in the component ‘".toList ++
      component ++ "’ for the default language tag ‘".toList ++ language ++ "’.".toList
  | .custom error =>
    "ProviderError::Custom: [".toList ++ error.display ++ "].".toList

/-- `SchemaError`, crates/provider/sqlite3/src/error.rs:287-296. -/
inductive SchemaError where
  | sqlite3 (error : Str)
  | missingTable (name : Str)
  | version (path : Str) (required : Str)
  | missingVersion (path : Str)
  | missingColumn (table : Str) (column : Str)
  | columnProperty (table : Str) (column : Str) (property : Str)
  | columnDefault (table : Str) (column : Str) (default : Str)
  | columnMismatch (table : Str) (column : Str)
  deriving DecidableEq

/-- `localisation_data`, crates/provider/sqlite3/src/error.rs:298-458. -/
def SchemaError.localisation : SchemaError → LData D F
  | .sqlite3 error =>
    embedded "SchemaError" "Sqlite3" (.string error)
  | .missingTable name =>
    message "i18n_provider_sqlite3" "missing_table" [("name", .string name)]
  | .version path required =>
    enumFormat "SchemaError" "Version" (message "i18n_provider_sqlite3" "schema_version"
      [("path", .string path), ("version", .string required)])
  | .missingVersion path =>
    enumFormat "SchemaError" "MissingVersion" (message "i18n_provider_sqlite3" "schema_version_missing"
      [("path", .string path)])
  | .missingColumn table column =>
    message "i18n_provider_sqlite3" "missing_column" [("table", .string table), ("column", .string column)]
  | .columnProperty table column property =>
    message "i18n_provider_sqlite3" "column_property"
      [("table", .string table), ("column", .string column), ("property", .string property)]
  | .columnDefault table column default =>
    message "i18n_provider_sqlite3" "column_default"
      [("table", .string table), ("column", .string column), ("default", .string default)]
  | .columnMismatch table column =>
    message "i18n_provider_sqlite3" "column_mismatch" [("table", .string table), ("column", .string column)]

/-- `Display`, crates/provider/sqlite3/src/error.rs:460-513. The arguments of the last variant are exchanged. -/
def SchemaError.display : SchemaError → Str
  | .sqlite3 error =>
    "SchemaError::Sqlite3: [".toList ++ error ++ "].".toList
  | .missingTable name =>
    "The database is missing table ‘".toList ++ name ++ "’.".toList
  | .version path required =>
    "SchemaError::Version: The Sqlite3 file ‘".toList ++ path ++
      "’ is using unsupported schema version. The schema version must be ‘".toList ++ required ++ "’.".toList
  | .missingVersion path =>
    "SchemaError::MissingVersion: The Sqlite3 file ‘".toList ++ path ++
      "’ is missing the schema version entry in the ‘metadata’ table.".toList
  | .missingColumn table column =>
    "The table ‘".toList ++ table ++ "’ is missing column ‘".toList ++ column ++ "’.".toList
  | .columnProperty table column property =>
    "The column ‘".toList ++ column ++ "’ of table ‘".toList ++ table ++ "’ is missing property ‘".toList ++
      property ++ "’.".toList
  | .columnDefault table column default =>
    "The column ‘".toList ++ column ++ "’ of table ‘".toList ++ table ++
      "’ must have a default value of ‘".toList ++ default ++ "’.".toList
  | .columnMismatch table column =>
    "Check `verify_schema()` as default value type does not match column type for the column ‘".toList ++ table ++
      "’ of table ‘".toList ++ column ++ "’.".toList

/-- `ProviderSqlite3Error`, crates/provider/sqlite3/src/error.rs:39-47. A path is the text that `Path::display` gives.
-/
inductive ProviderSqlite3Error where
  | io (error : Str)
  | sqlite3 (error : Str)
  | notDirectory (path : Str)
  | noSqlite3Files (path : Str)
  | pathConversion
  | notExists (path : Str)
  | schemaInvalid (error : SchemaError)
  deriving DecidableEq

/-- `localisation_data`, crates/provider/sqlite3/src/error.rs:51-213. -/
def ProviderSqlite3Error.localisation : ProviderSqlite3Error → LData D F
  | .io error =>
    embedded "ProviderSqlite3Error" "Io" (.string error)
  | .sqlite3 error =>
    embedded "ProviderSqlite3Error" "Sqlite3" (.string error)
  | .notDirectory path =>
    enumFormat "ProviderSqlite3Error" "NotDirectory" (message "i18n_provider_sqlite3" "path_not_directory"
      [("path", .string path)])
  | .noSqlite3Files path =>
    enumFormat "ProviderSqlite3Error" "NoSqlite3Files" (message "i18n_provider_sqlite3" "no_sqlite3"
      [("path", .string path)])
  | .pathConversion =>
    enumFormat "ProviderSqlite3Error" "PathConversion" (bare "i18n_provider_sqlite3" "path_conversion")
  | .notExists path =>
    enumFormat "ProviderSqlite3Error" "NotExists" (message "i18n_provider_sqlite3" "path_not_exist"
      [("path", .string path)])
  | .schemaInvalid error =>
    enumFormat "ProviderSqlite3Error" "SchemaInvalid" error.localisation

/-- `Display`, crates/provider/sqlite3/src/error.rs:215-250. -/
def ProviderSqlite3Error.display : ProviderSqlite3Error → Str
  | .io error =>
    "ProviderSqlite3Error::Io: [".toList ++ error ++ "].".toList
  | .sqlite3 error =>
    "ProviderSqlite3Error::Sqlite3: [".toList ++ error ++ "].".toList
  | .notDirectory path =>
    "ProviderSqlite3Error::NotDirectory: Provided path ‘".toList ++ path ++ "’ is not a directory.".toList
  | .noSqlite3Files path =>
    "ProviderSqlite3Error::NoSqlite3Files: No ‘.sqlite3’ files was found in ‘".toList ++ path ++ "’.".toList
  | .pathConversion =>
    "ProviderSqlite3Error::PathConversion: Conversion to PathBuf error.".toList
  | .notExists path =>
    "ProviderSqlite3Error::NotExists: Provided path ‘".toList ++ path ++ "’ does not exist.".toList
  | .schemaInvalid error =>
    "ProviderSqlite3Error::SchemaInvalid: [".toList ++ error.display ++ "].".toList

/-- `FormatterError`, crates/localiser/src/error.rs:769-806. The error that `Localiser` wraps is its text: nothing
else of it is used. -/
inductive FormatterError (D F : Type) where
  | localiser (error : Str)
  | tree (error : TreeError)
  | locale (error : Str)
  | calendar (error : Str)
  | parseInt (error : Str)
  | decimal (error : Str)
  | dateTime (error : Str)
  | pluralRules (error : Str)
  | fixedDecimal (error : Str)
  | command (error : CommandError D F)
  | invalidRoot
  | noGrammar
  | retrieveChildren (nodeType : Str)
  | nodeNotFound (nodeType : Str)
  | firstChild (nodeType : Str)
  | retrieveNodeData (nodeType : Str)
  | retrieveNodeToken (nodeType : Str)
  | lastChild (nodeType : Str)
  | invalidNode (nodeType : Str)
  | patternNamed (identifier : Str)
  | patternPart (identifier : Str) (index : Nat)
  | invalidOptionValue (value : Str) (option : Str) (keyword : Str)
  | invalidKeyword (keyword : Str) (placeholder : Str)
  | selectorNamed (named : Str) (selector : Str) (identifier : Str)
  | selectorOther (keyword : Str) (placeholder : Str)
  | noChildren (nodeType : Str)
  | invalidOption (option : Str) (keyword : Str) (placeholder : Str)
  | invalidSelector (option : Str) (keyword : Str) (placeholder : Str)
  | numberSignString (index : Nat)
  | selectorsIndex (index : Nat)
  | selectorsIndexNamed (identifier : Str) (index : Nat)
  | placeholderValue (part : Str) (placeholder : Str)
  | invalidValue (part : Str)
  | namedStringIdentifier (identifier : Str)
  | noIcuProvider
  | neverReached

/-- `localisation_data`, crates/localiser/src/error.rs:810-1729. -/
def FormatterError.localisation : FormatterError D F → LData D F
  | .localiser error =>
    embedded "FormatterError" "Localiser" (.string error)
  | .tree error =>
    embedded "FormatterError" "Tree" (.string error.display)
  | .locale error =>
    embedded "FormatterError" "Locale" (.string error)
  | .calendar error =>
    embedded "FormatterError" "Calendar" (.string error)
  | .parseInt error =>
    embedded "FormatterError" "ParseInt" (.string error)
  | .decimal error =>
    embedded "FormatterError" "Decimal" (.string error)
  | .dateTime error =>
    embedded "FormatterError" "DateTime" (.string error)
  | .pluralRules error =>
    embedded "FormatterError" "PluralRules" (.string error)
  | .fixedDecimal error =>
    embedded "FormatterError" "FixedDecimal" (.string error)
  | .command error =>
    embedded "FormatterError" "Command" error.localisation.value
  | .invalidRoot =>
    enumFormat "FormatterError" "InvalidRoot" (bare "i18n_localiser" "invalid_root")
  | .noGrammar =>
    enumFormat "FormatterError" "NoGrammar" (bare "i18n_localiser" "no_grammar")
  | .retrieveChildren nodeType =>
    enumFormat "FormatterError" "RetrieveChildren" (message "i18n_localiser" "retrieve_children"
      [("node_type", .string nodeType)])
  | .nodeNotFound nodeType =>
    enumFormat "FormatterError" "NodeNotFound" (message "i18n_localiser" "node_not_found"
      [("node_type", .string nodeType)])
  | .firstChild nodeType =>
    enumFormat "FormatterError" "FirstChild" (message "i18n_localiser" "first_child" [("node_type", .string nodeType)])
  | .retrieveNodeData nodeType =>
    enumFormat "FormatterError" "RetrieveNodeData" (message "i18n_localiser" "retrieve_node_data"
      [("node_type", .string nodeType)])
  | .retrieveNodeToken nodeType =>
    enumFormat "FormatterError" "RetrieveNodeToken" (message "i18n_localiser" "retrieve_node_token"
      [("node_type", .string nodeType)])
  | .lastChild nodeType =>
    enumFormat "FormatterError" "LastChild" (message "i18n_localiser" "last_child" [("node_type", .string nodeType)])
  | .invalidNode nodeType =>
    enumFormat "FormatterError" "InvalidNode" (message "i18n_localiser" "invalid_node"
      [("node_type", .string nodeType)])
  | .patternNamed identifier =>
    enumFormat "FormatterError" "PatternNamed" (message "i18n_localiser" "pattern_named"
      [("identifier", .string identifier)])
  | .patternPart identifier index =>
    enumFormat "FormatterError" "PatternPart" (message "i18n_localiser" "pattern_part"
      [("identifier", .string identifier), ("index", .unsigned index)])
  | .invalidOptionValue value option keyword =>
    enumFormat "FormatterError" "InvalidOptionValue" (message "i18n_localiser" "invalid_option_value"
      [("value", .string value), ("option", .string option), ("keyword", .string keyword)])
  | .invalidKeyword keyword placeholder =>
    enumFormat "FormatterError" "InvalidKeyword" (message "i18n_localiser" "invalid_keyword"
      [("keyword", .string keyword), ("placeholder", .string placeholder)])
  | .selectorNamed named selector identifier =>
    enumFormat "FormatterError" "SelectorNamed" (message "i18n_localiser" "selector_named"
      [("named", .string named), ("selector", .string selector), ("identifier", .string identifier)])
  | .selectorOther keyword placeholder =>
    enumFormat "FormatterError" "SelectorOther" (message "i18n_localiser" "selector_other"
      [("keyword", .string keyword), ("placeholder", .string placeholder)])
  | .noChildren nodeType =>
    enumFormat "FormatterError" "NoChildren" (message "i18n_localiser" "no_children" [("node_type", .string nodeType)])
  | .invalidOption option keyword placeholder =>
    enumFormat "FormatterError" "InvalidOption" (message "i18n_localiser" "invalid_option"
      [("option", .string option), ("keyword", .string keyword), ("placeholder", .string placeholder)])
  | .invalidSelector option keyword placeholder =>
    enumFormat "FormatterError" "InvalidSelector" (message "i18n_localiser" "invalid_selector"
      [("option", .string option), ("keyword", .string keyword), ("placeholder", .string placeholder)])
  | .numberSignString index =>
    enumFormat "FormatterError" "NumberSignString" (message "i18n_localiser" "number_sign_string"
      [("index", .unsigned index)])
  | .selectorsIndex index =>
    enumFormat "FormatterError" "SelectorsIndex" (message "i18n_localiser" "selectors_index"
      [("index", .unsigned index)])
  | .selectorsIndexNamed identifier index =>
    enumFormat "FormatterError" "SelectorsIndexNamed" (message "i18n_localiser" "selectors_index_named"
      [("identifier", .string identifier), ("index", .unsigned index)])
  | .placeholderValue part placeholder =>
    enumFormat "FormatterError" "PlaceholderValue" (message "i18n_localiser" "placeholder_value"
      [("part", .string part), ("placeholder", .string placeholder)])
  | .invalidValue part =>
    enumFormat "FormatterError" "InvalidValue" (message "i18n_localiser" "invalid_value" [("part", .string part)])
  | .namedStringIdentifier identifier =>
    enumFormat "FormatterError" "NamedStringIdentifier" (message "i18n_localiser" "named_string_identifier"
      [("identifier", .string identifier)])
  | .noIcuProvider =>
    enumFormat "FormatterError" "NoIcuProvider" (bare "i18n_localiser" "no_icu_provider")
  | .neverReached =>
    enumFormat "FormatterError" "NeverReached" (bare "i18n_localiser" "never_reach")

/-- `Display`, crates/localiser/src/error.rs:1731-1856. The arguments of `PatternPart` are exchanged. -/
def FormatterError.display : FormatterError D F → Str
  | .localiser error =>
    "FormatterError::Localiser: [".toList ++ error ++ "].".toList
  | .tree error =>
    "FormatterError::Tree: [".toList ++ error.display ++ "].".toList
  | .locale error =>
    "FormatterError::Locale: [".toList ++ error ++ "].".toList
  | .calendar error =>
    "FormatterError::Calendar: [".toList ++ error ++ "].".toList
  | .parseInt error =>
    "FormatterError::ParseInt: [".toList ++ error ++ "].".toList
  | .decimal error =>
    "FormatterError::Decimal: [".toList ++ error ++ "].".toList
  | .dateTime error =>
    "FormatterError::DateTime: [".toList ++ error ++ "].".toList
  | .pluralRules error =>
    "FormatterError::PluralRules: [".toList ++ error ++ "].".toList
  | .fixedDecimal error =>
    "FormatterError::FixedDecimal: [".toList ++ error ++ "].".toList
  | .command error =>
    "FormatterError::Command: [".toList ++ error.display ++ "].".toList
  | .invalidRoot =>
    "FormatterError::InvalidRoot: The tree root must be a ‘Root’ node.".toList
  | .noGrammar =>
    "FormatterError::NoGrammar: No grammar syntax characters was found in the provided localisation string.".toList
  | .retrieveChildren nodeType =>
    "FormatterError::RetrieveChildren: Failed to retrieve the children for the ‘".toList ++ nodeType ++ "’ node.".toList
  | .nodeNotFound nodeType =>
    "FormatterError::NodeNotFound: The expected node ‘".toList ++ nodeType ++ "’ was not found.".toList
  | .firstChild nodeType =>
    "FormatterError::FirstChild: The first child of the ‘".toList ++ nodeType ++ "’ node was not found.".toList
  | .retrieveNodeData nodeType =>
    "FormatterError::RetrieveNodeData: Failed to retrieve the data for the ‘".toList ++ nodeType ++ "’ node.".toList
  | .retrieveNodeToken nodeType =>
    "FormatterError::RetrieveNodeToken: Failed to retrieve the token for the ‘".toList ++ nodeType ++ "’ node.".toList
  | .lastChild nodeType =>
    "FormatterError::LastChild: The last child of the ‘".toList ++ nodeType ++ "’ node was not found.".toList
  | .invalidNode nodeType =>
    "FormatterError::InvalidNode: Invalid child node found in the ‘".toList ++ nodeType ++ "’ node.".toList
  | .patternNamed identifier =>
    "FormatterError::PatternNamed: Failed to retrieve the pattern for the named string ‘".toList ++ identifier ++
      "’.".toList
  | .patternPart identifier index =>
    "FormatterError::PatternPart: Failed to retrieve the part ‘".toList ++ identifier ++
      "’ of the pattern for the named string ‘".toList ++ digits index ++ "’.".toList
  | .invalidOptionValue value option keyword =>
    "FormatterError::InvalidOptionValue: The value ‘".toList ++ value ++ "’ is invalid for the option ‘".toList ++
      option ++ "’ for the keyword ‘".toList ++ keyword ++ "’.".toList
  | .invalidKeyword keyword placeholder =>
    "FormatterError::InvalidKeyword: Invalid keyword ‘".toList ++ keyword ++ "’ for the placeholder ‘".toList ++
      placeholder ++ "’.".toList
  | .selectorNamed named selector identifier =>
    "FormatterError::SelectorNamed: The named string identifier ‘".toList ++ named ++
      "’ was not found for the selector ‘".toList ++ selector ++ "’ of the placeholder ‘".toList ++ identifier ++
      "’.".toList
  | .selectorOther keyword placeholder =>
    "FormatterError::SelectorOther: The required ‘other’ selector was not found for the keyword ‘".toList ++
      keyword ++ "’ of the placeholder ‘".toList ++ placeholder ++ "’.".toList
  | .noChildren nodeType =>
    "FormatterError::NoChildren: No children nodes was found for ‘".toList ++ nodeType ++ "’ node.".toList
  | .invalidOption option keyword placeholder =>
    "FormatterError::InvalidOption: Invalid option ‘".toList ++ option ++ "’ for the keyword ‘".toList ++ keyword ++
      "’ of the placeholder ‘".toList ++ placeholder ++ "’.".toList
  | .invalidSelector option keyword placeholder =>
    "FormatterError::InvalidSelector: Invalid selector ‘".toList ++ option ++ "’ for the keyword ‘".toList ++
      keyword ++ "’ of the placeholder ‘".toList ++ placeholder ++ "’.".toList
  | .numberSignString index =>
    "FormatterError::NumberSignString: Unable to retrieve the formatted string for the NumberSign index ".toList ++
      digits index ++ ".".toList
  | .selectorsIndex index =>
    "FormatterError::SelectorsIndex: The index ".toList ++ digits index ++
      " is not found in the collected selectors.".toList
  | .selectorsIndexNamed identifier index =>
    "FormatterError::SelectorsIndexNamed: Failed to retrieve the string for the named string ‘".toList ++
      identifier ++ "’ of the selectors index ".toList ++ digits index ++ ".".toList
  | .placeholderValue part placeholder =>
    "FormatterError::PlaceholderValue: The placeholder value was not found for the pattern part ‘".toList ++ part ++
      "’ of the placeholder ‘".toList ++ placeholder ++ "’.".toList
  | .invalidValue part =>
    "FormatterError::InvalidValue: Invalid value type was provided for the pattern part ‘".toList ++ part ++ "’.".toList
  | .namedStringIdentifier identifier =>
    "FormatterError::NamedStringIdentifier: The named string identifier ‘".toList ++ identifier ++
      "’ already exists. The identifiers must be unique and not ‘_’.".toList
  | .noIcuProvider =>
    "FormatterError::NoIcuProvider: Build error: At least one ICU4X data provider must be specified for the crate ‘i18n_icu’ using the crate's features.".toList
  | .neverReached =>
    "FormatterError::NeverReached: Build error: Should never have reached this match branch.".toList

/-- The text for a flag, crates/localiser/src/error.rs:539-542. -/
def flag (b : Bool) : Str := if b then "true".toList else "false".toList

/-- The text for a flag in `Display`, crates/localiser/src/error.rs:650-653. -/
def flagDisplay (b : Bool) : Str := if b then "True".toList else "False".toList

/-- `LocaliserError`, crates/localiser/src/error.rs:472-479. -/
inductive LocaliserError (D F : Type) where
  | registry (error : RegistryError)
  | formatter (error : FormatterError D F)
  | provider (error : ProviderError D F)
  | stringNotFound (component : Str) (identifier : Str) (languageTag : Str) (fallback : Bool)
  | cacheEntry (component : Str) (identifier : Str)
  | neverReached

/-- `localisation_data`, crates/localiser/src/error.rs:483-633. -/
def LocaliserError.localisation : LocaliserError D F → LData D F
  | .registry error =>
    embedded "LocaliserError" "Registry" error.localisation.value
  | .formatter error =>
    embedded "LocaliserError" "Formatter" error.localisation.value
  | .provider error =>
    embedded "LocaliserError" "Provider" error.localisation.value
  | .stringNotFound component identifier languageTag fallback =>
    enumFormat "LocaliserError" "StringNotFound" (message "i18n_localiser" "string_not_found"
      [("component", .string component), ("identifier", .string identifier), ("language_tag", .string languageTag),
      ("fallback", .string (flag fallback))])
  | .cacheEntry component identifier =>
    enumFormat "LocaliserError" "CacheEntry" (message "i18n_localiser" "cache_entry"
      [("component", .string component), ("identifier", .string identifier)])
  | .neverReached =>
    enumFormat "LocaliserError" "NeverReached" (bare "i18n_localiser" "never_reach")

/-- `Display`, crates/localiser/src/error.rs:635-675. The text of `CacheEntry` has a line break in it (line 667). -/
def LocaliserError.display : LocaliserError D F → Str
  | .registry error =>
    "LocaliserError::Registry: [".toList ++ error.display ++ "].".toList
  | .formatter error =>
    "LocaliserError::Formatter: [".toList ++ error.display ++ "].".toList
  | .provider error =>
    "LocaliserError::Provider: [".toList ++ error.display ++ "].".toList
  | .stringNotFound component identifier languageTag fallback =>
    "LocaliserError::StringNotFound: No string was found for the component ‘".toList ++ component ++
      "’ with identifier ‘".toList ++ identifier ++ "’ for the language tag ‘".toList ++ languageTag ++
      "’. Fallback was used: ".toList ++ flagDisplay fallback ++ ".".toList
  | .cacheEntry component identifier =>
    "LocaliserError::CacheEntry: Unable to get the string for the component ‘".toList ++ component ++
      "’ with the identifier\n                ‘".toList ++ identifier ++
      "’ as the cache entry requires values for formatting.".toList
  | .neverReached =>
    "LocaliserError::NeverReached: Build error: Should never have reached this match branch.".toList

/-- `format_error`, crates/localiser/src/localiser.rs:813-837, once the flags are known. -/
def formatError {P : Type} (L : LocEnv D F P) (tag : Str) (fallback caching : Bool) (data : LData D F) (cache : Cache) :
    LocM P (Str × Str) × Cache :=
  actualData L tag fallback caching data.component data.identifier data.values cache

end Verif.Errors
