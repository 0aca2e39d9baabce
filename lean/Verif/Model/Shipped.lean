import Verif.Model.Sqlite
/-
The string databases that the crates ship, as data. Only the columns that the provider asks for are given.
-/
namespace Verif.Shipped

/-- The characters of a text, written out for the kernel. -/
macro "chars! " s:str : term => do
  let cs := s.getString.toList.toArray.map fun c => Lean.Syntax.mkCharLit c
  `([$cs,*])

/-- A row of the table `pattern`: component, identifier, language tag and string. -/
macro "row! " c:str i:str t:str s:str : term =>
  `(PatternRow.mk (chars! $c) (chars! $i) (chars! $t) (chars! $s))

/-- The table `pattern` of crates/localiser/l10n/i18n_localiser.sqlite3. -/
def localiserRows : List PatternRow := [
  row! "i18n_localiser" "string_not_found" "en-ZA"
    "No string was found for the component ‘{component}’ with identifier ‘{identifier}’ for the language tag ‘{language_tag}’. Fallback was used: {fallback select true#true false#false}.#{true True}{false False}",
  row! "i18n_localiser" "string_not_found" "it"
    "Non è stata trovata alcuna stringa per il componente “{component}” con l'identificatore “{identifier}” e il tag della lingua “{language_tag}”. È stato utilizzato il fallback: {fallback select true#true false#false}.#{true Vero}{false Falso}",
  row! "i18n_localiser" "cache_entry" "en-ZA"
    "Unable to get the string for the component ‘{component}’ with the identifier ‘{identifier}’ as the cache entry requires values for formatting.",
  row! "i18n_localiser" "cache_entry" "it"
    "Impossibile ottenere la stringa per il componente \"{component}\" con l'identificatore \"{identifier}\" poiché la voce della cache richiede valori per la formattazione.",
  row! "i18n_localiser" "error_format_enum" "en-ZA"
    "{type}::{variant}: ‘{message}’.",
  row! "i18n_localiser" "error_format_enum_embedded" "en-ZA"
    "{type}::{variant}: [{error}].",
  row! "i18n_localiser" "error_format" "en-ZA"
    "{type}: ‘{message}’.",
  row! "i18n_localiser" "error_format_embedded" "en-ZA"
    "{type}: [{error}].",
  row! "i18n_localiser" "invalid_root" "en-ZA"
    "The tree root must be a ‘{`Root`}’ node.",
  row! "i18n_localiser" "retrieve_children" "en-ZA"
    "Failed to retrieve the children for the ‘{node_type}’ node.",
  row! "i18n_localiser" "first_child" "en-ZA"
    "The first child of the ‘{node_type}’ node was not found.",
  row! "i18n_localiser" "node_not_found" "en-ZA"
    "The expected node ‘{node_type}’ was not found.",
  row! "i18n_localiser" "retrieve_node_data" "en-ZA"
    "Failed to retrieve the data for the ‘{node_type}’ node.",
  row! "i18n_localiser" "retrieve_node_token" "en-ZA"
    "Failed to retrieve the token for the ‘{node_type}’ node.",
  row! "i18n_localiser" "last_child" "en-ZA"
    "The last child of the ‘{node_type}’ node was not found.",
  row! "i18n_localiser" "invalid_node" "en-ZA"
    "Invalid child node found in the ‘{node_type}’ node.",
  row! "i18n_localiser" "pattern_named" "en-ZA"
    "Failed to retrieve the pattern for the named string ‘{identifier}’.",
  row! "i18n_localiser" "pattern_part" "en-ZA"
    "Failed to retrieve the part ‘{index}’ of the pattern for the named string ‘{identifier}’.",
  row! "i18n_localiser" "invalid_option_value" "en-ZA"
    "The value ‘{value}’ is invalid for the option ‘{option}’ for the keyword ‘{keyword}’.",
  row! "i18n_localiser" "invalid_keyword" "en-ZA"
    "Invalid keyword ‘{keyword}’ for the placeholder ‘{identifier}’.",
  row! "i18n_localiser" "selector_named" "en-ZA"
    "The named string identifier ‘{named}’ was not found for the selector ‘{selector}’ of the placeholder ‘{identifier}’.",
  row! "i18n_localiser" "selector_other" "en-ZA"
    "The required ‘{`other`}’ selector was not found for the keyword ‘{keyword}’ of the placeholder ‘{identifier}’.",
  row! "i18n_localiser" "no_children" "en-ZA"
    "No children nodes was found for ‘{node_type}’ node.",
  row! "i18n_localiser" "invalid_option" "en-ZA"
    "Invalid option ‘{option}’ for the keyword ‘{keyword}’ for the placeholder ‘{identifier}’.",
  row! "i18n_localiser" "invalid_selector" "en-ZA"
    "Invalid selector ‘{identifier}’ for the keyword ‘{keyword}’ for the placeholder ‘{identifier}’.",
  row! "i18n_localiser" "number_sign_string" "en-ZA"
    "Unable to retrieve the formatted string for the {`NumberSign`} index {index}.",
  row! "i18n_localiser" "selectors_index" "en-ZA"
    "The index {index} ws not found in the collected selectors.",
  row! "i18n_localiser" "selectors_index_named" "en-ZA"
    "Failed to retrieve the string for the named string ‘{identifier}’ of the selectors index {index}.",
  row! "i18n_localiser" "placeholder_value" "en-ZA"
    "The placeholder value was not found for the pattern part ‘{part}’ of the placeholder ‘{placeholder}’.",
  row! "i18n_localiser" "invalid_value" "en-ZA"
    "Invalid value type was provided for the pattern part ‘{part}’.",
  row! "i18n_localiser" "named_string_identifier" "en-ZA"
    "The named string identifier ‘{identifier}’ already exists. The identifiers must be unique and not ‘{`_`}’.",
  row! "i18n_localiser" "invalid_root" "it"
    "La radice dell'albero deve essere un nodo “{`Root`}”.",
  row! "i18n_localiser" "retrieve_children" "it"
    "Impossibile recuperare i figli per il nodo “{node_type}”.",
  row! "i18n_localiser" "first_child" "it"
    "Il primo figlio del nodo “{node_type}” non è stato trovato.",
  row! "i18n_localiser" "node_not_found" "it"
    "Il nodo “{node_type}” non è stato trovato.",
  row! "i18n_localiser" "retrieve_node_data" "it"
    "Impossibile recuperare dati per il nodo “{node_type}”.",
  row! "i18n_localiser" "retrieve_node_token" "it"
    "Impossibile recuperare il token per il nodo “{node_type}”.",
  row! "i18n_localiser" "last_child" "it"
    "L'ultimo figlio del nodo “{node_type}” non è stato trovato.",
  row! "i18n_localiser" "invalid_node" "it"
    "E' stato trovato un nodo figlio non valido nel nodo “{node_type}”.",
  row! "i18n_localiser" "pattern_named" "it"
    "Impossibile recuperare il pattern per la stringa denominata “{identifier}”.",
  row! "i18n_localiser" "pattern_part" "it"
    "Impossibile recuperare la parte “{index}” del pattern per la stringa denominata “{identifier}”.",
  row! "i18n_localiser" "invalid_option_value" "it"
    "Il valore “{value}” non è valido per l'opzione “{option}” per la parola chiave “{keyword}”.",
  row! "i18n_localiser" "invalid_keyword" "it"
    "Parola chiave non valida “{keyword}” per il segnaposto “{identifier}”.",
  row! "i18n_localiser" "selector_named" "it"
    "L'identificatore della stringa denominata “{named}” non è stato trovato per il selettore “{selector}” del segnaposto “{identifier}”.",
  row! "i18n_localiser" "selector_other" "it"
    "Il selettore “{`other`}” richiesto non è stato trovato per la parola chiave “{keyword}” del segnaposto “{identifier}”.",
  row! "i18n_localiser" "no_children" "it"
    "Nessun nodo figlio è stato trovato per il nodo “{node_type}”.",
  row! "i18n_localiser" "invalid_option" "it"
    "Opzione “{option}” non valida per la parola chiave “{keyword}” per il segnaposto “{identifier}”.",
  row! "i18n_localiser" "invalid_selector" "it"
    "Selettore “{identifier}” non valido per la parola chiave “{keyword}” per il segnaposto “{identifier}”.",
  row! "i18n_localiser" "number_sign_string" "it"
    "Impossibile recuperare la stringa formattata per l'indice {`NumberSign`} {index}.",
  row! "i18n_localiser" "selectors_index" "it"
    "L'indice {index} non è stato trovato nei selettori raccolti.",
  row! "i18n_localiser" "selectors_index_named" "it"
    "Impossibile recuperare la stringa per la stringa denominata “{identifier}” dell'indice dei selettori {index}.",
  row! "i18n_localiser" "placeholder_value" "it"
    "Il valore segnaposto non è stato trovato per la parte del pattern “{part}” del segnaposto \"{placeholder}\".",
  row! "i18n_localiser" "invalid_value" "it"
    "È stato fornito un tipo di valore non valido per la parte del pattern “{part}”.",
  row! "i18n_localiser" "named_string_identifier" "it"
    "L'identificatore di stringa denominato “{identifier}” esiste già. Gli identificatori devono essere univoci e non “{`_`}”.",
  row! "i18n_localiser" "no_icu_provider" "en-ZA"
    "Build error: At least one {`ICU4X`} data provider must be specified for the crate ‘{`i18n_icu`}’ using the crate's features.",
  row! "i18n_localiser" "no_icu_provider" "it"
    "Errore di compilazione: è necessario specificare almeno un fornitore di dati {`ICU4X`} per il crate \"{`i18n_icu`}\" utilizzando le funzionalità del crate.",
  row! "i18n_localiser" "never_reach" "en-ZA"
    "Build error: Should never have reached this match branch.",
  row! "i18n_localiser" "never_reach" "it"
    "Errore di compilazione: non si dovrebbe raggiungere questo ramo di corrispondenza.",
  row! "i18n_localiser" "no_grammar" "en-ZA"
    "No grammar syntax characters was found in the provided localisation string.",
  row! "i18n_localiser" "no_grammar" "it"
    "Nessun carattere di sintassi grammaticale trovato nella stringa di localizzazione fornita.",
  row! "i18n_localiser" "string_ended_abruptly" "en-ZA"
    "The string ended abruptly.",
  row! "i18n_localiser" "invalid_token" "en-ZA"
    "In the parser state ‘{state}’ an invalid token ‘{token}’ was found at the position {position} of the string.",
  row! "i18n_localiser" "multi_number_sign" "en-ZA"
    "Found sequential number signs at the position {position} of the string.",
  row! "i18n_localiser" "unique_named" "en-ZA"
    "Named substrings must have unique identifiers. The identifier ‘{identifier}’ already exists.",
  row! "i18n_localiser" "unique_pattern" "en-ZA"
    "Pattern identifiers must be unique. The identifier ‘{identifier}’ already exists.",
  row! "i18n_localiser" "already_exists" "en-ZA"
    "The command ‘{identifier}’ already exists in the {`CommandRegistry`}.",
  row! "i18n_localiser" "command_not_found" "en-ZA"
    "The command ‘{identifier}’ was not found in the {`CommandRegistry`}.",
  row! "i18n_localiser" "parameter_missing" "en-ZA"
    "The parameter number {parameter} is missing for the command ‘{identifier}’.",
  row! "i18n_localiser" "invalid_type" "en-ZA"
    "The parameter number {parameter} has invalid type for the command ‘{identifier}’.",
  row! "i18n_localiser" "string_ended_abruptly" "it"
    "La stringa è incompleta.",
  row! "i18n_localiser" "invalid_token" "it"
    "Nello stato del parser \"{state}\" è stato trovato un token non valido “{token}” alla posizione {position} della stringa.",
  row! "i18n_localiser" "multi_number_sign" "it"
    "Trovati numeri sequenziali alla posizione {posizione} della stringa.",
  row! "i18n_localiser" "unique_named" "it"
    "Le sottostringhe denominate devono avere identificatori univoci. L'identificatore “{identifier}” esiste già.",
  row! "i18n_localiser" "unique_pattern" "it"
    "Gli identificatori di pattern devono essere univoci. L'identificatore “{identifier}” esiste già.",
  row! "i18n_localiser" "already_exists" "it"
    "Il comando “{identifier}” esiste già nel {`CommandRegistry`}.",
  row! "i18n_localiser" "command_not_found" "it"
    "Il comando “{identifier}” non è stato trovato nel {`CommandRegistry`}.",
  row! "i18n_localiser" "parameter_missing" "it"
    "Manca il numero del parametro {parameter} per il comando “{identifier}”.",
  row! "i18n_localiser" "invalid_type" "it"
    "Il numero di parametro {parameter} ha un tipo non valido per il comando “{identifier}”."]

/-- crates/localiser/l10n/i18n_localiser.sqlite3. -/
def localiser : Database where
  pattern := .ok localiserRows
  contributor := .ok [
    ⟨chars! "i18n_localiser", chars! "en-ZA", chars! "Rizzen Yazston"⟩,
    ⟨chars! "i18n_localiser", chars! "it", chars! "Stefano Angeleri"⟩]
  component := .ok [⟨chars! "i18n_localiser", chars! "en-ZA"⟩]

/-- The table `pattern` of crates/provider/core/l10n/i18n_provider.sqlite3. -/
def providerRows : List PatternRow := [
  row! "i18n_provider" "default_language" "en-ZA"
    "The default language tag is missing for the component ‘{component}’.",
  row! "i18n_provider" "default_language" "it"
    "Manca il tag della lingua predefinito per il componente \"{component}\".",
  row! "i18n_provider" "default_language_count" "en-ZA"
    "There are no localisation strings in the component ‘{component}’ for the default language tag ‘{language}’.",
  row! "i18n_provider" "default_language_count" "it"
    "Non ci sono stringhe di localizzazione nel componente \"{component}\" per il tag di lingua predefinito \"{language}\".",
  row! "i18n_provider" "component_not_found" "en-ZA"
    "The component ‘{component}’ could not found.",
  row! "i18n_provider" "component_not_found" "it"
    "Impossibile trovare il componente \"{component}\".",
  row! "i18n_provider" "invalid_default_language" "en-ZA"
    "The default language tag is invalid for the component ‘{component}’.",
  row! "i18n_provider" "invalid_default_language" "it"
    "Il tag della lingua predefinita non è valido per il componente \"{component}\"."]

/-- crates/provider/core/l10n/i18n_provider.sqlite3. -/
def provider : Database where
  pattern := .ok providerRows
  contributor := .ok [
    ⟨chars! "i18n_provider", chars! "en-ZA", chars! "Rizzen Yazston"⟩,
    ⟨chars! "i18n_provider", chars! "it", chars! "Stefano Angeleri"⟩]
  component := .ok [⟨chars! "i18n_provider", chars! "en-ZA"⟩]

/-- The table `pattern` of crates/provider/sqlite3/l10n/i18n_provider_sqlite3.sqlite3. -/
def sqlite3Rows : List PatternRow := [
  row! "i18n_provider_sqlite3" "path_conversion" "en-ZA"
    "Conversion to {`PathBuf`} error.",
  row! "i18n_provider_sqlite3" "path_conversion" "it"
    "Errore convertendo in {`PathBuf`}.",
  row! "i18n_provider_sqlite3" "no_sqlite3" "en-ZA"
    "No ‘{`.sqlite3`}’ files was found in ‘{path}’.",
  row! "i18n_provider_sqlite3" "no_sqlite3" "it"
    "Nessun file “{`.sqlite3`}” è stato trovato nella cartella “{path}”.",
  row! "i18n_provider_sqlite3" "path_not_directory" "en-ZA"
    "Provided path ‘{path}’ is not a directory.",
  row! "i18n_provider_sqlite3" "path_not_directory" "it"
    "Il percorso fornito “{path}” non è una cartella.",
  row! "i18n_provider_sqlite3" "path_not_exist" "en-ZA"
    "Provided path ‘{path}’ does not exist.",
  row! "i18n_provider_sqlite3" "path_not_exist" "it"
    "Il percorso fornito \"{path}\" non esiste.",
  row! "i18n_provider_sqlite3" "already_tried" "en-ZA"
    "Already tried connecting to the component ‘{component}’ Sqlite3 file and failed.",
  row! "i18n_provider_sqlite3" "already_tried" "it"
    "Ho già provato a connettermi al file Sqlite3 del componente \"{component}\" e non è riuscito.",
  row! "i18n_provider_sqlite3" "schema_invalid" "en-ZA"
    "The Sqlite3 file schema is invalid for the component ‘{component}’.",
  row! "i18n_provider_sqlite3" "schema_invalid" "it"
    "Lo schema del file Sqlite3 non è valido per il componente \"{component}\".",
  row! "i18n_provider_sqlite3" "schema_version" "en-ZA"
    "The ‘{`Sqlite3`}’ file ‘{path}’ is using unsupported schema version. The schema version must be ‘{version}’.",
  row! "i18n_provider_sqlite3" "schema_version" "it"
    "Il file \"{`Sqlite3`}\" \"{path}\" utilizza una versione dello schema non supportata. La versione dello schema deve essere \"{version}\".",
  row! "i18n_provider_sqlite3" "schema_version_missing" "en-ZA"
    "The ‘{`Sqlite3`}’ file ‘{path}’ is missing the schema version entry in the ‘{`metadata`}’ table.",
  row! "i18n_provider_sqlite3" "schema_version_missing" "it"
    "Nel file \"{`Sqlite3`}\" \"{path}\" manca la voce della versione dello schema nella tabella \"{`metadata`}\".",
  row! "i18n_provider_sqlite3" "missing_table" "en-ZA"
    "The database is missing the table ‘{name}’.",
  row! "i18n_provider_sqlite3" "missing_table" "it"
    "Nel banca dati manca la tabella \"{name}\".",
  row! "i18n_provider_sqlite3" "missing_column" "en-ZA"
    "The table ‘{table}’ is missing column ‘{column}’.",
  row! "i18n_provider_sqlite3" "missing_column" "it"
    "Nella tabella \"{table}\" manca la colonna \"{column}\".",
  row! "i18n_provider_sqlite3" "column_property" "en-ZA"
    "The column ‘{column}’ of the table ‘{table}’ is missing property ‘{property}’.",
  row! "i18n_provider_sqlite3" "column_property" "it"
    "Nella colonna \"{column}\" della tabella \"{table}\" manca la proprietà \"{property}\".",
  row! "i18n_provider_sqlite3" "column_default" "en-ZA"
    "The column ‘{column}’ of the table ‘{table}’ must have a default value of ‘{default}’.",
  row! "i18n_provider_sqlite3" "column_default" "it"
    "La colonna ‘{column}’ della tabella ‘{table}’ deve avere il valore predefinito ‘{default}’.",
  row! "i18n_provider_sqlite3" "column_mismatch" "en-ZA"
    "Check the `verify_schema()` function as default value type does not match column type for the column ‘{column}’ of table ‘{table}’.",
  row! "i18n_provider_sqlite3" "column_mismatch" "it"
    "Controllare la funzione `verify_schema()` poiché il tipo di valore predefinito non corrisponde al tipo di colonna per la colonna \"{column}\" della tabella \"{table}\"."]

/-- crates/provider/sqlite3/l10n/i18n_provider_sqlite3.sqlite3. -/
def sqlite3 : Database where
  pattern := .ok sqlite3Rows
  contributor := .ok [
    ⟨chars! "i18n_provider_sqlite3", chars! "en-ZA", chars! "Rizzen Yazston"⟩,
    ⟨chars! "i18n_provider_sqlite3", chars! "it", chars! "Stefano Angeleri"⟩]
  component := .ok [⟨chars! "i18n_provider_sqlite3", chars! "en-ZA"⟩]

/-- The table `pattern` of crates/lexer/l10n/i18n_lexer.sqlite3. -/
def lexerRows : List PatternRow := [
  row! "i18b_lexer" "grapheme" "en-ZA"
    "No data provider is available for the ‘GraphemeClusterSegmenter’.",
  row! "i18b_lexer" "syntax" "en-ZA"
    "No data provider is available for the ‘Pattern_Syntax’.",
  row! "i18b_lexer" "white_space" "en-ZA"
    "No data provider is available for the ‘Pattern_White_Space’.",
  row! "i18b_lexer" "grapheme" "it"
    "Nessun fornitore di dati è disponibile per \"GraphemeClusterSegmenter\".",
  row! "i18b_lexer" "syntax" "it"
    "Nessun fornitore di dati è disponibile per \"Pattern_Syntax\".",
  row! "i18b_lexer" "white_space" "it"
    "Nessun fornitore di dati è disponibile per \"Pattern_White_Space\".",
  row! "i18b_lexer" "no_grammar" "en-ZA"
    "No grammar syntax characters was supplied.",
  row! "i18b_lexer" "no_grammar" "it"
    "Non è stato fornito alcun carattere di sintassi grammaticale.",
  row! "i18b_lexer" "empty_string" "en-ZA"
    "Empty string was supplied.",
  row! "i18b_lexer" "empty_string" "it"
    "È stata fornita una stringa vuota."]

/-- crates/lexer/l10n/i18n_lexer.sqlite3. -/
def lexer : Database where
  pattern := .ok lexerRows
  contributor := .ok [
    ⟨chars! "i18b_lexer", chars! "en-ZA", chars! "Rizzen Yazston"⟩,
    ⟨chars! "i18b_lexer", chars! "it", chars! "Stefano Angeleri"⟩]
  component := .ok [⟨chars! "i18b_lexer", chars! "en-ZA"⟩]

end Verif.Shipped
