import Verif.Props.Errors
import Verif.Props.ProviderOpen
import Verif.Model.Registry
import Verif.Model.LanguageTag
/-
The tests of the repository, run on the model. They say nothing about all inputs: they check that the model does what the
authors of the code expect of the code. Each example cites its test.
-/
namespace Verif.Tests
open Verif Verif.Spec Verif.Errors

/-! ### crates/lexer/tests/tokenise.rs -/

/-- ICU4X on the characters of the tests: a trailing consonant of Hangul extends the syllable before. -/
def icu : Icu where
  whiteSpace := Demo.icu.whiteSpace
  syn c := Demo.icu.syn c || c == '‘' || c == '’'
  breaks s := (s.filter fun c => ¬ ('ᆨ' ≤ c ∧ c ≤ 'ᇿ')).length + 1

/-- The numbers of tokens of a type, and all lengths together. -/
def count (s : Str) (g : Str) : Option (List Nat × List Nat) :=
  match LexerIterator.tryNew s g icu with
  | .error _ => none
  | .ok it =>
    let ts := it.collect
    let n t := (ts.filter fun x => x.tokenType = t).length
    some ([n .grammar, n .syn, n .whiteSpace, n .identifier],
      [(ts.map (·.lengthBytes)).sum, (ts.map (·.lengthCharacters)).sum, (ts.map (·.lengthGraphemes)).sum, ts.length])

/-- `tokenise_single_byte_character_string`, crates/lexer/tests/tokenise.rs:18-60. -/
example : count "String contains a {placeholder}.".toList "{}".toList = some ([2, 1, 3, 4], [32, 32, 32, 10]) := by
  decide +kernel

/-- `tokenise_multi_byte_character_string`, crates/lexer/tests/tokenise.rs:62-104. -/
example : count "Earth = 🌍. 각".toList "{}".toList = some ([0, 2, 3, 3], [20, 13, 12, 8]) := by
  decide +kernel

/-! ### crates/utility/src/language.rs -/

/-- The registry after the request of the tests. -/
def registry : Except Tag.ParserError TagRef × Registry := Registry.new.tag Tag.canonicalize "en_ZA".toList

/-- `tag` and `icu_language`, crates/utility/src/language.rs:409-433. -/
example : registry.1.toOption.map (·.text) = some "en-ZA".toList ∧
    registry.1.toOption.bind (fun t => ((IcuCache.icuLanguage (fun s => (Tag.parse s).toOption) ⟨[], 0⟩ t).1.map
      fun x => x.2.text)) = some "en-ZA".toList := by decide +kernel

/-- `list`, `list_all` and `list_deprecated`, crates/utility/src/language.rs:435-460. -/
example : registry.2.list.length = 1 ∧ registry.2.listAll.length = 2 ∧ registry.2.listDeprecated.length = 1 := by
  decide +kernel

/-- `invalid_tag`, crates/utility/src/language.rs:462-469. -/
example : (Registry.new.tag Tag.canonicalize "hnfg_lku".toList).1.toOption = none := by decide +kernel

/-! ### crates/provider/sqlite3/tests/sqlite3.rs -/

open Props.DemoFiles

/-- The directory crates/provider/sqlite3/l10n/. -/
def directory : PathKind :=
  .directory [file "application" shipped ["application"], readme, file "i18n_provider_sqlite3" shipped ["i18n_provider_sqlite3"],
    file "__all_in_one__" shipped ["application"]]

/-- Contributors of crates/provider/sqlite3/l10n/application.sqlite3, and of the database of all components. -/
def contributors : List ContributorRow :=
  [⟨"application".toList, "en-US".toList, "Rizzen Yazston".toList⟩, ⟨"application".toList, "it".toList, "Stefano Angeleri".toList⟩]

/-- The files of the directory. -/
def store : Verif.Store := fun n =>
  if n = "application".toList then
    ⟨.ok [⟨"application".toList, "example_string".toList, "en-US".toList, "The color of the knight's armor is silver.".toList⟩,
        ⟨"application".toList, "example_string".toList, "it".toList,
          "Il colore dell'armatura del cavaliere è argento.".toList⟩],
      .ok contributors, .ok [⟨"application".toList, "en-US".toList⟩]⟩
  else if n = allInOne then
    ⟨.ok [⟨"application".toList, "example".toList, "en-US".toList, "This string comes from __all_in_one__.sqlite3 file.".toList⟩,
        ⟨"application".toList, "example".toList, "it".toList,
          "Questa stringa proviene dal file __all_in_one__.sqlite3.".toList⟩],
      .ok contributors, .ok [⟨"application".toList, "en-US".toList⟩]⟩
  else Shipped.sqlite3

/-- The provider of the tests. -/
def provider : Sqlite :=
  match Sqlite.tryNew directory with
  | .ok p => p
  | _ => ⟨[], []⟩

/-- The value of a request. -/
def value {E A : Type} : Outcome E A → Option A
  | .ok a => some a
  | _ => none

def name : Str := "i18n_provider_sqlite3".toList
def conversion : Str := "Conversion to {`PathBuf`} error.".toList

/-- `strings_for_en` and `strings_for_qz`, crates/provider/sqlite3/tests/sqlite3.rs:20-34 and 57-66. -/
example :
    value (provider.strings Tag.canonicalize store name "path_conversion".toList "en".toList) =
      some [(conversion, "en-ZA".toList)] ∧
    value (provider.strings Tag.canonicalize store name "path_conversion".toList "qz".toList) = some [] := by
  decide +kernel

/-- `one_string`, `exact_string` and `exact_string_fail`, crates/provider/sqlite3/tests/sqlite3.rs:68-106. -/
example :
    value (provider.string Tag.canonicalize store name "path_conversion".toList "en".toList) =
      some (some (conversion, "en-ZA".toList)) ∧
    value (provider.stringExactMatch Tag.canonicalize store name "path_conversion".toList "en-ZA".toList) =
      some (some (conversion, "en-ZA".toList)) ∧
    value (provider.stringExactMatch Tag.canonicalize store name "path_conversion".toList "en".toList) = some none := by
  decide +kernel

/-- The details of the tests. -/
def details : AMap Str ComponentDetails × RepositoryDetails :=
  (value (provider.buildCache Tag.canonicalize store)).getD ([], ⟨[], none, 0, [], []⟩)

/-- `identifier_details`, crates/provider/sqlite3/tests/sqlite3.rs:108-117. -/
example : (value (provider.identifierDetails Tag.canonicalize store details.1 "application".toList "example".toList)).map
    (fun d => (d.2, d.1.length)) = some ("en-US".toList, 2) := by decide +kernel

/-- `component_details`, crates/provider/sqlite3/tests/sqlite3.rs:119-132. -/
example : (details.1.get name).map (fun d => (d.default, d.languages.length, d.total)) = some ("en-ZA".toList, 2, 26) := by
  decide +kernel

/-- `repository_details`, crates/provider/sqlite3/tests/sqlite3.rs:134-160. -/
example : details.2.default = some "en-US".toList ∧ details.2.languages.length = 3 ∧ details.2.total = 30 ∧
    details.2.components.length = 2 ∧ details.2.contributors.length = 2 := by decide +kernel

/-! ### crates/localiser/tests/localiser.rs -/

/-- The localiser of the tests: the directory crates/localiser/l10n/ has one file. -/
def env : LocEnv Nat Unit (Option (ProvErr Tag.ParserError)) where
  fmt := { Demo.env with icu := icu }
  provider := asProvider Tag.canonicalize ⟨[(localiserName, (false, true))], [(localiserName, "1.0".toList)]⟩
    fun _ => Shipped.localiser
  icuLanguage := some

/-- What a new localiser answers to one request. -/
def answer (r : Request Nat Unit) : Option Str :=
  match (Localiser.call env (fun _ => ()) ⟨[], true, true, "en-ZA".toList, ()⟩ r).1 with
  | some (.ok x) => some x.1
  | _ => none

/-- The values of the tests. -/
def values : List (Str × PValue Nat Unit) :=
  [("component".toList, .string localiserName), ("identifier".toList, .string "string_not_found".toList),
    ("language_tag".toList, .string "en-ZA".toList), ("fallback".toList, .string "true".toList)]

def notFound : Str :=
  ("No string was found for the component ‘i18n_localiser’ with identifier ‘string_not_found’ for the language " ++
    "tag ‘en-ZA’. Fallback was used: True.").toList

/-- `format`, crates/localiser/tests/localiser.rs:21-70. -/
example : answer (.format localiserName "string_not_found".toList values (some "en-ZA".toList) none none) =
    some notFound := by decide +kernel

/-- `format_with_defaults`, crates/localiser/tests/localiser.rs:72-105. -/
example : answer (.format localiserName "cache_entry".toList
      [("component".toList, .string localiserName), ("identifier".toList, .string "cache_entry".toList)] none none none) =
    some ("Unable to get the string for the component ‘i18n_localiser’ with the identifier ‘cache_entry’ as the cache " ++
      "entry requires values for formatting.").toList := by decide +kernel

/-- `literal` and `literal_with_defaults`, crates/localiser/tests/localiser.rs:107-163. -/
example : ∀ tag ∈ [some "en-ZA".toList, none], answer (.literal localiserName "cache_entry".toList tag none none) =
    some ("Unable to get the string for the component ‘{component}’ with the identifier ‘{identifier}’ as the cache " ++
      "entry requires values for formatting.").toList := by decide +kernel

/-- `format_localisation_data` and `format_localisation_data_with_defaults`,
crates/localiser/tests/localiser.rs:165-258. -/
example : ∀ tag ∈ [some "en-ZA".toList, none], answer (.data localiserName "string_not_found".toList (some values) tag none none) =
    some notFound := by decide +kernel

/-- The data of the error of the tests. -/
def data : LData Nat Unit :=
  Errors.LocaliserError.localisation (.stringNotFound "application".toList "not_exists".toList "en-ZA".toList false)

/-- `format_error` and `format_error_with_defaults`, crates/localiser/tests/localiser.rs:262-327. -/
example : ∀ tag ∈ [some "en-ZA".toList, none], answer (.data data.component data.identifier data.values tag none none) =
    some ("LocaliserError::StringNotFound: ‘No string was found for the component ‘application’ with identifier " ++
      "‘not_exists’ for the language tag ‘en-ZA’. Fallback was used: False.’.").toList := by decide +kernel

end Verif.Tests
