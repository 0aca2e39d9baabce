import Verif.Model.Formatter
/-
Which code is compiled: the features of the crates, the `cfg` attributes that depend on them, and the data provider of
ICU4X, /repo/crates/lexer/src/icu.rs.

Cargo compiles each crate of the workspace once, with all features that anything in the dependency graph asks of it
(the dependencies of the workspace have `default-features = false`, /repo/Cargo.toml:40-45). Features of crates outside of
the workspace are dropped. A request lists features of the crates of the workspace; Cargo refuses features that are not
declared.
-/
namespace Verif.Features

/-- The crates of the workspace, /repo/Cargo.toml:6-14. -/
inductive Crate where
  | i18n | lexer | localiser | provider | sqlite3 | utility
  deriving DecidableEq, Repr

/-- The names that occur in the `[features]` tables or in `cfg` attributes: `default`, `buffer`, `icu_blob`,
`icu_compiled_data`, `icu_extended`, `icu_fs`, `logging`, `sync`, and `blob`, `fs`, `extend`. -/
inductive Name where
  | default | buffer | icuBlob | icuCompiledData | icuExtended | icuFs | logging | sync
  | blob | fs | extend
  deriving DecidableEq, Repr

/-- A feature of a crate. -/
abbrev Feature := Crate × Name

/-- The `[features]` tables: crates/i18n/Cargo.toml:24-55, crates/lexer/Cargo.toml:24-48,
crates/localiser/Cargo.toml:24-53, crates/provider/core/Cargo.toml:24-25, crates/provider/sqlite3/Cargo.toml:24-26,
crates/utility/Cargo.toml:24-26. -/
def manifest : List (Feature × List Feature) := [
  ((.i18n, .default), [(.lexer, .default)]),
  ((.i18n, .icuBlob), [(.lexer, .icuBlob), (.localiser, .icuBlob)]),
  ((.i18n, .icuCompiledData), [(.lexer, .icuCompiledData), (.localiser, .icuCompiledData)]),
  ((.i18n, .icuExtended), [(.utility, .icuExtended), (.localiser, .icuExtended)]),
  ((.i18n, .icuFs), [(.lexer, .icuFs), (.localiser, .icuFs)]),
  ((.i18n, .logging), [(.lexer, .logging), (.sqlite3, .logging), (.localiser, .logging)]),
  ((.i18n, .sync),
    [(.lexer, .sync), (.utility, .sync), (.provider, .sync), (.sqlite3, .sync), (.localiser, .sync)]),
  ((.lexer, .default), [(.lexer, .icuCompiledData)]),
  ((.lexer, .buffer), []),
  ((.lexer, .icuBlob), [(.lexer, .buffer)]),
  ((.lexer, .icuCompiledData), []),
  ((.lexer, .icuExtended), [(.utility, .icuExtended)]),
  ((.lexer, .icuFs), [(.lexer, .buffer)]),
  ((.lexer, .logging), []),
  ((.lexer, .sync), [(.utility, .sync)]),
  ((.localiser, .default), [(.lexer, .default)]),
  ((.localiser, .icuBlob), [(.lexer, .icuBlob)]),
  ((.localiser, .icuCompiledData), [(.lexer, .icuCompiledData)]),
  ((.localiser, .icuExtended), [(.utility, .icuExtended)]),
  ((.localiser, .icuFs), [(.lexer, .icuFs)]),
  ((.localiser, .logging), [(.lexer, .logging), (.sqlite3, .logging)]),
  ((.localiser, .sync), [(.lexer, .sync), (.utility, .sync), (.provider, .sync), (.sqlite3, .sync)]),
  ((.provider, .sync), [(.utility, .sync)]),
  ((.sqlite3, .sync), [(.utility, .sync), (.provider, .sync)]),
  ((.sqlite3, .logging), []),
  ((.utility, .sync), []),
  ((.utility, .icuExtended), [])]

/-- The features declared. -/
def declared : List Feature := manifest.map Prod.fst

/-- The features which a feature enables. -/
def enables (f : Feature) : List Feature := (manifest.lookup f).getD []

/-- One round of Cargo's feature resolver. -/
def resolveStep (s : List Feature) : List Feature := (s ++ s.flatMap enables).eraseDups

/-- Rounds of the resolver. -/
def rounds : Nat → List Feature → List Feature
  | 0, s => s
  | n + 1, s => resolveStep (rounds n s)

/-- The features enabled by a request: rounds until nothing changes; there are not more rounds than features. -/
def resolve (request : List Feature) : List Feature := rounds declared.length request

/-- A build: which `cfg(feature = …)` hold in which crate. -/
structure Build where
  enabled : Feature → Bool

/-- The build of a request. -/
def build (request : List Feature) : Build := ⟨fun f => (resolve request).contains f⟩

/-! ### The data provider of ICU4X -/

/-- The variants of `DataProvider`, crates/lexer/src/icu.rs:62-72, without their contents. -/
inductive ProviderKind where
  | internal | blob | fs
  deriving DecidableEq, Repr

/-- The feature named by the `cfg` attribute of a variant and of the match arms for it, crates/lexer/src/icu.rs:64-71,
107-144 and crates/localiser/src/formatter.rs:680-701, 711-732, 742-768, 778-804, 813-830, 839-856. -/
def ProviderKind.gate : ProviderKind → Name
  | .internal => .icuCompiledData
  | .blob => .blob
  | .fs => .fs

/-- The variants of `DataProvider` in a build, crates/lexer/src/icu.rs:62-72: the attributes are those of `i18n_lexer`. -/
def Build.variants (b : Build) : List ProviderKind :=
  [ProviderKind.internal, .blob, .fs].filter fun k => b.enabled (.lexer, k.gate)

/-- `IcuError`, crates/lexer/src/error.rs:45-58; the errors of ICU4X are reduced to one. -/
inductive IcuError where
  | icu | grapheme | syntax | whiteSpace
  deriving DecidableEq, Repr

/-- `IcuDataProvider::try_new`, crates/lexer/src/icu.rs:92-172. `load` tells whether ICU4X loads the segmenter and the
two sets of characters from a provider. Without a match arm for the variant nothing is loaded, and the first check fails. -/
def Build.icuTryNew (b : Build) (load : ProviderKind → Bool) (k : ProviderKind) : Except IcuError ProviderKind :=
  let loaded : Except IcuError Bool :=
    match k with
    | .blob => if b.enabled (.lexer, .blob) then (if load .blob then .ok true else .error .icu) else .ok false
    | .fs => if b.enabled (.lexer, .fs) then (if load .fs then .ok true else .error .icu) else .ok false
    | .internal => if b.enabled (.lexer, .icuCompiledData) then .ok true else .ok false
  match loaded with
  | .error e => .error e
  | .ok false => .error .syntax
  | .ok true => .ok k

/-- Is there a match arm for the variant in the functions that make the formatters of ICU4X? The attributes are those of
`i18n_localiser`, crates/localiser/src/formatter.rs:674-858. -/
def Build.arm (b : Build) (k : ProviderKind) : Bool := b.enabled (.localiser, k.gate)

variable {D F : Type}

/-- `decimal_formatter`, `date_time_formatter`, `date_formatter`, `time_formatter`, `plural_rules_cardinal` and
`plural_rules_ordinal`, crates/localiser/src/formatter.rs:674-858: the formatters of the data provider, or
`NoIcuProvider` if there is no match arm for it. `X k` is ICU4X with the data of the provider. -/
def Build.icu4x (b : Build) (X : ProviderKind → Icu4x D F) (k : ProviderKind) : Icu4x D F :=
  if b.arm k then X k
  else
    { X k with
      decimal := fun _ _ => .error .noIcuProvider
      dateTime := fun _ _ _ => .error .noIcuProvider
      date := fun _ _ => .error .noIcuProvider
      time := fun _ _ => .error .noIcuProvider
      cardinal := fun _ => .error .noIcuProvider
      ordinal := fun _ => .error .noIcuProvider }

/-! ### Language tags -/

/-- The type `IcuLanguage` with which a crate parses tags. -/
inductive TagType where
  | languageIdentifier | locale
  deriving DecidableEq, Repr

/-- `IcuLanguage` of the registry and of `LanguageTag::icu_language`, crates/utility/src/language.rs:8-12. -/
def Build.registryType (b : Build) : TagType :=
  if b.enabled (.utility, .extend) then .locale else .languageIdentifier

/-- `IcuLanguage` of the formatter, crates/localiser/src/formatter.rs:25-29. -/
def Build.formatterType (b : Build) : TagType :=
  if b.enabled (.localiser, .extend) then .locale else .languageIdentifier

/-- The type with which `get_script_data` parses a tag, crates/localiser/src/localiser.rs:1319-1351. -/
def Build.scriptType (b : Build) : TagType :=
  if b.enabled (.localiser, .icuExtended) then .locale else .languageIdentifier

/-! ### Sharing -/

/-- `RefCount`: `Arc` with the feature `sync`, else `Rc`. Each crate has its own alias:
crates/lexer/src/lexer.rs:33-38, crates/localiser/src/localiser.rs:23-28, crates/provider/core/src/provider.rs:8-13,
crates/provider/sqlite3/src/provider.rs:20-28, crates/utility/src/language.rs:17-23. `true` is `Arc`. -/
def Build.arc (b : Build) (c : Crate) : Bool := b.enabled (c, .sync)

end Verif.Features
