import Verif.Model.Features
/-
Which types of the crates may be used by several threads: the shape of their fields. Rust derives the traits `Send` and
`Sync` of a type from its fields; the crates contain no `unsafe impl`.
-/
namespace Verif.AutoTraits
open Verif.Features

/-- The shape of a type. Boxes, vectors, options, tuples, hash maps, structures and enumerations own what they contain and
are all `all`. A type that contains itself is given without that occurrence, which does not matter. -/
inductive Ty where
  /-- Strings, numbers, paths, function pointers, types of ICU4X without data, errors of ICU4X, SQLite and the standard
  library. -/
  | plain
  /-- Types of ICU4X that contain a `DataPayload`. -/
  | icuData
  /-- `dyn Trait` for a trait without `Send` and `Sync` as supertraits. -/
  | object
  /-- `rusqlite::Connection`. -/
  | connection
  | all (fields : List Ty)
  | rc (t : Ty)
  | arc (t : Ty)
  | refCell (t : Ty)
  | mutex (t : Ty)
  | rwLock (t : Ty)
  | onceCell (t : Ty)
  | onceLock (t : Ty)

/-- `RefCount` of a crate, see `Build.arc`. -/
def refCount (b : Build) (c : Crate) (t : Ty) : Ty := if b.arc c then .arc t else .rc t

/-- `LanguageTag`, crates/utility/src/language.rs:54-56. -/
def languageTag : Ty := .all [.plain]

/-- `LanguageTagRegistry`, crates/utility/src/language.rs:106-116; `MutCell` is `Mutex` or `RefCell`,
crates/utility/src/language.rs:14-22. -/
def languageTagRegistry (b : Build) : Ty :=
  let cell := fun t => if b.arc .utility then Ty.mutex t else .refCell t
  .all [cell (.all [.plain, refCount b .utility languageTag]), cell (.all [.plain, refCount b .utility languageTag]),
    cell (.all [refCount b .utility languageTag, refCount b .utility .plain])]

/-- `TaggedString`, crates/utility/src/tagged_string.rs:39-42. -/
def taggedString (b : Build) : Ty := .all [.plain, refCount b .utility languageTag]

/-- `PlaceholderValue`, crates/utility/src/types.rs:54-66, and `LocalisationData`, crates/utility/src/types.rs:25-29. -/
def placeholderValue (b : Build) : Ty :=
  .all [.plain, .plain, .plain, .plain, taggedString b,
    .all [refCount b .utility .plain, refCount b .utility languageTag], .all [.plain, .plain], .plain, .plain, .plain,
    .plain]

/-- `DataProvider`, crates/lexer/src/icu.rs:63-72: the variants that exist. -/
def icuProviderEnum (b : Build) : Ty :=
  .all (b.variants.map fun k => match k with | .internal => .all [] | .blob | .fs => .icuData)

/-- `IcuDataProvider`, crates/lexer/src/icu.rs:78-87. -/
def icuDataProvider (b : Build) : Ty := .all [icuProviderEnum b, .icuData, .icuData, .icuData]

/-- `LexerIterator`, crates/lexer/src/lexer.rs:100-113. -/
def lexerIterator (b : Build) : Ty := .all [.plain, refCount b .lexer (icuDataProvider b), .plain]

/-- `IdentifierDetails`, crates/provider/core/src/provider.rs:126-129. -/
def identifierDetails (b : Build) : Ty :=
  .all [.all [refCount b .provider languageTag], refCount b .provider languageTag]

/-- `ComponentDetails`, crates/provider/core/src/provider.rs:135-139, with `LanguageData`, lines 143-147. -/
def componentDetails (b : Build) : Ty :=
  .all [.all [refCount b .provider languageTag, .plain], refCount b .provider languageTag, .plain]

/-- `RepositoryDetails`, crates/provider/core/src/provider.rs:154-160. -/
def repositoryDetails (b : Build) : Ty :=
  .all [.all [refCount b .provider languageTag, .plain], .all [refCount b .provider languageTag], .plain, .plain, .plain]

/-- `LocalisationProviderSqlite3`, crates/provider/sqlite3/src/provider.rs:79-98. -/
def sqlite3 (b : Build) : Ty :=
  let s := b.arc .sqlite3
  let once := fun t => if s then Ty.onceLock t else .onceCell t
  .all [refCount b .sqlite3 (languageTagRegistry b), if s then .mutex .plain else .refCell .plain, .plain,
    if s then .plain else .all [.plain, .rc .connection], once (refCount b .sqlite3 (repositoryDetails b)),
    once (.all [.plain, refCount b .sqlite3 (componentDetails b)]), .plain]

/-- `RegistryError`, `LexerError`, `IcuError` and `TreeError`: crates/utility/src/error.rs:23-28,
crates/lexer/src/error.rs:45-58, 261-264, crates/localiser/src/error.rs:46-53. -/
def simpleError : Ty := .all [.plain]

/-- `ProviderSqlite3Error`, crates/provider/sqlite3/src/error.rs:39-47. -/
def sqlite3Error (b : Build) : Ty := .all [refCount b .sqlite3 .plain, refCount b .sqlite3 .plain, .plain]

/-- `ProviderError`, crates/provider/core/src/error.rs:39-46. -/
def providerError (b : Build) : Ty := .all [.plain, simpleError, refCount b .provider (.all [.object])]

/-- `CommandError`, crates/localiser/src/error.rs:274-280. -/
def commandError (b : Build) : Ty := .all [refCount b .localiser (.all [.object]), .plain]

/-- `LocaliserError`, crates/localiser/src/error.rs:472-479, and `FormatterError`, crates/localiser/src/error.rs:769-806,
which contain each other. -/
def localiserError (b : Build) : Ty :=
  .all [simpleError, .all [simpleError, .plain, commandError b], providerError b, .plain]

/-- `CommandRegistry`, crates/localiser/src/command.rs:34-36: always a `RefCell`. -/
def commandRegistry : Ty := .all [.refCell (.all [.plain, .plain])]

/-- `Formatter`, crates/localiser/src/formatter.rs:45-51, with `PatternPart`, lines 1442-1468. -/
def formatter (b : Build) : Ty :=
  .all [refCount b .localiser languageTag, refCount b .localiser .plain, .all [.plain, placeholderValue b], .plain, .plain]

/-- `CacheData`, crates/localiser/src/localiser.rs:1309-1312; `MutCell` is `RwLock` or `RefCell`, lines 20-28. -/
def cacheData (b : Build) : Ty :=
  .all [.all [refCount b .localiser .plain, refCount b .localiser languageTag],
    if b.arc .localiser then .rwLock (formatter b) else .refCell (formatter b)]

/-- `Localiser`, crates/localiser/src/localiser.rs:39-52. -/
def localiserFields (b : Build) : List Ty :=
  let cell := fun t => if b.arc .localiser then Ty.rwLock t else .refCell t
  [refCount b .localiser (icuDataProvider b), .plain, refCount b .localiser (languageTagRegistry b), .all [.object],
    refCount b .localiser commandRegistry, .plain, .icuData, cell .plain, cell .plain,
    cell (.all [refCount b .localiser languageTag, .all [.plain, cacheData b]]), cell (refCount b .localiser languageTag),
    cell (.all [.plain])]

def localiser (b : Build) : Ty := .all (localiserFields b)

end Verif.AutoTraits
