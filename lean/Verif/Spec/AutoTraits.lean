import Verif.Model.AutoTraits
/-
The rules of Rust for `Send` (a value may be moved to another thread) and `Sync` (a value may be used by several threads at
the same time), as documented for the standard library, ICU4X 1.5 and rusqlite 0.32.
-/
namespace Verif.Spec
open Verif.Features Verif.AutoTraits

mutual
/-- A value of the type may be moved to another thread. `data` tells whether payloads of ICU4X are counted atomically (its
feature `sync`). -/
inductive Send (data : Prop) : Ty → Prop
  | plain : Send data .plain
  | icuData : data → Send data .icuData
  | connection : Send data .connection
  | all {ts} : (∀ t ∈ ts, Send data t) → Send data (.all ts)
  | arc {t} : Send data t → Sync data t → Send data (.arc t)
  | refCell {t} : Send data t → Send data (.refCell t)
  | mutex {t} : Send data t → Send data (.mutex t)
  | rwLock {t} : Send data t → Send data (.rwLock t)
  | onceCell {t} : Send data t → Send data (.onceCell t)
  | onceLock {t} : Send data t → Send data (.onceLock t)
/-- A value of the type may be used by several threads at the same time. -/
inductive Sync (data : Prop) : Ty → Prop
  | plain : Sync data .plain
  | icuData : data → Sync data .icuData
  | all {ts} : (∀ t ∈ ts, Sync data t) → Sync data (.all ts)
  | arc {t} : Send data t → Sync data t → Sync data (.arc t)
  | mutex {t} : Send data t → Sync data (.mutex t)
  | rwLock {t} : Send data t → Sync data t → Sync data (.rwLock t)
  | onceLock {t} : Send data t → Sync data t → Sync data (.onceLock t)
end

/-- ICU4X counts payloads atomically: `i18n_lexer/sync` enables `icu_provider/sync`, crates/lexer/Cargo.toml:44-47. -/
def atomicData (b : Build) : Prop := b.arc .lexer = true

/-- Values of the type may be moved to and used by other threads. -/
def Shareable (b : Build) (t : Ty) : Prop := Send (atomicData b) t ∧ Sync (atomicData b) t

/-- The types of the crates other than the localiser, its registry of commands and the errors that contain boxed errors.
-/
def dataTypes (b : Build) : List Ty :=
  [languageTagRegistry b, taggedString b, placeholderValue b, icuDataProvider b, lexerIterator b,
    identifierDetails b, componentDetails b, repositoryDetails b, sqlite3 b, sqlite3Error b, formatter b, cacheData b]

end Verif.Spec
