import Verif.Model.ProviderSchema
import Verif.Model.ProviderSqlite
/-
Model of `try_new`, crates/provider/sqlite3/src/provider.rs:114-246: the directory with the database files is opened.
-/
namespace Verif

/-- What the opening reads of a database file: that of the verification, and the rows of `SELECT identifier FROM component`
of the database of all components. -/
structure OpenedFile where
  schema : DbFile
  components : Except Nat (List Str)

/-- A directory entry. `extension` is `none` if the file name has no extension, `stem` is `none` if the stem is not
UTF-8, `file` is `none` if SQLite cannot open it (also: it is a directory). -/
structure DirEntry where
  extension : Option Str
  stem : Option Str
  file : Option OpenedFile

/-- `ProviderSqlite3Error`, crates/provider/sqlite3/src/error.rs:39-47, as far as it occurs here. -/
inductive OpenErr where
  | io (code : Nat)
  | sqlite (code : Nat)
  | schema (e : SchemaErr)
  | pathConversion
  | notDirectory
  | noSqlite3Files
  deriving DecidableEq

abbrev OpenM := Outcome OpenErr

/-- A component of the database of all components, crates/provider/sqlite3/src/provider.rs:173-181. -/
def addShared (components : AMap Str (Bool × Bool)) (component : Str) : AMap Str (Bool × Bool) :=
  match components.get component with
  | none => components.insert component (true, false)
  | some v => components.insert component (true, v.2)

/-- A component with its own database, crates/provider/sqlite3/src/provider.rs:212-217. -/
def addOwn (components : AMap Str (Bool × Bool)) (component : Str) : AMap Str (Bool × Bool) :=
  match components.get component with
  | some v => components.insert component (v.1, true)
  | none => components.insert component (false, true)

/-- One directory entry, crates/provider/sqlite3/src/provider.rs:137-230. -/
def openEntry (p : Sqlite) (entry : Except Nat DirEntry) : OpenM Sqlite :=
  match entry with
  | .error code => .err (.io code)
  | .ok entry =>
    if entry.extension ≠ some "sqlite3".toList then .ok p
    else do
      let component ← Outcome.unwrap entry.stem
      match entry.file with
      | none => .ok p
      | some file => do
        let version ← (verifySchema file.schema).mapErr OpenErr.schema
        if component = allInOne then
          match file.components with
          | .error code => .err (.sqlite code)
          | .ok names =>
            .ok { components := names.foldl addShared p.components, connections := p.connections.insert allInOne version }
        else
          .ok { components := addOwn p.components component, connections := p.connections.insert component version }

/-- The loop over the directory. -/
def openEntries : Sqlite → List (Except Nat DirEntry) → OpenM Sqlite
  | p, [] => .ok p
  | p, e :: es => do
    let p ← openEntry p e
    openEntries p es

/-- What the file system says about the path, crates/provider/sqlite3/src/provider.rs:119-136. -/
inductive PathKind where
  | noPath
  | noDirectory
  | unreadable (code : Nat)
  | directory (entries : List (Except Nat DirEntry))

/-- `try_new`, crates/provider/sqlite3/src/provider.rs:114-246. -/
def Sqlite.tryNew (path : PathKind) : OpenM Sqlite :=
  match path with
  | .noPath => .err .pathConversion
  | .noDirectory => .err .notDirectory
  | .unreadable code => .err (.io code)
  | .directory entries => do
    let p ← openEntries { components := [], connections := [] } entries
    if p.components = [] then .err .noSqlite3Files else pure p

end Verif
