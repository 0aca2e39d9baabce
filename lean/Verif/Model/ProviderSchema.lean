import Verif.Model.Outcome
import Verif.Model.Lexer
/-
Model of the verification of database files when they are opened, crates/provider/sqlite3/src/provider.rs:1546-2152.
-/
namespace Verif

/-- A row of `pragma_table_info`; its number (`cid`) is its place in the list. `default` is the text of the default
value, if there is one. -/
structure Column where
  name : Str
  type : Str
  notNull : Nat
  primary : Nat
  default : Option Str
  deriving DecidableEq

/-- What the verification reads of a database file; queries may fail with a code. `path` is `None` if the path of the
file is not UTF-8. -/
structure DbFile where
  tables : Except Nat (List Str)
  versions : Except Nat (List Str)
  columns : Str → Except Nat (List Column)
  path : Option Str

/-- `SchemaError`, crates/provider/sqlite3/src/error.rs. -/
inductive SchemaErr where
  | sql (code : Nat)
  | missingTable (table : Str)
  | missingColumn (table column : Str)
  | columnProperty (table column property : Str)
  | columnDefault (table column value : Str)
  | version (path required : Str)
  deriving DecidableEq

abbrev SchemaM := Outcome SchemaErr

/-- A query of the verification. -/
def ask {α : Type} (q : Except Nat α) : SchemaM α :=
  match q with
  | .ok a => .ok a
  | .error e => .err (.sql e)

/-- `table_exists`, crates/provider/sqlite3/src/provider.rs:1921-1932. -/
def tableExists (tables : List Str) (name : Str) : SchemaM Unit :=
  if name ∈ tables then .ok () else .err (.missingTable name)

/-- The parameters of one call of `columns_check`; the expected default value is `Null` in all of them. -/
structure Wanted where
  name : Str
  type : Str
  notNull : Nat
  primary : Nat

/-- `columns_check`, crates/provider/sqlite3/src/provider.rs:1947-2152. The default value of the pragma is a text: reading it
as a number (lines 2006 and 2042) is an error (code 0 here) if there is one. -/
def columnsCheck (table : Str) (row : Column) (w : Wanted) : SchemaM Unit :=
  if row.name ≠ w.name then .err (.missingColumn table w.name)
  else if row.type ≠ w.type then .err (.columnProperty table w.name w.type)
  else if row.notNull ≠ w.notNull then
    .err (.columnProperty table w.name (if w.notNull = 1 then "NOT NULL".toList else "NULL".toList))
  else if row.primary ≠ w.primary then
    .err (.columnProperty table w.name (if w.notNull = 1 then "PRIMARY KEY".toList else []))
  else if row.default.isSome then
    (if w.type = "INTEGER".toList ∨ w.type = "REAL".toList then .err (.sql 0)
    else .err (.columnDefault table w.name "NULL".toList))
  else .ok ()

/-- The loop over the columns of a table: column number `n` is compared with the `n`-th wanted, more columns are ignored. -/
def checkColumns (table : Str) : List Column → List Wanted → SchemaM Unit
  | row :: rows, w :: ws => do
    columnsCheck table row w
    checkColumns table rows ws
  | _, _ => .ok ()

/-- The calls for the table `contributor`, crates/provider/sqlite3/src/provider.rs:1585-1671. -/
def wantedContributor : List Wanted :=
  [⟨"rowID".toList, "INTEGER".toList, 1, 1⟩, ⟨"component".toList, "TEXT".toList, 1, 0⟩,
   ⟨"languageTag".toList, "TEXT".toList, 1, 0⟩, ⟨"contributor".toList, "TEXT".toList, 1, 0⟩,
   ⟨"substituteFor".toList, "TEXT".toList, 0, 0⟩, ⟨"comment".toList, "TEXT".toList, 0, 0⟩,
   ⟨"verified".toList, "DATE".toList, 0, 0⟩]

/-- The calls for the table `language`, crates/provider/sqlite3/src/provider.rs:1673-1710. -/
def wantedLanguage : List Wanted :=
  [⟨"rowID".toList, "INTEGER".toList, 1, 1⟩, ⟨"tag".toList, "TEXT".toList, 1, 0⟩,
   ⟨"englishName".toList, "TEXT".toList, 0, 0⟩, ⟨"added".toList, "DATE".toList, 1, 0⟩]

/-- The calls for the table `pattern`, crates/provider/sqlite3/src/provider.rs:1712-1782. -/
def wantedPattern : List Wanted :=
  [⟨"rowID".toList, "INTEGER".toList, 1, 1⟩, ⟨"component".toList, "TEXT".toList, 1, 0⟩,
   ⟨"identifier".toList, "TEXT".toList, 1, 0⟩, ⟨"languageTag".toList, "TEXT".toList, 1, 0⟩,
   ⟨"string".toList, "TEXT".toList, 1, 0⟩, ⟨"comment".toList, "TEXT".toList, 0, 0⟩,
   ⟨"verified".toList, "DATE".toList, 0, 0⟩]

/-- The calls for the table `component`, crates/provider/sqlite3/src/provider.rs:1784-1840. -/
def wantedComponent : List Wanted :=
  [⟨"rowID".toList, "INTEGER".toList, 1, 1⟩, ⟨"identifier".toList, "TEXT".toList, 1, 0⟩,
   ⟨"languageTag".toList, "TEXT".toList, 1, 0⟩, ⟨"comment".toList, "TEXT".toList, 0, 0⟩,
   ⟨"added".toList, "DATE".toList, 1, 0⟩]

/-- The calls for the table `languageData`, crates/provider/sqlite3/src/provider.rs:1842-1906. -/
def wantedLanguageData : List Wanted :=
  [⟨"rowID".toList, "INTEGER".toList, 1, 1⟩, ⟨"component".toList, "TEXT".toList, 1, 0⟩,
   ⟨"languageTag".toList, "TEXT".toList, 1, 0⟩, ⟨"count".toList, "INTEGER".toList, 1, 0⟩,
   ⟨"ratio".toList, "REAL".toList, 1, 0⟩]

/-- One table of the verification: the pragma is asked and its rows are checked. -/
def checkTable (db : DbFile) (table : Str) (ws : List Wanted) : SchemaM Unit := do
  let rows ← ask (db.columns table)
  checkColumns table rows ws

/-- `verify_schema`, crates/provider/sqlite3/src/provider.rs:1546-1916. -/
def verifySchema (db : DbFile) : SchemaM Str := do
  let tables ← ask db.tables
  if "metadata".toList ∉ tables then .err (.missingTable "metadata".toList)
  else do
    let versions ← ask db.versions
    let version := versions.getLast?.getD []
    if version = "1.0".toList then do
      tableExists tables "contributor".toList
      tableExists tables "language".toList
      tableExists tables "pattern".toList
      tableExists tables "component".toList
      tableExists tables "languageData".toList
      checkTable db "contributor".toList wantedContributor
      checkTable db "language".toList wantedLanguage
      checkTable db "pattern".toList wantedPattern
      checkTable db "component".toList wantedComponent
      checkTable db "languageData".toList wantedLanguageData
      pure version
    else do
      let path ← Outcome.unwrap db.path
      .err (.version path "1.0".toList)

end Verif
