import Verif.Model.ProviderOpen
/-
Words for the properties of opening a directory of databases.
-/
namespace Verif.Spec
open Verif

/-- A column as crates/provider/sqlite3/l10n/schema.sql declares it. -/
structure Declared where
  name : Str
  type : Str
  notNull : Bool
  primaryKey : Bool

/-- A column declared so, without default. -/
def col (name type : String) (notNull primaryKey : Bool) : Declared := ⟨name.toList, type.toList, notNull, primaryKey⟩

/-- The tables of crates/provider/sqlite3/l10n/schema.sql besides `metadata`, of which only the rows are read. -/
def schemaTables : List (Str × List Declared) :=
  [("component".toList, [col "rowID" "INTEGER" true true, col "identifier" "TEXT" true false,
      col "languageTag" "TEXT" true false, col "comment" "TEXT" false false, col "added" "DATE" true false]),
    ("contributor".toList, [col "rowID" "INTEGER" true true, col "component" "TEXT" true false,
      col "languageTag" "TEXT" true false, col "contributor" "TEXT" true false, col "substituteFor" "TEXT" false false,
      col "comment" "TEXT" false false, col "verified" "DATE" false false]),
    ("language".toList, [col "rowID" "INTEGER" true true, col "tag" "TEXT" true false,
      col "englishName" "TEXT" false false, col "added" "DATE" true false]),
    ("languageData".toList, [col "rowID" "INTEGER" true true, col "component" "TEXT" true false,
      col "languageTag" "TEXT" true false, col "count" "INTEGER" true false, col "ratio" "REAL" true false]),
    ("pattern".toList, [col "rowID" "INTEGER" true true, col "component" "TEXT" true false,
      col "identifier" "TEXT" true false, col "languageTag" "TEXT" true false, col "string" "TEXT" true false,
      col "comment" "TEXT" false false, col "verified" "DATE" false false])]

/-- The pragma describes the column as declared. -/
def Agrees (row : Column) (d : Declared) : Prop :=
  row.name = d.name ∧ row.type = d.type ∧ row.notNull = (if d.notNull then 1 else 0) ∧
    row.primary = (if d.primaryKey then 1 else 0) ∧ row.default = none

/-- A file of the directory that SQLite opens. -/
def Opens (entries : List (Except Nat DirEntry)) (name : Str) (file : OpenedFile) : Prop :=
  ∃ entry, .ok entry ∈ entries ∧ entry.extension = some "sqlite3".toList ∧ entry.stem = some name ∧ entry.file = some file

/-- The component is in the database of all components. -/
def InShared (entries : List (Except Nat DirEntry)) (component : Str) : Prop :=
  ∃ file names, Opens entries allInOne file ∧ file.components = .ok names ∧ component ∈ names

/-- The component has its own database. -/
def HasOwn (entries : List (Except Nat DirEntry)) (component : Str) : Prop :=
  component ≠ allInOne ∧ ∃ file, Opens entries component file

end Verif.Spec
