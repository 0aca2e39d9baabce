import Verif.Spec.ProviderOpen
/-
What an error of opening a directory of databases should tell.
-/
namespace Verif.Spec
open Verif

/-- The number of the pragma for a flag. -/
def flagNumber (b : Bool) : Nat := if b then 1 else 0

/-- What is wrong with a column that is at the place of the declared one. -/
inductive ColumnCause (table : Str) (row : Column) (d : Declared) : SchemaErr → Prop
  | name : row.name ≠ d.name → ColumnCause table row d (.missingColumn table d.name)
  | type : row.name = d.name → row.type ≠ d.type → ColumnCause table row d (.columnProperty table d.name d.type)
  | null : row.name = d.name → row.type = d.type → row.notNull ≠ flagNumber d.notNull →
      ColumnCause table row d (.columnProperty table d.name (if d.notNull then "NOT NULL".toList else "NULL".toList))
  /-- it is not part of the primary key though it should, or it is and should not -/
  | primary (text) : row.name = d.name → row.type = d.type → row.primary ≠ flagNumber d.primaryKey →
      ColumnCause table row d (.columnProperty table d.name text)
  | default : row.name = d.name → row.default ≠ none → ColumnCause table row d (.columnDefault table d.name "NULL".toList)
  /-- a default of a column of numbers -/
  | numberDefault : row.name = d.name → row.default ≠ none → d.type = "INTEGER".toList ∨ d.type = "REAL".toList →
      ColumnCause table row d (.sql 0)

/-- What is wrong with a database file. -/
inductive FileCause (db : DbFile) : SchemaErr → Prop
  | noTables (code) : db.tables = .error code → FileCause db (.sql code)
  | noVersions (code) : db.versions = .error code → FileCause db (.sql code)
  | noColumns (t code) : t ∈ schemaTables → db.columns t.1 = .error code → FileCause db (.sql code)
  | table (tables t) : db.tables = .ok tables → t ∉ tables → t = "metadata".toList ∨ t ∈ schemaTables.map (·.1) →
      FileCause db (.missingTable t)
  | version (versions path) : db.versions = .ok versions → versions.getLast? ≠ some "1.0".toList → db.path = some path →
      FileCause db (.version path "1.0".toList)
  | column (t : Str × List Declared) (rows : List Column) (n : Nat) (row : Column) (d : Declared) (e : SchemaErr) :
      t ∈ schemaTables → db.columns t.1 = .ok rows → rows[n]? = some row → t.2[n]? = some d →
      ColumnCause t.1 row d e → FileCause db e

/-- What is wrong with the path or the files. -/
inductive OpenCause : PathKind → OpenErr → Prop
  | noPath : OpenCause .noPath .pathConversion
  | noDirectory : OpenCause .noDirectory .notDirectory
  | unreadable (code) : OpenCause (.unreadable code) (.io code)
  | entry (entries code) : .error code ∈ entries → OpenCause (.directory entries) (.io code)
  | file (entries name file e) : Opens entries name file → FileCause file.schema e → OpenCause (.directory entries) (.schema e)
  | components (entries file code) : Opens entries allInOne file → file.components = .error code →
      OpenCause (.directory entries) (.sqlite code)
  | nothing (entries) : (∀ c, ¬ InShared entries c) → (∀ c, ¬ HasOwn entries c) →
      OpenCause (.directory entries) .noSqlite3Files

/-- A property that a column has, as the declaration writes it. -/
def HasProperty (row : Column) (text : Str) : Prop :=
  text = row.type ∨ (text = "NOT NULL".toList ∧ row.notNull = 1) ∨ (text = "NULL".toList ∧ row.notNull = 0) ∨
    (text = "PRIMARY KEY".toList ∧ row.primary = 1)

end Verif.Spec
