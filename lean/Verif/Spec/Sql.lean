import Verif.Model.ProviderSync
import Verif.Model.ProviderSchema
/-
A small part of SQL as SQLite reads it: `SELECT [DISTINCT] columns | count( * ) FROM table WHERE column = | LIKE ?n AND …
[LIMIT n]`, with one space between words. Written apart from the list functions of `Verif.Model.Sqlite`.
-/
namespace Verif.Spec
open Verif

/-- A condition: column, `LIKE` or `=`, number of the parameter. -/
structure SqlCond where
  column : Str
  like : Bool
  parameter : Nat
  deriving DecidableEq

/-- A query; without columns it counts. -/
structure SqlQuery where
  distinct : Bool
  columns : Option (List Str)
  table : Str
  conds : List SqlCond
  limit : Option Nat
  deriving DecidableEq

/-- The words of a text. -/
def words : Str → List Str
  | [] => [[]]
  | c :: s =>
    if c = ' ' then [] :: words s
    else
      match words s with
      | w :: ws => (c :: w) :: ws
      | [] => [[c]]

/-- A number of one digit. -/
def digit (s : Str) : Option Nat :=
  match s with
  | [c] => if c.isDigit then some (c.toNat - '0'.toNat) else none
  | _ => none

/-- `?n`. -/
def parameter (s : Str) : Option Nat :=
  match s with
  | '?' :: n => digit n
  | _ => none

/-- Columns separated by commas, and what follows. -/
def readColumns : List Str → Option (List Str × List Str)
  | [] => none
  | w :: ws =>
    if w.getLast? = some ',' then do
      let (cs, rest) ← readColumns ws
      pure (w.dropLast :: cs, rest)
    else some ([w], ws)

/-- Conditions and limit. -/
def readConds : List Str → Option (List SqlCond × Option Nat)
  | column :: op :: p :: rest => do
    let n ← parameter p
    let cond ←
      if op = "=".toList then some (SqlCond.mk column false n)
      else if op = "LIKE".toList then some (SqlCond.mk column true n)
      else none
    match rest with
    | [] => pure ([cond], none)
    | w :: rest =>
      if w = "AND".toList then do
        let (cs, limit) ← readConds rest
        pure (cond :: cs, limit)
      else if w = "LIMIT".toList then
        match rest with
        | [n] => do pure ([cond], some (← digit n))
        | _ => none
      else none
  | _ => none

/-- Read the words of a query. -/
def readQuery (ws : List Str) : Option SqlQuery :=
  match ws with
  | s :: rest =>
    if s ≠ "SELECT".toList then none
    else do
      let distinct := rest.head? = some "DISTINCT".toList
      let rest := if distinct then rest.drop 1 else rest
      let (columns, rest) ←
        if rest.take 3 = ["count(".toList, "*".toList, ")".toList] then some (none, rest.drop 3)
        else (readColumns rest).map fun (cs, rest) => (some cs, rest)
      match rest with
      | f :: table :: w :: conds =>
        if f = "FROM".toList ∧ w = "WHERE".toList then do
          let (cs, limit) ← readConds conds
          pure ⟨distinct, columns, table, cs, limit⟩
        else none
      | _ => none
  | [] => none

/-- A table: names of columns and rows. -/
structure SqlTable where
  columns : List Str
  rows : List (Str → Str)

/-- Tables by their names; reading a table may fail with a code. -/
abbrev SqlDb := Str → Option (Except Nat SqlTable)

/-- A result. -/
inductive Cell where
  | text (s : Str)
  | number (n : Nat)
  deriving DecidableEq

/-- The columns that a query mentions. -/
def SqlQuery.mentions (q : SqlQuery) : List Str := q.columns.getD [] ++ q.conds.map (·.column)

/-- Does a row meet a condition? A parameter that is not given is NULL, which equals nothing. -/
def SqlCond.holds (c : SqlCond) (parameters : List Str) (row : Str → Str) : Bool :=
  match parameters[c.parameter - 1]? with
  | none => false
  | some p => if c.like then Verif.like p (row c.column) else decide (row c.column = p)

/-- The result of a query; the code for an unknown table or column is 1. -/
def SqlQuery.run (q : SqlQuery) (db : SqlDb) (parameters : List Str) : Except Nat (List (List Cell)) :=
  match db q.table with
  | none => .error 1
  | some (.error e) => .error e
  | some (.ok t) =>
    if q.mentions.all t.columns.contains then
      let found := t.rows.filter fun row => q.conds.all (·.holds parameters row)
      let result :=
        match q.columns with
        | none => [[Cell.number found.length]]
        | some cs => found.map fun row => cs.map fun c => Cell.text (row c)
      let result := if q.distinct then result.eraseDups else result
      .ok (match q.limit with
        | some n => result.take n
        | none => result)
    else .error 1

/-- What SQLite does with a text. -/
def sqlRun (text : Str) (db : SqlDb) (parameters : List Str) : Except Nat (List (List Cell)) :=
  match readQuery (words text) with
  | none => .error 1
  | some q => q.run db parameters

/-- The table `pattern`, with the columns that matter. -/
def patternTable (rows : List PatternRow) : SqlTable where
  columns := ["component".toList, "identifier".toList, "languageTag".toList, "string".toList]
  rows := rows.map fun r c =>
    if c = "component".toList then r.component else if c = "identifier".toList then r.identifier
    else if c = "languageTag".toList then r.tag else r.string

/-- The table `contributor`, with the columns that matter. -/
def contributorTable (rows : List ContributorRow) : SqlTable where
  columns := ["component".toList, "languageTag".toList, "contributor".toList]
  rows := rows.map fun r c =>
    if c = "component".toList then r.component else if c = "languageTag".toList then r.tag else r.contributor

/-- The table `component`, with the columns that matter. -/
def componentTable (rows : List ComponentRow) : SqlTable where
  columns := ["identifier".toList, "languageTag".toList]
  rows := rows.map fun r c => if c = "identifier".toList then r.identifier else r.tag

/-- The tables of a database of localisation strings. -/
def sqlDb (db : Database) : SqlDb := fun name =>
  if name = "pattern".toList then some (db.pattern.map patternTable)
  else if name = "contributor".toList then some (db.contributor.map contributorTable)
  else if name = "component".toList then some (db.component.map componentTable)
  else none

/-- The meaning of `LIKE`: `%` stands for any text, `_` for any character, other characters for themselves, letters of
ASCII in either case. -/
inductive Likes : Str → Str → Prop
  | nil : Likes [] []
  | any {p t} (s) : Likes p t → Likes ('%' :: p) (s ++ t)
  | one {p t} (d) : Likes p t → Likes ('_' :: p) (d :: t)
  | char {p t c d} : c ≠ '%' → c ≠ '_' → c.toLower = d.toLower → Likes p t → Likes (c :: p) (d :: t)

/-! ### Databases that were opened -/

/-- SQLite can prepare the query for the database file: its table is there, with the columns that the query mentions. -/
def Prepares (db : DbFile) (text : Str) : Prop :=
  ∃ q tables columns, readQuery (words text) = some q ∧ db.tables = .ok tables ∧ q.table ∈ tables ∧
    db.columns q.table = .ok columns ∧ ∀ c ∈ q.mentions, c ∈ columns.map (·.name)

/-- The texts of all queries of the provider. -/
def queryTexts : List Str :=
  [patternText false false, patternText false true, patternText true false, patternText true true, languagesText,
    identifierText, contributorsText, countText, defaultText]

end Verif.Spec
