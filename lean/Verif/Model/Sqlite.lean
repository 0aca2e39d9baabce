import Verif.Model.Outcome
import Verif.Model.Map
import Verif.Model.Lexer
/-
The parts of SQLite that crates/provider/sqlite3 uses, and the tables of a database of localisation strings.

A query gives the matching rows in the order of the table. A table that cannot be read (also: a database that cannot be
opened again, crates/provider/sqlite3/src/provider.rs:287-322) is an error code. Cells are texts: the schema has only
`TEXT NOT NULL` columns in the queries used.
-/
namespace Verif

/-- `LIKE` with its wildcards `%` and `_`; letters of ASCII are compared without case. -/
def like : Str → Str → Bool
  | [], [] => true
  | [], _ :: _ => false
  | c :: p, [] => if c = '%' then like p [] else false
  | c :: p, d :: t =>
    if c = '%' then like p (d :: t) || like (c :: p) t
    else if c = '_' then like p t
    else c.toLower == d.toLower && like p t
termination_by p t => p.length + t.length

/-- A row of the table `pattern`. -/
structure PatternRow where
  component : Str
  identifier : Str
  tag : Str
  string : Str
  deriving DecidableEq

/-- A row of the table `contributor`. -/
structure ContributorRow where
  component : Str
  tag : Str
  contributor : Str
  deriving DecidableEq

/-- A row of the table `component`. -/
structure ComponentRow where
  identifier : Str
  tag : Str
  deriving DecidableEq

/-- The contents of a database file. -/
structure Database where
  pattern : Except Nat (List PatternRow)
  contributor : Except Nat (List ContributorRow)
  component : Except Nat (List ComponentRow)

/-- Elements not yet in a list are appended to it, one after the other. -/
def union (l : List Str) (new : List Str) : List Str := new.foldl (fun l x => if x ∈ l then l else l ++ [x]) l

/-- `DISTINCT`. -/
def distinct (l : List Str) : List Str := union [] l

/-- `LIMIT 1`, if so. -/
def limit {α : Type} (only : Bool) (rows : List α) : List α := if only then rows.take 1 else rows

/-- `query_pattern`, crates/provider/sqlite3/src/provider.rs:2159-2178. -/
def selectPattern (rows : List PatternRow) (onlyOne exact : Bool) (identifier tag component : Str) : List (Str × Str) :=
  (limit onlyOne (rows.filter fun r =>
    r.identifier = identifier ∧ (if exact then r.tag = tag else like tag r.tag = true) ∧ r.component = component)).map
    fun r => (r.string, r.tag)

/-- `query_languages`, crates/provider/sqlite3/src/provider.rs:2180-2185. -/
def selectLanguages (rows : List ContributorRow) (component : Str) : List Str :=
  distinct ((rows.filter fun r => r.component = component).map (·.tag))

/-- `query_identifier_languages`, crates/provider/sqlite3/src/provider.rs:2187-2194. -/
def selectIdentifierLanguages (rows : List PatternRow) (identifier component : Str) : List Str :=
  (rows.filter fun r => r.identifier = identifier ∧ r.component = component).map (·.tag)

/-- `query_contributors`, crates/provider/sqlite3/src/provider.rs:2196-2204. -/
def selectContributors (rows : List ContributorRow) (tag component : Str) : List Str :=
  distinct ((rows.filter fun r => r.tag = tag ∧ r.component = component).map (·.contributor))

/-- `query_count`, crates/provider/sqlite3/src/provider.rs:2206-2213. -/
def selectCount (rows : List PatternRow) (tag component : Str) : Nat :=
  (rows.filter fun r => r.tag = tag ∧ r.component = component).length

/-- `query_default`, crates/provider/sqlite3/src/provider.rs:2215-2220. -/
def selectDefault (rows : List ComponentRow) (component : Str) : List Str :=
  (rows.filter fun r => r.identifier = component).map (·.tag)

end Verif
