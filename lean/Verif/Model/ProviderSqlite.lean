import Verif.Model.Sqlite
/-
Model of crates/provider/sqlite3/src/provider.rs.

The registry of language tags is the parameter `canon`: by C06 and C07 the text of the tag that the registry returns is
the canonical text of the request whatever was requested before, and `LanguageTag` compares and hashes by its text. The
cache of query texts (`queries`) and the once-cells are modelled separately (Model/ProviderSync.lean).
-/
namespace Verif

variable {E : Type}

/-- `ProviderError`, crates/provider/core/src/error.rs:39-46. `E` are the errors of the registry, `sql` is `Custom` with
an error of SQLite. -/
inductive ProvErr (E : Type) where
  | componentNotFound (component : Str)
  | registry (e : E)
  | defaultLanguage (component : Str)
  | invalidDefaultLanguage (component : Str)
  | sql (code : Nat)
  deriving DecidableEq

abbrev ProvM (E : Type) := Outcome (ProvErr E)

/-- The name of the database of all components. -/
def allInOne : Str := "__all_in_one__".toList

/-- The fields of `LocalisationProviderSqlite3` that stay as they are, crates/provider/sqlite3/src/provider.rs:79-98:
`components` says whether the component is in the database of all components and whether it has its own;
`connections` has the schema version of each database that was opened. -/
structure Sqlite where
  components : AMap Str (Bool × Bool)
  connections : AMap Str Str
  deriving DecidableEq

/-- What the database files contain when they are read, by the names of the connections. -/
abbrev Store := Str → Database

/-- The registry is asked for a tag. -/
def askTag (canon : Str → Except E Str) (tag : Str) : ProvM E Str :=
  match canon tag with
  | .ok t => .ok t
  | .error e => .err (.registry e)

/-- A place is asked if the component is in it; `none` is what is there before. -/
def askIf {α : Type} (there : Bool) (ask : ProvM E α) (none : α) : ProvM E α := if there then ask else .ok none

/-- A table is read. -/
def readTable {α : Type} (table : Except Nat α) : ProvM E α :=
  match table with
  | .ok rows => .ok rows
  | .error code => .err (.sql code)

/-- The registry is asked for each tag; the first error ends it. -/
def askTags (canon : Str → Except E Str) : List Str → ProvM E (List Str)
  | [] => .ok []
  | t :: ts => do
    let t ← askTag canon t
    let ts ← askTags canon ts
    pure (t :: ts)

/-- `connection` and `connection_sync`, crates/provider/sqlite3/src/provider.rs:251-324: the name of the database. -/
def Sqlite.connection (p : Sqlite) (component : Str) (aio : Bool) : ProvM E Str :=
  match p.components.get component with
  | none => .err (.componentNotFound component)
  | some v =>
    if aio && v.1 then do
      let _ ← Outcome.unwrap (p.connections.get allInOne)
      pure allInOne
    else if v.2 then do
      let _ ← Outcome.unwrap (p.connections.get component)
      pure component
    else .err (.componentNotFound component)

/-- The part before the last occurrence of a character, as `rsplit_once`. -/
def rsplitBefore (c : Char) (s : Str) : Option Str :=
  match s.reverse.dropWhile (· ≠ c) with
  | [] => none
  | _ :: before => some before.reverse

theorem rsplitBefore_length {c : Char} {s b : Str} (h : rsplitBefore c s = some b) : b.length < s.length := by
  unfold rsplitBefore at h
  split at h
  · cases h
  · next x before hd =>
    cases h
    have := List.dropWhile_sublist (fun x => decide (x ≠ c)) (l := s.reverse)
    have hl := this.length_le
    rw [hd] at hl
    simp only [List.length_cons, List.length_reverse] at hl ⊢
    omega

theorem rsplitBefore_snoc {c d : Char} {s : Str} (h : d ≠ c) : rsplitBefore c (s ++ [d]) = rsplitBefore c s := by
  unfold rsplitBefore
  simp [h]

/-- The rows of a query with the tags of the registry, crates/provider/sqlite3/src/provider.rs:421-447. -/
def readRows (canon : Str → Except E Str) : List (Str × Str) → ProvM E (List (Str × Str))
  | [] => .ok []
  | (s, t) :: rest => do
    let t ← askTag canon t
    let rest ← readRows canon rest
    pure ((s, t) :: rest)

/-- The loop of `find_strings`, crates/provider/sqlite3/src/provider.rs:407-459. -/
def findLoop (canon : Str → Except E Str) (rows : List PatternRow) (component identifier : Str) (onlyOne exact : Bool)
    (tag : Str) : ProvM E (List (Str × Str)) :=
  if tag = [] then .ok []
  else
    let pattern := if exact then tag else tag ++ ['%']
    match readRows canon (selectPattern rows onlyOne exact identifier pattern component) with
    | .err e => .err e
    | .panic => .panic
    | .ok strings =>
      if strings ≠ [] then .ok strings
      else
        match _h : rsplitBefore '-' pattern with
        | none => .ok []
        | some before => findLoop canon rows component identifier onlyOne exact before
termination_by tag.length
decreasing_by
  cases exact with
  | true => exact rsplitBefore_length (by simpa [pattern] using _h)
  | false =>
    have h' : rsplitBefore '-' (tag ++ ['%']) = some before := by simpa [pattern] using _h
    rw [rsplitBefore_snoc (by decide)] at h'
    exact rsplitBefore_length h'

/-- `find_strings`, crates/provider/sqlite3/src/provider.rs:327-460. -/
def Sqlite.findStrings (canon : Str → Except E Str) (p : Sqlite) (st : Store) (component identifier tag : Str)
    (aio onlyOne exact : Bool) : ProvM E (List (Str × Str)) := do
  let name ← p.connection component aio
  let rows ← readTable (st name).pattern
  findLoop canon rows component identifier onlyOne exact tag

/-- `languages`, crates/provider/sqlite3/src/provider.rs:463-554. -/
def Sqlite.languages (canon : Str → Except E Str) (p : Sqlite) (st : Store) (component : Str) (aio : Bool) :
    ProvM E (List Str) := do
  let name ← p.connection component aio
  let rows ← readTable (st name).contributor
  askTags canon (selectLanguages rows component)

/-- `identifier_languages`, crates/provider/sqlite3/src/provider.rs:557-653. -/
def Sqlite.identifierLanguages (canon : Str → Except E Str) (p : Sqlite) (st : Store) (component identifier : Str)
    (aio : Bool) : ProvM E (List Str) := do
  let name ← p.connection component aio
  let rows ← readTable (st name).pattern
  askTags canon (selectIdentifierLanguages rows identifier component)

/-- `contributors`, crates/provider/sqlite3/src/provider.rs:656-751. -/
def Sqlite.contributors (p : Sqlite) (st : Store) (component tag : Str) (aio : Bool) : ProvM E (List Str) := do
  let name ← p.connection component aio
  let rows ← readTable (st name).contributor
  pure (selectContributors rows tag component)

/-- `count`, crates/provider/sqlite3/src/provider.rs:754-848. -/
def Sqlite.count (p : Sqlite) (st : Store) (component tag : Str) (aio : Bool) : ProvM E Nat := do
  let name ← p.connection component aio
  let rows ← readTable (st name).pattern
  pure (selectCount rows tag component)

/-- `default_language`, crates/provider/sqlite3/src/provider.rs:851-941: the tag of the last row. -/
def Sqlite.defaultLanguage (canon : Str → Except E Str) (p : Sqlite) (st : Store) (component : Str) (aio : Bool) :
    ProvM E (Option Str) := do
  let name ← p.connection component aio
  let rows ← readTable (st name).component
  let tags ← askTags canon (selectDefault rows component)
  pure tags.getLast?

/-- The two places are asked one after the other, crates/provider/sqlite3/src/provider.rs:1192-1220 and 1275-1303. -/
def Sqlite.oneString (canon : Str → Except E Str) (p : Sqlite) (st : Store) (component identifier tag : Str)
    (exact : Bool) : ProvM E (Option (Str × Str)) :=
  match p.components.get component with
  | none => .err (.componentNotFound component)
  | some files => do
    let first ← askIf files.1 (p.findStrings canon st component identifier tag true true exact) []
    if first ≠ [] then pure first.getLast?
    else do
      let second ← askIf files.2 (p.findStrings canon st component identifier tag false true exact) []
      pure second.getLast?

/-- `string`, crates/provider/sqlite3/src/provider.rs:1178-1220. -/
def Sqlite.string (canon : Str → Except E Str) (p : Sqlite) (st : Store) (component identifier tag : Str) :
    ProvM E (Option (Str × Str)) := p.oneString canon st component identifier tag false

/-- `string_exact_match`, crates/provider/sqlite3/src/provider.rs:1261-1303. -/
def Sqlite.stringExactMatch (canon : Str → Except E Str) (p : Sqlite) (st : Store) (component identifier tag : Str) :
    ProvM E (Option (Str × Str)) := p.oneString canon st component identifier tag true

/-- `strings`, crates/provider/sqlite3/src/provider.rs:1344-1383. -/
def Sqlite.strings (canon : Str → Except E Str) (p : Sqlite) (st : Store) (component identifier tag : Str) :
    ProvM E (List (Str × Str)) :=
  match p.components.get component with
  | none => .err (.componentNotFound component)
  | some files => do
    let first ← askIf files.1 (p.findStrings canon st component identifier tag true false false) []
    if first ≠ [] then pure first
    else askIf files.2 (p.findStrings canon st component identifier tag false false false) first

/-! ### Details -/

/-- `LanguageData`, crates/provider/core/src/provider.rs; the field `ratio` is in `Model/Ratio.lean`. -/
structure LanguageData where
  count : Nat
  contributors : List Str
  deriving DecidableEq

/-- `ComponentDetails`, crates/provider/core/src/provider.rs. -/
structure ComponentDetails where
  languages : AMap Str LanguageData
  default : Str
  total : Nat

/-- `RepositoryDetails`, crates/provider/core/src/provider.rs. -/
structure RepositoryDetails where
  languages : AMap Str LanguageData
  default : Option Str
  total : Nat
  components : List Str
  contributors : List Str

/-- Data of a language before counting. -/
def noData : LanguageData := { count := 0, contributors := [] }

/-- A language of the repository, if it is new. -/
def addNew (languages : AMap Str LanguageData) (tag : Str) : AMap Str LanguageData :=
  if (languages.get tag).isSome then languages else languages.insert tag noData

/-- The languages of a component, crates/provider/sqlite3/src/provider.rs:967-1021: the list, and the maps of the component
and of the repository. -/
def Sqlite.componentLanguages (canon : Str → Except E Str) (p : Sqlite) (st : Store) (component : Str)
    (files : Bool × Bool) (repo : AMap Str LanguageData) :
    ProvM E (List Str × AMap Str LanguageData × AMap Str LanguageData) := do
  let first ← askIf files.1 (p.languages canon st component true) []
  let second ← askIf files.2 (p.languages canon st component false) []
  let own := first.foldl (fun m t => AMap.insert m t noData) []
  let repo := first.foldl addNew repo
  let new := union first second
  let own := (new.drop first.length).foldl (fun m t => AMap.insert m t noData) own
  pure (new, own, second.foldl addNew repo)

/-- The data of one language of a component, crates/provider/sqlite3/src/provider.rs:1056-1088. -/
def Sqlite.languageData (p : Sqlite) (st : Store) (component : Str) (files : Bool × Bool) (tag : Str) :
    ProvM E LanguageData := do
  let first ← askIf files.1 (p.contributors st component tag true) []
  let second ← askIf files.2 (p.contributors st component tag false) []
  let n ← askIf files.1 (p.count st component tag true) 0
  let m ← askIf files.2 (p.count st component tag false) 0
  pure { count := n + m, contributors := union first second }

/-- The loop over the languages, crates/provider/sqlite3/src/provider.rs:1054-1093. The contributors of the repository get
those of the first place and then those of the second. -/
def Sqlite.countLanguages (p : Sqlite) (st : Store) (component : Str) (files : Bool × Bool) :
    List Str → ComponentDetails → RepositoryDetails → ProvM E (ComponentDetails × RepositoryDetails)
  | [], own, repo => .ok (own, repo)
  | tag :: tags, own, repo => do
    let _ ← Outcome.unwrap (own.languages.get tag)
    let data ← p.languageData st component files tag
    let shared ← Outcome.unwrap (repo.languages.get tag)
    p.countLanguages st component files tags
      { own with languages := own.languages.insert tag data, total := own.total + data.count }
      { repo with
        languages := repo.languages.insert tag { shared with count := shared.count + data.count }
        total := repo.total + data.count
        contributors := union repo.contributors data.contributors }

/-- One component, crates/provider/sqlite3/src/provider.rs:960-1110. -/
def Sqlite.buildComponent (canon : Str → Except E Str) (p : Sqlite) (st : Store) (component : Str) (files : Bool × Bool)
    (repo : RepositoryDetails) : ProvM E (ComponentDetails × RepositoryDetails) := do
  let repo := { repo with components := repo.components ++ [component] }
  let und ← askTag canon "und".toList
  let (languages, own, all) ← p.componentLanguages canon st component files repo.languages
  let first ← askIf files.1 (p.defaultLanguage canon st component true) none
  let default ← askIf (first.isNone && files.2) (p.defaultLanguage canon st component false) first
  match default with
  | none => .err (.defaultLanguage component)
  | some d =>
    if (own.get d).isNone then .err (.invalidDefaultLanguage component)
    else do
      let repo := { repo with
        languages := all
        default := if component = "application".toList then some d else repo.default }
      let details ← p.countLanguages st component files languages { languages := own, default := und, total := 0 } repo
      let details := ({ details.1 with default := d }, details.2)
      let _ ← Outcome.unwrap (details.1.languages.get details.1.default)
      pure details

/-- The loop over the components. -/
def Sqlite.buildComponents (canon : Str → Except E Str) (p : Sqlite) (st : Store) :
    List (Str × Bool × Bool) → AMap Str ComponentDetails → RepositoryDetails →
    ProvM E (AMap Str ComponentDetails × RepositoryDetails)
  | [], done, repo => .ok (done, repo)
  | (component, files) :: rest, done, repo => do
    let (own, repo) ← p.buildComponent canon st component files repo
    p.buildComponents canon st rest (done.insert component own) repo

/-- `build_cache`, crates/provider/sqlite3/src/provider.rs:944-1135, up to the writing of the once-cells. -/
def Sqlite.buildCache (canon : Str → Except E Str) (p : Sqlite) (st : Store) :
    ProvM E (AMap Str ComponentDetails × RepositoryDetails) := do
  let (components, repo) ← p.buildComponents canon st p.components []
    { languages := [], default := none, total := 0, components := [], contributors := [] }
  match repo.default with
  | none => pure (components, repo)
  | some d => do
    let _ ← Outcome.unwrap (repo.languages.get d)
    pure (components, repo)

/-- The last part of `identifier_details`, crates/provider/sqlite3/src/provider.rs:1434-1446, when the details of all
components are known. -/
def Sqlite.identifierDetails (canon : Str → Except E Str) (p : Sqlite) (st : Store) (details : AMap Str ComponentDetails)
    (component identifier : Str) : ProvM E (List Str × Str) :=
  match details.get component with
  | none => .err (.componentNotFound component)
  | some d => do
    let languages ← p.identifierLanguages canon st component identifier true
    let languages ← askIf languages.isEmpty (p.identifierLanguages canon st component identifier false) languages
    pure (languages, d.default)

end Verif
