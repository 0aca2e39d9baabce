import Verif.Model.ProviderSqlite
import Verif.Model.Interleave
/-
Model of crates/provider/sqlite3/src/provider.rs with the feature `sync`: a provider that several threads share, with the
cache of query texts and the once-cells of the details, while the database files may be changed.

A step is one critical section of `queries`, one execution of a query, or one access to a once-cell. What SQLite does with
the query texts is written down for exactly the texts of the code; another text is an error. The registry of tags is the
parameter `canon` as in Model/ProviderSqlite.lean.
-/
namespace Verif

variable {E : Type}

/-- The fields that change, crates/provider/sqlite3/src/provider.rs:79-98, and the database files. `poisoned` is the state of
the lock of `queries`. -/
structure ProvState where
  store : Store
  queries : AMap Str Str
  poisoned : Bool
  components : Option (AMap Str ComponentDetails)
  repository : Option RepositoryDetails

/-- A program that uses a shared provider. -/
def Prog (E : Type) (α : Type) := Act ProvState (ProvM E α)

/-- No step. -/
def Prog.now {α : Type} (x : ProvM E α) : Prog E α := Act.done x

/-- The second program follows unless the first ends with an error. -/
def Prog.after {α β : Type} (p : Prog E α) (f : α → Prog E β) : Prog E β :=
  Act.bind p fun
    | .ok a => f a
    | .err e => .done (.err e)
    | .panic => .done .panic

instance : Monad (Prog E) where
  pure a := Prog.now (.ok a)
  bind := Prog.after

/-- A place is asked if the component is in it. -/
def Prog.askIf {α : Type} (there : Bool) (ask : Prog E α) (none : α) : Prog E α := if there then ask else Prog.now (.ok none)

/-! ### Query texts -/

/-- `query_pattern`, crates/provider/sqlite3/src/provider.rs:2159-2178, for version 1.0. -/
def patternText (onlyOne exact : Bool) : Str :=
  "SELECT string, languageTag FROM pattern WHERE identifier = ?1 AND languageTag ".toList ++
    (if exact then "= ?2".toList else "LIKE ?2".toList) ++ " AND component = ?3".toList ++
    (if onlyOne then " LIMIT 1".toList else [])

/-- `query_languages`, crates/provider/sqlite3/src/provider.rs:2180-2185. -/
def languagesText : Str := "SELECT DISTINCT languageTag FROM contributor WHERE component = ?1".toList

/-- `query_identifier_languages`, crates/provider/sqlite3/src/provider.rs:2187-2194. -/
def identifierText : Str := "SELECT languageTag FROM pattern WHERE identifier = ?1 AND component = ?2".toList

/-- `query_contributors`, crates/provider/sqlite3/src/provider.rs:2196-2204. -/
def contributorsText : Str :=
  "SELECT DISTINCT contributor FROM contributor WHERE languageTag = ?1 AND component = ?2".toList

/-- `query_count`, crates/provider/sqlite3/src/provider.rs:2206-2213. -/
def countText : Str := "SELECT count( * ) FROM pattern WHERE languageTag = ?1 AND component = ?2".toList

/-- `query_default`, crates/provider/sqlite3/src/provider.rs:2215-2220. -/
def defaultText : Str := "SELECT languageTag FROM component WHERE identifier = ?1".toList

/-- The text for a version of the schema; `todo!()` for others than 1.0. -/
def forVersion (version text : Str) : ProvM E Str := if version = "1.0".toList then .ok text else .panic

/-- The cache of query texts, crates/provider/sqlite3/src/provider.rs:361-394 and alike in the other queries: the lock is taken
to look for the text, to store it and to look again. -/
def queryText (key : Str) (make : ProvM E Str) : Prog E Str :=
  Act.atomic fun s =>
    if s.poisoned then (s, .done .panic)
    else match s.queries.get key with
      | some text => (s, .done (.ok text))
      | none => (s, Act.atomic fun s =>
        if s.poisoned then (s, .done .panic)
        else match make with
          | .ok text => ({ s with queries := s.queries.insert key text }, Act.atomic fun s =>
              if s.poisoned then (s, .done .panic) else (s, .done (Outcome.unwrap (s.queries.get key))))
          | _ => ({ s with poisoned := true }, .done .panic))

/-! ### What SQLite does with the texts; 1 is the code of an unknown text -/

def runPattern (text : Str) (db : Database) (identifier tag component : Str) : Except Nat (List (Str × Str)) := do
  let rows ← db.pattern
  if text = patternText true true then pure (selectPattern rows true true identifier tag component)
  else if text = patternText true false then pure (selectPattern rows true false identifier tag component)
  else if text = patternText false true then pure (selectPattern rows false true identifier tag component)
  else if text = patternText false false then pure (selectPattern rows false false identifier tag component)
  else .error 1

def runLanguages (text : Str) (db : Database) (component : Str) : Except Nat (List Str) := do
  let rows ← db.contributor
  if text = languagesText then pure (selectLanguages rows component) else .error 1

def runIdentifier (text : Str) (db : Database) (identifier component : Str) : Except Nat (List Str) := do
  let rows ← db.pattern
  if text = identifierText then pure (selectIdentifierLanguages rows identifier component) else .error 1

def runContributors (text : Str) (db : Database) (tag component : Str) : Except Nat (List Str) := do
  let rows ← db.contributor
  if text = contributorsText then pure (selectContributors rows tag component) else .error 1

def runCount (text : Str) (db : Database) (tag component : Str) : Except Nat Nat := do
  let rows ← db.pattern
  if text = countText then pure (selectCount rows tag component) else .error 1

def runDefault (text : Str) (db : Database) (component : Str) : Except Nat (List Str) := do
  let rows ← db.component
  if text = defaultText then pure (selectDefault rows component) else .error 1

/-- A query is executed on a database file as it is then. -/
def Prog.query {α : Type} (name : Str) (run : Database → Except Nat α) : Prog E α :=
  Act.atomic fun s => (s, .done (readTable (run (s.store name))))

/-! ### The queries of the provider -/

/-- `connection_sync`, crates/provider/sqlite3/src/provider.rs:275-324: the name of the database and its version. That the file
cannot be opened again is an error of the query that follows. -/
def Sqlite.connectionVersion (p : Sqlite) (component : Str) (aio : Bool) : ProvM E (Str × Str) :=
  match p.components.get component with
  | none => .err (.componentNotFound component)
  | some v =>
    if aio && v.1 then do
      let version ← Outcome.unwrap (p.connections.get allInOne)
      pure (allInOne, version)
    else if v.2 then do
      let version ← Outcome.unwrap (p.connections.get component)
      pure (component, version)
    else .err (.componentNotFound component)

/-- The key of a query text. -/
def queryKey (name : String) (flags : List (Bool × String)) : Str :=
  name.toList ++ (flags.map fun f => if f.1 then f.2.toList else []).flatten

/-- The loop of `find_strings`, crates/provider/sqlite3/src/provider.rs:407-459. -/
def findLoopSync (canon : Str → Except E Str) (text name component identifier : Str) (exact : Bool) (tag : Str) :
    Prog E (List (Str × Str)) :=
  if tag = [] then Prog.now (.ok [])
  else
    let pattern := if exact then tag else tag ++ ['%']
    Prog.after (Prog.query name fun db => runPattern text db identifier pattern component) fun rows =>
      Prog.after (Prog.now (readRows canon rows)) fun strings =>
        if strings ≠ [] then Prog.now (.ok strings)
        else
          match _h : rsplitBefore '-' pattern with
          | none => Prog.now (.ok [])
          | some before => findLoopSync canon text name component identifier exact before
termination_by tag.length
decreasing_by
  cases exact with
  | true => exact rsplitBefore_length (by simpa [pattern] using _h)
  | false =>
    have h' : rsplitBefore '-' (tag ++ ['%']) = some before := by simpa [pattern] using _h
    rw [rsplitBefore_snoc (by decide)] at h'
    exact rsplitBefore_length h'

/-- `find_strings`, crates/provider/sqlite3/src/provider.rs:327-460. The statement is prepared before the loop. -/
def Sqlite.findStringsSync (canon : Str → Except E Str) (p : Sqlite) (component identifier tag : Str)
    (aio onlyOne exact : Bool) : Prog E (List (Str × Str)) := do
  let found ← Prog.now (p.connectionVersion component aio)
  let text ← queryText (queryKey "Pattern" [(exact, "Exact"), (aio, "Aio"), (onlyOne, "One")])
    (forVersion found.2 (patternText onlyOne exact))
  Prog.query found.1 fun db => db.pattern.map fun _ => ()
  findLoopSync canon text found.1 component identifier exact tag

/-- `languages`, crates/provider/sqlite3/src/provider.rs:463-554. -/
def Sqlite.languagesSync (canon : Str → Except E Str) (p : Sqlite) (component : Str) (aio : Bool) : Prog E (List Str) := do
  let found ← Prog.now (p.connectionVersion component aio)
  let text ← queryText (queryKey "Languages" [(aio, "Aio")]) (forVersion found.2 languagesText)
  let rows ← Prog.query found.1 fun db => runLanguages text db component
  Prog.now (askTags canon rows)

/-- `identifier_languages`, crates/provider/sqlite3/src/provider.rs:557-653. -/
def Sqlite.identifierLanguagesSync (canon : Str → Except E Str) (p : Sqlite) (component identifier : Str) (aio : Bool) :
    Prog E (List Str) := do
  let found ← Prog.now (p.connectionVersion component aio)
  let text ← queryText (queryKey "Identifier" [(aio, "Aio")]) (forVersion found.2 identifierText)
  let rows ← Prog.query found.1 fun db => runIdentifier text db identifier component
  Prog.now (askTags canon rows)

/-- `contributors`, crates/provider/sqlite3/src/provider.rs:656-751. -/
def Sqlite.contributorsSync (p : Sqlite) (component tag : Str) (aio : Bool) : Prog E (List Str) := do
  let found ← Prog.now (p.connectionVersion component aio)
  let text ← queryText (queryKey "Contributors" [(aio, "Aio")]) (forVersion found.2 contributorsText)
  Prog.query found.1 fun db => runContributors text db tag component

/-- `count`, crates/provider/sqlite3/src/provider.rs:754-848. -/
def Sqlite.countSync (p : Sqlite) (component tag : Str) (aio : Bool) : Prog E Nat := do
  let found ← Prog.now (p.connectionVersion component aio)
  let text ← queryText (queryKey "Count" [(aio, "Aio")]) (forVersion found.2 countText)
  Prog.query found.1 fun db => runCount text db tag component

/-- `default_language`, crates/provider/sqlite3/src/provider.rs:851-941. -/
def Sqlite.defaultLanguageSync (canon : Str → Except E Str) (p : Sqlite) (component : Str) (aio : Bool) :
    Prog E (Option Str) := do
  let found ← Prog.now (p.connectionVersion component aio)
  let text ← queryText (queryKey "Default" [(aio, "Aio")]) (forVersion found.2 defaultText)
  let rows ← Prog.query found.1 fun db => runDefault text db component
  let tags ← Prog.now (askTags canon rows)
  pure tags.getLast?

/-! ### Requests -/

/-- `string` and `string_exact_match`, crates/provider/sqlite3/src/provider.rs:1178-1220 and 1261-1303. -/
def Sqlite.oneStringSync (canon : Str → Except E Str) (p : Sqlite) (component identifier tag : Str) (exact : Bool) :
    Prog E (Option (Str × Str)) :=
  match p.components.get component with
  | none => Prog.now (.err (.componentNotFound component))
  | some files => do
    let first ← Prog.askIf files.1 (p.findStringsSync canon component identifier tag true true exact) []
    if first ≠ [] then pure first.getLast?
    else do
      let second ← Prog.askIf files.2 (p.findStringsSync canon component identifier tag false true exact) []
      pure second.getLast?

/-- `strings`, crates/provider/sqlite3/src/provider.rs:1344-1383. -/
def Sqlite.stringsSync (canon : Str → Except E Str) (p : Sqlite) (component identifier tag : Str) :
    Prog E (List (Str × Str)) :=
  match p.components.get component with
  | none => Prog.now (.err (.componentNotFound component))
  | some files => do
    let first ← Prog.askIf files.1 (p.findStringsSync canon component identifier tag true false false) []
    if first ≠ [] then pure first
    else Prog.askIf files.2 (p.findStringsSync canon component identifier tag false false false) first

/-! ### Details -/

/-- The languages of a component, crates/provider/sqlite3/src/provider.rs:967-1021. -/
def Sqlite.componentLanguagesSync (canon : Str → Except E Str) (p : Sqlite) (component : Str) (files : Bool × Bool)
    (repo : AMap Str LanguageData) : Prog E (List Str × AMap Str LanguageData × AMap Str LanguageData) := do
  let first ← Prog.askIf files.1 (p.languagesSync canon component true) []
  let second ← Prog.askIf files.2 (p.languagesSync canon component false) []
  let own := first.foldl (fun m t => AMap.insert m t noData) []
  let repo := first.foldl addNew repo
  let new := union first second
  let own := (new.drop first.length).foldl (fun m t => AMap.insert m t noData) own
  pure (new, own, second.foldl addNew repo)

/-- The data of one language of a component, crates/provider/sqlite3/src/provider.rs:1056-1088. -/
def Sqlite.languageDataSync (p : Sqlite) (component : Str) (files : Bool × Bool) (tag : Str) : Prog E LanguageData := do
  let first ← Prog.askIf files.1 (p.contributorsSync component tag true) []
  let second ← Prog.askIf files.2 (p.contributorsSync component tag false) []
  let n ← Prog.askIf files.1 (p.countSync component tag true) 0
  let m ← Prog.askIf files.2 (p.countSync component tag false) 0
  pure { count := n + m, contributors := union first second }

/-- The loop over the languages, crates/provider/sqlite3/src/provider.rs:1054-1093. -/
def Sqlite.countLanguagesSync (p : Sqlite) (component : Str) (files : Bool × Bool) :
    List Str → ComponentDetails → RepositoryDetails → Prog E (ComponentDetails × RepositoryDetails)
  | [], own, repo => Prog.now (.ok (own, repo))
  | tag :: tags, own, repo => do
    let _ ← Prog.now (Outcome.unwrap (own.languages.get tag))
    let data ← p.languageDataSync component files tag
    let shared ← Prog.now (Outcome.unwrap (repo.languages.get tag))
    p.countLanguagesSync component files tags
      { own with languages := own.languages.insert tag data, total := own.total + data.count }
      { repo with
        languages := repo.languages.insert tag { shared with count := shared.count + data.count }
        total := repo.total + data.count
        contributors := union repo.contributors data.contributors }

/-- One component, crates/provider/sqlite3/src/provider.rs:960-1110. -/
def Sqlite.buildComponentSync (canon : Str → Except E Str) (p : Sqlite) (component : Str) (files : Bool × Bool)
    (repo : RepositoryDetails) : Prog E (ComponentDetails × RepositoryDetails) := do
  let repo := { repo with components := repo.components ++ [component] }
  let und ← Prog.now (askTag canon "und".toList)
  let (languages, own, all) ← p.componentLanguagesSync canon component files repo.languages
  let first ← Prog.askIf files.1 (p.defaultLanguageSync canon component true) none
  let default ← Prog.askIf (first.isNone && files.2) (p.defaultLanguageSync canon component false) first
  match default with
  | none => Prog.now (.err (.defaultLanguage component))
  | some d =>
    if (own.get d).isNone then Prog.now (.err (.invalidDefaultLanguage component))
    else do
      let repo := { repo with
        languages := all
        default := if component = "application".toList then some d else repo.default }
      let details ← p.countLanguagesSync component files languages { languages := own, default := und, total := 0 } repo
      let details := ({ details.1 with default := d }, details.2)
      let _ ← Prog.now (Outcome.unwrap (details.1.languages.get details.1.default))
      pure details

/-- The loop over the components. -/
def Sqlite.buildComponentsSync (canon : Str → Except E Str) (p : Sqlite) :
    List (Str × Bool × Bool) → AMap Str ComponentDetails → RepositoryDetails →
    Prog E (AMap Str ComponentDetails × RepositoryDetails)
  | [], done, repo => Prog.now (.ok (done, repo))
  | (component, files) :: rest, done, repo => do
    let (own, repo) ← p.buildComponentSync canon component files repo
    p.buildComponentsSync canon rest (done.insert component own) repo

/-- Both once-cells are set, one after the other, unless they are set already,
crates/provider/sqlite3/src/provider.rs:1130-1133. -/
def setDetails (components : AMap Str ComponentDetails) (repo : RepositoryDetails) : Prog E Unit :=
  Act.atomic fun s => ({ s with components := s.components.orElse fun _ => some components },
    Act.atomic fun s => ({ s with repository := s.repository.orElse fun _ => some repo }, .done (.ok ())))

/-- `build_cache`, crates/provider/sqlite3/src/provider.rs:944-1135. -/
def Sqlite.buildCacheSync (canon : Str → Except E Str) (p : Sqlite) : Prog E Unit := do
  let (components, repo) ← p.buildComponentsSync canon p.components []
    { languages := [], default := none, total := 0, components := [], contributors := [] }
  match repo.default with
  | none => setDetails components repo
  | some d => do
    let _ ← Prog.now (Outcome.unwrap (repo.languages.get d))
    setDetails components repo

/-- The details of all components, crates/provider/sqlite3/src/provider.rs:1427-1433 and 1487-1493. -/
def Sqlite.allDetails (canon : Str → Except E Str) (p : Sqlite) : Prog E (AMap Str ComponentDetails) :=
  Act.atomic fun s => match s.components with
    | some m => (s, .done (.ok m))
    | none => (s, Prog.after (p.buildCacheSync canon) fun _ =>
        Act.atomic fun s => (s, .done (Outcome.unwrap s.components)))

/-- `component_details`, crates/provider/sqlite3/src/provider.rs:1480-1498. -/
def Sqlite.componentDetailsSync (canon : Str → Except E Str) (p : Sqlite) (component : Str) : Prog E ComponentDetails := do
  let all ← p.allDetails canon
  match all.get component with
  | none => Prog.now (.err (.componentNotFound component))
  | some d => pure d

/-- `repository_details`, crates/provider/sqlite3/src/provider.rs:1531-1542. -/
def Sqlite.repositoryDetailsSync (canon : Str → Except E Str) (p : Sqlite) : Prog E RepositoryDetails :=
  Act.atomic fun s => match s.repository with
    | some r => (s, .done (.ok r))
    | none => (s, Prog.after (p.buildCacheSync canon) fun _ =>
        Act.atomic fun s => (s, .done (Outcome.unwrap s.repository)))

/-- `identifier_details`, crates/provider/sqlite3/src/provider.rs:1416-1447. -/
def Sqlite.identifierDetailsSync (canon : Str → Except E Str) (p : Sqlite) (component identifier : Str) :
    Prog E (List Str × Str) := do
  let all ← p.allDetails canon
  match all.get component with
  | none => Prog.now (.err (.componentNotFound component))
  | some d => do
    let languages ← p.identifierLanguagesSync canon component identifier true
    let languages ← Prog.askIf languages.isEmpty (p.identifierLanguagesSync canon component identifier false) languages
    pure (languages, d.default)

/-! ### Threads -/

/-- What a thread asks. -/
inductive ProvCall where
  | string (component identifier tag : Str)
  | stringExactMatch (component identifier tag : Str)
  | strings (component identifier tag : Str)
  | identifierDetails (component identifier : Str)
  | componentDetails (component : Str)
  | repositoryDetails

/-- What it gets. -/
inductive ProvReply where
  | string (s : Option (Str × Str))
  | strings (s : List (Str × Str))
  | identifier (languages : List Str) (default : Str)
  | component (d : ComponentDetails)
  | repository (d : RepositoryDetails)

/-- A call of a provider that is shared. -/
def Sqlite.callSync (canon : Str → Except E Str) (p : Sqlite) : ProvCall → Prog E ProvReply
  | .string c i t => do pure (.string (← p.oneStringSync canon c i t false))
  | .stringExactMatch c i t => do pure (.string (← p.oneStringSync canon c i t true))
  | .strings c i t => do pure (.strings (← p.stringsSync canon c i t))
  | .identifierDetails c i => do
    let x ← p.identifierDetailsSync canon c i
    pure (.identifier x.1 x.2)
  | .componentDetails c => do pure (.component (← p.componentDetailsSync canon c))
  | .repositoryDetails => do pure (.repository (← p.repositoryDetailsSync canon))

/-- A thread: calls one after the other, the replies in their order. -/
def Sqlite.thread (canon : Str → Except E Str) (p : Sqlite) : List ProvCall → List (ProvM E ProvReply) →
    Act ProvState (List (ProvM E ProvReply))
  | [], replies => .done replies
  | call :: calls, replies => Act.bind (p.callSync canon call) fun
    | .panic => .done (replies ++ [.panic])
    | r => p.thread canon calls (replies ++ [r])

/-- Another program changes the database files. -/
def changeFiles (change : Store → Store) : Act ProvState (List (ProvM E ProvReply)) :=
  Act.atomic fun s => ({ s with store := change s.store }, .done [])

end Verif
