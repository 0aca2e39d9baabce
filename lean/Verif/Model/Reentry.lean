import Verif.Model.Localiser
/-
The localiser without the feature `sync`, with its `RefCell`s, and commands that call the localiser.

A command is a `fn` (crates/localiser/src/command.rs:35), which can reach the localiser that called it by a static or thread
local variable. So here a command is a conversation: it makes requests to the localiser before it gives its result. The cells
of the localiser count their borrows, and a borrow that `RefCell` does not permit is an explicit result, `conflict`.

A command that unwinds is not continued: a panic in a request of a command ends the whole call. What the formatter in the
cache would have for numbers after such a panic is not modelled.
-/
namespace Verif

variable {D F P : Type}

/-! ### Conversations -/

/-- A computation that makes requests `R`, gets answers `A`, and gives a result. -/
inductive Talk (R A α : Type) where
  | done (a : α)
  | ask (r : R) (next : A → Talk R A α)

namespace Talk
variable {R A α β : Type}

/-- One computation after another. -/
def bind (t : Talk R A α) (k : α → Talk R A β) : Talk R A β :=
  match t with
  | done a => k a
  | ask r next => ask r fun a => (next a).bind k

/-- The operator `?` in a computation with requests. -/
def chain {ε : Type} (t : Talk R A (Outcome ε α)) (k : α → Talk R A (Outcome ε β)) : Talk R A (Outcome ε β) :=
  t.bind fun
    | .ok a => k a
    | .err e => done (.err e)
    | .panic => done .panic

end Talk

/-- The answer to a request: as in `Localiser.call`, `none` for `defaults`. A panic is not an answer. -/
abbrev Answer (P : Type) := Option (Except (LocErr P) (Str × Str))

/-- A computation during formatting. -/
abbrev FmtTalk (D F P α : Type) := Talk (Request D F) (Answer P) (FmtM α)

/-- A command that can call the localiser. -/
abbrev TalkCommand (D F P : Type) := List (PValue D F) → Talk (Request D F) (Answer P) (Outcome CommandError Str)

/-- As `FmtEnv`, with such commands. -/
structure TalkEnv (D F P : Type) where
  icu : Icu
  grammar : Str
  icu4x : Icu4x D F
  commands : Str → Option (TalkCommand D F P)

/-- The same without the commands, for what does not use them. -/
def TalkEnv.plain (E : TalkEnv D F P) : FmtEnv D F := ⟨E.icu, E.grammar, E.icu4x, []⟩

/-- No request is made. -/
def quiet {α : Type} (x : FmtM α) : FmtTalk D F P α := .done x

/-! ### The formatter -/

/-- As `callCommand`. The cell of the command registry is borrowed only during the look-up,
crates/localiser/src/command.rs:133-143. -/
def talkCommand (E : TalkEnv D F P) (name : Str) (parameters : List (PValue D F)) : FmtTalk D F P Str :=
  match E.commands name with
  | none => .done (.err (.command (.notFound name)))
  | some f => (f parameters).bind fun r => .done (r.mapErr FormatterError.command)

/-- As `partCommand`, up to the call of the command: the parameters, and whether the command is delayed. -/
def commandParts (t : Tree) (i : Nat) : FmtM (Bool × Str × List Str) := do
  let children ← t.children i
  match children with
  | [] => .err (.noChildren .pattern)
  | command :: rest =>
    if (← t.nodeType command) ≠ .identifier then .err (.nodeNotFound .identifier)
    else
      let commandToken ← t.firstToken command
      let (delay, rest) ← (match rest with
        | [] => pure (false, [])
        | n :: rest' => do
          if (← t.nodeType n) = .numberSign then pure (true, rest') else pure (false, n :: rest'))
      let parameters ← commandParameters t rest
      pure (delay, commandToken, parameters)

/-- `part_command`, crates/localiser/src/formatter.rs:1269-1328. -/
def talkPartCommand (E : TalkEnv D F P) (t : Tree) (i : Nat) : FmtTalk D F P PatternPart :=
  (quiet (commandParts t i)).chain fun (delay, name, parameters) =>
    if delay then quiet (.ok (.command (name :: parameters)))
    else (talkCommand E name ((name :: parameters).map .string)).chain fun s => quiet (.ok (.text s))

/-- As `buildNamed`, crates/localiser/src/formatter.rs:124-148. -/
def talkNamed (E : TalkEnv D F P) (lang : Str) (patterns : AMap Str (List PatternPart)) (t : Tree) :
    List Nat → List PatternPart → List Str → List (AMap Str Str) →
    FmtTalk D F P (List PatternPart × List Str × List (AMap Str Str))
  | [], pattern, numbers, selectors => quiet (.ok (pattern, numbers, selectors))
  | child :: rest, pattern, numbers, selectors =>
    (quiet (t.nodeType child)).chain fun ty =>
      if ty = .text then
        (quiet (partText t child)).chain fun p => talkNamed E lang patterns t rest (pattern ++ [p]) numbers selectors
      else if ty = .numberSign then
        talkNamed E lang patterns t rest (pattern ++ [.numberSign numbers.length]) (numbers ++ [[]]) selectors
      else if ty = .pattern then
        (quiet (partPattern E.icu4x lang patterns t child selectors)).chain fun (p, selectors) =>
          talkNamed E lang patterns t rest (pattern ++ [p]) numbers selectors
      else if ty = .command then
        (talkPartCommand E t child).chain fun p => talkNamed E lang patterns t rest (pattern ++ [p]) numbers selectors
      else quiet (.err (.invalidNode .string))

/-- As `buildGroup`, crates/localiser/src/formatter.rs:105-150. -/
def talkGroup (E : TalkEnv D F P) (lang : Str) (t : Tree) :
    List Nat → AMap Str (List PatternPart) → List Str → List (AMap Str Str) →
    FmtTalk D F P (AMap Str (List PatternPart) × List Str × List (AMap Str Str))
  | [], patterns, numbers, selectors => quiet (.ok (patterns, numbers, selectors))
  | named :: rest, patterns, numbers, selectors =>
    (quiet (do
      let identifier ← t.first named
      t.firstToken identifier)).chain fun name =>
        if patterns.contains name then quiet (.err (.namedStringIdentifier name))
        else
          (quiet (do
            let string ← t.last named
            t.children string)).chain fun children =>
              (talkNamed E lang patterns t children [] numbers selectors).chain fun (pattern, numbers, selectors) =>
                talkGroup E lang t rest (patterns.insert name pattern) numbers selectors

/-- As `buildMain`, crates/localiser/src/formatter.rs:157-178. -/
def talkMain (E : TalkEnv D F P) (lang : Str) (patterns : AMap Str (List PatternPart)) (t : Tree) :
    List Nat → List PatternPart → List (AMap Str Str) → FmtTalk D F P (List PatternPart × List (AMap Str Str))
  | [], pattern, selectors => quiet (.ok (pattern, selectors))
  | child :: rest, pattern, selectors =>
    (quiet (t.nodeType child)).chain fun ty =>
      if ty = .text then
        (quiet (partText t child)).chain fun p => talkMain E lang patterns t rest (pattern ++ [p]) selectors
      else if ty = .pattern then
        (quiet (partPattern E.icu4x lang patterns t child selectors)).chain fun (p, selectors) =>
          talkMain E lang patterns t rest (pattern ++ [p]) selectors
      else if ty = .command then
        (talkPartCommand E t child).chain fun p => talkMain E lang patterns t rest (pattern ++ [p]) selectors
      else quiet (.err (.invalidNode .string))

/-- As `Formatter.ofTree`, crates/localiser/src/formatter.rs:75-186. -/
def talkTree (E : TalkEnv D F P) (tag : Str) (icuLanguage : Option Str) (t : Tree) : FmtTalk D F P Formatter :=
  if ¬ t.hasGrammar then quiet (.err .noGrammar)
  else
    (quiet (Outcome.unwrap icuLanguage)).chain fun lang => (quiet (t.nodeType 0)).chain fun ty =>
      if ty ≠ .root then quiet (.err .invalidRoot)
      else
        (quiet (t.children 0)).chain fun rootChildren =>
          (match rootChildren with
            | _ :: group :: _ =>
              (quiet (t.children group)).chain fun named => talkGroup E lang t named [(mainName, [])] [] []
            | _ => quiet (.ok ([(mainName, [])], [], []))).chain fun (patterns, numbers, selectors) =>
          (quiet (do
            let main ← Outcome.unwrap rootChildren.head?
            t.children main)).chain fun children =>
          (talkMain E lang patterns t children [] selectors).chain fun (pattern, selectors) =>
          quiet (.ok {
            languageTag := tag
            icuLanguage := lang
            patterns := patterns.insert mainName pattern
            numbers := numbers
            selectors := selectors })

/-- As `Formatter.tryNew`, crates/localiser/src/formatter.rs:56-187. -/
def talkNew (E : TalkEnv D F P) (string tag : Str) (icuLanguage : Option Str) : FmtTalk D F P Formatter :=
  (quiet (Outcome.mapErr FormatterError.tree (Tree.tryNew E.icu E.grammar string))).chain fun t =>
    talkTree E tag icuLanguage t

/-- A result of formatting with requests on the way. -/
abbrev TalkRes (D F P : Type) := Talk (Request D F) (Answer P) FmtRes

/-- As `formatPart`, crates/localiser/src/formatter.rs:229-574. For a part that chooses a named pattern `formatPart` gives
the name here, since it gets a function that gives it back; that function is called for every result `ok`. -/
def talkPart (E : TalkEnv D F P) (f : Formatter) (values : AMap Str (PValue D F)) (rec : Str → List Str → TalkRes D F P)
    (part : PatternPart) (numbers : List Str) : TalkRes D F P :=
  match part with
  | .command strings =>
    match strings with
    | [] => .done (some .panic, numbers)
    | name :: parameters =>
      (talkCommand E name (.string name :: parameters.map (commandValue values))).bind fun r => .done (some r, numbers)
  | .patternComplex _ _ _ =>
    match formatPart E.plain f values (fun named numbers => (some (.ok named), numbers)) part numbers with
    | (some (.ok named), numbers) => rec named numbers
    | r => .done r
  | _ => .done (formatPart E.plain f values (fun _ numbers => (none, numbers)) part numbers)

/-- As `formatParts`. -/
def talkParts (E : TalkEnv D F P) (f : Formatter) (values : AMap Str (PValue D F)) (rec : Str → List Str → TalkRes D F P) :
    List PatternPart → Str → List Str → TalkRes D F P
  | [], acc, numbers => .done (some (.ok acc), numbers)
  | part :: rest, acc, numbers =>
    (talkPart E f values rec part numbers).bind fun
      | (some (.ok s), numbers) => talkParts E f values rec rest (acc ++ s) numbers
      | r => .done r

/-- As `formatPattern`, crates/localiser/src/formatter.rs:210-578. -/
def talkPattern (E : TalkEnv D F P) (f : Formatter) (values : AMap Str (PValue D F)) :
    (depth : Nat) → Str → List Str → TalkRes D F P
  | 0, _, numbers => .done (none, numbers)
  | depth + 1, named, numbers =>
    match f.patterns.get named with
    | none => .done (some (.err (.patternNamed named)), numbers)
    | some pattern => talkParts E f values (talkPattern E f values depth) pattern [] numbers

/-- As `Formatter.format`, crates/localiser/src/formatter.rs:190-197. -/
def talkFormat (E : TalkEnv D F P) (f : Formatter) (values : AMap Str (PValue D F)) :
    Talk (Request D F) (Answer P) (FmtM (Str × Str) × Formatter) :=
  (talkPattern E f values (f.patterns.length + 1) mainName f.numbers).bind fun
    | (some r, numbers) => .done (do let s ← r; pure (s, f.languageTag), { f with numbers := numbers })
    | (none, numbers) => .done (.panic, { f with numbers := numbers })

/-! ### Cells -/

/-- The cells of a localiser, crates/localiser/src/localiser.rs:39-52 and 1309-1312. -/
inductive Cell where
  | cache
  | formatter (tag key : Str)
  | fallback
  | caching
  | tag
  | script
  deriving DecidableEq

/-- The localiser with the borrows of its cells that are outstanding. -/
structure ReState (S : Type) where
  loc : Localiser S
  shared : Cell → Nat
  exclusive : Cell → Bool

/-- No cell is borrowed. -/
def ReState.idle {S : Type} (l : Localiser S) : ReState S := ⟨l, fun _ => 0, fun _ => false⟩

/-- How a call ends: with a value, a panic, a panic because of a cell that is borrowed, or not (the number of calls within
calls exceeds a given number). -/
inductive Run (α : Type) where
  | value (a : α)
  | panic
  | conflict
  | deep

/-- Code that uses the localiser. -/
abbrev ReM (S α : Type) := ReState S → Run α × ReState S

namespace ReM
variable {S α β : Type}

/-- Sequence; a panic ends everything. -/
def andThen (x : ReM S α) (k : α → ReM S β) : ReM S β := fun s =>
  match x s with
  | (.value a, s) => k a s
  | (.panic, s) => (.panic, s)
  | (.conflict, s) => (.conflict, s)
  | (.deep, s) => (.deep, s)

/-- A value. -/
def ret (a : α) : ReM S α := fun s => (.value a, s)

/-- `RefCell::borrow` for the time of `body`. -/
def read (c : Cell) (body : ReM S α) : ReM S α := fun s =>
  if s.exclusive c then (.conflict, s)
  else
    match body { s with shared := fun d => if d = c then s.shared d + 1 else s.shared d } with
    | (r, s) => (r, { s with shared := fun d => if d = c then s.shared d - 1 else s.shared d })

/-- `RefCell::borrow_mut`, `RefCell::replace` for the time of `body`. -/
def write (c : Cell) (body : ReM S α) : ReM S α := fun s =>
  if s.exclusive c ∨ s.shared c ≠ 0 then (.conflict, s)
  else
    match body { s with exclusive := fun d => if d = c then true else s.exclusive d } with
    | (r, s) => (r, { s with exclusive := fun d => if d = c then false else s.exclusive d })

/-- Look at the contents of a cell. -/
def get (f : Localiser S → α) : ReM S α := fun s => (.value (f s.loc), s)

/-- Change the contents of a cell; `none` is an `unwrap` that fails. -/
def set (f : Localiser S → Option (Localiser S)) : ReM S Unit := fun s =>
  match f s.loc with
  | none => (.panic, s)
  | some l => (.value (), { s with loc := l })

/-- A result of the localiser. -/
def result {P : Type} (r : LocM P α) : ReM S (Except (LocErr P) α) := fun s =>
  match r with
  | .ok a => (.value (.ok a), s)
  | .err e => (.value (.error e), s)
  | .panic => (.panic, s)

end ReM

/-- Have a conversation, with `ask` for the requests. -/
def converse {S α : Type} (ask : Request D F → ReM S (Answer P)) : Talk (Request D F) (Answer P) α → ReM S α
  | .done a => .ret a
  | .ask r next => (ask r).andThen fun a => converse ask (next a)

/-! ### The localiser -/

/-- As `LocEnv`, with commands that can call the localiser. -/
structure TalkLocEnv (D F P : Type) where
  fmt : TalkEnv D F P
  provider : Provider P
  icuLanguage : Str → Option Str

/-- The same without the commands, for what does not use them. -/
def TalkLocEnv.plain (L : TalkLocEnv D F P) : LocEnv D F P := ⟨L.fmt.plain, L.provider, L.icuLanguage⟩

section
variable {S : Type} (L : TalkLocEnv D F P) (ask : Request D F → ReM S (Answer P))

/-- Store the formatter after its use; it may only be changed by those who have its cell. -/
def putFormatter (tag key : Str) (f : Formatter) (l : Localiser S) : Localiser S :=
  match l.cache.get tag with
  | none => l
  | some m => { l with cache := l.cache.insert tag (m.insert key (.formatter f)) }

/-- `formatter.borrow_mut().format(self, values)`, crates/localiser/src/localiser.rs:971-976 and 1117-1120. -/
def reFormatter (tag key : Str) (f : Formatter) (values : AMap Str (PValue D F)) :
    ReM S (Except (LocErr P) (Str × Str)) :=
  .write (.formatter tag key) <|
    (converse ask (talkFormat L.fmt f values)).andThen fun (r, f) =>
      (ReM.set fun l => some (putFormatter tag key f l)).andThen fun _ => .result (r.mapErr .formatter)

/-- `add_string_to_cache`, crates/localiser/src/localiser.rs:1262-1304, if caching. -/
def reString (caching languageExists : Bool) (key string tag : Str) : ReM S (Except (LocErr P) (Str × Str)) :=
  if caching then
    (ReM.write .cache <| .set fun l =>
      (addStringToCache l.cache languageExists key string tag).map fun c => { l with cache := c }).andThen fun _ =>
        .ret (.ok (string, tag))
  else .ret (.ok (string, tag))

/-- The formatter is put into the cache, crates/localiser/src/localiser.rs:1066-1101. -/
def putNew (languageExists : Bool) (tag key : Str) (f : Formatter) (cache : Cache) : Option Cache :=
  if ¬ languageExists then some (cache.insert tag [(key, .formatter f)])
  else
    match cache.get tag with
    | none => none
    | some m => some (cache.insert tag (m.insert key (.formatter f)))

/-- The last part of `actual_format`, crates/localiser/src/localiser.rs:1066-1130. -/
def reCached (languageExists : Bool) (tag key : Str) (f : Formatter) (values : AMap Str (PValue D F)) :
    ReM S (Except (LocErr P) (Str × Str)) :=
  (ReM.write .cache <| .set fun l =>
    (putNew languageExists tag key f l.cache).map fun c => { l with cache := c }).andThen fun _ =>
  .read .cache <|
    (ReM.get fun l => (l.cache.get tag).bind fun m => m.get key).andThen fun
      | none => .result .panic
      | some (.localised _ _) => .ret (.error .neverReached)
      | some (.formatter f) => reFormatter L ask tag key f values

/-- `actual_format`, crates/localiser/src/localiser.rs:941-1130. The first part gives a result, or else whether the cache has
entries for the language. -/
def reFormat (component identifier : Str) (values : AMap Str (PValue D F)) (tag : Str) (fallback caching : Bool) :
    ReM S (Except (LocErr P) (Str × Str)) :=
  let key := cacheKey component identifier
  (ReM.read .cache <|
    (ReM.get fun l => ((l.cache.get tag).isSome, (l.cache.get tag).bind fun m => m.get key)).andThen fun
      | (_, some (.localised s t)) => ReM.ret (Sum.inl (.ok (s, t)))
      | (_, some (.formatter f)) => (reFormatter L ask tag key f values).andThen fun r => .ret (Sum.inl r)
      | (exist, none) => .ret (Sum.inr exist)).andThen fun
    | .inl r => .ret r
    | .inr exist =>
      (ReM.result (fetch L.plain component identifier tag fallback)).andThen fun
        | .error e => .ret (.error e)
        | .ok (s, t) =>
          if s = [] then reString caching exist key s t
          else
            (converse ask (talkNew L.fmt s t (L.icuLanguage t))).andThen fun
              | .err .noGrammar => reString caching exist key s t
              | .err e => .ret (.error (.formatter e))
              | .panic => .result .panic
              | .ok f =>
                if ¬ caching then
                  (converse ask (talkFormat L.fmt f values)).andThen fun (r, _) => .result (r.mapErr .formatter)
                else reCached L ask exist tag key f values

/-- `actual_literal`, crates/localiser/src/localiser.rs:1133-1213. -/
def reLiteral (component identifier tag : Str) (fallback caching : Bool) : ReM S (Except (LocErr P) (Str × Str)) :=
  let key := cacheKey component identifier
  (ReM.read .cache <|
    .get fun l => ((l.cache.get tag).isSome, (l.cache.get tag).bind fun m => m.get key)).andThen fun
    | (_, some (.localised s t)) => .ret (.ok (s, t))
    | (_, some (.formatter _)) => .ret (.error (.cacheEntry component identifier))
    | (exist, none) =>
      (ReM.result (fetch L.plain component identifier tag fallback)).andThen fun
        | .error e => .ret (.error e)
        | .ok (s, t) => reString caching exist key s t

mutual
/-- `actual_format_localisation_data`, crates/localiser/src/localiser.rs:1215-1260. -/
def reData (tag : Str) (fallback caching : Bool) (component identifier : Str)
    (values : Option (List (Str × PValue D F))) : ReM S (Except (LocErr P) (Str × Str)) :=
  match values with
  | none => reLiteral L component identifier tag fallback caching
  | some vs => (reValues tag fallback caching vs []).andThen fun
    | .ok values => reFormat L ask component identifier values tag fallback caching
    | .error e => .ret (.error e)

/-- The loop over the values, crates/localiser/src/localiser.rs:1232-1250. -/
def reValues (tag : Str) (fallback caching : Bool) (values : List (Str × PValue D F)) (acc : AMap Str (PValue D F)) :
    ReM S (Except (LocErr P) (AMap Str (PValue D F))) :=
  match values with
  | [] => .ret (.ok acc)
  | (name, .localisationData c i vs) :: rest =>
    (reData tag fallback caching c i vs).andThen fun
      | .ok (s, t) => reValues tag fallback caching rest (acc.insert name (.localised s t))
      | .error e => .ret (.error e)
  | (name, v) :: rest => reValues tag fallback caching rest (acc.insert name v)
end

/-- The defaults that a call uses, for example crates/localiser/src/localiser.rs:659-669: each cell is borrowed in a statement
of its own. -/
def reOptions {α : Type} (tag : Option Str) (fallback caching : Option Bool) (body : Str → Bool → Bool → ReM S α) :
    ReM S α :=
  (match tag with
    | some t => ReM.ret t
    | none => .read .tag (.get fun l => l.tag)).andThen fun tag =>
  (ReM.read .fallback (.get fun l => fallback.getD l.fallback)).andThen fun fallback =>
  (ReM.read .caching (.get fun l => caching.getD l.caching)).andThen fun caching =>
  body tag fallback caching

/-- `defaults`, crates/localiser/src/localiser.rs:495-540: the tag is borrowed while the script data is replaced. -/
def reDefaults (scriptOf : Str → S) (tag : Option Str) (fallback caching : Option Bool) : ReM S Unit :=
  (match tag with
    | none => ReM.ret ()
    | some t =>
      (ReM.write .tag (.set fun l => some { l with tag := t })).andThen fun _ =>
      .read .tag <| (ReM.get fun l => l.tag).andThen fun t =>
        .write .script (.set fun l => some { l with script := scriptOf t })).andThen fun _ =>
  (match fallback with
    | none => ReM.ret ()
    | some b => .write .fallback (.set fun l => some { l with fallback := b })).andThen fun _ =>
  match caching with
    | none => .ret ()
    | some b => .write .caching (.set fun l => some { l with caching := b })

/-- One request, with `ask` for the requests of commands. -/
def reCall (scriptOf : Str → S) : Request D F → ReM S (Answer P)
  | .format c i vs tag fallback caching =>
    reOptions tag fallback caching fun t fb ca => (reFormat L ask c i vs t fb ca).andThen fun r => .ret (some r)
  | .literal c i tag fallback caching =>
    reOptions tag fallback caching fun t fb ca => (reLiteral L c i t fb ca).andThen fun r => .ret (some r)
  | .data c i vs tag fallback caching =>
    reOptions tag fallback caching fun t fb ca => (reData L ask t fb ca c i vs).andThen fun r => .ret (some r)
  | .defaults tag fallback caching => (reDefaults scriptOf tag fallback caching).andThen fun _ => .ret none

end

/-- A request of the program, where calls may be nested up to a depth. -/
def reRequest {S : Type} (L : TalkLocEnv D F P) (scriptOf : Str → S) : (depth : Nat) → Request D F → ReM S (Answer P)
  | 0, _ => fun s => (.deep, s)
  | depth + 1, r => reCall L (reRequest L scriptOf depth) scriptOf r

/-- The localiser after requests of the program, however they ended. -/
def reAfter {S : Type} (L : TalkLocEnv D F P) (scriptOf : Str → S) (depth : Nat) (s : ReState S)
    (requests : List (Request D F)) : ReState S :=
  requests.foldl (fun s r => (reRequest L scriptOf depth r s).2) s

end Verif
