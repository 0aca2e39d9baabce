import Verif.Model.Reentry
/-
The localiser with the feature `sync`, with its locks, and commands that call the localiser:
/repo/crates/localiser/src/localiser.rs.

In Model/LocaliserSync.lean a critical section is one step. Here to take a lock and to release it are steps of their own, so
that threads can wait for each other. A thread that finds a lock taken waits; a thread that waits for a lock it holds itself
waits too (`std::sync::RwLock` may also panic then). Whether a reader has to wait for a writer that waits is not specified
for `std::sync::RwLock`: it is a parameter.

The provider and the registries have locks of their own (Model/ProviderSync.lean, Model/RegistrySync.lean). They are not
modelled here: they are released before the provider or the registry answers, and neither calls the localiser.
-/
namespace Verif

variable {D F P : Type}

/-! ### Locks -/

/-- The program of a thread: `exclusive` for the write lock. -/
inductive Locking (σ α : Type) where
  | done (a : α)
  | step (effect : σ → σ) (next : σ → Locking σ α)
  | acquire (lock : Cell) (exclusive : Bool) (next : Locking σ α)
  | release (lock : Cell) (exclusive : Bool) (next : Locking σ α)

/-- One program after another. -/
def Locking.bind {σ α β : Type} (p : Locking σ α) (k : α → Locking σ β) : Locking σ β :=
  match p with
  | done a => k a
  | step effect next => step effect fun s => (next s).bind k
  | acquire c x next => acquire c x (next.bind k)
  | release c x next => release c x (next.bind k)

/-- A thread: what it has still to do, the locks that it holds, and whether it waits for the lock it wants. -/
structure LockThread (σ α : Type) where
  prog : Locking σ α
  held : List (Cell × Bool)
  waiting : Bool

variable {σ α : Type}

/-- The thread waits for the write lock. -/
def LockThread.wantsToWrite (c : Cell) (t : LockThread σ α) : Bool :=
  match t.prog with
  | .acquire d true _ => t.waiting && d == c
  | _ => false

/-- A thread gets the lock: nobody holds the write lock; for the write lock, nobody holds the lock at all; and a reader waits
for a waiting writer if the policy says so. -/
def granted (policy : List (LockThread σ α) → Cell → Bool) (threads : List (LockThread σ α)) (c : Cell) (exclusive : Bool) :
    Bool :=
  if exclusive then threads.all fun t => t.held.all fun h => h.1 != c
  else (threads.all fun t => !t.held.contains (c, true)) &&
    !(policy threads c && threads.any (·.wantsToWrite c))

/-- The thread can make a step. -/
def LockThread.ready (policy : List (LockThread σ α) → Cell → Bool) (threads : List (LockThread σ α)) (t : LockThread σ α) :
    Bool :=
  match t.prog with
  | .done _ => false
  | .step _ _ => true
  | .acquire c x _ => !t.waiting || granted policy threads c x
  | .release _ _ _ => true

/-- One step of a thread that can make one. To take a lock are two steps: the thread asks for it, then gets it. -/
def LockThread.advance (s : σ) (t : LockThread σ α) : σ × LockThread σ α :=
  match t.prog with
  | .done _ => (s, t)
  | .step effect next => (effect s, { t with prog := next s })
  | .acquire c x next =>
    if t.waiting then (s, { prog := next, held := (c, x) :: t.held, waiting := false }) else (s, { t with waiting := true })
  | .release c x next => (s, { t with prog := next, held := t.held.erase (c, x) })

/-- The thread with this number makes a step, if it can. -/
def lockStep (policy : List (LockThread σ α) → Cell → Bool) (s : σ) (threads : List (LockThread σ α)) (i : Nat) :
    σ × List (LockThread σ α) :=
  match threads[i]? with
  | none => (s, threads)
  | some t => if t.ready policy threads then ((t.advance s).1, threads.set i (t.advance s).2) else (s, threads)

/-- State and threads after a schedule. -/
def lockRun (policy : List (LockThread σ α) → Cell → Bool) (s : σ) (threads : List (LockThread σ α)) :
    List Nat → σ × List (LockThread σ α)
  | [] => (s, threads)
  | i :: schedule =>
    lockRun policy (lockStep policy s threads i).1 (lockStep policy s threads i).2 schedule

/-- A thread that begins. -/
def LockThread.start (p : Locking σ α) : LockThread σ α := ⟨p, [], false⟩

/-! ### Code under locks -/

/-- The localiser and its poisoned locks. -/
structure LkState (S : Type) where
  loc : Localiser S
  poisoned : Cell → Bool

/-- Code that uses the localiser; `conflict` is not a result here. -/
abbrev LkM (S α : Type) := Locking (LkState S) (Run α)

namespace LkM
variable {S α β : Type}

/-- Sequence; a panic ends everything. -/
def andThen (x : LkM S α) (k : α → LkM S β) : LkM S β :=
  x.bind fun
    | .value a => k a
    | .panic => .done .panic
    | .conflict => .done .conflict
    | .deep => .done .deep

/-- A value. -/
def ret (a : α) : LkM S α := .done (.value a)

/-- `lock.read().unwrap()` for the time of `body`. -/
def read (c : Cell) (body : LkM S α) : LkM S α :=
  .acquire c false <| .step id fun s =>
    (if s.poisoned c then .done .panic else body).bind fun r => .release c false (.done r)

/-- A panic while the write lock is held poisons it. -/
def poison (c : Cell) (r : Run α) (s : LkState S) : LkState S :=
  match r with
  | .panic => { s with poisoned := fun d => if d = c then true else s.poisoned d }
  | _ => s

/-- `lock.write().unwrap()` for the time of `body`. -/
def write (c : Cell) (body : LkM S α) : LkM S α :=
  .acquire c true <| .step id fun s =>
    (if s.poisoned c then .done .panic else body).bind fun r =>
      .step (poison c r) fun _ => .release c true (.done r)

/-- Look at the contents of a cell. -/
def get (f : Localiser S → α) : LkM S α := .step id fun s => .done (.value (f s.loc))

/-- Change the contents of a cell; `none` is an `unwrap` that fails. `fresh` are the formatters that are new: their locks are
not poisoned. -/
def set (f : Localiser S → Option (Localiser S)) (fresh : Str → Str → Bool := fun _ _ => false) : LkM S Unit :=
  .step
    (fun s => match f s.loc with
      | none => s
      | some l => ⟨l, fun
        | .formatter t k => if fresh t k then false else s.poisoned (.formatter t k)
        | c => s.poisoned c⟩)
    fun s => match f s.loc with
      | none => .done .panic
      | some _ => .done (.value ())

/-- A result of the localiser. -/
def result {P : Type} (r : LocM P α) : LkM S (Except (LocErr P) α) :=
  match r with
  | .ok a => .done (.value (.ok a))
  | .err e => .done (.value (.error e))
  | .panic => .done .panic

end LkM

/-- Have a conversation, with `ask` for the requests. -/
def lkConverse {S α : Type} (ask : Request D F → LkM S (Answer P)) : Talk (Request D F) (Answer P) α → LkM S α
  | .done a => .ret a
  | .ask r next => (ask r).andThen fun a => lkConverse ask (next a)

/-! ### The localiser -/

section
variable {S : Type} (L : TalkLocEnv D F P) (ask : Request D F → LkM S (Answer P))

/-- The cached formatter. -/
def cachedFormatter (tag key : Str) (l : Localiser S) : Option Formatter :=
  match (l.cache.get tag).bind fun m => m.get key with
  | some (.formatter f) => some f
  | _ => none

/-- `formatter.write().unwrap().format(self, values)`, crates/localiser/src/localiser.rs:981-986 and 1124-1127. The formatter
is the one in the cache when its lock is held; `f` is what it was before (both are there, for the read lock of the cache is
held all the time). -/
def lkFormatter (tag key : Str) (f : Formatter) (values : AMap Str (PValue D F)) :
    LkM S (Except (LocErr P) (Str × Str)) :=
  .write (.formatter tag key) <|
    (LkM.get fun l => (cachedFormatter tag key l).getD f).andThen fun f =>
    (lkConverse ask (talkFormat L.fmt f values)).andThen fun (r, f) =>
      (LkM.set fun l => some (putFormatter tag key f l)).andThen fun _ => .result (r.mapErr .formatter)

/-- The formatters that are replaced when an entry is stored: all of the language, or one. -/
def replaced (languageExists : Bool) (tag key t k : Str) : Bool := t == tag && (!languageExists || k == key)

/-- `add_string_to_cache`, crates/localiser/src/localiser.rs:1262-1304, if caching. -/
def lkString (caching languageExists : Bool) (key string tag : Str) : LkM S (Except (LocErr P) (Str × Str)) :=
  if caching then
    (LkM.write .cache <| .set (fun l =>
      (addStringToCache l.cache languageExists key string tag).map fun c => { l with cache := c })
      (replaced languageExists tag key)).andThen fun _ =>
        .ret (.ok (string, tag))
  else .ret (.ok (string, tag))

/-- The last part of `actual_format`, crates/localiser/src/localiser.rs:1066-1130. -/
def lkCached (languageExists : Bool) (tag key : Str) (f : Formatter) (values : AMap Str (PValue D F)) :
    LkM S (Except (LocErr P) (Str × Str)) :=
  (LkM.write .cache <| .set (fun l => (putNew languageExists tag key f l.cache).map fun c => { l with cache := c })
    (replaced languageExists tag key)).andThen fun _ =>
  .read .cache <|
    (LkM.get fun l => (l.cache.get tag).bind fun m => m.get key).andThen fun
      | none => .result .panic
      | some (.localised _ _) => .ret (.error .neverReached)
      | some (.formatter f) => lkFormatter L ask tag key f values

/-- `actual_format`, crates/localiser/src/localiser.rs:941-1130. The first part gives a result, or else whether the cache has
entries for the language. -/
def lkFormat (component identifier : Str) (values : AMap Str (PValue D F)) (tag : Str) (fallback caching : Bool) :
    LkM S (Except (LocErr P) (Str × Str)) :=
  let key := cacheKey component identifier
  (LkM.read .cache <|
    (LkM.get fun l => ((l.cache.get tag).isSome, (l.cache.get tag).bind fun m => m.get key)).andThen fun
      | (_, some (.localised s t)) => LkM.ret (Sum.inl (.ok (s, t)))
      | (_, some (.formatter f)) => (lkFormatter L ask tag key f values).andThen fun r => .ret (Sum.inl r)
      | (exist, none) => .ret (Sum.inr exist)).andThen fun
    | .inl r => .ret r
    | .inr exist =>
      (LkM.result (fetch L.plain component identifier tag fallback)).andThen fun
        | .error e => .ret (.error e)
        | .ok (s, t) =>
          if s = [] then lkString caching exist key s t
          else
            (lkConverse ask (talkNew L.fmt s t (L.icuLanguage t))).andThen fun
              | .err .noGrammar => lkString caching exist key s t
              | .err e => .ret (.error (.formatter e))
              | .panic => .result .panic
              | .ok f =>
                if ¬ caching then
                  (lkConverse ask (talkFormat L.fmt f values)).andThen fun (r, _) => .result (r.mapErr .formatter)
                else lkCached L ask exist tag key f values

/-- `actual_literal`, crates/localiser/src/localiser.rs:1133-1213. -/
def lkLiteral (component identifier tag : Str) (fallback caching : Bool) : LkM S (Except (LocErr P) (Str × Str)) :=
  let key := cacheKey component identifier
  (LkM.read .cache <|
    .get fun l => ((l.cache.get tag).isSome, (l.cache.get tag).bind fun m => m.get key)).andThen fun
    | (_, some (.localised s t)) => .ret (.ok (s, t))
    | (_, some (.formatter _)) => .ret (.error (.cacheEntry component identifier))
    | (exist, none) =>
      (LkM.result (fetch L.plain component identifier tag fallback)).andThen fun
        | .error e => .ret (.error e)
        | .ok (s, t) => lkString caching exist key s t

mutual
/-- `actual_format_localisation_data`, crates/localiser/src/localiser.rs:1215-1260. -/
def lkData (tag : Str) (fallback caching : Bool) (component identifier : Str)
    (values : Option (List (Str × PValue D F))) : LkM S (Except (LocErr P) (Str × Str)) :=
  match values with
  | none => lkLiteral L component identifier tag fallback caching
  | some vs => (lkValues tag fallback caching vs []).andThen fun
    | .ok values => lkFormat L ask component identifier values tag fallback caching
    | .error e => .ret (.error e)

/-- The loop over the values, crates/localiser/src/localiser.rs:1232-1250. -/
def lkValues (tag : Str) (fallback caching : Bool) (values : List (Str × PValue D F)) (acc : AMap Str (PValue D F)) :
    LkM S (Except (LocErr P) (AMap Str (PValue D F))) :=
  match values with
  | [] => .ret (.ok acc)
  | (name, .localisationData c i vs) :: rest =>
    (lkData tag fallback caching c i vs).andThen fun
      | .ok (s, t) => lkValues tag fallback caching rest (acc.insert name (.localised s t))
      | .error e => .ret (.error e)
  | (name, v) :: rest => lkValues tag fallback caching rest (acc.insert name v)
end

/-- The defaults that a call uses, for example crates/localiser/src/localiser.rs:659-669: each lock is held for
one statement. -/
def lkOptions {α : Type} (tag : Option Str) (fallback caching : Option Bool) (body : Str → Bool → Bool → LkM S α) :
    LkM S α :=
  (match tag with
    | some t => LkM.ret t
    | none => .read .tag (.get fun l => l.tag)).andThen fun tag =>
  (LkM.read .fallback (.get fun l => fallback.getD l.fallback)).andThen fun fallback =>
  (LkM.read .caching (.get fun l => caching.getD l.caching)).andThen fun caching =>
  body tag fallback caching

/-- `defaults`, crates/localiser/src/localiser.rs:495-540: the read lock of the tag is held while the
script data is replaced. -/
def lkDefaults (scriptOf : Str → S) (tag : Option Str) (fallback caching : Option Bool) : LkM S Unit :=
  (match tag with
    | none => LkM.ret ()
    | some t =>
      (LkM.write .tag (.set fun l => some { l with tag := t })).andThen fun _ =>
      .read .tag <| (LkM.get fun l => l.tag).andThen fun t =>
        .write .script (.set fun l => some { l with script := scriptOf t })).andThen fun _ =>
  (match fallback with
    | none => LkM.ret ()
    | some b => .write .fallback (.set fun l => some { l with fallback := b })).andThen fun _ =>
  match caching with
    | none => .ret ()
    | some b => .write .caching (.set fun l => some { l with caching := b })

/-- One request, with `ask` for the requests of commands. -/
def lkCall (scriptOf : Str → S) : Request D F → LkM S (Answer P)
  | .format c i vs tag fallback caching =>
    lkOptions tag fallback caching fun t fb ca => (lkFormat L ask c i vs t fb ca).andThen fun r => .ret (some r)
  | .literal c i tag fallback caching =>
    lkOptions tag fallback caching fun t fb ca => (lkLiteral L c i t fb ca).andThen fun r => .ret (some r)
  | .data c i vs tag fallback caching =>
    lkOptions tag fallback caching fun t fb ca => (lkData L ask t fb ca c i vs).andThen fun r => .ret (some r)
  | .defaults tag fallback caching => (lkDefaults scriptOf tag fallback caching).andThen fun _ => .ret none

end

/-- A request of the program, where calls may be nested up to a depth. -/
def lkRequest {S : Type} (L : TalkLocEnv D F P) (scriptOf : Str → S) : (depth : Nat) → Request D F → LkM S (Answer P)
  | 0, _ => .done .deep
  | depth + 1, r => lkCall L (lkRequest L scriptOf depth) scriptOf r

/-- A thread makes requests one after the other and keeps the answers; it ends when one panics. -/
def lkThread {S : Type} (L : TalkLocEnv D F P) (scriptOf : Str → S) (depth : Nat) :
    List (Request D F) → List (Run (Answer P)) → Locking (LkState S) (List (Run (Answer P)))
  | [], answers => .done answers
  | r :: rest, answers => (lkRequest L scriptOf depth r).bind fun
    | .value a => lkThread L scriptOf depth rest (answers ++ [.value a])
    | a => .done (answers ++ [a])

end Verif
