import Verif.Model.Localiser
import Verif.Model.Registry
import Verif.Model.ScriptData
/-
A localiser from its creation on, together with its registry of language tags: /repo/crates/localiser/src/localiser.rs.

The model of `Localiser` (Model/Localiser.lean) keeps the text of the default language and takes the script data from a
total function. Here the handle is kept too, and computing the script data can panic.
-/
namespace Verif
open Verif.Scripts

variable {E D F P : Type}

/-- A localiser, crates/localiser/src/localiser.rs:39-52: `handle` is `language_tag`; its text is also in `loc`. -/
structure Held where
  handle : TagRef
  loc : Localiser (Option ScriptData)

/-- `Localiser::try_new`, crates/localiser/src/localiser.rs:130-158. The ICU data provider, the localisation provider and
the registry of commands are only kept; they are in `LocEnv`. `scripts` is `get_script_data`. -/
def Held.tryNew (canon : Str → Except E Str) (scripts : Str → Outcome Unit (Option ScriptData)) (fallback caching : Bool)
    (q : Str) (r : Registry) : Outcome E Held × Registry :=
  match r.tag canon q with
  | (.error e, r) => (.err e, r)
  | (.ok h, r) =>
    match scripts h.text with
    | .ok d => (.ok ⟨h, { cache := [], fallback, caching, tag := h.text, script := d }⟩, r)
    | _ => (.panic, r)

/-- `defaults`, crates/localiser/src/localiser.rs:495-540: `none` is a panic. -/
def Held.defaults (scripts : Str → Outcome Unit (Option ScriptData)) (p : Held) (tag : Option TagRef)
    (fallback caching : Option Bool) : Option Held :=
  match tag with
  | none => some { p with loc := p.loc.setDefaults (fun _ => p.loc.script) none fallback caching }
  | some h =>
    match scripts h.text with
    | .ok d => some ⟨h, p.loc.setDefaults (fun _ => d) (some h.text) fallback caching⟩
    | _ => none

/-- `default_language`, crates/localiser/src/localiser.rs:543-551. -/
def Held.defaultLanguage (p : Held) : TagRef := p.handle

/-- `script_data`, crates/localiser/src/localiser.rs:918-926. -/
def Held.scriptData (p : Held) : Option ScriptData := p.loc.script

/-- `script_data_for_language_tag`, crates/localiser/src/localiser.rs:931-933. -/
def scriptDataFor (scripts : Str → Outcome Unit (Option ScriptData)) (h : TagRef) : Outcome Unit (Option ScriptData) :=
  scripts h.text

/-- Does the request ask for a text? -/
def Request.isText : Request D F → Bool
  | .defaults .. => false
  | _ => true

/-- What a program does with a localiser and its registry. -/
inductive Use (D F : Type) where
  /-- `registry.tag(q)`, for whatever purpose -/
  | ask (q : Str)
  /-- `localiser.defaults(Some(registry.tag(q)?), fallback, caching)` -/
  | language (q : Str) (fallback caching : Option Bool)
  /-- `localiser.defaults(None, fallback, caching)` -/
  | flags (fallback caching : Option Bool)
  /-- `localiser.format(…)` and so on -/
  | text (r : Request D F) (h : r.isText = true)

/-- One step of the program: `none` is a panic in `defaults`. A language tag that the registry rejects changes nothing. As in
`Localiser.after`, a program goes on after a panic in a request for a text. -/
def Held.use (L : LocEnv D F P) (canon : Str → Except E Str) (scripts : Str → Outcome Unit (Option ScriptData)) :
    Held × Registry → Use D F → Option (Held × Registry)
  | (p, r), .ask q => some (p, (r.tag canon q).2)
  | (p, r), .language q fallback caching =>
    match r.tag canon q with
    | (.error _, r) => some (p, r)
    | (.ok h, r) => (p.defaults scripts (some h) fallback caching).map fun p => (p, r)
  | (p, r), .flags fallback caching => (p.defaults scripts none fallback caching).map fun p => (p, r)
  | (p, r), .text req _ => some ({ p with loc := (p.loc.call L (fun _ => none) req).2 }, r)

/-- The program. -/
def Held.uses (L : LocEnv D F P) (canon : Str → Except E Str) (scripts : Str → Outcome Unit (Option ScriptData)) :
    Held × Registry → List (Use D F) → Option (Held × Registry)
  | s, [] => some s
  | s, u :: rest => (Held.use L canon scripts s u).bind fun s => Held.uses L canon scripts s rest

end Verif
