import Verif.Model.Localiser
import Verif.Spec.Documented
/-
Words for the properties of the localiser.
-/
namespace Verif.Spec
open Verif

variable {D F P S : Type}

/-- What the provider has for a request, in the documented order: the requested language, then, with fallback, the
default language of the component. -/
inductive Found (p : Provider P) (component identifier tag : Str) : (fallback : Bool) → LocM P (Str × Str) → Prop
  | requested {fallback r} : p.string component identifier tag = .ok (some r) →
      Found p component identifier tag fallback (.ok r)
  | default {d r} : p.string component identifier tag = .ok none → p.default component = .ok d →
      p.string component identifier d = .ok (some r) → Found p component identifier tag true (.ok r)
  | missing : p.string component identifier tag = .ok none →
      Found p component identifier tag false (.err (.stringNotFound component identifier tag false))
  | missingDefault {d} : p.string component identifier tag = .ok none → p.default component = .ok d →
      p.string component identifier d = .ok none →
      Found p component identifier tag true (.err (.stringNotFound component identifier tag true))
  | broken {fallback e} : p.string component identifier tag = .error e →
      Found p component identifier tag fallback (.err (.provider e))
  | noDetails {e} : p.string component identifier tag = .ok none → p.default component = .error e →
      Found p component identifier tag true (.err (.provider e))
  | brokenDefault {d e} : p.string component identifier tag = .ok none → p.default component = .ok d →
      p.string component identifier d = .error e → Found p component identifier tag true (.err (.provider e))

/-- The tag a provider reports for a string is one under which it gives that string. -/
def Coherent (p : Provider P) : Prop :=
  ∀ c i tag s t, p.string c i tag = .ok (some (s, t)) → p.string c i t = .ok (some (s, t))

/-- A string that the formatter leaves to be returned as it is. -/
def Plain (E : FmtEnv D F) (s : Str) : Prop := s = [] ∨ ∀ tag lang, Formatter.tryNew E s tag lang = .err .noGrammar

/-- A string is wanted: as it is, or formatted. -/
structure Use where
  component : Str
  identifier : Str
  tag : Str
  fallback : Bool
  formatted : Bool

mutual
/-- The strings localisation data needs. -/
def dataUses (tag : Str) (fallback : Bool) (component identifier : Str) (values : Option (List (Str × PValue D F))) :
    List Use :=
  match values with
  | none => [⟨component, identifier, tag, fallback, false⟩]
  | some vs => valueUses tag fallback vs ++ [⟨component, identifier, tag, fallback, true⟩]

def valueUses (tag : Str) (fallback : Bool) (values : List (Str × PValue D F)) : List Use :=
  match values with
  | [] => []
  | (_, .localisationData c i vs) :: rest => dataUses tag fallback c i vs ++ valueUses tag fallback rest
  | _ :: rest => valueUses tag fallback rest
end

/-- The strings a call needs when these are the defaults. -/
def requestUses (tag : Str) (fallback : Bool) : Request D F → List Use
  | .format c i _ t fb _ => [⟨c, i, t.getD tag, fb.getD fallback, true⟩]
  | .literal c i t fb _ => [⟨c, i, t.getD tag, fb.getD fallback, false⟩]
  | .data c i vs t fb _ => dataUses (t.getD tag) (fb.getD fallback) c i vs
  | .defaults _ _ _ => []

/-- The strings that calls need, one after the other; `tag` and `fallback` are the defaults at the beginning. -/
def callsUses (tag : Str) (fallback : Bool) : List (Request D F) → List Use
  | [] => []
  | .defaults t fb _ :: rest => callsUses (t.getD tag) (fb.getD fallback) rest
  | r :: rest => requestUses tag fallback r ++ callsUses tag fallback rest

/-- Uses for which the cache does not matter: no component name has a slash, requests for one pattern agree in the use
of fallback, only strings without grammar are used both as they are and formatted, and no select pattern lists a named
string with number signs. -/
structure Tame (L : LocEnv D F P) (uses : List Use) : Prop where
  slash : ∀ u ∈ uses, '/' ∉ u.component
  fallback : ∀ u ∈ uses, ∀ v ∈ uses, u.component = v.component → u.identifier = v.identifier → u.tag = v.tag →
    u.formatted = true → v.formatted = true → u.fallback = v.fallback
  kinds : ∀ u ∈ uses, ∀ v ∈ uses, u.component = v.component → u.identifier = v.identifier → u.formatted = true →
    v.formatted = false → ∀ tag s t, L.provider.string u.component u.identifier tag = .ok (some (s, t)) → Plain L.fmt s
  numbers : ∀ u ∈ uses, u.formatted = true → ∀ tag s t, L.provider.string u.component u.identifier tag = .ok (some (s, t)) →
    ∀ d, Reads L.fmt s d → SelectsWithoutNumbers d

/-- Every string is found under exactly the requested language tag. -/
def Exact (L : LocEnv D F P) (uses : List Use) : Prop :=
  ∀ u ∈ uses, ∀ s t, Found L.provider u.component u.identifier u.tag u.fallback (.ok (s, t)) → t = u.tag

/-- An entry was made from a string the provider has for this component and identifier. -/
inductive MadeFrom (L : LocEnv D F P) (component identifier : Str) : CacheData → Prop
  | localised {tag fallback s t} : Found L.provider component identifier tag fallback (.ok (s, t)) →
      MadeFrom L component identifier (.localised s t)
  | formatter {tag fallback s t f} (history : List (AMap Str (PValue D F))) :
      Found L.provider component identifier tag fallback (.ok (s, t)) →
      Formatter.tryNew L.fmt s t (L.icuLanguage t) = .ok f →
      MadeFrom L component identifier (.formatter (after L.fmt f history))

/-- A value and what it is replaced by: nested localisation data by its own text, other values by themselves. -/
inductive Replaced (L : LocEnv D F P) (tag : Str) (fallback : Bool) : PValue D F → PValue D F → Prop
  | nested {c i vs s t} : (actualData L tag fallback false c i vs []).1 = .ok (s, t) →
      Replaced L tag fallback (.localisationData c i vs) (.localised s t)
  | other {v} : (∀ c i vs, v ≠ .localisationData c i vs) → Replaced L tag fallback v v

/-- Replaced one by one, names unchanged. -/
inductive AllReplaced (L : LocEnv D F P) (tag : Str) (fallback : Bool) :
    List (Str × PValue D F) → List (Str × PValue D F) → Prop
  | nil : AllReplaced L tag fallback [] []
  | cons {name v v' rest rest'} : Replaced L tag fallback v v' → AllReplaced L tag fallback rest rest' →
      AllReplaced L tag fallback ((name, v) :: rest) ((name, v') :: rest')

/-- No call of the history panics. -/
def NoPanic (L : LocEnv D F P) (scriptOf : Str → S) : Localiser S → List (Request D F) → Prop
  | _, [] => True
  | l, r :: rest => (l.call L scriptOf r).1 ≠ some .panic ∧ NoPanic L scriptOf (l.call L scriptOf r).2 rest

/-- The answers to calls one after the other. -/
def answersOf (L : LocEnv D F P) (scriptOf : Str → S) :
    Localiser S → List (Request D F) → List (Option (LocM P (Str × Str)))
  | _, [] => []
  | l, r :: rest => (l.call L scriptOf r).1 :: answersOf L scriptOf (l.call L scriptOf r).2 rest

/-- The call as it would be answered without caching: by a localiser with the same defaults and an empty cache that
does not cache. -/
def uncached : Request D F → Request D F
  | .format c i vs t fb _ => .format c i vs t fb (some false)
  | .literal c i t fb _ => .literal c i t fb (some false)
  | .data c i vs t fb _ => .data c i vs t fb (some false)
  | .defaults t fb ca => .defaults t fb ca

/-- The answer of a localiser that has the same defaults and no cache. -/
def plainAnswer (L : LocEnv D F P) (scriptOf : Str → S) (l : Localiser S) (r : Request D F) :
    Option (LocM P (Str × Str)) := (({ l with cache := [] } : Localiser S).call L scriptOf (uncached r)).1

/-- The call does not change the default language nor the default of fallback. -/
def Steady : Request D F → Prop
  | .defaults t fb _ => t = none ∧ fb = none
  | _ => True

/-- The expected answers, or only a beginning of them and then a panic, if `W` does not hold. -/
def Answers (W : Prop) (expected answers : List (Option (LocM P (Str × Str)))) : Prop :=
  answers = expected ∨ ¬ W ∧ ∃ n, n < expected.length ∧ answers = expected.take n ++ [some .panic]

end Verif.Spec
