import Verif.Spec.Localiser
import Verif.Spec.Blame
/-
Why a request to the localiser fails.
-/
namespace Verif.Spec
open Verif

variable {D F P : Type}

/-- The values with nested localisation data replaced by texts, whatever these are. -/
def WithTexts (vs : List (Str × PValue D F)) (vs' : AMap Str (PValue D F)) : Prop :=
  (∀ name v, vs'.get name = some v → ∃ w, (name, w) ∈ vs ∧
    (v = w ∧ (∀ c i ws, w ≠ .localisationData c i ws) ∨ ∃ c i ws s t, w = .localisationData c i ws ∧ v = .localised s t)) ∧
  ∀ name w, (name, w) ∈ vs → ∃ v, vs'.get name = some v

/-- Localisation data needs a string, formatted with these values (none for a string as it is): its own, or one that a value
needs. -/
inductive DataNeeds (tag : Str) (fallback : Bool) :
    Str → Str → Option (List (Str × PValue D F)) → Use → AMap Str (PValue D F) → Prop
  | literal (c i) : DataNeeds tag fallback c i none ⟨c, i, tag, fallback, false⟩ []
  | format (c i vs vs') : WithTexts vs vs' → DataNeeds tag fallback c i (some vs) ⟨c, i, tag, fallback, true⟩ vs'
  | nested (c i vs name c' i' ws u vs') : (name, .localisationData c' i' ws) ∈ vs → DataNeeds tag fallback c' i' ws u vs' →
      DataNeeds tag fallback c i (some vs) u vs'

/-- A request needs a string; `tag` and `fallback` are the defaults. -/
inductive Needs (tag : Str) (fallback : Bool) : Request D F → Use → AMap Str (PValue D F) → Prop
  | format (c i vs t fb ca) : Needs tag fallback (.format c i vs t fb ca) ⟨c, i, t.getD tag, fb.getD fallback, true⟩ vs
  | literal (c i t fb ca) : Needs tag fallback (.literal c i t fb ca) ⟨c, i, t.getD tag, fb.getD fallback, false⟩ []
  | data (c i vs t fb ca u vs') : DataNeeds (t.getD tag) (fb.getD fallback) c i vs u vs' →
      Needs tag fallback (.data c i vs t fb ca) u vs'

/-- Why a string that is needed cannot be had. -/
inductive Cause (L : LocEnv D F P) (u : Use) (values : AMap Str (PValue D F)) : LocErr P → Prop
  /-- The provider has none, or fails. -/
  | provider (e) : Found L.provider u.component u.identifier u.tag u.fallback (.err e) → Cause L u values e
  /-- It is no pattern string. -/
  | syntactic (s t te) : u.formatted = true → Found L.provider u.component u.identifier u.tag u.fallback (.ok (s, t)) →
      Tree.tryNew L.fmt.icu L.fmt.grammar s = .err te → Cause L u values (.formatter (.tree te))
  /-- It is a pattern string that is not accepted. -/
  | rejected (s t lang d e) : u.formatted = true → Found L.provider u.component u.identifier u.tag u.fallback (.ok (s, t)) →
      L.icuLanguage t = some lang → Reads L.fmt s d → DocError L.fmt d e → Cause L u values (.formatter e)
  /-- The values are not those that the pattern string needs. (It may have been found by a request with other fallback.) -/
  | values (fallback s t lang d e) : u.formatted = true →
      Found L.provider u.component u.identifier u.tag fallback (.ok (s, t)) → L.icuLanguage t = some lang →
      Reads L.fmt s d → DocOk L.fmt d → Blamed L.fmt lang values d.named.reverse mainName d.main e →
      Cause L u values (.formatter e)

/-- A string is needed as it is, but it is a pattern string that was formatted before. -/
def FormattedBefore (L : LocEnv D F P) (uses : List Use) (u : Use) (e : LocErr P) : Prop :=
  e = .cacheEntry u.component u.identifier ∧ u.formatted = false ∧
    ∃ v ∈ uses, v.component = u.component ∧ v.identifier = u.identifier ∧ v.tag = u.tag ∧ v.formatted = true ∧
      ∃ s t d, Found L.provider v.component v.identifier v.tag v.fallback (.ok (s, t)) ∧ Reads L.fmt s d ∧ DocOk L.fmt d

end Verif.Spec
