import Verif.Model.Features
/-
Builds: what Cargo enables, and what the documentation says about the features
(/repo/README.asciidoc:30-40, /repo/crates/localiser/README.asciidoc:22-32).
-/
namespace Verif.Spec.Features
open Verif Verif.Features

/-- What Cargo enables: what is asked for, and what the `[features]` tables add to that. -/
inductive Enabled (request : List Feature) : Feature → Prop
  | asked {f : Feature} : f ∈ request → Enabled request f
  | implied {f g : Feature} {l : List Feature} : Enabled request f → (f, l) ∈ manifest → g ∈ l → Enabled request g

/-- A request that Cargo accepts. -/
def Valid (request : List Feature) : Prop := ∀ f ∈ request, f ∈ declared

/-- The features of the documentation and the data provider which each is for; `icu_compiled_data` is marked as default. -/
def documented : Name → Option ProviderKind
  | .default => some .internal
  | .icuCompiledData => some .internal
  | .icuBlob => some .blob
  | .icuFs => some .fs
  | _ => none

/-- The data provider can be made, and formatters are made from it. -/
def Usable (b : Build) (k : ProviderKind) : Prop :=
  k ∈ b.variants ∧ (∀ load, load k = true → b.icuTryNew load k = .ok k) ∧ b.arm k = true

/-- All crates have the same pointer type. -/
def SamePointers (b : Build) : Prop := ∀ c ∈ [Crate.lexer, .localiser, .provider, .sqlite3, .utility], b.arc c = b.arc .utility

/-- The keywords of patterns that need data of ICU4X. -/
def needsData : List Str := ["decimal".toList, "date_time".toList, "ordinal".toList, "plural".toList]

end Verif.Spec.Features
