import Verif.Model.ProviderSqlite

/-!
# The ratios of the languages

The field `ratio` of `LanguageData`, crates/provider/core/src/provider.rs:143-147. It is written once, when the counts of
a component (or of the repository) are complete, and is read by nothing; so it is a function of the finished details.
-/

namespace Verif

/-- The values of `f32` that are not negative: not a number, infinity, and `m * 2 ^ e`. Simplification: the exponent has no
bounds (those of `f32` are never reached, see `C83_exponent`). -/
inductive F32 where
  | nan
  | inf
  | fin (m : Nat) (e : Int)
  deriving DecidableEq

namespace F32

/-- `0f32`. -/
def zero : F32 := .fin 0 0

/-- The integer nearest to `a / b`, of two the even one. -/
def nearestNat (a b : Nat) : Nat :=
  if 2 * (a % b) < b ∨ 2 * (a % b) = b ∧ a / b % 2 = 0 then a / b else a / b + 1

/-- `a / b` divided by `2 ^ e`, as a fraction. -/
def scaled (a b : Nat) (e : Int) : Nat × Nat := (a * 2 ^ (-e).toNat, b * 2 ^ e.toNat)

/-- The exponent for which `a / b` divided by `2 ^ e` has 24 binary digits before the point. -/
def exponent (a b : Nat) : Int :=
  let e : Int := a.log2 - b.log2 - 23
  if (scaled a b e).1 < 2 ^ 23 * (scaled a b e).2 then e - 1 else e

/-- `a / b` as `f32`: rounded to 24 binary digits. -/
def round (a b : Nat) : F32 :=
  if a = 0 then zero
  else
    let e := exponent a b
    let m := nearestNat (scaled a b e).1 (scaled a b e).2
    if m = 2 ^ 24 then .fin (2 ^ 23) (e + 1) else .fin m e

/-- `n as f32`. -/
def ofNat (n : Nat) : F32 := round n 1

/-- The division of `f32`. -/
def div : F32 → F32 → F32
  | .fin a i, .fin b j =>
    if b = 0 then if a = 0 then .nan else .inf
    else round (a * 2 ^ (i - j).toNat) (b * 2 ^ (j - i).toNat)
  | .fin _ _, .inf => zero
  | .inf, .fin _ _ => .inf
  | _, _ => .nan

end F32

/-- `language_data.1.count as f32 / _count as f32`, crates/provider/sqlite3/src/provider.rs:1104, 1127. -/
def ratio (count default : Nat) : F32 := (F32.ofNat count).div (F32.ofNat default)

/-- The ratio of a language of a component, crates/provider/sqlite3/src/provider.rs:1094-1105. -/
def ComponentDetails.ratio (d : ComponentDetails) (tag : Str) : Option F32 := do
  let data ← d.languages.get tag
  let default ← d.languages.get d.default
  pure (Verif.ratio data.count default.count)

/-- The ratio of a language of the repository, crates/provider/sqlite3/src/provider.rs:1117-1129; without default language
it stays `0f32` (crates/provider/sqlite3/src/provider.rs:987, 1015). -/
def RepositoryDetails.ratio (r : RepositoryDetails) (tag : Str) : Option F32 := do
  let data ← r.languages.get tag
  match r.default with
  | none => pure F32.zero
  | some t => do
    let default ← r.languages.get t
    pure (Verif.ratio data.count default.count)

end Verif
