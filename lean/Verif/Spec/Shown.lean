import Verif.Spec.Documented
/-
What an item of a pattern string needs to be shown, for itself.
-/
namespace Verif.Spec
open Verif

variable {D F : Type}

/-- What an item needs to be shown, apart from what the string that it selects needs: a value of the right type, data of
ICU, a listed selector, a command that succeeds. -/
inductive Shown (E : FmtEnv D F) (lang : Str) (values : AMap Str (PValue D F)) : Item → Prop
  | text (toks) : Shown E lang values (.text toks)
  | number (l) : Shown E lang values (.number l)
  | plain (id v s) : values.get id.str = some v → textOf v = some s → Shown E lang values (.pat id none)
  | decimal (id k sels v s) : k.str = "decimal".toList → values.get id.str = some v →
      showDecimal E.icu4x lang v = .ok s → Shown E lang values (.pat id (some (k, sels)))
  | dateTime (id k sels v s) : k.str = "date_time".toList → values.get id.str = some v →
      showDateTime E.icu4x lang v = .ok s → Shown E lang values (.pat id (some (k, sels)))
  | plural (id k sels v n category format) : k.str = "plural".toList → values.get id.str = some v →
      numberOf E.icu4x v = some n → E.icu4x.cardinal lang = .ok category → E.icu4x.decimal lang none = .ok format →
      categoryName (category n) ∈ sels.map (fun s => s.1.str) → Shown E lang values (.pat id (some (k, sels)))
  | ordinal (id k sels v n category format) : k.str = "ordinal".toList → values.get id.str = some v →
      ordinalOf E.icu4x v = some n → E.icu4x.ordinal lang = .ok category → E.icu4x.decimal lang none = .ok format →
      categoryName (category n) ∈ sels.map (fun s => s.1.str) → Shown E lang values (.pat id (some (k, sels)))
  | select (id k sels v s) : k.str = "select".toList → values.get id.str = some v → textOf v = some s →
      s ∈ sels.map (fun s => s.1.str) → s ≠ mainName → Shown E lang values (.pat id (some (k, sels)))
  | delayed (n l ps s) : runCommand E n.str (.string n.str :: ps.map fun p => argument values (Part.str p)) = .ok s →
      Shown E lang values (.cmd (.ident n :: .hash l :: ps))
  | immediate (n ps) : (∀ l ps', ps ≠ .hash l :: ps') → Shown E lang values (.cmd (.ident n :: ps))

end Verif.Spec
