import Verif.Lemmas.FormatterOrder
import Verif.Spec.DemoFormat
/-
C70: selectors and options are kept in hash maps; their order of iteration is arbitrary.
-/
namespace Verif.Props
open Verif Verif.Spec OrderLemmas

variable {D F : Type}

/-- Whatever the orders of the hash maps, the pattern string gives the same formatter, an error each time, or a panic each
time. The model of the other properties is one of these orders. -/
theorem C70_same_formatter (E : FmtEnv D F) (string tag : Str) (icuLanguage : Option Str) {o o' : MapOrder}
    (ho : IsOrder o) (ho' : IsOrder o') :
    SameRun SameFormatter (Formatter.tryNewIn o E string tag icuLanguage) (Formatter.tryNewIn o' E string tag icuLanguage) ∧
    SameRun SameFormatter (Formatter.tryNewIn o E string tag icuLanguage) (Formatter.tryNew E string tag icuLanguage) :=
  ⟨tryNewIn_same ho ho' E string tag icuLanguage,
   tryNewIn_inserted E string tag icuLanguage ▸ tryNewIn_same ho inserted_isOrder E string tag icuLanguage⟩

/-- The formatters give the same texts and the same errors, whatever is formatted with them, one after the other. -/
theorem C70_same_texts (E : FmtEnv D F) {f f' : Formatter} (h : SameFormatter f f') (values : List (AMap Str (PValue D F))) :
    formatAll E f values = formatAll E f' values := by
  induction values generalizing f f' with
  | nil => rfl
  | cons v rest ih =>
    obtain ⟨h1, h2⟩ := format_same h E v
    simp only [formatAll, h1, ih h2]

/-- Both together: a pattern string is accepted in one order exactly if it is accepted in every other, and then the texts
are the same. -/
theorem C70_any_order (E : FmtEnv D F) (string tag : Str) (icuLanguage : Option Str) {o o' : MapOrder}
    (ho : IsOrder o) (ho' : IsOrder o') (values : List (AMap Str (PValue D F))) (texts : List (FmtM (Str × Str))) :
    (∃ f, Formatter.tryNewIn o E string tag icuLanguage = .ok f ∧ formatAll E f values = texts) ↔
      ∃ f, Formatter.tryNewIn o' E string tag icuLanguage = .ok f ∧ formatAll E f values = texts := by
  have key : ∀ {a b : MapOrder}, IsOrder a → IsOrder b →
      (∃ f, Formatter.tryNewIn a E string tag icuLanguage = .ok f ∧ formatAll E f values = texts) →
      ∃ f, Formatter.tryNewIn b E string tag icuLanguage = .ok f ∧ formatAll E f values = texts := by
    rintro a b ha hb ⟨f, hf, ht⟩
    have h := (C70_same_formatter E string tag icuLanguage ha hb).1
    rw [hf] at h
    cases hb : Formatter.tryNewIn b E string tag icuLanguage with
    | ok f' =>
      rw [hb] at h
      exact ⟨f', rfl, (C70_same_texts E h values).symm.trans ht⟩
    | err e => rw [hb] at h; exact h.elim
    | panic => rw [hb] at h; exact h.elim
  exact ⟨key ho ho', key ho' ho⟩

/-- Another order: the entries from last to first. -/
def reversed : MapOrder := fun _ m => m.reverse

theorem reversed_isOrder : IsOrder reversed := fun _ m => List.reverse_perm m

/-- A string with selectors. -/
def oneOther : FmtM Formatter :=
  Formatter.tryNewIn reversed Demo.env "{n plural one#one other#other}#{one # dog}{other # dogs}".toList "en".toList
    (some "en".toList)

/-- It is formatted twice, with the maps from last to first. -/
example :
    (match oneOther with
      | .ok f => f.selectors
      | _ => []) = [[("other".toList, "other".toList), ("one".toList, "one".toList)]] ∧
    (match oneOther with
      | .ok f => formatAll Demo.env f [Demo.vals [("n", .inr 1)], Demo.vals [("n", .inr 5)]]
      | _ => []) = [.ok ("1 dog".toList, "en".toList), .ok ("5 dogs".toList, "en".toList)] := by
  decide +kernel

/-- Which error is returned is not determined: it is the one of the first wrong entry in the order of the hash map. -/
theorem C70_error_depends_on_order : ∃ s : Str,
    Formatter.tryNewIn inserted Demo.env s "en".toList (some "en".toList) =
      .err (.invalidSelector "three".toList "plural".toList "n".toList) ∧
    Formatter.tryNewIn reversed Demo.env s "en".toList (some "en".toList) =
      .err (.invalidSelector "four".toList "plural".toList "n".toList) :=
  ⟨"{n plural three#other four#other other#other}#{other # dogs}".toList, by decide +kernel, by decide +kernel⟩

end Verif.Props
