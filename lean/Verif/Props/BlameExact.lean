import Verif.Props.Blame
import Verif.Props.Format
import Verif.Lemmas.BlameUnique
/-
Property theorem C80, exact form: when formatting fails and with which error, /repo/crates/localiser/src/formatter.rs.
-/
namespace Verif.Props
open Verif Verif.Spec Verif.FormatLemmas Verif.BlameLemmas

variable {D F : Type}

/-- **C80, exactly.** Whatever was formatted before, a call for an accepted string fails exactly if something is to blame. -/
theorem C80_fails_exactly (E : FmtEnv D F) {s tag lang : Str} {d : Doc} {f : Formatter} (hr : Reads E s d)
    (hf : Formatter.tryNew E s tag (some lang) = .ok f) (history : List (AMap Str (PValue D F)))
    (hh : Ended E lang d history) (values : AMap Str (PValue D F)) :
    (∃ e, ((after E f history).format E values).1 = .err e) ↔ ∃ e, Blamed E lang values d.named.reverse mainName d.main e := by
  refine ⟨fun ⟨e, he⟩ => ⟨e, C80_error_tells_the_cause E hr hf history hh values e he⟩, fun ⟨e, hb⟩ => ?_⟩
  have hok := accepted_ok hr hf
  have h1 := (C48_format_gives_the_meaning E hr hf history hh values).1 (.err ())
    (blamed_err hb (ordered_doc hok) (d.storeAfter E lang history))
  generalize ((after E f history).format E values).1 = x at h1 ⊢
  cases x with
  | err e => exact ⟨e, rfl⟩
  | ok r => cases h1
  | panic => cases h1

/-- **C80, one error.** The error is the only one that may be blamed, but for the number of the list of selectors that an
error about a missing selector also has. -/
theorem C80_one_error (E : FmtEnv D F) {s tag lang : Str} {d : Doc} {f : Formatter} (hr : Reads E s d)
    (hf : Formatter.tryNew E s tag (some lang) = .ok f) (history : List (AMap Str (PValue D F)))
    (hh : Ended E lang d history) (values : AMap Str (PValue D F)) (e : FormatterError)
    (he : ((after E f history).format E values).1 = .err e) (e' : FormatterError)
    (h' : Blamed E lang values d.named.reverse mainName d.main e') : SameError e e' :=
  blamed_unique (C80_error_tells_the_cause E hr hf history hh values e he) (ordered_doc (accepted_ok hr hf)) h'

/-- Without a value for `n`, nothing but that can be blamed in `dogs`. -/
example {f : Formatter} (hf : Formatter.tryNew Demo.env Demo.dogs "en".toList (some "en".toList) = .ok f)
    (h : (f.format Demo.env []).1 = .err (.placeholderValue "PatternComplex".toList "n".toList)) (e : FormatterError)
    (hb : Blamed Demo.env "en".toList [] Demo.dogsDoc.named.reverse mainName Demo.dogsDoc.main e) :
    e = .placeholderValue "PatternComplex".toList "n".toList := by
  rcases C80_one_error Demo.env Demo.dogs_reads hf [] (fun _ h => nomatch h) [] _ h e hb with rfl | ⟨_, _, _, h, _⟩
  · rfl
  · cases h

end Verif.Props
