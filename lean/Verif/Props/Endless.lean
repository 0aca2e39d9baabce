import Verif.Props.Format
import Verif.Lemmas.Endless
/-
Property theorem C20, exact form: which pattern strings never end, /repo/crates/localiser/src/formatter.rs.
-/
namespace Verif.Demo
open Verif Verif.Spec

/-- A pattern string that never ends for `s = "_"`, and ends with an error for other values. -/
def circle : Str := "a{s select _#_}".toList

def circleTokens : List Token :=
  match lex env.icu env.grammar circle with
  | .ok ts => ts
  | .error _ => []

/-- Token at a position. -/
def ct (i : Nat) : Token := circleTokens.getD i ⟨[], .syn, 0, 0, 0, 0, 0, 0, 0⟩

def cl (i : Nat) : Leaf := ⟨i, ct i⟩

/-- The syntax of `circle`. -/
def circleDoc : Doc where
  main := [.text [cl 0], .pat (cl 2) (some (cl 4, [(cl 6, cl 8)]))]
  group := none

theorem circle_lex : lex env.icu env.grammar circle = .ok circleTokens := by
  have h : (match lex env.icu env.grammar circle with | .ok _ => true | .error _ => false) = true := by decide +kernel
  unfold circleTokens
  cases hl : lex env.icu env.grammar circle with
  | ok ts => rfl
  | error e => rw [hl] at h; cases h

theorem circle_tokens : circleTokens = (List.range 10).map ct := by decide +kernel

theorem circle_reads : Reads env circle circleDoc := by
  refine ⟨circleTokens, circle_lex, ?_, by decide +kernel, by decide +kernel, ct 1, by decide +kernel, by decide +kernel⟩
  have hs : KwBody 5 [(cl 6, cl 8)] [ct 5, ct 6, ct 7, ct 8] := by
    have h0 : KwBody 5 [] [] := .nil
    have h1 := KwBody.skip h0 (t := ct 5) (Or.inl (by decide +kernel))
    exact KwBody.selector h1 (a := ct 6) (h := ct 7) (b := ct 8) (by decide +kernel) (by decide +kernel) (by decide +kernel)
  have hp : Pattern 1 (.pat (cl 2) (some (cl 4, [(cl 6, cl 8)]))) ((List.range' 1 9).map ct) :=
    Pattern.keyword (o := ct 1) (id := ct 2) (ws := [ct 3]) (k := ct 4) (c := ct 9) ⟨by decide +kernel, by decide +kernel⟩
      (by decide +kernel) (fun t ht => by
        simp only [List.mem_singleton] at ht
        subst ht
        decide +kernel) (by decide +kernel) hs ⟨by decide +kernel, by decide +kernel⟩
  have h0 : Content false 0 [] [] := .nil
  have h1 := Content.plain h0 (t := ct 0) (by decide +kernel)
  rw [circle_tokens]
  exact Sentence.plain (Content.pattern h1 hp)

end Verif.Demo

namespace Verif.Props
open Verif Verif.Spec Verif.FormatLemmas

variable {D F : Type}

/-- **C20, exact form.** For an accepted pattern string, a call never ends (no depth of recursion is enough) exactly if the
string is `Endless` for the values: showing it leads, through items that have texts, back to the main string. The claim
itself, that every call ends, is false (`C20_violated`). -/
theorem C20_endless_exactly_partial (E : FmtEnv D F) {s tag lang : Str} {d : Doc} {f : Formatter} (hd : Reads E s d)
    (hf : Formatter.tryNew E s tag (some lang) = .ok f) (history : List (AMap Str (PValue D F)))
    (hh : ∀ v ∈ history, ¬ Endless E lang v d.named.reverse mainName d.main) (values : AMap Str (PValue D F)) :
    (∀ depth, (formatPattern E (after E f history) values depth mainName (after E f history).numbers).1 = none) ↔
      Endless E lang values d.named.reverse mainName d.main := by
  have hok := accepted_ok hd hf
  have hended : Ended E lang d history := fun v hv h => hh v hv ((doc_endless_iff hok _).1 h)
  rw [← doc_endless_iff hok (d.storeAfter E lang history)]
  refine ⟨fun h => ?_, fun h => ((C48_format_gives_the_meaning E hd hf history hended values).2 h).2⟩
  obtain ⟨rfl, rfl, owners, hr, hn⟩ := rep_of hd hf
  obtain ⟨hr', _, hl, hp, _, hn'⟩ := rep_after history f Store.empty hr hn hended
  have hg := hr'.main_complete values (d.storeAfter E f.icuLanguage history)
  rw [hl] at hg
  have h0 := h ((after E f history).patterns.length + 1)
  rw [hn'] at h0
  change (formatPattern E (after E f history) values ((after E f history).patterns.length + 1) mainName
      (owners.map (d.storeAfter E f.icuLanguage history))).1 = none at h0
  rcases hg with ⟨_, _, hx, _⟩ | hx
  · rw [hx] at h0
    cases h0
  · exact hx

/-- The other direction: a call that is not `Endless` ends, with the same result for every depth of recursion beyond the
number of strings. -/
theorem C20_others_end_partial (E : FmtEnv D F) {s tag lang : Str} {d : Doc} {f : Formatter} (hd : Reads E s d)
    (hf : Formatter.tryNew E s tag (some lang) = .ok f) (history : List (AMap Str (PValue D F)))
    (hh : ∀ v ∈ history, ¬ Endless E lang v d.named.reverse mainName d.main) (values : AMap Str (PValue D F))
    (hv : ¬ Endless E lang values d.named.reverse mainName d.main) :
    ∃ r numbers, ∀ depth, d.named.length + 2 ≤ depth →
      formatPattern E (after E f history) values depth mainName (after E f history).numbers = (some r, numbers) := by
  have hok := accepted_ok hd hf
  have hended : Ended E lang d history := fun v hv h => hh v hv ((doc_endless_iff hok _).1 h)
  rw [← doc_endless_iff hok (d.storeAfter E lang history)] at hv
  obtain ⟨rfl, rfl, owners, hr, hn⟩ := rep_of hd hf
  obtain ⟨hr', _, hl, hp, _, hn'⟩ := rep_after history f Store.empty hr hn hended
  have hg := hr'.main_complete values (d.storeAfter E f.icuLanguage history)
  rw [hl] at hg
  have hsome : ∃ r numbers, formatPattern E (after E f history) values ((after E f history).patterns.length + 1) mainName
      (after E f history).numbers = (some r, numbers) := by
    rw [hn']
    change ∃ r numbers, formatPattern E (after E f history) values ((after E f history).patterns.length + 1) mainName
      (owners.map (d.storeAfter E f.icuLanguage history)) = (some r, numbers)
    generalize formatPattern E (after E f history) values ((after E f history).patterns.length + 1) mainName
      (owners.map (d.storeAfter E f.icuLanguage history)) = x at hg ⊢
    obtain ⟨x1, x2⟩ := x
    match x1 with
    | some r => exact ⟨r, x2, rfl⟩
    | none =>
      rcases hg with ⟨_, _, h, _⟩ | h
      · cases h
      · exact absurd h hv
  obtain ⟨r, numbers, h⟩ := hsome
  refine ⟨r, numbers, fun depth hdepth => formatPattern_depth ?_ h⟩
  have := hr'.len
  omega

/-- The example: `a{s select _#_}` is accepted; it never ends for `s = "_"` and ends for `s = "x"`. -/
example : (∃ f, Formatter.tryNew Demo.env Demo.circle "en".toList (some "en".toList) = .ok f) ∧
    Endless Demo.env "en".toList (Demo.vals [("s", .inl "_")]) Demo.circleDoc.named.reverse mainName Demo.circleDoc.main ∧
    ¬ Endless Demo.env "en".toList (Demo.vals [("s", .inl "x")]) Demo.circleDoc.named.reverse mainName Demo.circleDoc.main := by
  have hf : ∃ f, Formatter.tryNew Demo.env Demo.circle "en".toList (some "en".toList) = .ok f := by
    have h : Demo.accepts (String.ofList Demo.circle) = true := by decide +kernel
    unfold Demo.accepts at h
    rw [String.toList_ofList] at h
    generalize Formatter.tryNew Demo.env Demo.circle "en".toList (some "en".toList) = x at h ⊢
    match x, h with
    | .ok f, _ => exact ⟨f, rfl⟩
  obtain ⟨f, hf'⟩ := hf
  have hok := accepted_ok Demo.circle_reads hf'
  refine ⟨⟨f, hf'⟩, (doc_endless_iff hok Store.empty).1 (by decide +kernel), fun h => ?_⟩
  have := (doc_endless_iff hok Store.empty).2 h
  exact absurd this (by decide +kernel)

end Verif.Props
