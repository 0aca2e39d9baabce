import Verif.Lemmas.BlameOrder
import Verif.Props.Blame
/-
C81: which errors a pattern string may be rejected with, the orders of the hash maps being arbitrary.
-/
namespace Verif.Props
open Verif Verif.Spec Verif.FormatLemmas Verif.BlameLemmas Verif.BlameOrderLemmas

variable {D F : Type}

/-- **C81, exactly.** The errors with which a pattern string may be rejected, in some order of the hash maps of selectors and
options, are exactly: that of the tree, if it is no sentence of the syntax; that there is no grammar character, if it has
none; and those that are assigned to the first named string or item that cannot be accepted. -/
theorem C81_possible_errors (E : FmtEnv D F) (s tag lang : Str) (e : FormatterError) :
    (∃ o, IsOrder o ∧ Formatter.tryNewIn o E s tag (some lang) = .err e) ↔
      (∃ te, Tree.tryNew E.icu E.grammar s = .err te ∧ e = .tree te) ∨
      (e = .noGrammar ∧ ∃ ts, lex E.icu E.grammar s = .ok ts ∧ (∀ t ∈ ts, t.tokenType ≠ .grammar) ∧
        ∃ t, Tree.tryNew E.icu E.grammar s = .ok t) ∨
      ∃ d, Reads E s d ∧ DocError E d e := by
  unfold Formatter.tryNewIn
  cases ht : Tree.tryNew E.icu E.grammar s with
  | err te =>
    simp only [Outcome.mapErr, Outcome.bind_err]
    constructor
    · rintro ⟨_, _, h⟩; cases h; exact .inl ⟨te, rfl, rfl⟩
    · rintro (⟨te', h, rfl⟩ | ⟨_, _, _, _, _, h⟩ | ⟨d, h, _⟩)
      · cases h; exact ⟨OrderLemmas.inserted, OrderLemmas.inserted_isOrder, rfl⟩
      · cases h
      · exact absurd h ((C81_causes_exclude E s).1 te d ht)
  | panic =>
    simp only [Outcome.mapErr]
    constructor
    · rintro ⟨_, _, h⟩; cases h
    · rintro (⟨te', h, _⟩ | ⟨_, _, _, _, _, h⟩ | ⟨d, h, _⟩)
      · cases h
      · cases h
      · obtain ⟨t, h, _⟩ := Reads.tree h
        rw [ht] at h; cases h
  | ok t =>
    simp only [Outcome.mapErr, Outcome.bind_ok]
    obtain ⟨d, hs, hn, hr⟩ := tree_reads ht
    have htok : ∃ ts, lex E.icu E.grammar s = .ok ts ∧ t.hasGrammar = Verif.TreeLemmas.anyGr ts := by
      unfold Tree.tryNew at ht
      cases hl : lex E.icu E.grammar s with
      | error e => rw [hl] at ht; cases ht
      | ok ts =>
        rw [hl] at ht
        obtain ⟨_, _, _, _, rfl⟩ := Verif.TreeLemmas.sound ht
        exact ⟨ts, rfl, rfl⟩
    obtain ⟨ts, hl, htoks⟩ := htok
    by_cases hg : t.hasGrammar = true
    · constructor
      · rintro ⟨o, ho, h⟩
        exact .inr (.inr ⟨d, hr hg, ofTreeIn_err ho E tag lang hs hn hg e h⟩)
      · rintro (⟨te', h, _⟩ | ⟨_, ts', h1, h2, _⟩ | ⟨d', h, he⟩)
        · cases h
        · exact absurd (hr hg) ((C81_causes_exclude E s).2 ts' d h1 h2)
        · obtain ⟨t', ht', hs', hn', hg'⟩ := Reads.tree h
          rw [ht] at ht'; cases ht'
          exact ofTreeIn_errs E tag lang hs' hn' hg e he
    · have hno : ∀ o, Formatter.ofTreeIn o E tag (some lang) t = .err .noGrammar := by
        intro o; unfold Formatter.ofTreeIn; rw [if_pos hg]
      constructor
      · rintro ⟨o, _, h⟩
        rw [hno] at h
        cases h
        refine .inr (.inl ⟨rfl, ts, hl, fun x hx hxg => hg ?_, t, rfl⟩)
        rw [htoks]
        exact (anyGr_iff ts).2 ⟨x, hx, hxg⟩
      · rintro (⟨te', h, _⟩ | ⟨rfl, _⟩ | ⟨d', h, _⟩)
        · cases h
        · exact ⟨OrderLemmas.inserted, OrderLemmas.inserted_isOrder, hno _⟩
        · obtain ⟨t', ht', _, _, hg'⟩ := Reads.tree h
          rw [ht] at ht'; cases ht'
          exact absurd hg' hg

/-- Three errors of one string: one for each selector that is no category, depending on which is met first. -/
example :
    Formatter.tryNewIn (firstly "two".toList) Demo.env "{n plural two#other three#other four#other other#other}#{other x}".toList
      "en".toList (some "en".toList) = .err (.selectorNamed "two".toList "two".toList "n".toList) ∧
    Formatter.tryNewIn (firstly "three".toList) Demo.env "{n plural two#other three#other four#other other#other}#{other x}".toList
      "en".toList (some "en".toList) = .err (.invalidSelector "three".toList "plural".toList "n".toList) ∧
    Formatter.tryNewIn (firstly "four".toList) Demo.env "{n plural two#other three#other four#other other#other}#{other x}".toList
      "en".toList (some "en".toList) = .err (.invalidSelector "four".toList "plural".toList "n".toList) := by
  refine ⟨?_, ?_, ?_⟩ <;> decide +kernel

end Verif.Props
