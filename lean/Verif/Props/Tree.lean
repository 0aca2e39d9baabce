import Verif.Lemmas.SyntaxBlame
import Verif.Lemmas.TreeNest
import Verif.Lemmas.TreeWell
import Verif.Props.Lexer
/-
Property theorems C11, C12, C15–C17 and C47: the parser, /repo/crates/localiser/src/tree.rs.
-/
namespace Verif.Props
open Verif Verif.Spec Verif.TreeLemmas

/-- Parse with the concrete character classes of `Demo.icu` and the grammar of the localiser. -/
def demoParse (s : String) : TreeM Tree := Tree.tryNew Demo.icu localiserGrammar s.toList

theorem tryNew_lex {icu : Icu} {g s : Str} {ts : List Token} (h : lex icu g s = .ok ts) :
    Tree.tryNew icu g s = Tree.ofTokens ts := by simp [Tree.tryNew, h]

theorem tryNew_ok {icu : Icu} {g s : Str} {t : Tree} (h : Tree.tryNew icu g s = .ok t) :
    ∃ ts, lex icu g s = .ok ts ∧ Tree.ofTokens ts = .ok t := by
  unfold Tree.tryNew at h
  cases hl : lex icu g s with
  | error e => rw [hl] at h; cases h
  | ok ts => rw [hl] at h; exact ⟨ts, rfl, h⟩

/-! ### C47: the language accepted -/

/-- **C47, acceptance.** A string is accepted with a tree exactly when its tokens form a sentence of the grammar of
`Spec.Grammar` in which the identifiers of placeholders are pairwise different and so are those of named strings;
the tree then stores that sentence in preorder, together with the tokens and their total lengths. -/
theorem C47_accepts_exactly_the_grammar (icu : Icu) (g s : Str) (tree : Tree) :
    Tree.tryNew icu g s = .ok tree ↔
    ∃ ts d, lex icu g s = .ok ts ∧ Sentence d ts ∧ d.patNames.Nodup ∧ d.namedNames.Nodup ∧
      tree.tokens = ts ∧ tree.nodes = d.arena ∧
      (tree.hasGrammar = true ↔ ∃ t ∈ ts, t.tokenType = .grammar) ∧
      tree.lengths = { bytes := (ts.map Token.lengthBytes).sum
                       characters := (ts.map Token.lengthCharacters).sum
                       graphemes := (ts.map Token.lengthGraphemes).sum
                       tokens := ts.length } := by
  constructor
  · intro h
    obtain ⟨ts, hl, ho⟩ := tryNew_ok h
    obtain ⟨d, h1, h2, h3, rfl⟩ := sound ho
    refine ⟨ts, d, hl, h1, h2, h3, rfl, rfl, ?_, rfl⟩
    simp [anyGr]
  · rintro ⟨ts, d, hl, h1, h2, h3, h4, h5, h6, h7⟩
    rw [tryNew_lex hl, complete h1 h2 h3]
    obtain ⟨toks, gr, len, nodes⟩ := tree
    simp only at h4 h5 h6 h7
    have : anyGr ts = gr := by
      rw [Bool.eq_iff_iff, h6]; simp [anyGr]
    rw [h4, h5, h7, this]
    rfl

/-- What is left of a parse in the examples: number of nodes, number of characters, brace depth at the end. -/
def demoNodes (s : String) : Option (Nat × Nat) :=
  match demoParse s with
  | .ok t => some (t.nodes.length, t.lengths.characters)
  | _ => none

example : demoNodes "a{x}b# {n #{y}}" = some (13, 15) := by decide +kernel

/-! ### C11: panics -/

/-- **C11 is violated**: these strings make the parser panic. -/
theorem C11_violated : demoParse "{#c# }" = .panic ∧ demoParse "{#c##}" = .panic ∧ demoParse "x# {a `` b}" = .panic ∧
    demoParse "x# {a - c}" = .panic := ⟨rfl, rfl, rfl, rfl⟩

/-- **C11, what holds.** If parsing panics then the tokens contain one of two shapes: a delayed command without
parameter, or a named string that starts with a syntax character or an escape. Missing: that these two shapes do not panic
either, which `C11_violated` refutes. -/
theorem C11_panics_only_on_two_shapes_partial (icu : Icu) (g s : Str) (h : Tree.tryNew icu g s = .panic) :
    ∃ ts, lex icu g s = .ok ts ∧ (EmptyDelayed ts ∨ BadNamed ts) := by
  unfold Tree.tryNew at h
  cases hl : lex icu g s with
  | error e => rw [hl] at h; cases h
  | ok ts =>
    rw [hl] at h
    refine ⟨ts, rfl, ?_⟩
    have hr := run_ok ts
    change Tree.ofTokens ts = _ at h
    unfold Tree.ofTokens at h
    cases hd : (Step.done (.ok PState.init)).drive ts with
    | panic => rw [hd] at hr; exact panics_shape hr
    | err e => rw [hd] at h; cases h
    | ok st =>
      rw [hd] at h
      cases hn : st.nested <;> simp [hn] at h

/-- **C11, exactly which strings panic.** The tokens go, after the beginning of a pattern string without repeated
identifiers, on with a delayed command that has no parameter or a third number sign, or with a named string that starts
with a syntax character or an escape and does not end then. -/
theorem C11_panics_exactly_partial (icu : Icu) (g s : Str) :
    Tree.tryNew icu g s = .panic ↔ ∃ ts, lex icu g s = .ok ts ∧ Panics ts := by
  unfold Tree.tryNew
  cases hl : lex icu g s with
  | error e => simp
  | ok ts =>
    constructor
    · intro h; exact ⟨ts, rfl, (panic_iff ts).1 h⟩
    · rintro ⟨ts', e, h⟩; cases e; exact (panic_iff ts).2 h

/-- **C11 for strings without number sign.** They never make the parser panic. -/
theorem C11_no_number_sign_no_panic_partial (icu : Icu) (g s : Str) (hs : '#' ∉ s) : Tree.tryNew icu g s ≠ .panic := by
  intro h
  obtain ⟨ts, hl, hsh⟩ := C11_panics_only_on_two_shapes_partial icu g s h
  have hg : g ≠ [] := by rintro rfl; simp [lex, LexerIterator.tryNew] at hl
  have hne : s ≠ [] := by
    rintro rfl
    simp [lex, (C04_construction icu g []).2.1 hg rfl] at hl
  obtain ⟨ts', hl', hcat, _⟩ := C01_tokens_partition icu g s hg hne
  rw [hl] at hl'
  cases hl'
  have key : ∀ t ∈ ts, ¬ Gr '#' t := by
    intro t ht hgr
    apply hs
    rw [← hcat, List.mem_flatten]
    exact ⟨t.string, List.mem_map.2 ⟨t, ht, rfl⟩, by rw [hgr.2]; exact List.mem_singleton.2 rfl⟩
  rcases hsh with ⟨pre, o, h1, ws1, id, ws2, h2, ws3, t, post, rfl, _, hh, _⟩ | ⟨pre, o, id, w, ws, x, t, post, rfl, hh, _⟩
  · exact key h1 (by simp) hh
  · obtain ⟨h, hm, hg⟩ := hh
    exact key h (by simp [hm]) hg

example : '#' ∉ "Hello {name}, `{ {d date_time}".toList ∧
    demoNodes "Hello {name}, `{ {d date_time}" = some (9, 30) := by decide +kernel

/-! ### C12: well-formedness -/

/-- **C12.** The tree of every accepted string is well formed. -/
theorem C12_tree_well_formed (icu : Icu) (g s : Str) (tree : Tree) (h : Tree.tryNew icu g s = .ok tree) :
    WellFormed tree := by
  obtain ⟨ts, _, ho⟩ := tryNew_ok h
  obtain ⟨d, h1, _, _, rfl⟩ := sound ho
  exact wellFormed h1

example : demoNodes "You have {n plural one#one other#other}.# {one # dog}{other # dogs}" = some (24, 67) := by
  decide +kernel

/-! ### C15: literal text -/

/-- The shortest literal text pattern is rejected. -/
theorem C15_violated : demoParse "{`a`}" = .err .endedAbruptly := rfl

/-- **C15 fails in every surrounding string.** Whenever a literal text pattern starts in the main string of a
pattern string (after content `pre` with unique placeholders) the parser rejects the whole string, whatever follows,
because the literal text never ends. -/
theorem C15_every_literal_text_rejected_partial (items : List Item) (pre rest : List Token) (o q : Token)
    (hc : Content false 0 items pre) (hu : (patNames items).Nodup) (ho : Gr '{' o) (hq : Gr '`' q) :
    Tree.ofTokens (pre ++ o :: q :: rest) = .err .endedAbruptly := by
  rcases reach_main (U := False) hc (Or.inr hu) with ⟨s, h1, F⟩ | ⟨hf, _⟩
  · obtain ⟨k, h2, h3⟩ := text_open F ho
    obtain ⟨s1, h4, F1, _⟩ := h3 q
    obtain ⟨s', h5, L⟩ := start_lit F1 q (pre.length + 1) hq
    have h6 : (Step.done (.ok PState.init)).drive (pre ++ o :: q :: rest) = (Step.done (.ok s')).drive rest := by
      rw [drive_append pre _ _ s h1]
      simp only [Step.drive, h2, h4, h5]
    unfold Tree.ofTokens
    rw [h6]
    rcases lit_drive rest.length rest (Nat.le_refl _) s' L with ⟨s'', h7, h8⟩ | h7
    · rw [h7]
      cases hn : s''.nested with
      | nil => exact absurd hn h8
      | cons a b => simp [hn]
    · rw [h7]
  · exact hf.elim

example : ∃ ts : List Token, lex Demo.icu localiserGrammar "a {`b`} c".toList = .ok ts ∧
    ∃ pre o q rest, ts = pre ++ o :: q :: rest ∧ Gr '{' o ∧ Gr '`' q ∧
      ∃ items, Content false 0 items pre ∧ (patNames items).Nodup := by
  refine ⟨_, rfl, [_, _], _, _, _, rfl, ⟨rfl, rfl⟩, ⟨rfl, rfl⟩, _,
    Content.plain (ts := [_]) (Content.plain (ts := []) .nil (by decide)) (by decide), by decide⟩

/-! ### C16: repeated identifiers -/

/-- **C16, rejection.** A sentence of the grammar in which two placeholders have the same identifier, or two named
strings, is rejected, and the error says so. -/
theorem C16_repetition_rejected (icu : Icu) (g s : Str) (ts : List Token) (d : Doc) (hl : lex icu g s = .ok ts)
    (hd : Sentence d ts) (hu : ¬ d.patNames.Nodup ∨ ¬ d.namedNames.Nodup) :
    ∃ x, Tree.tryNew icu g s = .err (.uniquePattern x) ∨ Tree.tryNew icu g s = .err (.uniqueNamed x) := by
  rw [tryNew_lex hl]
  obtain ⟨e, he, hx⟩ := complete_dup hd (by rintro ⟨h1, h2⟩; rcases hu with h | h <;> exact h (by assumption))
  rw [he]
  cases e with
  | uniquePattern x => exact ⟨x, Or.inl rfl⟩
  | uniqueNamed x => exact ⟨x, Or.inr rfl⟩
  | _ => exact hx.elim

/-- **C16, the reported identifier occurs twice.** -/
theorem C16_reported_identifier_occurs_twice (icu : Icu) (g s : Str) (x : Str)
    (h : Tree.tryNew icu g s = .err (.uniquePattern x) ∨ Tree.tryNew icu g s = .err (.uniqueNamed x)) :
    ∃ ts, lex icu g s = .ok ts ∧ Twice x ts := by
  cases hl : lex icu g s with
  | error e => simp [Tree.tryNew, hl] at h
  | ok ts =>
    rw [tryNew_lex hl] at h
    refine ⟨ts, rfl, ?_⟩
    have hr := run_ok ts
    unfold Tree.ofTokens at h
    cases hd : (Step.done (.ok PState.init)).drive ts with
    | panic => simp [hd] at h
    | err e =>
      rw [hd] at h hr
      rcases h with h | h <;> cases h <;> exact hr
    | ok st =>
      simp only [hd] at h
      cases hn : st.nested <;> simp [hn] at h

example : demoParse "{a} and {b} and {a}" = .err (.uniquePattern ['a']) ∧
    demoParse "{a}# {n 1}{o 2}{n 3}" = .err (.uniqueNamed ['n']) := ⟨rfl, rfl⟩

/-- A repeated placeholder inside a named string counts as well. -/
example : demoParse "{a}# {n x{a}}" = .err (.uniquePattern ['a']) := rfl

/-! ### C17: unterminated patterns -/

/-- Brace depth, skipping escaped tokens: `none` if a brace is closed that was not opened. -/
def braceDepth : List Token → Nat → Option Nat
  | [], n => some n
  | t :: rest, n =>
    if t.tokenType = .grammar ∧ t.string = ['`'] then
      match rest with
      | [] => some n
      | _ :: rest => braceDepth rest n
    else if t.tokenType = .grammar ∧ t.string = ['{'] then braceDepth rest (n + 1)
    else if t.tokenType = .grammar ∧ t.string = ['}'] then
      match n with
      | 0 => none
      | n + 1 => braceDepth rest n
    else braceDepth rest n

/-- **C17 is violated**: this string is accepted although one of its braces is never closed. -/
theorem C17_violated : ∃ tree, demoParse "{n plural { other#other}# {other x}" = .ok tree ∧
    braceDepth tree.tokens 0 = some 1 := by
  have h : (match demoParse "{n plural { other#other}# {other x}" with
      | .ok t => braceDepth t.tokens 0
      | _ => none) = some 1 := by decide +kernel
  cases hp : demoParse "{n plural { other#other}# {other x}" with
  | ok t => rw [hp] at h; exact ⟨t, rfl, h⟩
  | err e => rw [hp] at h; cases h
  | panic => rw [hp] at h; cases h

/-- **C17, what holds.** If a string is accepted, a brace opened in the main string or in the group of named strings
is followed by a closing brace. Missing: braces opened among the selectors of a keyword pattern, which the parser
ignores. -/
theorem C17_opened_braces_are_closed_partial (pre rest : List Token) (o : Token) (tree : Tree) (ho : Gr '{' o)
    (hpre : (∃ items, Content false 0 items pre) ∨
      (∃ items ns ts h gs, Content false 0 items ts ∧ Gr '#' h ∧ Group (ts.length + 1) ns gs ∧ pre = ts ++ h :: gs))
    (h : Tree.ofTokens (pre ++ o :: rest) = .ok tree) : ∃ t ∈ rest, Gr '}' t := by
  refine opened_then_closed ho (hpre.imp id ?_) h
  rintro ⟨items, ns, ts, g, gs, h1, h2, h3, rfl⟩
  exact ⟨items, ns, ts, g, gs, rfl, h1, h2, h3⟩

/-- An accepted string with a brace opened after `a`; without the closing brace it is rejected. -/
example : demoNodes "a{b}" = some (5, 4) ∧ demoParse "a{b" = .err .endedAbruptly ∧
    ∃ ts, lex Demo.icu localiserGrammar "a{b}".toList = .ok ts ∧
      ∃ pre o rest, ts = pre ++ o :: rest ∧ Gr '{' o ∧ ∃ items, Content false 0 items pre :=
  ⟨by decide +kernel, rfl, _, rfl, [_], _, _, rfl, ⟨rfl, rfl⟩, _, Content.plain (ts := []) .nil (by decide)⟩

end Verif.Props
