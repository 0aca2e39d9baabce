import Verif.Lemmas.Lexer
import Verif.Spec.Demo
/-
Property theorems C01–C05: the lexer, /repo/crates/lexer/src/lexer.rs.
-/
namespace Verif.Props
open Verif Verif.Spec Verif.LexerLemmas

/-- **C01.** The tokens of every non-empty string partition it: their strings concatenate to the input,
byte positions are exact, the first token starts at byte 0, consecutive tokens touch, the last one ends at
the byte length of the input. -/
theorem C01_tokens_partition (icu : Icu) (grammar s : Str) (hg : grammar ≠ []) (hs : s ≠ []) :
    ∃ toks, lex icu grammar s = .ok toks ∧
      (toks.map Token.string).flatten = s ∧
      (∀ t ∈ toks, t.lengthBytes = byteLen t.string ∧ t.endByte = t.startByte + t.lengthBytes) ∧
      (∀ t rest, toks = t :: rest → t.startByte = 0) ∧
      (∀ pre a b post, toks = pre ++ a :: b :: post → b.startByte = a.endByte) ∧
      (∀ pre t, toks = pre ++ [t] → t.endByte = byteLen s) ∧
      (∀ pre t post, toks = pre ++ t :: post →
        t.startByte = byteLen ((pre.map Token.string).flatten)) := by
  refine ⟨_, lex_eq icu grammar s hg hs, ?_, ?_, ?_, ?_, ?_, ?_⟩
  · rw [annotate_strings, words_concat]
  · intro t ht
    obtain ⟨pre, post, e⟩ := List.append_of_mem ht
    have := annotate_positions icu _ _ _ _ _ _ _ e
    exact ⟨this.2.1, this.2.2.1⟩
  · intro t rest e
    have := annotate_positions icu _ 0 0 0 [] t rest (by rw [e]; rfl)
    simpa [byteLen] using this.1
  · intro pre a b post e
    have h1 := annotate_positions icu _ 0 0 0 pre a (b :: post) e
    have h2 := annotate_positions icu _ 0 0 0 (pre ++ [a]) b post (by rw [e]; simp)
    rw [h2.1, h1.2.2.1, h1.1, h1.2.1]
    simp [byteLen_append]
  · intro pre t e
    have h1 := annotate_positions icu _ 0 0 0 pre t [] e
    have h2 : ((pre ++ [t]).map Token.string).flatten = s := by
      rw [← e, annotate_strings, words_concat]
    rw [h1.2.2.1, h1.1, h1.2.1, ← h2]
    simp [byteLen_append]
  · intro pre t post e
    have := annotate_positions icu _ 0 0 0 pre t post e
    simpa using this.1

/-- The hypotheses of the lexer theorems are met, and the tokens are as expected (a multi-byte character
included). -/
example : (['{', '}'] : Str) ≠ [] ∧ ("aé {b".toList : Str) ≠ [] ∧
    lex Demo.icu ['{', '}'] "aé {b".toList = .ok [
      { string := "aé".toList, tokenType := .identifier, startByte := 0, startCharacter := 0,
        startGrapheme := 0, lengthBytes := 3, lengthCharacters := 2, lengthGraphemes := 2, endByte := 3 },
      { string := " ".toList, tokenType := .whiteSpace, startByte := 3, startCharacter := 2,
        startGrapheme := 2, lengthBytes := 1, lengthCharacters := 1, lengthGraphemes := 1, endByte := 4 },
      { string := "{".toList, tokenType := .grammar, startByte := 4, startCharacter := 3,
        startGrapheme := 3, lengthBytes := 1, lengthCharacters := 1, lengthGraphemes := 1, endByte := 5 },
      { string := "b".toList, tokenType := .identifier, startByte := 5, startCharacter := 4,
        startGrapheme := 4, lengthBytes := 1, lengthCharacters := 1, lengthGraphemes := 1, endByte := 6 }] := by
  refine ⟨by decide, by decide, by rfl⟩

/-- **C02.** Character and grapheme positions of every token are exact running sums. -/
theorem C02_positions_exact (icu : Icu) (grammar s : Str) (hg : grammar ≠ []) (hs : s ≠ []) :
    ∃ toks, lex icu grammar s = .ok toks ∧
      ∀ pre t post, toks = pre ++ t :: post →
        t.startCharacter = ((pre.map Token.string).flatten).length ∧
        t.lengthCharacters = t.string.length ∧
        t.lengthGraphemes = icu.breaks t.string - 1 ∧
        t.startGrapheme = (pre.map Token.lengthGraphemes).sum := by
  refine ⟨_, lex_eq icu grammar s hg hs, fun pre t post e => ?_⟩
  have := annotate_positions icu _ 0 0 0 pre t post e
  simp only [Nat.zero_add] at this
  exact this.2.2.2

/-- **C03.** The tokens are the unique sequence of maximal class-uniform runs with single-character
grammar tokens. -/
theorem C03_maximal_runs (icu : Icu) (grammar s : Str) (hg : grammar ≠ []) (hs : s ≠ []) :
    ∃ toks, lex icu grammar s = .ok toks ∧
      Tokenisation icu grammar s (toks.map fun t => (t.tokenType, t.string)) ∧
      ∀ ws, Tokenisation icu grammar s ws → ws = toks.map fun t => (t.tokenType, t.string) := by
  refine ⟨_, lex_eq icu grammar s hg hs, ?_, ?_⟩
  · rw [annotate_words]; exact words_tokenisation icu grammar s
  · intro ws h
    rw [annotate_words, ← h.concat]
    exact (good_unique _ ws (tokenisation_good h)).symm

/-- A concrete tokenisation exists (the specification is satisfiable with two adjacent grammar tokens). -/
example : Tokenisation Demo.icu ['{', '}'] "a{{".toList
    [(.identifier, ['a']), (.grammar, ['{']), (.grammar, ['{'])] := by
  have := words_tokenisation Demo.icu ['{', '}'] "a{{".toList
  exact this

/-- **C04.** The iterator yields a fixed finite list of tokens (at least one, at most one per character) and
afterwards `None` on every call, however often it is called. -/
theorem C04_terminates_and_fused (icu : Icu) (grammar s : Str) (hg : grammar ≠ []) (hs : s ≠ []) :
    ∃ it toks, LexerIterator.tryNew s grammar icu = .ok it ∧ it.collect = toks ∧
      1 ≤ toks.length ∧ toks.length ≤ s.length ∧
      ∀ n, it.calls n = (toks.map some ++ List.replicate n none).take n := by
  obtain ⟨it, hit, hc⟩ := calls_eq icu grammar s hg hs
  have hl := lex_eq icu grammar s hg hs
  simp only [lex, hit, Except.ok.injEq] at hl
  refine ⟨it, _, hit, hl, ?_, ?_, hc⟩
  · rw [annotate_length]
    have := words_ne_nil (charType icu grammar) s hs
    exact List.length_pos_iff.2 this
  · rw [annotate_length]
    have key : ∀ ws : List (TokenType × Str), (∀ w ∈ ws, w.2 ≠ []) →
        ws.length ≤ ((ws.map Prod.snd).flatten).length := by
      intro ws
      induction ws with
      | nil => intro _; simp
      | cons a rest ih =>
        intro h
        have h1 := ih (fun w hw => h w (List.mem_cons_of_mem _ hw))
        have h2 : 0 < a.2.length := List.length_pos_iff.2 (h a (by simp))
        simp only [List.map_cons, List.flatten_cons, List.length_cons, List.length_append]
        omega
    have := key _ (words_good (charType icu grammar) s).nonempty
    rwa [words_concat] at this

/-- **C04, construction.** Creating a lexer fails exactly for an empty grammar (reported first) or an empty
string. -/
theorem C04_construction (icu : Icu) (grammar s : Str) :
    (grammar = [] → LexerIterator.tryNew s grammar icu = .error .noGrammar) ∧
    (grammar ≠ [] → s = [] → LexerIterator.tryNew s grammar icu = .error .emptyString) ∧
    (grammar ≠ [] → s ≠ [] → ∃ it, LexerIterator.tryNew s grammar icu = .ok it) := by
  refine ⟨?_, ?_, ?_⟩
  · rintro rfl; rfl
  · rintro hg rfl
    cases grammar with
    | nil => exact absurd rfl hg
    | cons => rfl
  · intro hg hs
    obtain ⟨it, h, _⟩ := calls_eq icu grammar s hg hs
    exact ⟨it, h⟩

/-- More calls than tokens: the concrete answers of six calls. -/
example : ∃ it, LexerIterator.tryNew "a b".toList ['{'] Demo.icu = .ok it ∧
    (it.calls 6).map Option.isSome = [true, true, true, false, false, false] := ⟨_, rfl, by rfl⟩

/-- **C05, prefix stability.** All tokens but the last of `s` are the first tokens of `s ++ t`. -/
theorem C05_prefix_stable (icu : Icu) (grammar s t : Str) (hg : grammar ≠ []) (hs : s ≠ []) :
    ∃ pre last rest, lex icu grammar s = .ok (pre ++ [last]) ∧ lex icu grammar (s ++ t) = .ok (pre ++ rest) := by
  obtain ⟨pre, k, w, w', post, h1, h2⟩ := words_append_left (charType icu grammar) s t hs
  rw [lex_eq icu grammar s hg hs, lex_eq icu grammar (s ++ t) hg (by simp [hs]), h1, h2]
  -- both lists start with the annotation of `pre`
  have key : ∀ (pre ys : List (TokenType × Str)) b ch g,
      annotate icu b ch g (pre ++ ys) = annotate icu b ch g pre ++
        annotate icu (b + byteLen ((pre.map Prod.snd).flatten))
          (ch + ((pre.map Prod.snd).flatten).length)
          (g + (pre.map fun w => icu.breaks w.2 - 1).sum) ys := by
    intro pre
    induction pre with
    | nil => intros; simp [annotate, byteLen]
    | cons a rest ih =>
      obtain ⟨k, w⟩ := a
      intros
      simp only [List.cons_append, annotate, ih, List.map_cons, List.flatten_cons, byteLen_append,
        List.length_append, List.sum_cons, Nat.add_assoc]
  rw [key, key]
  exact ⟨_, _, _, rfl, rfl⟩

/-- Concretely: the last token of the shorter string grows, the others stay. -/
example : (lex Demo.icu ['{'] "ab {c".toList).toOption.map (·.map Token.string) =
      some ["ab".toList, " ".toList, "{".toList, "c".toList] ∧
    (lex Demo.icu ['{'] ("ab {c".toList ++ "d {".toList)).toOption.map (·.map Token.string) =
      some ["ab".toList, " ".toList, "{".toList, "cd".toList, " ".toList, "{".toList] := by
  constructor <;> rfl

/-- **C05, grammar as a set.** Grammars with the same characters give the same tokens (and the same
construction errors). -/
theorem C05_grammar_set (icu : Icu) (g g' s : Str) (h : ∀ c, c ∈ g ↔ c ∈ g') :
    lex icu g s = lex icu g' s := by
  have hct : charType icu g = charType icu g' := by
    funext c
    unfold charType
    have : g.contains c = g'.contains c := by
      rw [Bool.eq_iff_iff]; simpa using h c
    rw [this]
  by_cases hg : g = []
  · subst hg
    have hg' : g' = [] := by
      cases g' with
      | nil => rfl
      | cons c cs => exact absurd ((h c).2 (by simp)) (by simp)
    rw [hg']
  · have hg' : g' ≠ [] := by
      intro e; subst e
      cases g with
      | nil => exact hg rfl
      | cons c cs => exact absurd ((h c).1 (by simp)) (by simp)
    by_cases hs : s = []
    · subst hs
      simp only [lex, (C04_construction icu g []).2.1 hg rfl, (C04_construction icu g' []).2.1 hg' rfl]
    · rw [lex_eq icu g s hg hs, lex_eq icu g' s hg' hs, hct]

example : ∀ c, c ∈ ("{}{".toList : Str) ↔ c ∈ ("}{".toList : Str) := by
  intro c; simp; grind

/-- **C05, grammar characters must be syntax characters.** A token of class Grammar consists of one character
of the grammar which is a `Pattern_Syntax` character and not white space. -/
theorem C05_grammar_tokens_are_syntax (icu : Icu) (grammar s : Str) (toks : List Token)
    (h : lex icu grammar s = .ok toks) (t : Token) (ht : t ∈ toks) (hk : t.tokenType = .grammar) :
    ∃ c, t.string = [c] ∧ c ∈ grammar ∧ icu.syn c = true ∧ icu.whiteSpace c = false := by
  have hg : grammar ≠ [] := by
    rintro rfl; simp [lex, LexerIterator.tryNew] at h
  have hs : s ≠ [] := by
    rintro rfl
    simp [lex, (C04_construction icu grammar []).2.1 hg rfl] at h
  obtain ⟨toks', h', htok, _⟩ := C03_maximal_runs icu grammar s hg hs
  rw [h] at h'
  cases h'
  have hm : (t.tokenType, t.string) ∈ toks.map (fun t => (t.tokenType, t.string)) :=
    List.mem_map.2 ⟨t, ht, rfl⟩
  have h1 := htok.single _ hm hk
  cases hstr : t.string with
  | nil => simp [hstr] at h1
  | cons c cs =>
    have : cs = [] := by cases cs with | nil => rfl | cons => simp [hstr] at h1
    subst this
    have h2 := htok.uniform _ hm c (by simp [hstr])
    rw [hk] at h2
    cases h2 with
    | gr a b c' => exact ⟨c, rfl, c', b, a⟩

/-- A grammar character which is no syntax character (`a`) is lexed as identifier. -/
example : (lex Demo.icu ['a', '{'] "a{".toList).toOption.map (·.map Token.tokenType) =
    some [.identifier, .grammar] := by rfl

end Verif.Props
