import Verif.Lemmas.SyntaxBlame
import Verif.Props.Tree
/-
C84: the errors of the parser tell where a pattern string goes wrong.
-/
namespace Verif.Props
open Verif Verif.Spec Verif.TreeLemmas

/-! ### C84: errors of the syntax -/

theorem run_of_error {icu : Icu} {g s : Str} {e : TreeError} (h : Tree.tryNew icu g s = .err e)
    (hl : ∀ x, e ≠ .lexer x) (he : e ≠ .endedAbruptly) :
    ∃ ts used rest, lex icu g s = .ok ts ∧ ts = used ++ rest ∧ (Step.done (.ok PState.init)).drive used = .err e ∧
      ErrExact used e := by
  cases hx : lex icu g s with
  | error x => simp only [Tree.tryNew, hx] at h; cases h; exact absurd rfl (hl x)
  | ok ts =>
    rw [tryNew_lex hx] at h
    unfold Tree.ofTokens at h
    cases hd : (Step.done (.ok PState.init)).drive ts with
    | panic => rw [hd] at h; cases h
    | ok st =>
      rw [hd] at h
      cases hn : st.nested with
      | nil => simp [hn] at h
      | cons a b => simp [hn] at h; exact absurd h.symm he
    | err e' =>
      rw [hd] at h
      cases h
      rcases drive_exact ts _ [] e (show StepOk (.done (.ok PState.init)) [] from Inv.text (.main .nil) init_text) hd with ⟨h1, _⟩ | ⟨used, rest, h1, h2, h3⟩
      · exact absurd h1 he
      · exact ⟨ts, used, rest, rfl, h1, h2, h3⟩

/-- **C84, places.** Every place of the grammar is the end of the beginning of a pattern string. -/
theorem C84_places_begin (st : ParserState) (ts : List Token) (h : Place st ts) : BeginsSentence ts := place_begins h

/-- **C84, there is one first wrong token.** -/
theorem C84_first_wrong_token (pre post pre' post' : List Token) (t t' : Token)
    (he : pre ++ t :: post = pre' ++ t' :: post') (h1 : BeginsSentence pre) (h2 : ¬ BeginsSentence (pre ++ [t])) (h1' : BeginsSentence pre')
    (h2' : ¬ BeginsSentence (pre' ++ [t'])) : pre = pre' ∧ t = t' ∧ post = post' := by
  have key : ∀ (p q r : List Token) (x : Token), BeginsSentence q → q = p ++ x :: r → BeginsSentence (p ++ [x]) := by
    intro p q r x hq e
    refine begins_append (us := r) ?_
    rw [List.append_assoc]
    exact e ▸ hq
  rcases List.append_eq_append_iff.1 he with ⟨m, e1, e2⟩ | ⟨m, e1, e2⟩
  · cases m with
    | nil =>
      rw [List.append_nil] at e1
      simp only [List.nil_append, List.cons.injEq] at e2
      exact ⟨e1.symm, e2.1, e2.2⟩
    | cons x m =>
      simp only [List.cons_append, List.cons.injEq] at e2
      exact absurd (key pre pre' m t h1' (by rw [e1, e2.1])) h2
  · cases m with
    | nil =>
      rw [List.append_nil] at e1
      simp only [List.nil_append, List.cons.injEq] at e2
      exact ⟨e1, e2.1.symm, e2.2.symm⟩
    | cons x m =>
      simp only [List.cons_append, List.cons.injEq] at e2
      exact absurd (key pre' pre m t' h1 (by rw [e1, e2.1])) h2'

/-- **C84, unexpected tokens.** The token in the error is the first token of the string which cannot follow what is
before it, and the state in the error names the place where it is. Missing, because the code does not do it: when the
name of a named string is not followed by white space, the error is about the name and not about the token after it;
when the content of a named string starts with a syntax character or an escape, the error is about a token further
on. -/
theorem C84_unexpected_token_partial (icu : Icu) (g s : Str) (st : ParserState) (p : Nat) (x : Str)
    (h : Tree.tryNew icu g s = .err (.invalidToken st p x)) :
    ∃ pre t post, lex icu g s = .ok (pre ++ t :: post) ∧ t.startGrapheme = p ∧ t.string = x ∧
      ((Place st pre ∧ ¬ BeginsSentence (pre ++ [t])) ∨
       (∃ start o u post', pre = start ++ [o] ∧ post = u :: post' ∧ st = .namedString ∧ InGroup start ∧ Gr '{' o ∧
          t.tokenType = .identifier ∧ u.tokenType ≠ .whiteSpace ∧ BeginsSentence (pre ++ [t]) ∧ ¬ BeginsSentence (pre ++ [t, u])) ∨
       (∃ start y rest, pre = start ++ y :: rest ∧ st = .namedString ∧ BeforeContent start ∧
          (y.tokenType = .syn ∨ Gr '{' y ∨ Gr '`' y) ∧ ¬ BeginsSentence (start ++ [y]))) := by
  obtain ⟨ts, used, rest, hl, rfl, hd, t, hm, hp, hx⟩ := run_of_error h (by simp) (by simp)
  have hnb : ¬ BeginsSentence used := err_not_begins hd (by simp) id
  have hnr : ∀ a b, used = a ++ b → ¬ Repeats a := by
    rintro a b e ⟨e', h1, h2⟩
    rw [e, drive_append_err _ _ _ _ h2.ne h1] at hd
    cases hd
    exact h2
  cases hm with
  | @here pre hpl => exact ⟨pre, t, rest, by simpa using hl, hp, hx, Or.inl ⟨hpl, hnb⟩⟩
  | @brace pre u hst hb ht =>
    refine ⟨pre, t, u :: rest, by simpa using hl, hp, hx, Or.inl ⟨hst ▸ .content hb, ?_⟩⟩
    exact spoilt_not_begins hb (Or.inr (Or.inl ht)) (hnr _ _ rfl)
  | @name pre o u hst hg ho ht hu =>
    refine ⟨pre ++ [o], t, u :: rest, by simpa using hl, hp, hx, Or.inr (Or.inl ⟨pre, o, u, rest, rfl, rfl, hst, hg, ho, ht, hu, ?_, ?_⟩)⟩
    · rw [List.append_assoc]; exact name_begins hg ho ht
    · rw [List.append_assoc]; exact hnb
  | @spoilt pre hst hs =>
    obtain ⟨hb, hy⟩ := hs
    rename_i start y r
    refine ⟨start ++ y :: r, t, rest, by simpa using hl, hp, hx, Or.inr (Or.inr ⟨start, y, r, rfl, hst, hb, hy, ?_⟩)⟩
    exact spoilt_not_begins hb hy (hnr start (y :: r ++ [t]) (by simp))

/-- **C84, two number signs.** The error about a second number sign gives the position of a number sign which cannot
follow, because the named string before it ends with a number sign already. -/
theorem C84_second_number_sign (icu : Icu) (g s : Str) (p : Nat)
    (h : Tree.tryNew icu g s = .err (.multiNumberSign p)) :
    ∃ pre t post items, lex icu g s = .ok (pre ++ t :: post) ∧ t.startGrapheme = p ∧ Gr '#' t ∧
      InString .subString items pre ∧ (∃ l, items.getLast? = some (.number l)) ∧ ¬ BeginsSentence (pre ++ [t]) := by
  obtain ⟨ts, used, rest, hl, rfl, hd, pre, t, items, rfl, hi, he, ht, hp⟩ := run_of_error h (by simp) (by simp)
  refine ⟨pre, t, rest, items, by simpa using hl, hp, ht, hi, ?_, err_not_begins hd (by simp) id⟩
  unfold endsWithNumber at he
  split at he
  · rename_i l h; exact ⟨l, h⟩
  · cases he

/-- **C84, the end.** If the parser says that the string ended abruptly, then the string is not complete. It is the
beginning of a pattern string. Missing, because the code does not do it: literal text is never complete, and neither
is a named string whose content starts with a syntax character, a brace or a backtick. -/
theorem C84_ended_abruptly_partial (icu : Icu) (g s : Str) (h : Tree.tryNew icu g s = .err .endedAbruptly) :
    ∃ ts, lex icu g s = .ok ts ∧ (∀ d, ¬ Sentence d ts) ∧
      (BeginsSentence ts ∨ (Literal ts ∨ Spoilt ts) ∧ ¬ BeginsSentence ts) := by
  cases hx : lex icu g s with
  | error x => simp [Tree.tryNew, hx] at h
  | ok ts =>
    rw [tryNew_lex hx] at h
    refine ⟨ts, rfl, ?_, ?_⟩
    · intro d hs
      rcases complete_or (U := True) hs (Or.inl trivial) (Or.inl trivial) with ⟨_, _, h1⟩ | ⟨_, e, h1, h2⟩
      · rw [h] at h1; cases h1
      · rw [h] at h1; cases h1; exact h2
    · have hu : Unfinished ts := by
        unfold Tree.ofTokens at h
        have hr := run_ok ts
        cases hd : (Step.done (.ok PState.init)).drive ts with
        | panic => rw [hd] at h; cases h
        | ok st => rw [hd] at hr; exact inv_unfinished hr
        | err e' =>
          rw [hd] at h
          cases h
          rcases drive_exact ts _ [] _ (show StepOk (.done (.ok PState.init)) [] from Inv.text (.main .nil) init_text) hd with ⟨_, h1⟩ | ⟨used, rest, h1, h2, h3⟩
          · exact h1
          · exact h3.elim
      by_cases hb : BeginsSentence ts
      · exact Or.inl hb
      · exact Or.inr ⟨hu.resolve_left hb, hb⟩

/-- **C84, literal text.** After the backtick of literal text no tokens make a pattern string, unless an identifier is
repeated before. -/
theorem C84_literal_text_never_ends (ts : List Token) (h : Literal ts) :
    ¬ BeginsSentence ts ∨ ∃ x, Tree.ofTokens ts = .err (.uniquePattern x) ∨ Tree.ofTokens ts = .err (.uniqueNamed x) := by
  by_cases hr : Repeats ts
  · obtain ⟨e, h1, h2⟩ := hr
    refine Or.inr ?_
    cases e with
    | uniquePattern x => exact ⟨x, Or.inl (by unfold Tree.ofTokens; rw [h1])⟩
    | uniqueNamed x => exact ⟨x, Or.inr (by unfold Tree.ofTokens; rw [h1])⟩
    | _ => exact h2.elim
  · exact Or.inl (lit_not_begins h hr)

/-- **C84, beginnings.** The beginning of a pattern string, if it is not complete itself, is answered with the error
that it ended abruptly, unless an identifier is repeated. -/
theorem C84_beginning_ends_abruptly (icu : Icu) (g s : Str) (ts : List Token) (hl : lex icu g s = .ok ts)
    (hb : BeginsSentence ts) (hn : ∀ d, ¬ Sentence d ts) :
    Tree.tryNew icu g s = .err .endedAbruptly ∨
      ∃ x, Tree.tryNew icu g s = .err (.uniquePattern x) ∨ Tree.tryNew icu g s = .err (.uniqueNamed x) := by
  rw [tryNew_lex hl]
  cases ho : Tree.ofTokens ts with
  | ok tree => obtain ⟨d, hd, _⟩ := sound ho; exact absurd hd (hn d)
  | panic =>
    refine absurd ?_ (begins_no_panic hb)
    unfold Tree.ofTokens at ho
    cases hd : (Step.done (.ok PState.init)).drive ts with
    | panic => rfl
    | err e => rw [hd] at ho; cases ho
    | ok st => rw [hd] at ho; simp only at ho; split at ho <;> cases ho
  | err e =>
    have : e = .endedAbruptly ∨ Unique e := by
      unfold Tree.ofTokens at ho
      cases hd : (Step.done (.ok PState.init)).drive ts with
      | panic => rw [hd] at ho; cases ho
      | err e => rw [hd] at ho; cases ho; exact begins_run hb hd
      | ok st =>
        rw [hd] at ho
        simp only at ho
        split at ho
        · cases ho; exact Or.inl rfl
        · cases ho
    rcases this with rfl | h
    · exact Or.inl rfl
    · cases e with
      | uniquePattern x => exact Or.inr ⟨x, Or.inl rfl⟩
      | uniqueNamed x => exact Or.inr ⟨x, Or.inr rfl⟩
      | _ => exact h.elim

/-- **C84 is violated**: the name is reported though the brace after it is wrong, as the same string goes on with a
space; the brace is reported though the hyphen before it is wrong; and literal text with its end is answered with an
abrupt end. -/
theorem C84_violated :
    demoParse "x# {a}" = .err (.invalidToken .namedString 4 ['a']) ∧ (∃ t, demoParse "x# {a b}" = .ok t) ∧
    demoParse "x# {a -}" = .err (.invalidToken .namedString 7 ['}']) ∧
    demoParse "x# {a -" = .err .endedAbruptly ∧
    demoParse "{`a`}" = .err .endedAbruptly := ⟨rfl, ⟨_, rfl⟩, rfl, rfl, rfl⟩

/-- Examples: an error in every place, with its state. -/
example :
    demoParse "a }" = .err (.invalidToken .string 2 ['}']) ∧
    demoParse "a { b}" = .err (.invalidToken .string 3 [' ']) ∧
    demoParse "a {b -}" = .err (.invalidToken .pattern 5 ['-']) ∧
    demoParse "a {b plural c}" = .err (.invalidToken .keyword 13 ['}']) ∧
    demoParse "a {b plural c#}" = .err (.invalidToken .keyword 14 ['}']) ∧
    demoParse "a {b plural -}" = .err (.invalidToken .keyword 12 ['-']) ∧
    demoParse "a {# }" = .err (.invalidToken .command 5 ['}']) ∧
    demoParse "a # b" = .err (.invalidToken .namedGroup 4 ['b']) ∧
    demoParse "a # {#}" = .err (.invalidToken .namedString 5 ['#']) ∧
    demoParse "a # {b {c}}" = .err (.invalidToken .namedString 7 ['{']) ∧
    demoParse "a # {b c}}" = .err (.invalidToken .namedGroup 9 ['}']) ∧
    demoParse "a # {b c }{" = .err .endedAbruptly ∧ demoParse "a # {b c ##}" = .err (.multiNumberSign 10) :=
  ⟨rfl, rfl, rfl, rfl, rfl, rfl, rfl, rfl, rfl, rfl, rfl, rfl, rfl⟩

/-- Tokens of the string `x# {` and where they end. -/
example : ∃ ts, lex Demo.icu localiserGrammar "x# {".toList = .ok ts ∧ Place .namedString ts :=
  ⟨_, rfl, .named (ts := [_, _, _]) (.mk (ts := [_]) (gs := [_]) (Content.plain (ts := []) .nil (by decide)) ⟨rfl, rfl⟩
    (.blank (ts := []) .nil rfl)) ⟨rfl, rfl⟩⟩

end Verif.Props
