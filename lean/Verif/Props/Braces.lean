import Verif.Lemmas.Braces
import Verif.Spec.Braces
import Verif.Props.Tree
/-
Property theorems for C15 and C17: where literal text makes a pattern string invalid, and what becomes of each opening
brace of an accepted one.
-/
namespace Verif.Props
open Verif Verif.Spec Verif.TreeLemmas

theorem starts_prefix {a b : List Token} {x : Token} (h : Starts (a ++ x :: b)) (hx : x.tokenType ≠ .identifier)
    (hg : ¬ Gr '#' x) : Starts a := by
  cases a with
  | nil => exact (h.elim hx hg).elim
  | cons _ _ => exact h

/-- The braces of a group of named strings. -/
theorem group_brace {items : List Item} {ts : List Token} {g : Token} (hc : Content false 0 items ts) (hg : Gr '#' g)
    {named : List Named} {gs : List Token} (h : Group (ts.length + 1) named gs) :
    ∀ {p r o}, gs = p ++ o :: r → Gr '{' o →
    Escape (ts ++ g :: p) ∨ AfterKeyword (ts ++ g :: p) ∨ Closed (ts ++ g :: p) o r := by
  have more : ∀ {p o r}, ∀ us, Closed p o r → Closed p o (r ++ us) := by
    intro p o r us hh
    cases hh with
    | placeholder h1 h2 h3 => rw [List.append_assoc]; exact .placeholder h1 h2 h3
    | @named id w ws items body c rest h1 h2 h3 h4 h5 h6 h7 =>
      have := Closed.named (o := o) (rest := rest ++ us) h1 h2 h3 h4 h5 h6 h7
      simpa using this
  induction h with
  | nil => intro p r o h _; simp at h
  | @blank ns xs t h1 h2 ih =>
    intro p r o h ho
    rcases split_at h with ⟨r1, h3, rfl⟩ | ⟨p2, rfl, h3⟩
    · rcases ih h3 ho with h4 | h4 | h4
      · exact .inl h4
      · exact .inr (.inl h4)
      · exact .inr (.inr (more _ h4))
    · refine (no_brace ho h3 ?_).elim
      intro x hx; rw [List.mem_singleton.1 hx, h2]; exact .inl (by decide)
  | @named ns xs o1 id w ws its body c h1 h2 h3 h4 h5 h6 h7 h8 ih =>
    intro p r o h ho
    have e : xs ++ (o1 :: id :: w :: ws ++ body ++ [c]) = p ++ o :: r := by simpa using h
    have hin : InGroup (ts ++ g :: xs) := .mk hc hg h1
    rcases split_at e with ⟨r1, h9, rfl⟩ | ⟨p2, rfl, h9⟩
    · rcases ih h9 ho with h4 | h4 | h4
      · exact .inl h4
      · exact .inr (.inl h4)
      · exact .inr (.inr (more _ h4))
    · cases p2 with
      | nil =>
        simp only [List.cons_append, List.nil_append, List.cons.injEq] at h9
        obtain ⟨rfl, rfl⟩ := h9
        refine .inr (.inr ?_)
        have h7' : Content true ((ts ++ g :: xs).length + 3 + ws.length) its body := by
          have e : (ts ++ g :: xs).length + 3 + ws.length = ts.length + 1 + xs.length + 3 + ws.length := by
            simp only [List.length_append, List.length_cons]; omega
          rw [e]; exact h7
        have := Closed.named (o := o1) (rest := []) hin h3 h4 h5 h6 h7' h8
        simpa using this
      | cons a p2 =>
        simp only [List.cons_append, List.cons.injEq] at h9
        obtain ⟨rfl, h9⟩ := h9
        have e2 : (id :: w :: ws) ++ (body ++ [c]) = p2 ++ o :: r := by simpa using h9
        rcases split_at e2 with ⟨r1, h10, _⟩ | ⟨p3, rfl, h10⟩
        · refine (no_brace ho h10 ?_).elim
          intro t ht
          simp only [List.mem_cons] at ht
          rcases ht with rfl | rfl | h
          · rw [h3]; exact .inl (by decide)
          · rw [h4]; exact .inl (by decide)
          · exact blank_no h5 t h
        · have hb : BeforeContent ((ts ++ g :: xs) ++ o1 :: id :: w :: ws) := .mk hin h2 h3 h4 h5
          have hl : ((ts ++ g :: xs) ++ o1 :: id :: w :: ws).length = ts.length + 1 + xs.length + 3 + ws.length := by
            simp only [List.length_append, List.length_cons]; omega
          rw [← hl] at h7
          have hbr : ∀ {t : Token}, Gr '{' t → t.tokenType ≠ .identifier ∧ ¬ Gr '#' t := by
            intro t ht
            refine ⟨by rw [ht.1]; decide, fun h => ?_⟩
            have := h.2
            rw [ht.2] at this
            exact absurd this (by decide)
          rcases split_at h10 with ⟨r1, h11, rfl⟩ | ⟨p4, rfl, h11⟩
          · subst h11
            have hs := starts_prefix h6 (hbr ho).1 (hbr ho).2
            rcases content_brace h7 rfl ho with ⟨items', p', q, k1, k2, rfl⟩ |
              ⟨items', it, inner, c', r', k1, rfl, k3, k4⟩ |
              ⟨items', p', o', id', ws', k', sels, body', k1, k2, k3, k4, k5, k6, rfl⟩
            · have he : q.tokenType ≠ .identifier ∧ ¬ Gr '#' q := by
                refine ⟨by rw [k2.1]; decide, fun h => ?_⟩
                have := h.2
                rw [k2.2] at this
                exact absurd this (by decide)
              have hi := InString.named hb (starts_prefix hs he.1 he.2) k1
              refine .inl ?_
              have := Escape.mk hi k2
              simpa using this
            · refine .inr (.inr ?_)
              have hi := InString.named hb hs k1
              have := Closed.placeholder (rest := r' ++ [c]) hi k3 (by
                rw [List.length_append]; exact k4)
              simpa using this
            · refine .inr (.inl ?_)
              have hs' : Starts (p' ++ o' :: (id' :: ws' ++ k' :: body')) := by simpa using hs
              have hi := InString.named hb (starts_prefix hs' (hbr k2).1 (hbr k2).2) k1
              have := AfterKeyword.mk hi k2 k3 k4 k5 (by rw [List.length_append]; exact k6)
              simpa using this
          · refine (no_brace ho h11 ?_).elim
            intro t ht
            rw [List.mem_singleton.1 ht]
            exact .inr (gr_other h8 (by decide))

/-- **C17, each brace.** Of an accepted string every opening brace is escaped by a backtick, or opens a placeholder, a
command or a named string whose closing brace follows, or is among the selectors of a keyword, where the parser ignores
it. Missing: the last case, in which nothing need close it (`C17_violated`). -/
theorem C17_every_brace_partial (pre rest : List Token) (o : Token) (tree : Tree) (ho : Gr '{' o)
    (h : Tree.ofTokens (pre ++ o :: rest) = .ok tree) : Escape pre ∨ AfterKeyword pre ∨ Closed pre o rest := by
  obtain ⟨d, hs, _⟩ := sound h
  generalize he : pre ++ o :: rest = us at hs
  cases hs with
  | plain hc =>
    rcases content_brace hc he.symm ho with ⟨items', p', e, k1, k2, rfl⟩ |
      ⟨items', it, inner, c', r', k1, rfl, k3, k4⟩ |
      ⟨items', p', o', id', ws', k', sels, body', k1, k2, k3, k4, k5, k6, rfl⟩
    · exact .inl (.mk (.main k1) k2)
    · exact .inr (.inr (.placeholder (.main k1) k3 (by simpa using k4)))
    · exact .inr (.inl (.mk (.main k1) k2 k3 k4 k5 (by simpa using k6)))
  | @group items ts g named gs hc hg hgr =>
    rcases split_at he.symm with ⟨r1, h1, rfl⟩ | ⟨p2, rfl, h1⟩
    · rcases content_brace hc h1 ho with ⟨items', p', e, k1, k2, rfl⟩ |
        ⟨items', it, inner, c', r', k1, rfl, k3, k4⟩ |
        ⟨items', p', o', id', ws', k', sels, body', k1, k2, k3, k4, k5, k6, rfl⟩
      · exact .inl (.mk (.main k1) k2)
      · refine .inr (.inr ?_)
        have := Closed.placeholder (rest := r' ++ g :: gs) (.main k1) k3 (by simpa using k4)
        simpa using this
      · exact .inr (.inl (.mk (.main k1) k2 k3 k4 k5 (by simpa using k6)))
    · cases p2 with
      | nil =>
        simp only [List.nil_append, List.cons.injEq] at h1
        exact (gr_ne ho (.inr (gr_other hg (by decide))) h1.1.symm).elim
      | cons a p2 =>
        simp only [List.cons_append, List.cons.injEq] at h1
        obtain ⟨rfl, h1⟩ := h1
        exact group_brace hc hg hgr h1 ho

/-- What the parser is doing where a brace is ignored, in a string without repeated identifiers. -/
theorem afterKeyword_state {pre : List Token} (h : AfterKeyword pre) (hr : ¬ Repeats pre) :
    ∃ s, (Step.done (.ok PState.init)).drive pre = .ok s ∧ s.state = .keyword := by
  obtain ⟨h1, ho, hi, hb, hk, hbody⟩ := h
  rcases inString_reach h1 with ⟨s, h2, hm, F⟩ | ⟨_, h2⟩
  · rcases reach_kw (U := True) (h := hm) (Or.inl ⟨s, h2, F⟩) ho hi (Or.inl trivial) hb hk rfl hbody with
      ⟨s', h3, A⟩ | ⟨_, h3⟩
    · exact ⟨s', h3, A.fields.state⟩
    · exact (hr h3).elim
  · refine (hr ?_).elim
    rw [List.append_assoc]
    exact Repeats.append _ h2

/-- **C17, exactly the braces which need no closing.** Of an accepted string an opening brace is among the selectors of
a keyword exactly when it is neither escaped nor the opening brace of something that is closed. -/
theorem C17_ignored_exactly_partial (pre rest : List Token) (o : Token) (tree : Tree) (ho : Gr '{' o)
    (h : Tree.ofTokens (pre ++ o :: rest) = .ok tree) : AfterKeyword pre ↔ ¬ Escape pre ∧ ¬ Closed pre o rest := by
  constructor
  · intro hk
    obtain ⟨d, hs, hp, hn, _⟩ := sound h
    have hr : ¬ Repeats pre := unique_not_repeats ⟨d, o :: rest, hs, hp, hn⟩
    obtain ⟨s, h1, h2⟩ := afterKeyword_state hk hr
    have text : ∀ {st items}, ¬ InString st items pre := by
      intro st items hi
      rcases inString_reach hi with ⟨s', h3, hm, F⟩ | ⟨_, h3⟩
      · rw [h1] at h3
        cases h3
        have := F.state
        rw [h2] at this
        cases hm <;> cases this
      · exact hr h3
    refine ⟨?_, ?_⟩
    · rintro ⟨hi, he⟩
      rcases inString_reach hi with ⟨s', h3, hm, F⟩ | ⟨_, h3⟩
      · rw [drive_append _ _ _ _ h3] at h1
        obtain ⟨k, h4, _⟩ := text_escape F he
        simp only [Step.drive, h4] at h1
        cases h1
      · exact hr (Repeats.append _ h3)
    · intro hc
      cases hc with
      | placeholder hi => exact text hi
      | named hg =>
        obtain ⟨hc, hh, hgs⟩ := hg
        rcases reach_group (U := True) hc hh rfl hgs (Or.inl trivial) (Or.inl trivial) with ⟨s', h3, A⟩ | ⟨_, h3⟩
        · rw [h1] at h3
          cases h3
          have := A.state
          rw [h2] at this
          cases this
        · exact hr h3
  · rintro ⟨h1, h2⟩
    rcases C17_every_brace_partial pre rest o tree ho h with h3 | h3 | h3
    · exact (h1 h3).elim
    · exact h3
    · exact (h2 h3).elim

/-- The second brace of this accepted string is ignored. -/
example : demoNodes "{n plural { other#other}# {other x}" = some (13, 35) ∧
    ∃ ts, lex Demo.icu localiserGrammar "{n plural { other#other}# {other x}".toList = .ok ts ∧
      ∃ pre o rest, ts = pre ++ o :: rest ∧ Gr '{' o ∧ AfterKeyword pre :=
  ⟨by decide +kernel, _, rfl, [_, _, _, _, _], _, _, rfl, ⟨rfl, rfl⟩,
    AfterKeyword.mk (ts := []) (ws := [_]) (body := [_]) (.main .nil) ⟨rfl, rfl⟩ rfl
      (by intro t ht; rw [List.mem_singleton.1 ht]) rfl
      (KwBody.skip (ts := []) .nil (.inl rfl))⟩

/-- The brace of this one is escaped, and that of the next opens a placeholder. -/
example : demoNodes "`{" = some (3, 2) ∧
    ∃ ts, lex Demo.icu localiserGrammar "`{".toList = .ok ts ∧
      ∃ pre o rest, ts = pre ++ o :: rest ∧ Gr '{' o ∧ Escape pre :=
  ⟨by decide +kernel, _, rfl, [_], _, _, rfl, ⟨rfl, rfl⟩, Escape.mk (ts := []) (.main .nil) ⟨rfl, rfl⟩⟩

example : ∃ ts, lex Demo.icu localiserGrammar "{n}".toList = .ok ts ∧
      ∃ pre o rest, ts = pre ++ o :: rest ∧ Gr '{' o ∧ Closed pre o rest :=
  ⟨_, rfl, [], _, _, rfl, ⟨rfl, rfl⟩, Closed.placeholder (inner := [_]) (rest := []) (.main .nil) ⟨rfl, rfl⟩
    (Pattern.simple (ws := []) ⟨rfl, rfl⟩ rfl (by intro _ h; cases h) ⟨rfl, rfl⟩)⟩

/-- **C17, the end.** An accepted string ends in its main string, outside of placeholders, commands and literal text, or
in the group of named strings, outside of those. -/
theorem C17_ends_outside_partial (icu : Icu) (g s : Str) (tree : Tree) (h : Tree.tryNew icu g s = .ok tree) :
    (∃ items, InString .string items tree.tokens) ∨ InGroup tree.tokens := by
  obtain ⟨ts, d, _, hs, _, _, rfl, _⟩ := (C47_accepts_exactly_the_grammar icu g s tree).1 h
  generalize tree.tokens = us at hs
  cases hs with
  | plain hc => exact .inl ⟨_, .main hc⟩
  | group hc hg hgr => exact .inr (.mk hc hg hgr)

/-! ### C15: literal text -/

theorem lit_ended {s : PState} {pre us : List Token} (L : Lit s)
    (h : (Step.done (.ok PState.init)).drive (pre ++ us) = (Step.done (.ok s)).drive us) :
    Tree.ofTokens (pre ++ us) = .err .endedAbruptly := by
  unfold Tree.ofTokens
  rw [h]
  rcases lit_drive us.length us (Nat.le_refl _) s L with ⟨s'', h7, h8⟩ | h7
  · rw [h7]
    cases hn : s''.nested with
    | nil => exact absurd hn h8
    | cons a b => simp [hn]
  · rw [h7]

/-- **C15 fails everywhere.** Wherever literal text is opened, in the main string, in a named string or in a command, the
parser rejects the whole string, whatever follows, because the literal text never ends (or because an identifier was
repeated before). -/
theorem C15_rejected_everywhere_partial (ts : List Token) (h : Literal ts) :
    Tree.ofTokens ts = .err .endedAbruptly ∨
    ∃ x, Tree.ofTokens ts = .err (.uniquePattern x) ∨ Tree.ofTokens ts = .err (.uniqueNamed x) := by
  by_cases hr : Repeats ts
  · obtain ⟨e, h1, h2⟩ := hr
    refine Or.inr ?_
    cases e with
    | uniquePattern x => exact ⟨x, Or.inl (by unfold Tree.ofTokens; rw [h1])⟩
    | uniqueNamed x => exact ⟨x, Or.inr (by unfold Tree.ofTokens; rw [h1])⟩
    | _ => exact h2.elim
  · refine Or.inl ?_
    cases h with
    | @placeholder st items ts o q rest h ho hq =>
      rcases inString_reach h with ⟨s, h1, hm, F⟩ | ⟨_, h⟩
      · obtain ⟨k, h2, h3⟩ := text_open F ho
        obtain ⟨s1, h4, F1, _⟩ := h3 q
        obtain ⟨s', h5, L⟩ := start_lit F1 q (ts.length + 1) hq
        have := lit_ended (pre := ts ++ [o, q]) (us := rest) L (by
          rw [List.append_assoc, drive_append _ _ _ _ h1]
          simp only [List.cons_append, List.nil_append, Step.drive, h2, h4, h5])
        simpa using this
      · exact (hr (Repeats.append _ h)).elim
    | @command ts q rest h hq =>
      have key : ∀ {st items ts0 o hh parts body}, InString st items ts0 → Gr '{' o → Gr '#' hh →
          CmdBody (ts0.length + 2) parts body → ts = ts0 ++ o :: hh :: body →
          Tree.ofTokens (ts ++ q :: rest) = .err .endedAbruptly := by
        intro st items ts0 o hh parts body hin ho hg hb e
        subst e
        have R : Reach True (ts0 ++ o :: hh :: body) (fun s => ∃ h items parts, AtCmd h items parts (ts0 ++ o :: hh :: body) s) := by
          rcases inString_reach hin with ⟨s, h1, hm, F⟩ | h
          · rcases reach_cmd (U := True) (h := hm) (Or.inl ⟨s, h1, F⟩) ho hg rfl hb with ⟨s, h1, F⟩ | h
            · exact Or.inl ⟨s, h1, _, _, _, F⟩
            · exact Or.inr h
          · exact Or.inr ⟨trivial, Repeats.append _ h.2⟩
        rcases R with ⟨s, h1, hm, items, parts, A⟩ | ⟨_, h⟩
        · obtain ⟨k, h2, h3⟩ := cmd_lit A hq
          cases rest with
          | nil =>
            unfold Tree.ofTokens
            rw [drive_append _ _ _ _ h1]
            simp only [Step.drive, h2]
          | cons x us =>
            obtain ⟨s', h4, L⟩ := h3 x
            have := lit_ended (pre := ts0 ++ o :: hh :: body ++ [q, x]) (us := us) L (by
              rw [List.append_assoc, drive_append _ _ _ _ h1]
              simp only [List.cons_append, List.nil_append, Step.drive, h2, h4])
            simpa using this
        · exact (hr (Repeats.append _ h)).elim
      generalize hst : ParserState.command = st' at h
      cases h with
      | text h => subst hst; cases h
      | opened h ho => subst hst; cases h
      | command h ho hg hb => exact key h ho hg hb rfl
      | _ => cases hst

/-- Literal text in a named string and in a command. -/
example : demoParse "a# {n b{`c`}}" = .err .endedAbruptly ∧ demoParse "{#c `d`}" = .err .endedAbruptly := ⟨rfl, rfl⟩
example : ∃ ts, lex Demo.icu localiserGrammar "{#c `d`}".toList = .ok ts ∧ Literal ts :=
  ⟨_, rfl, Literal.command (ts := [_, _, _, _]) (Place.command (ts := []) (body := [_, _]) (.main .nil) ⟨rfl, rfl⟩ ⟨rfl, rfl⟩
    (CmdBody.blank (ts := [_]) (CmdBody.ident (ts := []) .nil rfl) rfl)) ⟨rfl, rfl⟩⟩

end Verif.Props
