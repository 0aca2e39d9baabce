import Verif.Lemmas.SyntaxBegins
/-
Where an opening brace can be in a pattern string.
-/
namespace Verif.TreeLemmas
open Verif Verif.Spec

/-- A token of `ts ++ w` is in `ts` or in `w`. -/
theorem split_at {ts w p r : List Token} {o : Token} (h : ts ++ w = p ++ o :: r) :
    (∃ r1, ts = p ++ o :: r1 ∧ r = r1 ++ w) ∨ (∃ p2, p = ts ++ p2 ∧ w = p2 ++ o :: r) := by
  rcases List.append_eq_append_iff.1 h with ⟨a, h1, h2⟩ | ⟨a, h1, h2⟩
  · exact .inr ⟨a, h1, h2⟩
  · cases a with
    | nil => exact .inr ⟨[], by simpa using h1.symm, by simpa using h2.symm⟩
    | cons b a =>
      simp only [List.cons_append, List.cons.injEq] at h2
      obtain ⟨rfl, rfl⟩ := h2
      exact .inl ⟨a, h1, rfl⟩

theorem gr_ne {o t : Token} (ho : Gr '{' o) (ht : t.tokenType ≠ .grammar ∨ t.string ≠ ['{']) : o ≠ t := by
  rintro rfl
  rcases ht with h | h
  · exact h ho.1
  · exact h ho.2

theorem gr_other {c : Char} {t : Token} (h : Gr c t) (hc : c ≠ '{') : t.string ≠ ['{'] := by
  intro e
  rw [h.2] at e
  exact hc (by simpa using e)

/-- No opening brace is among tokens none of which is one. -/
theorem no_brace {o : Token} {p r us : List Token} (ho : Gr '{' o) (h : us = p ++ o :: r)
    (hu : ∀ t ∈ us, t.tokenType ≠ .grammar ∨ t.string ≠ ['{']) : False :=
  gr_ne ho (hu o (by rw [h]; simp)) rfl

theorem blank_no {ws : List Token} (h : Blank ws) : ∀ t ∈ ws, t.tokenType ≠ .grammar ∨ t.string ≠ ['{'] := by
  intro t ht; left; rw [h t ht]; decide

theorem cmdBody_no {n : Nat} {parts : List Part} {us : List Token} (h : CmdBody n parts us) :
    ∀ t ∈ us, t.tokenType ≠ .grammar ∨ t.string ≠ ['{'] := by
  induction h with
  | nil => intro _ h; cases h
  | blank _ h1 ih =>
    intro t ht
    rcases List.mem_append.1 ht with h | h
    · exact ih t h
    · rw [List.mem_singleton.1 h, h1]; exact .inl (by decide)
  | ident _ h1 ih =>
    intro t ht
    rcases List.mem_append.1 ht with h | h
    · exact ih t h
    · rw [List.mem_singleton.1 h, h1]; exact .inl (by decide)
  | hash _ h1 ih =>
    intro t ht
    rcases List.mem_append.1 ht with h | h
    · exact ih t h
    · rw [List.mem_singleton.1 h]; exact .inr (gr_other h1 (by decide))

/-- What precedes an opening brace among selectors are complete selectors. -/
theorem kwBody_brace {n : Nat} {sels : List (Leaf × Leaf)} {us : List Token} (h : KwBody n sels us) :
    ∀ {p r o}, us = p ++ o :: r → Gr '{' o → ∃ sels', KwBody n sels' p := by
  induction h with
  | nil => intro p r o h _; simp at h
  | @skip sels ts t h1 h2 ih =>
    intro p r o h ho
    rcases split_at h with ⟨r1, h3, _⟩ | ⟨p2, rfl, h3⟩
    · exact ih h3 ho
    · cases p2 with
      | nil => exact ⟨_, by simpa using h1⟩
      | cons a p2 => simp at h3
  | @selector sels ts a x b h1 h2 h3 h4 ih =>
    intro p r o h ho
    rcases split_at h with ⟨r1, h5, _⟩ | ⟨p2, rfl, h5⟩
    · exact ih h5 ho
    · refine (no_brace ho h5 ?_).elim
      intro t ht
      simp only [List.mem_cons, List.not_mem_nil, or_false] at ht
      rcases ht with rfl | rfl | rfl
      · rw [h2]; exact .inl (by decide)
      · rw [h3]; exact .inr (by decide)
      · rw [h4]; exact .inl (by decide)

theorem pattern_brace {n : Nat} {it : Item} {w p r : List Token} {o : Token} (h : Pattern n it w)
    (hw : w = p ++ o :: r) (ho : Gr '{' o) :
    (p = [] ∧ ∃ inner c, r = inner ++ [c] ∧ Gr '}' c) ∨
    (∃ o' id ws k sels body, Gr '{' o' ∧ id.tokenType = .identifier ∧ Blank ws ∧ k.tokenType = .identifier ∧
      KwBody (n + 3 + ws.length) sels body ∧ p = o' :: id :: ws ++ k :: body) := by
  have id_no : ∀ t : Token, t.tokenType = .identifier → t.tokenType ≠ .grammar ∨ t.string ≠ ['{'] := by
    intro t ht; rw [ht]; exact .inl (by decide)
  cases h with
  | @simple o1 id ws c h1 h2 h3 h4 =>
    cases p with
    | nil =>
      simp only [List.nil_append, List.cons_append, List.cons.injEq] at hw
      exact .inl ⟨rfl, id :: ws, c, hw.2.symm, h4⟩
    | cons a p =>
      simp only [List.cons_append, List.cons.injEq] at hw
      refine (no_brace ho hw.2 ?_).elim
      intro t ht
      simp only [List.mem_cons, List.mem_append, List.not_mem_nil, or_false] at ht
      rcases ht with rfl | h | rfl
      · exact id_no _ h2
      · exact blank_no h3 t h
      · exact .inr (gr_other h4 (by decide))
  | @keyword o1 id ws k sels body c h1 h2 h3 h4 h5 h6 =>
    cases p with
    | nil =>
      simp only [List.nil_append, List.cons_append, List.cons.injEq] at hw
      exact .inl ⟨rfl, id :: (ws ++ k :: body), c, by simpa using hw.2.symm, h6⟩
    | cons a p =>
      simp only [List.cons_append, List.cons.injEq, List.append_assoc] at hw
      obtain ⟨rfl, hw⟩ := hw
      have e : (id :: (ws ++ [k])) ++ (body ++ [c]) = p ++ o :: r := by simpa using hw
      rcases split_at e with ⟨r1, h7, _⟩ | ⟨p2, rfl, h7⟩
      · refine (no_brace ho h7 ?_).elim
        intro t ht
        simp only [List.mem_cons, List.mem_append, List.not_mem_nil, or_false] at ht
        rcases ht with rfl | h | rfl
        · exact id_no _ h2
        · exact blank_no h3 t h
        · exact id_no _ h4
      · rcases split_at h7 with ⟨r1, h8, _⟩ | ⟨p3, rfl, h8⟩
        · obtain ⟨sels', h9⟩ := kwBody_brace h5 h8 ho
          exact .inr ⟨o1, id, ws, k, sels', p2, h1, h2, h3, h4, h9, by simp⟩
        · refine (no_brace ho h8 ?_).elim
          intro t ht
          rw [List.mem_singleton.1 ht]
          exact .inr (gr_other h6 (by decide))
  | @command o1 x parts body c h1 h2 h3 h4 h5 h6 =>
    cases p with
    | nil =>
      simp only [List.nil_append, List.cons_append, List.cons.injEq] at hw
      exact .inl ⟨rfl, x :: body, c, by simpa using hw.2.symm, h6⟩
    | cons a p =>
      simp only [List.cons_append, List.cons.injEq] at hw
      refine (no_brace ho hw.2 ?_).elim
      intro t ht
      simp only [List.mem_cons, List.mem_append, List.not_mem_nil, or_false] at ht
      rcases ht with rfl | h | rfl
      · exact .inr (gr_other h2 (by decide))
      · exact cmdBody_no h3 t h
      · exact .inr (gr_other h6 (by decide))

theorem content_brace {sub : Bool} {n : Nat} {items : List Item} {us : List Token} (h : Content sub n items us) :
    ∀ {p r o}, us = p ++ o :: r → Gr '{' o →
    (∃ items' p' e, Content sub n items' p' ∧ Gr '`' e ∧ p = p' ++ [e]) ∨
    (∃ items' it inner c r', Content sub n items' p ∧ r = inner ++ c :: r' ∧ Gr '}' c ∧
      Pattern (n + p.length) it (o :: inner ++ [c])) ∨
    (∃ items' p' o' id ws k sels body, Content sub n items' p' ∧ Gr '{' o' ∧ id.tokenType = .identifier ∧ Blank ws ∧
      k.tokenType = .identifier ∧ KwBody (n + p'.length + 3 + ws.length) sels body ∧
      p = p' ++ o' :: id :: ws ++ k :: body) := by
  induction h with
  | nil => intro p r o h _; simp at h
  | @plain items ts t h1 h2 ih =>
    intro p r o h ho
    rcases split_at h with ⟨r1, h3, h4⟩ | ⟨p2, rfl, h3⟩
    · rcases ih h3 ho with h5 | ⟨items', it, inner, c, r', h5, h6, h7, h8⟩ | h5
      · exact .inl h5
      · exact .inr (.inl ⟨items', it, inner, c, r' ++ [t], h5, by simp [h4, h6], h7, h8⟩)
      · exact .inr (.inr h5)
    · refine (no_brace ho h3 ?_).elim
      intro x hx; rw [List.mem_singleton.1 hx]; exact .inl h2
  | @escaped items ts e t h1 h2 ih =>
    intro p r o h ho
    rcases split_at h with ⟨r1, h3, h4⟩ | ⟨p2, rfl, h3⟩
    · rcases ih h3 ho with h5 | ⟨items', it, inner, c, r', h5, h6, h7, h8⟩ | h5
      · exact .inl h5
      · exact .inr (.inl ⟨items', it, inner, c, r' ++ [e, t], h5, by simp [h4, h6], h7, h8⟩)
      · exact .inr (.inr h5)
    · cases p2 with
      | nil =>
        simp only [List.nil_append, List.cons.injEq] at h3
        exact (gr_ne ho (.inr (gr_other h2 (by decide))) h3.1.symm).elim
      | cons a p2 =>
        cases p2 with
        | nil =>
          simp only [List.cons_append, List.nil_append, List.cons.injEq] at h3
          obtain ⟨rfl, _⟩ := h3
          exact .inl ⟨items, ts, e, h1, h2, rfl⟩
        | cons b p2 => simp at h3
  | @number items ts t h1 h2 h3 h4 ih =>
    intro p r o h ho
    rcases split_at h with ⟨r1, h5, h6⟩ | ⟨p2, rfl, h5⟩
    · rcases ih h5 ho with h7 | ⟨items', it, inner, c, r', h7, h8, h9, h10⟩ | h7
      · exact .inl h7
      · exact .inr (.inl ⟨items', it, inner, c, r' ++ [t], h7, by simp [h6, h8], h9, h10⟩)
      · exact .inr (.inr h7)
    · refine (no_brace ho h5 ?_).elim
      intro x hx; rw [List.mem_singleton.1 hx]; exact .inr (gr_other h4 (by decide))
  | @pattern items ts it w h1 h2 ih =>
    intro p r o h ho
    rcases split_at h with ⟨r1, h5, h6⟩ | ⟨p2, rfl, h5⟩
    · rcases ih h5 ho with h7 | ⟨items', it, inner, c, r', h7, h8, h9, h10⟩ | h7
      · exact .inl h7
      · exact .inr (.inl ⟨items', it, inner, c, r' ++ w, h7, by simp [h6, h8], h9, h10⟩)
      · exact .inr (.inr h7)
    · rcases pattern_brace h2 h5 ho with ⟨rfl, inner, c, rfl, hc⟩ | ⟨o', id, ws, k, sels, body, g1, g2, g3, g4, g5, rfl⟩
      · subst h5
        exact .inr (.inl ⟨items, it, inner, c, [], by simpa using h1, by simp, hc, by simpa using h2⟩)
      · exact .inr (.inr ⟨items, ts, o', id, ws, k, sels, body, h1, g1, g2, g3, g4, g5, by simp⟩)

end Verif.TreeLemmas
