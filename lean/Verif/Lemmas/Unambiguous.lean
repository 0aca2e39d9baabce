import Verif.Spec.Grammar
/-
The grammar of pattern strings is unambiguous. The rules of the grammar are turned round, so that sequences are read from
the left, and then the first token tells the rule.
-/
namespace Verif.Unambiguous
open Verif Verif.Spec

theorem gr_ne {a b : Char} {t : Token} (h : a ≠ b) (h1 : Gr a t) : ¬ Gr b t := by
  intro h2
  have := h1.2.symm.trans h2.2
  simp at this
  exact h this

theorem gr_not {c : Char} {t : Token} (h1 : Gr c t) {ty : TokenType} (h2 : t.tokenType = ty) (h : ty ≠ .grammar) : False :=
  h (h2.symm.trans h1.1)

/-- A sequence without tokens of a kind is found by the first token of the kind. -/
theorem split_unique {p : Token → Prop} : ∀ {a a' r r' : List Token} {c c' : Token}, (∀ t ∈ a, ¬ p t) → (∀ t ∈ a', ¬ p t) →
    p c → p c' → a ++ c :: r = a' ++ c' :: r' → a = a' ∧ c = c' ∧ r = r'
  | [], [], _, _, _, _, _, _, _, _, h => by simpa using h
  | [], x :: a', _, _, _, _, _, h2, h3, _, h => by
    simp at h
    exact absurd (h.1 ▸ h3) (h2 x (by simp))
  | x :: a, [], _, _, _, _, h1, _, _, h4, h => by
    simp at h
    exact absurd (h.1 ▸ h4) (h1 x (by simp))
  | x :: a, y :: a', _, _, _, _, h1, h2, h3, h4, h => by
    simp at h
    obtain ⟨rfl, h⟩ := h
    obtain ⟨rfl, h5, h6⟩ := split_unique (fun t ht => h1 t (by simp [ht])) (fun t ht => h2 t (by simp [ht])) h3 h4 h
    exact ⟨rfl, h5, h6⟩

theorem snoc_inj {α : Type} {a b : List α} {x y : α} (h : a ++ [x] = b ++ [y]) : a = b ∧ x = y := by
  have := List.append_inj' h rfl
  simpa using this

/-! ### Selectors and commands -/

theorem kw_no_close {n : Nat} {sels : List (Leaf × Leaf)} {ts : List Token} (h : KwBody n sels ts) : ∀ t ∈ ts, ¬ Gr '}' t := by
  induction h with
  | nil => simp
  | skip h h1 ih =>
    intro t ht
    rcases List.mem_append.1 ht with ht | ht
    · exact ih t ht
    · obtain rfl := List.mem_singleton.1 ht
      intro hg
      rcases h1 with h1 | h1
      · exact gr_not hg h1 (by decide)
      · exact h1.2 hg.2
  | @selector sels ts a h b hk ha hh hb ih =>
    intro t ht
    rcases List.mem_append.1 ht with ht | ht
    · exact ih t ht
    · simp at ht
      rcases ht with rfl | rfl | rfl
      · exact fun hg => gr_not hg ha (by decide)
      · intro hg
        rw [hg.2] at hh
        simp at hh
      · exact fun hg => gr_not hg hb (by decide)

theorem cmd_no_close {n : Nat} {parts : List Part} {ts : List Token} (h : CmdBody n parts ts) : ∀ t ∈ ts, ¬ Gr '}' t := by
  induction h with
  | nil => simp
  | blank h h1 ih =>
    intro t ht
    rcases List.mem_append.1 ht with ht | ht
    · exact ih t ht
    · obtain rfl := List.mem_singleton.1 ht
      exact fun hg => gr_not hg h1 (by decide)
  | ident h h1 ih =>
    intro t ht
    rcases List.mem_append.1 ht with ht | ht
    · exact ih t ht
    · obtain rfl := List.mem_singleton.1 ht
      exact fun hg => gr_not hg h1 (by decide)
  | hash h h1 ih =>
    intro t ht
    rcases List.mem_append.1 ht with ht | ht
    · exact ih t ht
    · obtain rfl := List.mem_singleton.1 ht
      exact gr_ne (by decide) h1

theorem kw_unique {n : Nat} {sels : List (Leaf × Leaf)} {ts : List Token} (h : KwBody n sels ts) :
    ∀ {sels' ts'}, KwBody n sels' ts' → ts = ts' → sels = sels' := by
  induction h with
  | nil =>
    intro sels' ts' h' e
    cases h' with
    | nil => rfl
    | skip => simp at e
    | selector => simp at e
  | @skip sels ts t h h1 ih =>
    intro sels' ts' h' e
    cases h' with
    | nil => simp at e
    | skip h2 h3 => exact ih h2 (snoc_inj e).1
    | @selector sels2 ts2 a hh b h2 ha hh' hb =>
      have := snoc_inj (a := ts) (b := ts2 ++ [a, hh]) (x := t) (y := b) (by simpa using e)
      rw [this.2] at h1
      rcases h1 with h1 | h1 <;> rw [hb] at h1 <;> simp at h1
  | @selector sels ts a hh b h ha hh' hb ih =>
    intro sels' ts' h' e
    cases h' with
    | nil => simp at e
    | @skip sels2 ts2 t h2 h3 =>
      have := snoc_inj (a := ts ++ [a, hh]) (b := ts2) (x := b) (y := t) (by simpa using e)
      rw [← this.2] at h3
      rcases h3 with h1 | h1 <;> rw [hb] at h1 <;> simp at h1
    | @selector sels2 ts2 a2 hh2 b2 h2 ha2 hh2' hb2 =>
      have := List.append_inj' e rfl
      obtain ⟨rfl, e2⟩ := this
      simp at e2
      obtain ⟨rfl, rfl, rfl⟩ := e2
      rw [ih h2 rfl]

theorem cmd_unique {n : Nat} {parts : List Part} {ts : List Token} (h : CmdBody n parts ts) :
    ∀ {parts' ts'}, CmdBody n parts' ts' → ts = ts' → parts = parts' := by
  induction h with
  | nil =>
    intro parts' ts' h' e
    cases h' with
    | nil => rfl
    | blank => simp at e
    | ident => simp at e
    | hash => simp at e
  | @blank parts ts t h h1 ih =>
    intro parts' ts' h' e
    cases h' with
    | nil => simp at e
    | blank h2 h3 => exact ih h2 (snoc_inj e).1
    | ident h2 h3 => rw [(snoc_inj e).2, h3] at h1; cases h1
    | hash h2 h3 => rw [(snoc_inj e).2, h3.1] at h1; cases h1
  | @ident parts ts t h h1 ih =>
    intro parts' ts' h' e
    cases h' with
    | nil => simp at e
    | blank h2 h3 => rw [(snoc_inj e).2, h3] at h1; cases h1
    | ident h2 h3 =>
      obtain ⟨rfl, rfl⟩ := snoc_inj e
      rw [ih h2 rfl]
    | hash h2 h3 => rw [(snoc_inj e).2, h3.1] at h1; cases h1
  | @hash p ts t h h1 ih =>
    intro parts' ts' h' e
    cases h' with
    | nil => simp at e
    | blank h2 h3 => rw [(snoc_inj e).2] at h1; exact (gr_not h1 h3 (by decide)).elim
    | ident h2 h3 => rw [(snoc_inj e).2] at h1; exact (gr_not h1 h3 (by decide)).elim
    | hash h2 h3 =>
      obtain ⟨rfl, rfl⟩ := snoc_inj e
      have := ih h2 rfl
      simp at this
      rw [this]

/-! ### Patterns -/

theorem pattern_head {n : Nat} {i : Item} {w : List Token} (h : Pattern n i w) : ∃ o v, w = o :: v ∧ Gr '{' o := by
  cases h with
  | simple h => exact ⟨_, _, rfl, h⟩
  | keyword h => exact ⟨_, _, rfl, h⟩
  | command h => exact ⟨_, _, rfl, h⟩

/-- Not white space. -/
def Ink (t : Token) : Prop := t.tokenType ≠ .whiteSpace

theorem blank_ink {ws : List Token} (h : Blank ws) : ∀ t ∈ ws, ¬ Ink t := fun t ht hi => hi (h t ht)

theorem gr_ink {c : Char} {t : Token} (h : Gr c t) : Ink t := by
  intro h'
  exact gr_not h h' (by decide)

theorem ident_ink {t : Token} (h : t.tokenType = .identifier) : Ink t := by
  intro h'
  rw [h] at h'
  cases h'

theorem pattern_unique {n : Nat} {i i' : Item} {w w' r r' : List Token} (h : Pattern n i w) (h' : Pattern n i' w')
    (e : w ++ r = w' ++ r') : i = i' ∧ w = w' := by
  cases h with
  | @simple o id ws c ho hid hws hc =>
    cases h' with
    | @simple o2 id2 ws2 c2 ho2 hid2 hws2 hc2 =>
      simp at e
      obtain ⟨rfl, rfl, e⟩ := e
      obtain ⟨rfl, rfl, rfl⟩ := split_unique (p := Ink) (blank_ink hws) (blank_ink hws2) (gr_ink hc) (gr_ink hc2) e
      exact ⟨rfl, rfl⟩
    | @keyword o2 id2 ws2 k2 sels2 body2 c2 ho2 hid2 hws2 hk2 hb2 hc2 =>
      simp at e
      obtain ⟨rfl, rfl, e⟩ := e
      obtain ⟨rfl, rfl, rfl⟩ := split_unique (p := Ink) (blank_ink hws) (blank_ink hws2) (gr_ink hc) (ident_ink hk2) e
      exact (gr_not hc hk2 (by decide)).elim
    | @command o2 h2 parts2 body2 c2 ho2 hh2 hb2 hne2 he2 hc2 =>
      simp at e
      obtain ⟨rfl, rfl, e⟩ := e
      exact (gr_not hh2 hid (by decide)).elim
  | @keyword o id ws k sels body c ho hid hws hk hb hc =>
    cases h' with
    | @simple o2 id2 ws2 c2 ho2 hid2 hws2 hc2 =>
      simp at e
      obtain ⟨rfl, rfl, e⟩ := e
      obtain ⟨rfl, rfl, rfl⟩ := split_unique (p := Ink) (blank_ink hws) (blank_ink hws2) (ident_ink hk) (gr_ink hc2) e
      exact (gr_not hc2 hk (by decide)).elim
    | @keyword o2 id2 ws2 k2 sels2 body2 c2 ho2 hid2 hws2 hk2 hb2 hc2 =>
      simp at e
      obtain ⟨rfl, rfl, e⟩ := e
      obtain ⟨rfl, rfl, e1⟩ := split_unique (p := Ink) (blank_ink hws) (blank_ink hws2) (ident_ink hk) (ident_ink hk2) e
      obtain ⟨rfl, rfl, rfl⟩ := split_unique (kw_no_close hb) (kw_no_close hb2) hc hc2 e1
      rw [kw_unique hb hb2 rfl]
      exact ⟨rfl, rfl⟩
    | @command o2 h2 parts2 body2 c2 ho2 hh2 hb2 hne2 he2 hc2 =>
      simp at e
      obtain ⟨rfl, rfl, e⟩ := e
      exact (gr_not hh2 hid (by decide)).elim
  | @command o h parts body c ho hh hb hne he hc =>
    cases h' with
    | @simple o2 id2 ws2 c2 ho2 hid2 hws2 hc2 =>
      simp at e
      obtain ⟨rfl, rfl, e⟩ := e
      exact (gr_not hh hid2 (by decide)).elim
    | @keyword o2 id2 ws2 k2 sels2 body2 c2 ho2 hid2 hws2 hk2 hb2 hc2 =>
      simp at e
      obtain ⟨rfl, rfl, e⟩ := e
      exact (gr_not hh hid2 (by decide)).elim
    | @command o2 h2 parts2 body2 c2 ho2 hh2 hb2 hne2 he2 hc2 =>
      simp at e
      obtain ⟨rfl, rfl, e⟩ := e
      obtain ⟨rfl, rfl, rfl⟩ := split_unique (cmd_no_close hb) (cmd_no_close hb2) hc hc2 e
      rw [cmd_unique hb hb2 rfl]
      exact ⟨rfl, rfl⟩

/-! ### Contents -/

/-- Contents read from the left: `a` is what was read before, the next token has position `n`. -/
inductive Left (sub : Bool) : Nat → List Item → List Item → List Token → Prop
  | nil {n a} : Left sub n a a []
  | plain {n a b t ts} : t.tokenType ≠ .grammar → Left sub (n + 1) (pushText a ⟨n, t⟩) b ts → Left sub n a b (t :: ts)
  | escaped {n a b e t ts} : Gr '`' e → Left sub (n + 2) (pushText a ⟨n + 1, t⟩) b ts → Left sub n a b (e :: t :: ts)
  | number {n a b t ts} : sub = true → Gr '#' t → Left sub (n + 1) (a ++ [.number ⟨n, t⟩]) b ts → Left sub n a b (t :: ts)
  | pattern {n a b item w ts} : Pattern n item w → Left sub (n + w.length) (a ++ [item]) b ts → Left sub n a b (w ++ ts)

theorem left_append {sub : Bool} {n : Nat} {a b c : List Item} {ts us : List Token} (h : Left sub n a b ts) :
    Left sub (n + ts.length) b c us → Left sub n a c (ts ++ us) := by
  induction h with
  | nil => simp
  | plain h1 h2 ih =>
    intro h
    exact .plain h1 (ih (by rw [List.length_cons] at h; exact cast (by congr 1; (try simp only [List.length_cons]); omega) h))
  | escaped h1 h2 ih =>
    intro h
    exact .escaped h1 (ih (by rw [List.length_cons] at h; exact cast (by congr 1; (try simp only [List.length_cons]); omega) h))
  | number h0 h1 h2 ih =>
    intro h
    exact .number h0 h1 (ih (by rw [List.length_cons] at h; exact cast (by congr 1; (try simp only [List.length_cons]); omega) h))
  | pattern h1 h2 ih =>
    intro h
    rw [List.append_assoc]
    exact .pattern h1 (ih (by simpa [Nat.add_assoc] using h))

theorem content_left {sub : Bool} {n : Nat} {items : List Item} {ts : List Token} (h : Content sub n items ts) :
    Left sub n [] items ts := by
  induction h with
  | nil => exact .nil
  | plain h h1 ih => exact left_append ih (.plain h1 .nil)
  | escaped h h1 ih => exact left_append ih (.escaped h1 .nil)
  | number h h0 h2 h1 ih => exact left_append ih (.number h0 h1 .nil)
  | pattern h h1 ih => exact left_append ih (by simpa using Left.pattern h1 (Left.nil (sub := sub)))

/-- No content goes on here. -/
def Stop (sub : Bool) : List Token → Prop
  | [] => True
  | t :: _ => Gr '}' t ∨ sub = false ∧ Gr '#' t

theorem left_unique {sub : Bool} {n : Nat} {a b : List Item} {ts : List Token} (h : Left sub n a b ts) :
    ∀ {b' ts' r r'}, Left sub n a b' ts' → Stop sub r → Stop sub r' → ts ++ r = ts' ++ r' → b = b' ∧ ts = ts' := by
  have stop_no {t : Token} {v : List Token} (hs : Stop sub (t :: v)) :
      t.tokenType = .grammar ∧ ¬ Gr '`' t ∧ ¬ Gr '{' t ∧ (sub = true → ¬ Gr '#' t) := by
    rcases hs with hs | ⟨h0, hs⟩
    · exact ⟨hs.1, gr_ne (by decide) hs, gr_ne (by decide) hs, fun _ => gr_ne (by decide) hs⟩
    · exact ⟨hs.1, gr_ne (by decide) hs, gr_ne (by decide) hs, fun h => by simp [h0] at h⟩
  induction h with
  | nil =>
    intro b' ts' r r' h' hr hr' e
    simp only [List.nil_append] at e
    subst e
    cases h' with
    | nil => exact ⟨rfl, rfl⟩
    | plain h1 => exact absurd (stop_no hr).1 h1
    | escaped h1 => exact absurd h1 (stop_no hr).2.1
    | number h0 h1 => exact absurd h1 ((stop_no hr).2.2.2 h0)
    | pattern h1 =>
      obtain ⟨o, v, rfl, ho⟩ := pattern_head h1
      exact absurd ho (stop_no hr).2.2.1
  | @plain n a b t ts h1 h2 ih =>
    intro b' ts' r r' h' hr hr' e
    cases h' with
    | nil =>
      simp only [List.nil_append] at e
      subst e
      exact absurd (stop_no hr').1 h1
    | plain h3 h4 =>
      simp only [List.cons_append, List.cons.injEq] at e
      obtain ⟨rfl, e⟩ := e
      obtain ⟨rfl, rfl⟩ := ih h4 hr hr' e
      exact ⟨rfl, rfl⟩
    | escaped h3 =>
      simp only [List.cons_append, List.cons.injEq] at e
      exact absurd (e.1 ▸ h3.1) h1
    | number _ h3 =>
      simp only [List.cons_append, List.cons.injEq] at e
      exact absurd (e.1 ▸ h3.1) h1
    | pattern h3 =>
      obtain ⟨o, v, rfl, ho⟩ := pattern_head h3
      simp only [List.cons_append, List.cons.injEq] at e
      exact absurd (e.1 ▸ ho.1) h1
  | @escaped n a b x t ts h1 h2 ih =>
    intro b' ts' r r' h' hr hr' e
    cases h' with
    | nil =>
      simp only [List.nil_append] at e
      subst e
      exact absurd h1 (stop_no hr').2.1
    | plain h3 h4 =>
      simp only [List.cons_append, List.cons.injEq] at e
      exact absurd (e.1 ▸ h1.1) h3
    | escaped h3 h4 =>
      simp only [List.cons_append, List.cons.injEq] at e
      obtain ⟨rfl, rfl, e⟩ := e
      obtain ⟨rfl, rfl⟩ := ih h4 hr hr' e
      exact ⟨rfl, rfl⟩
    | number _ h3 =>
      simp only [List.cons_append, List.cons.injEq] at e
      exact absurd (e.1 ▸ h3) (gr_ne (by decide) h1)
    | pattern h3 =>
      obtain ⟨o, v, rfl, ho⟩ := pattern_head h3
      simp only [List.cons_append, List.cons.injEq] at e
      exact absurd (e.1 ▸ ho) (gr_ne (by decide) h1)
  | @number n a b t ts h0 h1 h2 ih =>
    intro b' ts' r r' h' hr hr' e
    cases h' with
    | nil =>
      simp only [List.nil_append] at e
      subst e
      exact absurd h1 ((stop_no hr').2.2.2 h0)
    | plain h3 h4 =>
      simp only [List.cons_append, List.cons.injEq] at e
      exact absurd (e.1 ▸ h1.1) h3
    | escaped h3 h4 =>
      simp only [List.cons_append, List.cons.injEq] at e
      exact absurd (e.1 ▸ h3) (gr_ne (by decide) h1)
    | number _ h3 h4 =>
      simp only [List.cons_append, List.cons.injEq] at e
      obtain ⟨rfl, e⟩ := e
      obtain ⟨rfl, rfl⟩ := ih h4 hr hr' e
      exact ⟨rfl, rfl⟩
    | pattern h3 =>
      obtain ⟨o, v, rfl, ho⟩ := pattern_head h3
      simp only [List.cons_append, List.cons.injEq] at e
      exact absurd (e.1 ▸ ho) (gr_ne (by decide) h1)
  | @pattern n a b item w ts h1 h2 ih =>
    intro b' ts' r r' h' hr hr' e
    cases h' with
    | nil =>
      obtain ⟨o, v, rfl, ho⟩ := pattern_head h1
      simp only [List.nil_append] at e
      subst e
      exact absurd ho (stop_no hr').2.2.1
    | plain h3 h4 =>
      obtain ⟨o, v, rfl, ho⟩ := pattern_head h1
      simp only [List.cons_append, List.cons.injEq] at e
      exact absurd (e.1 ▸ ho.1) h3
    | escaped h3 h4 =>
      obtain ⟨o, v, rfl, ho⟩ := pattern_head h1
      simp only [List.cons_append, List.cons.injEq] at e
      exact absurd (e.1 ▸ h3) (gr_ne (by decide) ho)
    | number _ h3 h4 =>
      obtain ⟨o, v, rfl, ho⟩ := pattern_head h1
      simp only [List.cons_append, List.cons.injEq] at e
      exact absurd (e.1 ▸ h3) (gr_ne (by decide) ho)
    | @pattern _ _ _ item2 w2 ts2 h3 h4 =>
      rw [List.append_assoc, List.append_assoc] at e
      obtain ⟨rfl, rfl⟩ := pattern_unique h1 h3 e
      obtain ⟨rfl, rfl⟩ := ih h4 hr hr' (List.append_cancel_left e)
      exact ⟨rfl, rfl⟩

/-- A content is found by what ends it. -/
theorem content_unique {sub : Bool} {n : Nat} {a b : List Item} {ts us r r' : List Token} (h : Content sub n a ts)
    (h' : Content sub n b us) (hr : Stop sub r) (hr' : Stop sub r') (e : ts ++ r = us ++ r') : a = b ∧ ts = us :=
  left_unique (content_left h) (content_left h') hr hr' e

/-! ### Named strings -/

/-- Named strings read from the left. -/
inductive LeftG : Nat → List Named → List Named → List Token → Prop
  | nil {n a} : LeftG n a a []
  | blank {n a b t ts} : t.tokenType = .whiteSpace → LeftG (n + 1) a b ts → LeftG n a b (t :: ts)
  | named {n a b o id w ws items body c ts} : Gr '{' o → id.tokenType = .identifier → w.tokenType = .whiteSpace → Blank ws →
      Starts body → Content true (n + 3 + ws.length) items body → Gr '}' c →
      LeftG (n + 4 + ws.length + body.length) (a ++ [⟨⟨n + 1, id⟩, items⟩]) b ts →
      LeftG n a b (o :: id :: w :: (ws ++ (body ++ c :: ts)))

theorem leftG_append {n : Nat} {a b c : List Named} {ts us : List Token} (h : LeftG n a b ts) :
    LeftG (n + ts.length) b c us → LeftG n a c (ts ++ us) := by
  induction h with
  | nil => simp
  | blank h1 h2 ih =>
    intro h
    exact .blank h1 (ih (by rw [List.length_cons] at h; exact cast (by congr 1; (try simp only [List.length_cons]); omega) h))
  | @named n a b o id w ws items body c ts h1 h2 h3 h4 h5 h6 h7 h8 ih =>
    intro h
    have := LeftG.named h1 h2 h3 h4 h5 h6 h7 (ih (by
      have e : n + (o :: id :: w :: (ws ++ (body ++ c :: ts))).length = n + 4 + ws.length + body.length + ts.length := by
        simp; omega
      rwa [e] at h))
    simpa using this

theorem group_left {n : Nat} {ns : List Named} {ts : List Token} (h : Group n ns ts) : LeftG n [] ns ts := by
  induction h with
  | nil => exact .nil
  | blank h h1 ih => exact leftG_append ih (.blank h1 .nil)
  | named h h1 h2 h3 h4 h5 h6 h7 ih =>
    have := leftG_append ih (LeftG.named h1 h2 h3 h4 h5 h6 h7 .nil)
    simpa using this

theorem starts_ink {body : List Token} (h : Starts body) : ∃ t v, body = t :: v ∧ Ink t := by
  cases body with
  | nil => exact h.elim
  | cons t v =>
    refine ⟨t, v, rfl, ?_⟩
    rcases h with h | h
    · exact ident_ink h
    · exact gr_ink h

theorem leftG_unique {n : Nat} {a b : List Named} {ts : List Token} (h : LeftG n a b ts) :
    ∀ {b'}, LeftG n a b' ts → b = b' := by
  induction h with
  | nil =>
    intro b' h'
    cases h'
    rfl
  | blank h1 h2 ih =>
    intro b' h'
    cases h' with
    | blank h3 h4 => exact ih h4
    | named h3 => exact (gr_not h3 h1 (by decide)).elim
  | @named n a b o id w ws items body c ts h1 h2 h3 h4 h5 h6 h7 h8 ih =>
    intro b' h'
    generalize hv : o :: id :: w :: (ws ++ (body ++ c :: ts)) = v at h'
    cases h' with
    | nil => cases hv
    | blank h9 h10 =>
      obtain ⟨rfl, _⟩ := List.cons.inj hv
      exact (gr_not h1 h9 (by decide)).elim
    | @named _ _ _ o2 id2 w2 ws2 items2 body2 c2 ts2 k1 k2 k3 k4 k5 k6 k7 k8 =>
      simp only [List.cons.injEq] at hv
      obtain ⟨rfl, rfl, rfl, e⟩ := hv
      obtain ⟨t, v, hb, ht⟩ := starts_ink h5
      obtain ⟨t2, v2, hb2, ht2⟩ := starts_ink k5
      have e' : ws ++ t :: (v ++ c :: ts) = ws2 ++ t2 :: (v2 ++ c2 :: ts2) := by
        rw [hb, hb2] at e
        simpa using e
      obtain ⟨rfl, _, _⟩ := split_unique (p := Ink) (blank_ink h4) (blank_ink k4) ht ht2 e'
      have e := List.append_cancel_left e
      obtain ⟨rfl, rfl⟩ := content_unique h6 k6 (r := c :: ts) (r' := c2 :: ts2) (Or.inl h7) (Or.inl k7) e
      have e := List.append_cancel_left e
      simp only [List.cons.injEq] at e
      obtain ⟨rfl, rfl⟩ := e
      exact ih k8

/-- A sequence of tokens has at most one reading. -/
theorem sentence_unique {d d' : Doc} {ts : List Token} (h : Sentence d ts) (h' : Sentence d' ts) : d = d' := by
  cases h with
  | plain h1 =>
    generalize hv : ts = v at h'
    cases h' with
    | plain h2 =>
      subst hv
      rw [(content_unique h1 h2 (r := []) (r' := []) trivial trivial rfl).1]
    | @group items us x named gs h2 h3 h4 =>
      obtain ⟨_, e⟩ := content_unique h1 h2 (r := []) (r' := x :: gs) trivial (Or.inr ⟨rfl, h3⟩) (by simpa using hv)
      rw [hv] at e
      simp at e
  | @group items us x named gs h2 h3 h4 =>
    generalize hv : us ++ x :: gs = v at h'
    cases h' with
    | plain h1 =>
      obtain ⟨_, e⟩ := content_unique h1 h2 (r := []) (r' := x :: gs) trivial (Or.inr ⟨rfl, h3⟩) (by simp [hv])
      rw [e] at hv
      simp at hv
    | @group items2 us2 x2 named2 gs2 k2 k3 k4 =>
      obtain ⟨rfl, rfl⟩ := content_unique h2 k2 (r := x :: gs) (r' := x2 :: gs2) (Or.inr ⟨rfl, h3⟩) (Or.inr ⟨rfl, k3⟩) hv
      have e := List.append_cancel_left hv
      simp only [List.cons.injEq] at e
      obtain ⟨rfl, rfl⟩ := e
      rw [leftG_unique (group_left h4) (group_left k4)]

end Verif.Unambiguous
