import Verif.Lemmas.TreeComplete
/-
What the errors of the parser tell about the tokens.
-/
namespace Verif.TreeLemmas
open Verif Verif.Spec

theorem drive_exact : ∀ (rest : List Token) (st : Step) (ts : List Token) (e : TreeError), StepOk st ts →
    st.drive rest = .err e →
    (e = .endedAbruptly ∧ Unfinished (ts ++ rest)) ∨
    ∃ used rest', rest = used ++ rest' ∧ st.drive used = .err e ∧ ErrExact (ts ++ used) e := by
  intro rest
  induction rest with
  | nil =>
    intro st ts e h he
    rw [List.append_nil]
    match st, h with
    | .done (.ok s), h => simp [Step.drive] at he
    | .done (.err e'), h =>
      simp only [Step.drive] at he
      cases he
      exact Or.inr ⟨[], [], rfl, rfl, by rw [List.append_nil]; exact h⟩
    | .done .panic, h => simp [Step.drive] at he
    | .need k, h =>
      simp only [Step.drive] at he
      cases he
      exact Or.inl ⟨rfl, h.1⟩
  | cons t rest ih =>
    intro st ts e h he
    match st, h with
    | .done (.ok s), h =>
      rcases ih (s.step t) (ts ++ [t]) e (inv_step h t) he with ⟨h1, h2⟩ | ⟨used, rest', h1, h2, h3⟩
      · exact Or.inl ⟨h1, by simpa using h2⟩
      · exact Or.inr ⟨t :: used, rest', by simp [h1], h2, by simpa using h3⟩
    | .done (.err e'), h =>
      simp only [Step.drive] at he
      cases he
      exact Or.inr ⟨[], t :: rest, rfl, rfl, by rw [List.append_nil]; exact h⟩
    | .done .panic, h => simp [Step.drive] at he
    | .need k, h =>
      rcases ih (k t) (ts ++ [t]) e (h.2 t) he with ⟨h1, h2⟩ | ⟨used, rest', h1, h2, h3⟩
      · exact Or.inl ⟨h1, by simpa using h2⟩
      · exact Or.inr ⟨t :: used, rest', by simp [h1], h2, by simpa using h3⟩

theorem drive_append_panic : ∀ (ts us : List Token) (st : Step), st.drive ts = .panic → st.drive (ts ++ us) = .panic := by
  intro ts
  induction ts with
  | nil =>
    intro us st h
    match st, h with
    | .done (.ok s'), h => simp [Step.drive] at h
    | .done (.err e), h => simp [Step.drive] at h
    | .done .panic, h => cases us <;> simp [Step.drive]
    | .need k, h => simp [Step.drive] at h
  | cons t ts ih =>
    intro us st h
    match st, h with
    | .done (.ok s'), h => exact ih us (s'.step t) h
    | .done (.err e), h => simp [Step.drive] at h
    | .done .panic, h => simp [Step.drive]
    | .need k, h => exact ih us (k t) h

/-- A run which neither succeeds nor reports a repeated identifier. -/
def Refused : TreeM PState → Prop
  | .ok s => s.nested ≠ []
  | .err e => ¬ Unique e
  | .panic => True

theorem refused_not_sentence {ts d} (h : Refused ((Step.done (.ok PState.init)).drive ts)) : ¬ Sentence d ts := by
  intro hs
  rcases complete_or (U := True) hs (Or.inl trivial) (Or.inl trivial) with ⟨_, _, h1⟩ | ⟨_, e, h1, h2⟩
  · unfold Tree.ofTokens at h1
    cases hd : (Step.done (.ok PState.init)).drive ts with
    | panic => rw [hd] at h1; cases h1
    | err e => rw [hd] at h1; cases h1
    | ok s =>
      rw [hd] at h h1
      cases hn : s.nested with
      | nil => exact h hn
      | cons a b => simp [hn] at h1
  · unfold Tree.ofTokens at h1
    cases hd : (Step.done (.ok PState.init)).drive ts with
    | panic => rw [hd] at h1; cases h1
    | err e' => rw [hd] at h h1; cases h1; exact h h2
    | ok s =>
      rw [hd] at h1
      cases hn : s.nested with
      | nil => simp [hn] at h1
      | cons a b => simp [hn] at h1; subst h1; exact h2

/-- An error other than an abrupt end or a repeated identifier shows that the tokens begin nothing. -/
theorem err_not_begins {ts e} (h : (Step.done (.ok PState.init)).drive ts = .err e) (h1 : e ≠ .endedAbruptly)
    (h2 : ¬ Unique e) : ¬ BeginsSentence ts := by
  rintro ⟨d, more, hs⟩
  refine refused_not_sentence (ts := ts ++ more) ?_ hs
  rw [drive_append_err _ _ _ _ h1 h]
  exact h2

theorem begins_run {ts e} (hb : BeginsSentence ts) (h : (Step.done (.ok PState.init)).drive ts = .err e) :
    e = .endedAbruptly ∨ Unique e := by
  by_cases h1 : e = .endedAbruptly
  · exact Or.inl h1
  · by_cases h2 : Unique e
    · exact Or.inr h2
    · exact absurd hb (err_not_begins h h1 h2)

theorem begins_no_panic {ts} (hb : BeginsSentence ts) : (Step.done (.ok PState.init)).drive ts ≠ .panic := by
  intro h
  obtain ⟨d, more, hs⟩ := hb
  refine refused_not_sentence (ts := ts ++ more) ?_ hs
  rw [drive_append_panic _ _ _ h]
  trivial

theorem bad_refused {s} (B : AtBad s) (us : List Token) : Refused ((Step.done (.ok s)).drive us) := by
  cases us with
  | nil => show s.nested ≠ []; rw [B.nested]; simp
  | cons t us =>
    by_cases h : t.tokenType ≠ .grammar ∨ t.string ∈ [['#'], ['{'], ['`']]
    · simp only [Step.drive, bad_panic B h]
      cases us <;> exact trivial
    · rw [not_or, Classical.not_not] at h
      obtain ⟨e, h1, rfl⟩ := bad_err B h.1 h.2
      simp only [Step.drive, h1]
      cases us <;> exact id

theorem lit_refused {s} (L : Lit s) (us : List Token) : Refused ((Step.done (.ok s)).drive us) := by
  rcases lit_drive us.length us (Nat.le_refl _) s L with ⟨s', h1, h2⟩ | h1
  · rw [h1]; exact h2
  · rw [h1]; exact id

/-- The wrong start of the content of a named string. -/
theorem ns_refused {m ns i ts s t} (A : AtNs m ns (some i) ts s) (ht : t.tokenType = .syn ∨ Gr '{' t ∨ Gr '`' t)
    (us : List Token) : Refused ((Step.done (.ok s)).drive (t :: us)) := by
  simp only [Step.drive]
  rcases ht with ht | ht | ht
  · obtain ⟨s', h1, B⟩ := ns1_syn A ht
    rw [h1]
    exact bad_refused B us
  · obtain ⟨k, h1, h2⟩ := ns1_open A ht
    rw [h1]
    cases us with
    | nil => exact id
    | cons x us =>
      obtain ⟨e, h3, rfl⟩ := h2 x
      simp only [Step.drive, h3]
      cases us <;> exact id
  · obtain ⟨k, h1, h2⟩ := ns1_esc A ht
    rw [h1]
    cases us with
    | nil => exact id
    | cons x us =>
      obtain ⟨s', h3, B⟩ := h2 x
      simp only [Step.drive, h3]
      exact bad_refused B us

/-- The parser has reported a repeated identifier. -/
def Repeats (ts : List Token) : Prop := ∃ e, (Step.done (.ok PState.init)).drive ts = .err e ∧ Unique e

theorem Repeats.append {ts} (us : List Token) (h : Repeats ts) : Repeats (ts ++ us) := by
  obtain ⟨e, h1, h2⟩ := h
  exact ⟨e, drive_append_err _ _ _ _ h2.ne h1, h2⟩

theorem beforeContent_reach {ts} (h : BeforeContent ts) :
    Reach True ts (fun s => ∃ m ns id, AtNs m ns (some id) ts s) := by
  obtain ⟨⟨hc, hg, hgs⟩, ho, hi, hw, hb⟩ := h
  have R := reach_group (U := True) hc hg rfl hgs (Or.inl trivial) (Or.inl trivial)
  rcases reach_ns R ho hi hw (Or.inl trivial) _ hb with ⟨s, h1, h2⟩ | h
  · exact Or.inl ⟨s, h1, _, _, _, h2⟩
  · exact Or.inr h

theorem inString_reach {st items ts} (H : InString st items ts) :
    Reach True ts (fun s => ∃ h, AtText h items ts s) := by
  cases H with
  | main hc =>
    rcases reach_main (U := True) hc (Or.inl trivial) with ⟨s, h1, h2⟩ | h
    · exact Or.inl ⟨s, h1, _, h2⟩
    · exact Or.inr h
  | @named pre _ body hb hst hc =>
    -- the content is the rest of a group, whose closing brace is left out
    obtain ⟨⟨hc0, hg, hgs⟩, ho, hi, hw, hbl⟩ := hb
    rename_i o id w ws m ts0 hh named gs
    have hrun := run_ok (ts0 ++ hh :: gs ++ o :: id :: w :: ws ++ body)
    have R := reach_ns (reach_group (U := True) hc0 hg rfl hgs (Or.inl trivial) (Or.inl trivial)) ho hi hw
      (Or.inl trivial) ws hbl
    have R2 := reach_content (U := True) (h := .sub m named ⟨(ts0 ++ hh :: gs).length + 1, id⟩)
      (ts0 := ts0 ++ hh :: gs ++ o :: id :: w :: ws) rfl (ok := Starts)
      (by
        intro a b ha hs
        cases a with
        | nil => exact absurd rfl ha
        | cons x xs => exact hs)
      (fun h => h.elim)
      (by
        intro t ht hs
        rcases hs with hs | hs
        · exact R.one fun s A => ns1_ident A hs
        · exact absurd hs.1 ht)
      (by
        intro t _ ht hs
        exact R.one fun s A => ns1_hash A ht)
      (by
        intro t r ht hs
        rcases hs with hs | hs
        · rcases ht with ht | ht <;> (rw [ht.1] at hs; cases hs)
        · rcases ht with ht | ht <;> (have := ht.2; rw [hs.2] at this; simp at this))
      hc hst (Or.inl trivial)
    rcases R2 with ⟨s, h1, h2⟩ | h
    · exact Or.inl ⟨s, h1, _, h2⟩
    · exact Or.inr h

/-- Wrong starts and literal text cannot be continued, unless the parser stops before for a repeated identifier. -/
theorem spoilt_not_begins {ts t} (hb : BeforeContent ts) (ht : t.tokenType = .syn ∨ Gr '{' t ∨ Gr '`' t)
    (hr : ¬ Repeats ts) : ¬ BeginsSentence (ts ++ [t]) := by
  rintro ⟨d, more, hs⟩
  rcases beforeContent_reach hb with ⟨s, h1, m, ns, id, A⟩ | ⟨_, h⟩
  · refine refused_not_sentence (ts := ts ++ [t] ++ more) ?_ hs
    rw [List.append_assoc, drive_append _ _ _ _ h1]
    exact ns_refused A ht more
  · exact hr h

theorem lit_not_begins {ts} (hl : Literal ts) (hr : ¬ Repeats ts) : ¬ BeginsSentence ts := by
  rintro ⟨d, more, hs⟩
  cases hl with
  | @placeholder st items ts o q rest h ho hq =>
    rcases inString_reach h with ⟨s, h1, hm, F⟩ | ⟨_, h⟩
    · refine refused_not_sentence (ts := ts ++ o :: q :: rest ++ more) ?_ hs
      obtain ⟨k, h2, h3⟩ := text_open F ho
      obtain ⟨s1, h4, F1, _⟩ := h3 q
      obtain ⟨s', h5, L⟩ := start_lit F1 q (ts.length + 1) hq
      rw [List.append_assoc, drive_append _ _ _ _ h1]
      simp only [List.cons_append, Step.drive, h2, h4, h5]
      exact lit_refused L _
    · exact hr (Repeats.append _ h)
  | @command ts q rest h hq =>
    have key : ∀ {st items ts0 o hh parts body}, InString st items ts0 → Gr '{' o → Gr '#' hh →
        CmdBody (ts0.length + 2) parts body → ts = ts0 ++ o :: hh :: body → False := by
      intro st items ts0 o hh parts body hin ho hg hb e
      subst e
      have R : Reach True (ts0 ++ o :: hh :: body) (fun s => ∃ h items parts, AtCmd h items parts (ts0 ++ o :: hh :: body) s) := by
        rcases inString_reach hin with ⟨s, h1, hm, F⟩ | h
        · rcases reach_cmd (U := True) (h := hm) (Or.inl ⟨s, h1, F⟩) ho hg rfl hb with ⟨s, h1, F⟩ | h
          · exact Or.inl ⟨s, h1, _, _, _, F⟩
          · exact Or.inr h
        · exact Or.inr ⟨trivial, Repeats.append _ h.2⟩
      rcases R with ⟨s, h1, hm, items, parts, A⟩ | ⟨_, h⟩
      · refine refused_not_sentence (ts := ts0 ++ o :: hh :: body ++ q :: rest ++ more) ?_ hs
        obtain ⟨k, h2, h3⟩ := cmd_lit A hq
        rw [List.append_assoc, drive_append _ _ _ _ h1]
        simp only [List.cons_append, Step.drive, h2]
        cases hrm : rest ++ more with
        | nil => exact id
        | cons x us =>
          obtain ⟨s', h4, L⟩ := h3 x
          simp only [Step.drive, h4]
          exact lit_refused L _
      · exact hr (Repeats.append _ h)
    generalize hst : ParserState.command = st' at h
    cases h with
    | text h => subst hst; cases h
    | opened h ho => subst hst; cases h
    | command h ho hg hb => exact key h ho hg hb rfl
    | _ => cases hst

/-- No repeated identifier is reported in the beginning of a pattern string without repeated identifiers. -/
theorem unique_not_repeats {ts} (h : BeginsUnique ts) : ¬ Repeats ts := by
  rintro ⟨e, h1, h2⟩
  obtain ⟨d, more, hs, hp, hn⟩ := h
  have := complete hs hp hn
  unfold Tree.ofTokens at this
  rw [drive_append_err _ _ _ _ h2.ne h1] at this
  cases this

theorem panics_run {ts} (h : Panics ts) : (Step.done (.ok PState.init)).drive ts = .panic := by
  cases h with
  | @delayed st items ts0 o hh parts body t rest h ho hh' hb he hu ht =>
    have R : Reach True (ts0 ++ o :: hh :: body) (fun s => ∃ h, AtCmd h items parts (ts0 ++ o :: hh :: body) s) := by
      rcases inString_reach h with ⟨s, h1, hm, F⟩ | h
      · rcases reach_cmd (U := True) (h := hm) (Or.inl ⟨s, h1, F⟩) ho hh' rfl hb with ⟨s, h1, F⟩ | h
        · exact Or.inl ⟨s, h1, _, F⟩
        · exact Or.inr h
      · exact Or.inr ⟨trivial, Repeats.append _ h.2⟩
    rcases R with ⟨s, h1, hm, A⟩ | ⟨_, h⟩
    · rw [drive_append _ _ _ _ h1]
      simp only [Step.drive, cmd_panic A ht he]
    · exact absurd h (unique_not_repeats hu)
  | @content ts x t rest hb hu hx ht =>
    rcases beforeContent_reach hb with ⟨s, h1, m, ns, id, A⟩ | ⟨_, h⟩
    · rw [List.append_assoc, drive_append _ _ _ _ h1]
      have key : ∀ s', AtBad s' → (Step.done (.ok s')).drive (t :: rest) = .panic := by
        intro s' B
        simp only [Step.drive, bad_panic B ht]
      cases hx with
      | syn hx =>
        obtain ⟨s', h2, B⟩ := ns1_syn A hx
        have := key s' B
        simpa only [List.cons_append, List.nil_append, Step.drive, h2] using this
      | @escape e y hx =>
        obtain ⟨k, h2, h3⟩ := ns1_esc A hx
        obtain ⟨s', h4, B⟩ := h3 y
        have := key s' B
        simpa only [List.cons_append, List.nil_append, Step.drive, h2, h4] using this
    · exact absurd h (unique_not_repeats hu)

theorem panic_iff (ts : List Token) : Tree.ofTokens ts = .panic ↔ Panics ts := by
  constructor
  · intro h
    have hr := run_ok ts
    unfold Tree.ofTokens at h
    cases hd : (Step.done (.ok PState.init)).drive ts with
    | panic => rw [hd] at hr; exact hr
    | err e => rw [hd] at h; cases h
    | ok st =>
      rw [hd] at h
      cases hn : st.nested <;> simp [hn] at h
  · intro h
    unfold Tree.ofTokens
    rw [panics_run h]

theorem inv_unfinished {s ts} (I : Inv s ts) : Unfinished ts := by
  cases I with
  | text H F => exact Or.inl (inString_begins H.inString)
  | pat H ho hi hb A => exact Or.inl (pattern_begins H.inString ho hi hb)
  | kw H ho hi hb hk hbody A => exact Or.inl (keyword_begins (.mk H.inString ho hi hb hk hbody))
  | cmd H ho hh hb A => exact Or.inl (command_begins H.inString ho hh hb)
  | grp H A => exact Or.inl (begins_group H.inGroup)
  | ns0 H ho A => exact Or.inl (named_begins H.inGroup ho)
  | ns1 H ho hi hw hb A => exact Or.inl (beforeContent_begins (.mk H.inGroup ho hi hw hb))
  | bad H hun ho hi hw hb hx B => exact Or.inr (Or.inr (badStart_spoilt (.mk H.inGroup ho hi hw hb) hx))
  | lit hl L => exact Or.inr (Or.inl hl)

end Verif.TreeLemmas
