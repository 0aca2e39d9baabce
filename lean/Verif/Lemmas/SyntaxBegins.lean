import Verif.Spec.SyntaxBlame
/-
The places of the grammar are the ends of beginnings of pattern strings.
-/
namespace Verif.TreeLemmas
open Verif Verif.Spec

/-- Some token of a type. -/
def tok (ty : TokenType) (s : Str) : Token := ⟨s, ty, 0, 0, 0, 0, 0, 0, 0⟩

theorem close_gr : Gr '}' (tok .grammar ['}']) := ⟨rfl, rfl⟩

theorem begins_of {d ts} (more : List Token) {us} (h : Sentence d us) (e : us = ts ++ more) : BeginsSentence ts :=
  ⟨d, more, e ▸ h⟩

theorem begins_append {ts us : List Token} (h : BeginsSentence (ts ++ us)) : BeginsSentence ts := by
  obtain ⟨d, more, h⟩ := h
  exact begins_of (us ++ more) h (by simp)

theorem begins_group {ts} (h : InGroup ts) : BeginsSentence ts := by
  obtain ⟨hc, hg, hgs⟩ := h
  exact begins_of [] (.group hc hg hgs) (by simp)

theorem inString_begins {st items ts} (h : InString st items ts) : BeginsSentence ts := by
  cases h with
  | main hc => exact begins_of [] (.plain hc) (by simp)
  | @named pre items body hb hst hc =>
    obtain ⟨⟨hc0, hg, hgs⟩, ho, hi, hw, hbl⟩ := hb
    rename_i o id w ws m ts0 hh named gs
    refine begins_of [tok .grammar ['}']] (.group hc0 hg (Group.named (items := items) hgs ho hi hw hbl hst ?_ close_gr)) (by simp)
    have : ts0.length + 1 + gs.length + 3 + ws.length = (ts0 ++ hh :: gs ++ o :: id :: w :: ws).length := by
      simp; omega
    rw [this]
    exact hc

theorem beforeContent_begins {ts} (h : BeforeContent ts) : BeginsSentence ts := by
  have := InString.named (body := [tok .identifier []]) h (Or.inl rfl) (Content.plain (ts := []) .nil (by simp [tok]))
  exact begins_append (inString_begins this)

theorem named_begins {ts o} (h : InGroup ts) (ho : Gr '{' o) : BeginsSentence (ts ++ [o]) := by
  have := beforeContent_begins (.mk (id := tok .identifier []) (w := tok .whiteSpace []) (ws := []) h ho rfl rfl
    (by intro _ h; cases h))
  refine begins_append (us := [tok .identifier [], tok .whiteSpace []]) ?_
  simpa using this

theorem name_begins {ts o t} (h : InGroup ts) (ho : Gr '{' o) (ht : t.tokenType = .identifier) :
    BeginsSentence (ts ++ [o, t]) := by
  have := beforeContent_begins (.mk (id := t) (w := tok .whiteSpace []) (ws := []) h ho ht rfl (by intro _ h; cases h))
  refine begins_append (us := [tok .whiteSpace []]) ?_
  simpa using this

/-- Continue the open string. -/
theorem inString_ext {st items items' ts us} (h : InString st items ts)
    (f : ∀ sub n body, Content sub n items body → ts.length = n + body.length → Content sub n items' (body ++ us)) :
    InString st items' (ts ++ us) := by
  cases h with
  | main hc => exact .main (f _ _ _ hc (by simp))
  | @named pre _ body hb hst hc =>
    rw [List.append_assoc]
    refine .named hb ?_ (f _ _ _ hc (by simp))
    cases body with
    | nil => exact hst.elim
    | cons a b => exact hst

theorem inString_pattern {st items ts it w} (h : InString st items ts) (hp : Pattern ts.length it w) :
    InString st (items ++ [it]) (ts ++ w) :=
  inString_ext h fun _ _ _ hc hl => .pattern hc (hl ▸ hp)

theorem escape_begins {st items ts e} (h : InString st items ts) (he : Gr '`' e) : BeginsSentence (ts ++ [e]) := by
  have := inString_ext (items' := pushText items ⟨ts.length + 1, tok .identifier []⟩) (us := [e, tok .identifier []]) h fun _ _ _ hc hl => by
    rw [hl]; exact .escaped hc he
  refine begins_append (us := [tok .identifier []]) ?_
  simpa using inString_begins this

theorem pattern_begins {st items ts o id ws} (h : InString st items ts) (ho : Gr '{' o)
    (hi : id.tokenType = .identifier) (hb : Blank ws) : BeginsSentence (ts ++ o :: id :: ws) := by
  have := inString_begins (inString_pattern h (.simple ho hi hb close_gr))
  refine begins_append (us := [tok .grammar ['}']]) ?_
  simpa using this

theorem open_begins {st items ts o} (h : InString st items ts) (ho : Gr '{' o) : BeginsSentence (ts ++ [o]) := by
  have := pattern_begins (id := tok .identifier []) (ws := []) h ho rfl (by intro _ h; cases h)
  refine begins_append (us := [tok .identifier []]) ?_
  simpa using this

theorem keyword_begins {ts} (h : AfterKeyword ts) : BeginsSentence ts := by
  obtain ⟨h, ho, hi, hb, hk, hbody⟩ := h
  have := inString_begins (inString_pattern h (.keyword ho hi hb hk hbody close_gr))
  refine begins_append (us := [tok .grammar ['}']]) ?_
  simpa using this

theorem selectorHash_begins {ts a x} (h : AfterKeyword ts) (ha : a.tokenType = .identifier) (hx : x.string = ['#']) :
    BeginsSentence (ts ++ [a, x]) := by
  obtain ⟨h, ho, hi, hb, hk, hbody⟩ := h
  have := keyword_begins (.mk h ho hi hb hk (.selector (b := tok .identifier []) hbody ha hx rfl))
  refine begins_append (us := [tok .identifier []]) ?_
  simpa using this

theorem selector_begins {ts a} (h : AfterKeyword ts) (ha : a.tokenType = .identifier) : BeginsSentence (ts ++ [a]) := by
  refine begins_append (us := [tok .grammar ['#']]) ?_
  simpa using selectorHash_begins (x := tok .grammar ['#']) h ha rfl

theorem command_begins {st items ts o hh parts body} (h : InString st items ts) (ho : Gr '{' o) (hg : Gr '#' hh)
    (hb : CmdBody (ts.length + 2) parts body) : BeginsSentence (ts ++ o :: hh :: body) := by
  have := inString_begins (inString_pattern h
    (.command ho hg (.ident (t := tok .identifier []) hb rfl) (by simp) (by simp [endsWithHash]) close_gr))
  refine begins_append (us := [tok .identifier [], tok .grammar ['}']]) ?_
  simpa using this

theorem place_begins {st ts} (h : Place st ts) : BeginsSentence ts := by
  cases h with
  | text h => exact inString_begins h
  | opened h ho => exact open_begins h ho
  | pattern h ho hi hb => exact pattern_begins h ho hi hb
  | keyword h => exact keyword_begins h
  | selector h ha => exact selector_begins h ha
  | selectorHash h ha hx => exact selectorHash_begins h ha hx
  | command h ho hg hb => exact command_begins h ho hg hb
  | group h => exact begins_group h
  | named h ho => exact named_begins h ho
  | content h => exact beforeContent_begins h

/-- What the step which reports the token `t` as invalid in the state `st` knows about the tokens `ts` read so far. -/
inductive Misplaced (st : ParserState) (t : Token) : List Token → Prop
  | here {pre} : Place st pre → Misplaced st t (pre ++ [t])
  | brace {pre u} : st = .namedString → BeforeContent pre → Gr '{' t → Misplaced st t (pre ++ [t, u])
  | name {pre o u} : st = .namedString → InGroup pre → Gr '{' o → t.tokenType = .identifier →
      u.tokenType ≠ .whiteSpace → Misplaced st t (pre ++ [o, t, u])
  | spoilt {pre} : st = .namedString → Spoilt pre → Misplaced st t (pre ++ [t])

/-- Nothing more is known of tokens which end abruptly. -/
def Unfinished (ts : List Token) : Prop := BeginsSentence ts ∨ Literal ts ∨ Spoilt ts

theorem _root_.Verif.Spec.Literal.append {ts} (us : List Token) (h : Literal ts) : Literal (ts ++ us) := by
  cases h with
  | placeholder h ho hq => rw [List.append_assoc]; exact .placeholder h ho hq
  | command h hq => rw [List.append_assoc]; exact .command h hq

end Verif.TreeLemmas
