import Verif.Lemmas.TreeGroup
import Verif.Lemmas.SyntaxBegins
import Verif.Spec.TreeShape
/-
Every run of the parser follows the grammar.
-/
namespace Verif.TreeLemmas
open Verif Verif.Spec Verif.Spec.Rose

/-- The tokens read before a point in the group, outside of named strings. -/
def GrpHist (m : List Item) (ns : List Named) (ts : List Token) : Prop :=
  ∃ ts0 h gs, ts = ts0 ++ h :: gs ∧ Content false 0 m ts0 ∧ Gr '#' h ∧ Group (ts0.length + 1) ns gs

theorem GrpHist.hash {m ns ts} (h : GrpHist m ns ts) : ∃ h ∈ ts, Gr '#' h := by
  obtain ⟨ts0, h, gs, rfl, _, hg, _⟩ := h
  exact ⟨h, by simp, hg⟩

theorem GrpHist.inGroup {m ns ts} (h : GrpHist m ns ts) : InGroup ts := by
  obtain ⟨ts0, h, gs, rfl, hc, hg, hgs⟩ := h
  exact .mk hc hg hgs

/-- The tokens read before a point in an open string. -/
inductive Hist : Home → List Item → List Token → Prop
  | main {items ts} : Content false 0 items ts → Hist .main items ts
  | sub {m ns pre o id w ws items body} : GrpHist m ns pre → Gr '{' o → id.tokenType = .identifier →
      w.tokenType = .whiteSpace → Blank ws → Starts body → Content true (pre.length + 3 + ws.length) items body →
      Hist (.sub m ns ⟨pre.length + 1, id⟩) items (pre ++ o :: id :: w :: ws ++ body)

theorem _root_.Verif.Spec.Starts.append {a b : List Token} (h : Starts a) : Starts (a ++ b) := by
  cases a with
  | nil => exact h.elim
  | cons x xs => exact h

theorem Hist.ext {h items items' ts w} (H : Hist h items ts)
    (f : ∀ n body, Content h.isSub n items body → ts.length = n + body.length →
      Content h.isSub n items' (body ++ w)) : Hist h items' (ts ++ w) := by
  cases H with
  | main hc => exact .main (f 0 ts hc (by simp))
  | @sub m ns pre o id wh ws _ body hg ho hi hw hb hst hc =>
    rw [List.append_assoc]
    exact .sub hg ho hi hw hb hst.append (f _ body hc (by simp; omega))

/-- All control states together with the history leading to them. -/
inductive Inv (s : PState) : List Token → Prop
  | text {h items ts} : Hist h items ts → AtText h items ts s → Inv s ts
  | pat {h items ts0 o id ws} : Hist h items ts0 → Gr '{' o → id.tokenType = .identifier → Blank ws →
      AtPat h items ⟨ts0.length + 1, id⟩ (ts0 ++ o :: id :: ws) s → Inv s (ts0 ++ o :: id :: ws)
  | kw {h items ts0 o id ws k sels body} : Hist h items ts0 → Gr '{' o → id.tokenType = .identifier → Blank ws →
      k.tokenType = .identifier → KwBody (ts0.length + 3 + ws.length) sels body →
      AtKw h items ⟨ts0.length + 1, id⟩ ⟨ts0.length + 2 + ws.length, k⟩ sels (ts0 ++ o :: id :: ws ++ k :: body) s →
      Inv s (ts0 ++ o :: id :: ws ++ k :: body)
  | cmd {h items ts0 o hh parts body} : Hist h items ts0 → Gr '{' o → Gr '#' hh → CmdBody (ts0.length + 2) parts body →
      AtCmd h items parts (ts0 ++ o :: hh :: body) s → Inv s (ts0 ++ o :: hh :: body)
  | grp {m ns ts} : GrpHist m ns ts → AtGrp m ns ts s → Inv s ts
  | ns0 {m ns pre o} : GrpHist m ns pre → Gr '{' o → AtNs m ns none (pre ++ [o]) s → Inv s (pre ++ [o])
  | ns1 {m ns pre o id w ws} : GrpHist m ns pre → Gr '{' o → id.tokenType = .identifier →
      w.tokenType = .whiteSpace → Blank ws →
      AtNs m ns (some ⟨pre.length + 1, id⟩) (pre ++ o :: id :: w :: ws) s → Inv s (pre ++ o :: id :: w :: ws)
  | bad {m ns pre o id w ws x} : GrpHist m ns pre → BeginsUnique (pre ++ o :: id :: w :: ws) → Gr '{' o → id.tokenType = .identifier →
      w.tokenType = .whiteSpace → Blank ws → BadStart x → AtBad s → Inv s (pre ++ o :: id :: w :: ws ++ x)
  | lit {ts} : Literal ts → Lit s → Inv s ts

/-! ### Repeated identifiers -/

theorem _root_.Verif.Spec.OpensAt.append {ts i x} (us : List Token) (h : OpensAt ts i x) : OpensAt (ts ++ us) i x := by
  obtain ⟨o, id, h1, h2, h3, h4, h5⟩ := h
  have l1 := (List.getElem?_eq_some_iff.1 h1).1
  have l2 := (List.getElem?_eq_some_iff.1 h3).1
  exact ⟨o, id, by rw [List.getElem?_append_left l1]; exact h1, h2, by rw [List.getElem?_append_left l2]; exact h3, h4, h5⟩

theorem _root_.Verif.Spec.OpensAt.prepend {ts i x} (us : List Token) (h : OpensAt ts i x) : OpensAt (us ++ ts) (us.length + i) x := by
  obtain ⟨o, id, h1, h2, h3, h4, h5⟩ := h
  refine ⟨o, id, ?_, h2, ?_, h4, h5⟩
  · rw [List.getElem?_append_right (by omega)]; simpa using h1
  · rw [List.getElem?_append_right (by omega)]
    rw [show us.length + i + 1 - us.length = i + 1 from by omega]; exact h3

theorem _root_.Verif.Spec.OpensAt.here (pre : List Token) {o id : Token} {x : Str} (post : List Token) (ho : Gr '{' o)
    (hi : id.tokenType = .identifier) (hx : id.string = x) : OpensAt (pre ++ o :: id :: post) pre.length x :=
  ⟨o, id, by simp, ho, by rw [List.getElem?_append_right (by omega)]; simp, hi, hx⟩

theorem _root_.Verif.Spec.OpensAt.lt {ts i x} (h : OpensAt ts i x) : i + 1 < ts.length := by
  obtain ⟨o, id, _, _, h3, _⟩ := h
  exact (List.getElem?_eq_some_iff.1 h3).1

theorem content_opens {sub n items ts x} (h : Content sub n items ts) (hx : x ∈ patNames items) :
    ∃ i, OpensAt ts i x := by
  induction h with
  | nil => simp [patNames] at hx
  | plain _ _ ih =>
    rw [patNames_pushText] at hx
    obtain ⟨i, hi⟩ := ih hx
    exact ⟨i, hi.append _⟩
  | escaped _ _ ih =>
    rw [patNames_pushText] at hx
    obtain ⟨i, hi⟩ := ih hx
    exact ⟨i, hi.append _⟩
  | number _ _ _ _ ih =>
    rw [patNames_append, List.mem_append] at hx
    rcases hx with hx | hx
    · obtain ⟨i, hi⟩ := ih hx
      exact ⟨i, hi.append _⟩
    · simp [patNames] at hx
  | @pattern items ts item w hc hp ih =>
    rw [patNames_append, List.mem_append] at hx
    rcases hx with hx | hx
    · obtain ⟨i, hi⟩ := ih hx
      exact ⟨i, hi.append _⟩
    · cases hp with
      | simple ho hi hb hcl =>
        simp only [patNames, List.mem_cons, List.not_mem_nil, or_false] at hx
        exact ⟨_, OpensAt.here ts _ ho hi hx.symm⟩
      | keyword ho hi hb hk hbody hcl =>
        simp only [patNames, List.mem_cons, List.not_mem_nil, or_false] at hx
        exact ⟨_, by simpa using OpensAt.here ts _ ho hi hx.symm⟩
      | command => simp [patNames] at hx

theorem group_opens {n ns ts x} (h : Group n ns ts) (hx : x ∈ (ns.map fun n => patNames n.items).flatten) :
    ∃ i, OpensAt ts i x := by
  induction h with
  | nil => simp at hx
  | blank _ _ ih =>
    obtain ⟨i, hi⟩ := ih hx
    exact ⟨i, hi.append _⟩
  | @named ns ts o id w ws items body c hg ho hid hw hb hst hc hcl ih =>
    rw [List.map_append, List.flatten_append, List.mem_append] at hx
    rcases hx with hx | hx
    · obtain ⟨i, hi⟩ := ih hx
      refine ⟨i, ?_⟩
      have := hi.append (o :: id :: w :: ws ++ body ++ [c])
      simpa using this
    · simp only [List.map_cons, List.map_nil, List.flatten_cons, List.flatten_nil, List.append_nil] at hx
      obtain ⟨i, hi⟩ := content_opens hc hx
      have := (hi.append [c]).prepend (ts ++ o :: id :: w :: ws)
      exact ⟨_, by simpa using this⟩

theorem group_named {n ns ts x} (h : Group n ns ts) (hx : x ∈ ns.map fun n => n.id.tok.string) :
    ∃ i, OpensAt ts i x := by
  induction h with
  | nil => simp at hx
  | blank _ _ ih =>
    obtain ⟨i, hi⟩ := ih hx
    exact ⟨i, hi.append _⟩
  | @named ns ts o id w ws items body c hg ho hid hw hb hst hc hcl ih =>
    rw [List.map_append, List.mem_append] at hx
    rcases hx with hx | hx
    · obtain ⟨i, hi⟩ := ih hx
      refine ⟨i, ?_⟩
      have := hi.append (o :: id :: w :: ws ++ body ++ [c])
      simpa using this
    · simp only [List.map_cons, List.map_nil, List.mem_cons, List.not_mem_nil, or_false] at hx
      have := OpensAt.here ts (w :: ws ++ body ++ [c]) ho hid hx.symm
      exact ⟨_, by simpa using this⟩

theorem grpHist_opens {m ns ts x} (h : GrpHist m ns ts)
    (hx : x ∈ patNames m ++ (ns.map fun n => patNames n.items).flatten) : ∃ i, OpensAt ts i x := by
  obtain ⟨ts0, hh, gs, rfl, hc, hg, hgr⟩ := h
  rcases List.mem_append.1 hx with hx | hx
  · obtain ⟨i, hi⟩ := content_opens hc hx
    exact ⟨i, hi.append _⟩
  · obtain ⟨i, hi⟩ := group_opens hgr hx
    have := hi.prepend (ts0 ++ [hh])
    exact ⟨_, by simpa using this⟩

theorem hist_opens {h items ts x} (H : Hist h items ts) (hx : x ∈ h.pn ++ patNames items) : ∃ i, OpensAt ts i x := by
  cases H with
  | main hc => exact content_opens hc (by simpa [Home.pn] using hx)
  | @sub m ns pre o id wh ws _ body hg ho hi hw hb hst hc =>
    rcases List.mem_append.1 hx with hx | hx
    · obtain ⟨i, hi⟩ := grpHist_opens hg hx
      refine ⟨i, ?_⟩
      have := hi.append (o :: id :: wh :: ws ++ body)
      simpa using this
    · obtain ⟨i, hi⟩ := content_opens hc hx
      have := hi.prepend (pre ++ o :: id :: wh :: ws)
      exact ⟨_, by simpa using this⟩

theorem twice_intro {ts : List Token} {o t : Token} {x : Str} (h : ∃ i, OpensAt ts i x) (ho : Gr '{' o)
    (ht : t.tokenType = .identifier) (hx : t.string = x) : Twice x (ts ++ [o, t]) := by
  obtain ⟨i, hi⟩ := h
  have := hi.lt
  exact ⟨i, ts.length, by omega, hi.append _, OpensAt.here ts [] ho ht hx⟩

/-! ### One step -/

theorem Hist.inString {h items ts} (H : Hist h items ts) : InString h.state items ts := by
  cases H with
  | main hc => exact .main hc
  | @sub m ns pre o id w ws _ body hg ho hi hw hb hst hc =>
    refine .named (.mk hg.inGroup ho hi hw hb) hst ?_
    have : (pre ++ o :: id :: w :: ws).length = pre.length + 3 + ws.length := by simp; omega
    rw [this]
    exact hc

/-- What may be claimed when the parser reports an error after reading `ts`. -/
def ErrOk (ts : List Token) : TreeError → Prop
  | .uniquePattern x => Twice x ts
  | .uniqueNamed x => Twice x ts
  | _ => True

/-- What may be claimed when the last token of `ts` has caused an error. -/
def ErrExact (ts : List Token) : TreeError → Prop
  | .uniquePattern x => Twice x ts
  | .uniqueNamed x => Twice x ts
  | .invalidToken st p x => ∃ t, Misplaced st t ts ∧ t.startGrapheme = p ∧ t.string = x
  | .multiNumberSign p => ∃ pre t items, ts = pre ++ [t] ∧ InString .subString items pre ∧ endsWithNumber items = true ∧
      Gr '#' t ∧ t.startGrapheme = p
  | .endedAbruptly => False
  | .lexer _ => False

theorem ErrExact.weaken {ts e} (h : ErrExact ts e) : ErrOk ts e := by
  cases e <;> first | exact h | trivial

/-- `Inv` for the possible continuations of a step after reading `ts`. -/
def StepOk : Step → List Token → Prop
  | .done (.ok s), ts => Inv s ts
  | .done (.err e), ts => ErrExact ts e
  | .done .panic, ts => Panics ts
  | .need k, ts => Unfinished ts ∧ ∀ t, StepOk (k t) (ts ++ [t])

theorem stepOk_says {step : Step} {ts st t} (h : ∃ e, step = Step.done (.err e) ∧ Says st t e)
    (hm : Misplaced st t ts) : StepOk step ts := by
  obtain ⟨e, rfl, rfl⟩ := h
  exact ⟨t, hm, rfl, rfl⟩

theorem stepOk_ok {st ts} {P : PState → Prop} (h : ∃ s', st = Step.done (.ok s') ∧ P s')
    (f : ∀ s', P s' → Inv s' ts) : StepOk st ts := by
  obtain ⟨s', rfl, h⟩ := h
  exact f s' h

theorem _root_.Verif.Spec.Blank.snoc {ws : List Token} {t : Token} (h : Blank ws) (ht : t.tokenType = .whiteSpace) :
    Blank (ws ++ [t]) := by
  intro x hx
  rcases List.mem_append.1 hx with hx | hx
  · exact h x hx
  · rw [List.mem_singleton.1 hx]; exact ht

theorem open_step {h items ts s t} (H : Hist h items ts) (F : AtText h items ts s) (ho : Gr '{' t) :
    StepOk (s.step t) (ts ++ [t]) := by
  obtain ⟨k, h1, h2⟩ := text_open F ho
  rw [h1]
  refine ⟨Or.inl (open_begins H.inString ho), fun x => ?_⟩
  obtain ⟨s1, h3, F1, hgr⟩ := h2 x
  rw [h3, List.append_assoc]
  show StepOk _ (ts ++ [t, x])
  by_cases hx : x.tokenType = .identifier
  · obtain ⟨he, hok⟩ := start_ident F1 x (ts.length + 1) hx
    by_cases hm : x.string ∈ h.pn ++ patNames items
    · rw [he hm]
      exact twice_intro (hist_opens H hm) ho hx rfl
    · obtain ⟨s', h4, F2⟩ := hok hm
      rw [h4]
      refine Inv.pat (ws := []) H ho hx (by intro _ h; cases h) ⟨?_, hgr⟩
      rw [patNames_kw, ← List.append_assoc]
      exact F2
  · by_cases hl : Gr '`' x
    · obtain ⟨s', h4, L⟩ := start_lit F1 x (ts.length + 1) hl
      rw [h4]; exact .lit (.placeholder H.inString ho hl) L
    · by_cases hh : Gr '#' x
      · obtain ⟨s', h4, F2⟩ := start_cmd F1 x (ts.length + 1) hh
        rw [h4]
        refine Inv.cmd (body := []) (parts := []) H ho hh .nil ⟨?_, hgr⟩
        rw [patNames_cmd]
        exact F2
      · rw [start_err _ _ _ hx hl hh]
        refine ⟨x, ?_, rfl, rfl⟩
        have := Misplaced.here (t := x) (Place.opened H.inString ho)
        rw [F1.state]
        simpa using this

theorem text_step {h items ts s t} (H : Hist h items ts) (F : AtText h items ts s) : StepOk (s.step t) (ts ++ [t]) := by
  by_cases hg : t.tokenType = .grammar
  · by_cases h1 : Gr '`' t
    · obtain ⟨k, e1, e2⟩ := text_escape F h1
      rw [e1]
      refine ⟨Or.inl (escape_begins H.inString h1), fun x => ?_⟩
      rw [List.append_assoc]
      refine stepOk_ok (e2 x) fun s' F' => .text (H.ext ?_) F'
      intro n body hc hl
      have := Content.escaped (t := x) hc h1
      rwa [← hl] at this
    · by_cases h2 : Gr '{' t
      · exact open_step H F h2
      · by_cases h3 : Gr '#' t
        · cases h with
          | main =>
            cases H with
            | main hc =>
              refine stepOk_ok (text_group F h3) fun s' F' => .grp ⟨ts, t, [], rfl, hc, h3, .nil⟩ F'
          | sub m ns id =>
            cases he : endsWithNumber items with
            | true => rw [sub_hash_err F h3 he]; exact ⟨ts, t, items, rfl, H.inString, he, h3, rfl⟩
            | false =>
              refine stepOk_ok (sub_hash F h3 he) fun s' F' => .text (H.ext ?_) F'
              intro n body hc hl
              have := Content.number hc rfl he h3
              rwa [← hl] at this
        · cases h with
          | main => exact stepOk_says (main_err F hg h1 h2 h3) (.here (.text H.inString))
          | sub m ns id =>
            by_cases h4 : Gr '}' t
            · refine stepOk_ok (sub_close F h4) fun s' F' => .grp ?_ F'
              cases H with
              | @sub _ _ pre o idt wh ws _ body hgh ho hi hw hb hst hc =>
                obtain ⟨ts0, hh, gs, rfl, hc0, hgr0, hgs⟩ := hgh
                refine ⟨ts0, hh, gs ++ o :: idt :: wh :: ws ++ body ++ [t], by simp, hc0, hgr0, ?_⟩
                have hl : (ts0 ++ hh :: gs).length = ts0.length + 1 + gs.length := by simp; omega
                have := Group.named hgs ho hi hw hb hst (by rw [← hl]; exact hc) h4
                rw [← hl] at this
                exact this
            · exact stepOk_says (sub_err F hg h1 h2 h3 h4) (.here (.text H.inString))
  · refine stepOk_ok (text_plain F hg) fun s' F' => .text (H.ext ?_) F'
    intro n body hc hl
    have := Content.plain hc hg
    rwa [← hl] at this

theorem hist_pattern {h items ts it w} (H : Hist h items ts) (hp : Pattern ts.length it w) :
    Hist h (items ++ [it]) (ts ++ w) := by
  refine H.ext ?_
  intro n body hc hl
  exact .pattern hc (by rw [← hl]; exact hp)

theorem pat_step {h items ts0 o id ws s t} (H : Hist h items ts0) (ho : Gr '{' o) (hi : id.tokenType = .identifier)
    (hb : Blank ws) (A : AtPat h items ⟨ts0.length + 1, id⟩ (ts0 ++ o :: id :: ws) s) :
    StepOk (s.step t) (ts0 ++ o :: id :: ws ++ [t]) := by
  by_cases h1 : t.tokenType = .identifier
  · refine stepOk_ok (pat_ident A h1) fun s' A' => ?_
    refine Inv.kw (body := []) (sels := []) H ho hi hb h1 .nil ?_
    have : (ts0 ++ o :: id :: ws).length = ts0.length + 2 + ws.length := by simp; omega
    rw [this] at A'
    exact A'
  · by_cases h2 : t.tokenType = .whiteSpace
    · have e : ts0 ++ o :: id :: ws ++ [t] = ts0 ++ o :: id :: (ws ++ [t]) := by simp
      refine stepOk_ok (pat_blank A h2) fun s' A' => ?_
      rw [e] at *
      exact .pat H ho hi (hb.snoc h2) A'
    · by_cases h3 : Gr '}' t
      · refine stepOk_ok (pat_close A h3) fun s' A' => ?_
        refine .text ?_ A'
        rw [List.append_assoc]
        exact hist_pattern H (.simple ho hi hb h3)
      · exact stepOk_says (pat_err A h1 h2 h3) (.here (.pattern H.inString ho hi hb))

theorem kw_step {h items ts0 o id ws k sels body s t} (H : Hist h items ts0) (ho : Gr '{' o)
    (hi : id.tokenType = .identifier) (hb : Blank ws) (hk : k.tokenType = .identifier)
    (hbody : KwBody (ts0.length + 3 + ws.length) sels body)
    (A : AtKw h items ⟨ts0.length + 1, id⟩ ⟨ts0.length + 2 + ws.length, k⟩ sels (ts0 ++ o :: id :: ws ++ k :: body) s) :
    StepOk (s.step t) (ts0 ++ o :: id :: ws ++ k :: body ++ [t]) := by
  have hlen : (ts0 ++ o :: id :: ws ++ k :: body).length = ts0.length + 3 + ws.length + body.length := by
    simp; omega
  have hkw : AfterKeyword (ts0 ++ o :: id :: ws ++ k :: body) := .mk H.inString ho hi hb hk hbody
  by_cases h1 : t.tokenType = .identifier
  · obtain ⟨f, e1, e2⟩ := kw_ident A h1
    rw [e1]
    refine ⟨Or.inl (selector_begins hkw h1), fun x => ?_⟩
    obtain ⟨hne, heq⟩ := e2 x
    by_cases hx : x.string = ['#']
    · obtain ⟨g, e3, e4⟩ := heq hx
      rw [e3]
      refine ⟨Or.inl ?_, fun b => ?_⟩
      · rw [List.append_assoc]
        exact selectorHash_begins hkw h1 hx
      obtain ⟨hne2, heq2⟩ := e4 b
      by_cases hbi : b.tokenType = .identifier
      · have e : ts0 ++ o :: id :: ws ++ k :: body ++ [t] ++ [x] ++ [b] =
            ts0 ++ o :: id :: ws ++ k :: (body ++ [t, x, b]) := by simp
        refine stepOk_ok (heq2 hbi) fun s' A' => ?_
        rw [e]
        refine .kw H ho hi hb hk (.selector hbody h1 hx hbi) ?_
        rw [hlen] at A'
        have e' : ts0 ++ o :: id :: ws ++ k :: body ++ [t, x, b] =
            ts0 ++ o :: id :: ws ++ k :: (body ++ [t, x, b]) := by simp
        rw [e'] at A'
        exact A'
      · refine stepOk_says (hne2 hbi) ?_
        rw [List.append_assoc _ [t] [x]]
        exact .here (.selectorHash hkw h1 hx)
    · exact stepOk_says (hne hx) (.here (.selector hkw h1))
  · by_cases h2 : Gr '}' t
    · refine stepOk_ok (kw_close A h2) fun s' A' => .text ?_ A'
      have e : ts0 ++ o :: id :: ws ++ k :: body ++ [t] = ts0 ++ (o :: id :: ws ++ k :: body ++ [t]) := by simp
      rw [e]
      exact hist_pattern H (.keyword ho hi hb hk hbody h2)
    · by_cases h3 : t.tokenType = .whiteSpace ∨ t.tokenType = .grammar ∧ t.string ≠ ['}']
      · have e : ts0 ++ o :: id :: ws ++ k :: body ++ [t] = ts0 ++ o :: id :: ws ++ k :: (body ++ [t]) := by simp
        refine stepOk_ok (kw_skip A h3) fun s' A' => ?_
        rw [e] at *
        exact .kw H ho hi hb hk (.skip hbody h3) A'
      · have hng : t.tokenType ≠ .grammar := fun hg => h3 (Or.inr ⟨hg, fun e => h2 ⟨hg, e⟩⟩)
        exact stepOk_says (kw_err A (by cases hty : t.tokenType <;> simp_all)) (.here (.keyword hkw))

/-- A command which has just read its delay marker. -/
theorem cmdBody_hash {n parts body} (h : CmdBody n parts body) (he : endsWithHash parts = true) :
    ∃ ws1 id ws2 hh ws3, body = ws1 ++ id :: ws2 ++ hh :: ws3 ∧ Blank ws1 ∧ id.tokenType = .identifier ∧ Blank ws2 ∧
      Gr '#' hh ∧ Blank ws3 := by
  have nilB : ∀ {n parts body}, CmdBody n parts body → parts = [] → Blank body := by
    intro n parts body h
    induction h with
    | nil => intro _ _ h; cases h
    | blank _ ht ih => intro e; exact (ih e).snoc ht
    | ident => intro e; simp at e
    | hash => intro e; simp at e
  have oneB : ∀ {n parts body}, CmdBody n parts body → ∀ p, parts = [.ident p] →
      ∃ ws1 id ws2, body = ws1 ++ id :: ws2 ∧ Blank ws1 ∧ id.tokenType = .identifier ∧ Blank ws2 := by
    intro n parts body h
    induction h with
    | nil => intro p e; cases e
    | blank _ ht ih =>
      intro p e
      obtain ⟨ws1, id, ws2, rfl, h1, h2, h3⟩ := ih p e
      exact ⟨ws1, id, ws2 ++ [_], by simp, h1, h2, h3.snoc ht⟩
    | @ident parts ts t hb ht _ =>
      intro p e
      have : parts = [] := by
        cases parts with
        | nil => rfl
        | cons a b => simp at e
      subst this
      exact ⟨ts, t, [], rfl, nilB hb rfl, ht, by intro _ h; cases h⟩
    | hash => intro p e; simp at e
  induction h with
  | nil => cases he
  | @blank parts ts t hb ht ih =>
    obtain ⟨ws1, id, ws2, hh, ws3, rfl, h1, h2, h3, h4, h5⟩ := ih he
    exact ⟨ws1, id, ws2, hh, ws3 ++ [t], by simp, h1, h2, h3, h4, h5.snoc ht⟩
  | ident => simp [endsWithHash] at he
  | @hash p ts t hb ht _ =>
    obtain ⟨ws1, id, ws2, rfl, h1, h2, h3⟩ := oneB hb p rfl
    exact ⟨ws1, id, ws2, t, [], rfl, h1, h2, h3, ht, by intro _ h; cases h⟩

/-- A pattern string without repeated identifiers which goes on from an open string. -/
theorem hist_unique {h items ts} (H : Hist h items ts) (hp : (h.pn ++ patNames items).Nodup) (hn : h.nn.Nodup) :
    BeginsUnique ts := by
  cases H with
  | main hc =>
    exact ⟨⟨items, none⟩, [], by simpa using Sentence.plain hc, by simpa [Home.pn, Doc.patNames] using hp,
      by simp [Doc.namedNames]⟩
  | @sub m ns pre o id w ws _ body hg ho hi hw hb hst hc =>
    obtain ⟨ts0, hh, gs, rfl, hc0, hg0, hgs⟩ := hg
    have hl : (ts0 ++ hh :: gs).length = ts0.length + 1 + gs.length := by simp; omega
    have := Sentence.group hc0 hg0 (Group.named hgs ho hi hw hb hst (by rw [← hl]; exact hc) close_gr)
    refine ⟨_, [tok .grammar ['}']], by simpa using this, ?_, ?_⟩
    · simpa [Home.pn, Doc.patNames] using hp
    · simpa [Home.nn, Doc.namedNames] using hn

theorem BeginsUnique.init {ts us : List Token} (h : BeginsUnique (ts ++ us)) : BeginsUnique ts := by
  obtain ⟨d, more, h1, h2⟩ := h
  exact ⟨d, us ++ more, by simpa using h1, h2⟩

theorem cmd_unique {h items ts0 o hh parts body ts s} (H : Hist h items ts0) (ho : Gr '{' o) (hh' : Gr '#' hh)
    (hb : CmdBody (ts0.length + 2) parts body) (A : AtCmd h items parts ts s) : BeginsUnique (ts0 ++ o :: hh :: body) := by
  have := hist_pattern H
    (.command ho hh' (.ident (t := tok .identifier []) hb rfl) (by simp) (by simp [endsWithHash]) close_gr)
  refine BeginsUnique.init (us := [tok .identifier [], tok .grammar ['}']]) ?_
  have hp := A.fields.pats.2
  rw [patNames_cmd] at hp
  have hu := hist_unique this (by rw [patNames_cmd]; exact hp) A.fields.named.2
  simpa using hu

theorem ns_unique {m ns pre o id w ws ts s i} (H : GrpHist m ns pre) (ho : Gr '{' o) (hi : id.tokenType = .identifier)
    (hw : w.tokenType = .whiteSpace) (hb : Blank ws) (A : AtNs m ns (some ⟨i, id⟩) ts s) :
    BeginsUnique (pre ++ o :: id :: w :: ws) := by
  have := Hist.sub (body := [tok .identifier []]) H ho hi hw hb (Or.inl rfl) (Content.plain (ts := []) .nil (by simp [tok]))
  refine BeginsUnique.init (us := [tok .identifier []]) ?_
  refine hist_unique this ?_ ?_
  · simpa [Home.pn, patNames, patNames_pushText] using A.pats.2
  · simpa [Home.nn] using A.named.2

theorem cmd_step {h items ts0 o hh parts body s t} (H : Hist h items ts0) (ho : Gr '{' o) (hh' : Gr '#' hh)
    (hb : CmdBody (ts0.length + 2) parts body) (A : AtCmd h items parts (ts0 ++ o :: hh :: body) s) :
    StepOk (s.step t) (ts0 ++ o :: hh :: body ++ [t]) := by
  have hlen : (ts0 ++ o :: hh :: body).length = ts0.length + 2 + body.length := by simp; omega
  have e : ts0 ++ o :: hh :: body ++ [t] = ts0 ++ o :: hh :: (body ++ [t]) := by simp
  have hpl : Place .command (ts0 ++ o :: hh :: body) := .command H.inString ho hh' hb
  have hun := cmd_unique H ho hh' hb A
  by_cases h1 : t.tokenType = .identifier
  · refine stepOk_ok (cmd_ident A h1) fun s' A' => ?_
    rw [hlen] at A'
    rw [e] at *
    exact .cmd H ho hh' (.ident hb h1) A'
  · by_cases h2 : t.tokenType = .whiteSpace
    · refine stepOk_ok (cmd_blank A h2) fun s' A' => ?_
      rw [e] at *
      exact .cmd H ho hh' (.blank hb h2) A'
    · by_cases h3 : Gr '}' t
      · cases he : endsWithHash parts with
        | true => rw [cmd_panic A (Or.inl h3) he]; exact .delayed H.inString ho hh' hb he hun (Or.inl h3)
        | false =>
          by_cases hp : parts = []
          · subst hp; exact stepOk_says (cmd_close_err A h3) (.here hpl)
          · refine stepOk_ok (cmd_close A h3 he hp) fun s' A' => .text ?_ A'
            have e' : ts0 ++ o :: hh :: body ++ [t] = ts0 ++ (o :: hh :: body ++ [t]) := by simp
            rw [e']
            exact hist_pattern H (.command ho hh' hb hp he h3)
      · by_cases h4 : Gr '`' t
        · obtain ⟨k, e1, e2⟩ := cmd_lit A h4
          rw [e1]
          refine ⟨Or.inr (Or.inl (.command hpl h4)), fun x => ?_⟩
          exact stepOk_ok (e2 x) fun s' L => .lit (.append _ (.command hpl h4)) L
        · by_cases h5 : Gr '#' t
          · cases he : endsWithHash parts with
            | true => rw [cmd_panic A (Or.inr h5) he]; exact .delayed H.inString ho hh' hb he hun (Or.inr h5)
            | false =>
              by_cases hp : ∃ p, parts = [.ident p]
              · obtain ⟨p, rfl⟩ := hp
                refine stepOk_ok (cmd_hash A h5) fun s' A' => ?_
                rw [hlen] at A'
                rw [e] at *
                exact .cmd H ho hh' (.hash hb h5) A'
              · exact stepOk_says (cmd_hash_err A h5 he (fun p e => hp ⟨p, e⟩)) (.here hpl)
          · exact stepOk_says (cmd_err A h1 h2 h3 h4 h5) (.here hpl)

theorem grp_step {m ns ts s t} (H : GrpHist m ns ts) (A : AtGrp m ns ts s) : StepOk (s.step t) (ts ++ [t]) := by
  by_cases h1 : Gr '{' t
  · exact stepOk_ok (grp_open A h1) fun s' A' => .ns0 H h1 A'
  · by_cases h2 : t.tokenType = .whiteSpace
    · refine stepOk_ok (grp_blank A h2) fun s' A' => .grp ?_ A'
      obtain ⟨ts0, hh, gs, rfl, hc, hg, hgs⟩ := H
      exact ⟨ts0, hh, gs ++ [t], by simp, hc, hg, .blank hgs h2⟩
    · exact stepOk_says (grp_err A h1 h2) (.here (.group H.inGroup))

theorem ns0_step {m ns pre o s t} (H : GrpHist m ns pre) (ho : Gr '{' o) (A : AtNs m ns none (pre ++ [o]) s) :
    StepOk (s.step t) (pre ++ [o] ++ [t]) := by
  by_cases h1 : t.tokenType = .identifier
  · obtain ⟨he, hok⟩ := ns0_ident A h1
    by_cases hm : t.string ∈ ns.map (fun n => n.id.tok.string)
    · rw [he hm, List.append_assoc]
      obtain ⟨ts0, hh, gs, rfl, hc, hg, hgs⟩ := H
      obtain ⟨i, hi⟩ := group_named hgs hm
      refine twice_intro ⟨(ts0 ++ [hh]).length + i, ?_⟩ ho h1 rfl
      simpa using hi.prepend (ts0 ++ [hh])
    · obtain ⟨k, e1, e2⟩ := hok hm
      rw [e1]
      refine ⟨Or.inl ?_, fun w => ?_⟩
      · rw [List.append_assoc]
        exact name_begins H.inGroup ho h1
      by_cases hw : w.tokenType = .whiteSpace
      · have e : pre ++ [o] ++ [t] ++ [w] = pre ++ o :: t :: w :: [] := by simp
        refine stepOk_ok ((e2 w).1 hw) fun s' A' => ?_
        rw [e]
        refine .ns1 H ho h1 hw (by intro _ h; cases h) ?_
        simpa using A'
      · refine stepOk_says ((e2 w).2 hw) ?_
        have := Misplaced.name (st := .namedString) (u := w) rfl H.inGroup ho h1 hw
        simpa using this
  · exact stepOk_says (ns0_err A h1) (.here (.named H.inGroup ho))

theorem ns1_step {m ns pre o id w ws s t} (H : GrpHist m ns pre) (ho : Gr '{' o) (hi : id.tokenType = .identifier)
    (hw : w.tokenType = .whiteSpace) (hb : Blank ws)
    (A : AtNs m ns (some ⟨pre.length + 1, id⟩) (pre ++ o :: id :: w :: ws) s) :
    StepOk (s.step t) (pre ++ o :: id :: w :: ws ++ [t]) := by
  have hlen : (pre ++ o :: id :: w :: ws).length = pre.length + 3 + ws.length := by simp; omega
  have hbc : BeforeContent (pre ++ o :: id :: w :: ws) := .mk H.inGroup ho hi hw hb
  have hun := ns_unique H ho hi hw hb A
  by_cases h1 : t.tokenType = .identifier
  · refine stepOk_ok (ns1_ident A h1) fun s' A' => .text ?_ A'
    refine Hist.sub H ho hi hw hb (Or.inl h1) ?_
    rw [hlen]
    exact Content.plain (ts := []) .nil (by rw [h1]; simp)
  · by_cases h2 : t.tokenType = .whiteSpace
    · have e : pre ++ o :: id :: w :: ws ++ [t] = pre ++ o :: id :: w :: (ws ++ [t]) := by simp
      refine stepOk_ok (ns1_blank A h2) fun s' A' => ?_
      rw [e] at *
      exact .ns1 H ho hi hw (hb.snoc h2) A'
    · by_cases h3 : t.tokenType = .syn
      · refine stepOk_ok (ns1_syn A h3) fun s' B => ?_
        exact .bad H hun ho hi hw hb (.syn h3) B
      · have hg : t.tokenType = .grammar := by
          cases hty : t.tokenType <;> simp_all
        by_cases h4 : Gr '#' t
        · refine stepOk_ok (ns1_hash A h4) fun s' A' => .text ?_ A'
          refine Hist.sub H ho hi hw hb (Or.inr h4) ?_
          rw [hlen]
          exact Content.number (ts := []) .nil rfl rfl h4
        · by_cases h5 : Gr '{' t
          · obtain ⟨k, e1, e2⟩ := ns1_open A h5
            rw [e1]
            refine ⟨Or.inr (Or.inr (.mk hbc (Or.inr (Or.inl h5)))), fun x => stepOk_says (e2 x) ?_⟩
            rw [List.append_assoc]
            exact .brace rfl hbc h5
          · by_cases h6 : Gr '`' t
            · obtain ⟨k, e1, e2⟩ := ns1_esc A h6
              rw [e1]
              refine ⟨Or.inr (Or.inr (.mk hbc (Or.inr (Or.inr h6)))), fun x => ?_⟩
              refine stepOk_ok (e2 x) fun s' B => ?_
              rw [List.append_assoc]
              exact .bad H hun ho hi hw hb (.escape h6) B
            · exact stepOk_says (ns1_err A hg h4 h5 h6) (.here (.content hbc))

theorem badStart_spoilt {pre x} (hb : BeforeContent pre) (hx : BadStart x) : Spoilt (pre ++ x) := by
  cases hx with
  | syn h => exact .mk hb (Or.inl h)
  | escape h => exact .mk hb (Or.inr (Or.inr h))

theorem bad_step {m ns pre o id w ws x s t} (H : GrpHist m ns pre) (hun : BeginsUnique (pre ++ o :: id :: w :: ws))
    (ho : Gr '{' o) (hi : id.tokenType = .identifier) (hw : w.tokenType = .whiteSpace) (hb : Blank ws) (hx : BadStart x)
    (B : AtBad s) :
    StepOk (s.step t) (pre ++ o :: id :: w :: ws ++ x ++ [t]) := by
  by_cases h : t.tokenType ≠ .grammar ∨ t.string ∈ [['#'], ['{'], ['`']]
  · rw [bad_panic B h]
    exact .content (.mk H.inGroup ho hi hw hb) hun hx h
  · rw [not_or, Classical.not_not] at h
    exact stepOk_says (bad_err B h.1 h.2) (.spoilt rfl (badStart_spoilt (.mk H.inGroup ho hi hw hb) hx))

theorem inv_step {s ts} (I : Inv s ts) (t : Token) : StepOk (s.step t) (ts ++ [t]) := by
  cases I with
  | text H F => exact text_step H F
  | pat H ho hi hb A => exact pat_step H ho hi hb A
  | kw H ho hi hb hk hbody A => exact kw_step H ho hi hb hk hbody A
  | cmd H ho hh hb A => exact cmd_step H ho hh hb A
  | grp H A => exact grp_step H A
  | ns0 H ho A => exact ns0_step H ho A
  | ns1 H ho hi hw hb A => exact ns1_step H ho hi hw hb A
  | bad hp hun ho hi hw hb hx B => exact bad_step hp hun ho hi hw hb hx B
  | lit hl L =>
    rcases lit_step L t with ⟨s', h1, h2⟩ | ⟨k, h1, h2⟩
    · rw [h1]; exact .lit (.append _ hl) h2
    · rw [h1]
      refine ⟨Or.inr (Or.inl (.append _ hl)), fun x => ?_⟩
      exact stepOk_ok (h2 x) fun s' L => .lit (.append _ (.append _ hl)) L

/-! ### Whole runs -/

theorem _root_.Verif.Spec.Twice.append {x ts} (us : List Token) (h : Twice x ts) : Twice x (ts ++ us) := by
  obtain ⟨i, j, h1, h2, h3⟩ := h
  exact ⟨i, j, h1, h2.append us, h3.append us⟩

theorem ErrOk.append {e ts} (us : List Token) (h : ErrOk ts e) : ErrOk (ts ++ us) e := by
  cases e <;> first | exact Twice.append us h | trivial

theorem _root_.Verif.Spec.Panics.append {ts} (us : List Token) (h : Panics ts) : Panics (ts ++ us) := by
  cases h with
  | delayed h ho hg hb he hu ht => rw [List.append_assoc]; exact .delayed h ho hg hb he hu ht
  | content hb hu hx ht => rw [List.append_assoc]; exact .content hb hu hx ht

theorem InGroup.hash {ts} (h : InGroup ts) : ∃ h ∈ ts, Gr '#' h := by
  obtain ⟨_, hg, _⟩ := h
  exact ⟨_, by simp, hg⟩

theorem panics_shape {ts} (h : Panics ts) : PanicShape ts := by
  cases h with
  | @delayed st items ts0 o hh parts body t rest h ho hh' hb he hu ht =>
    obtain ⟨ws1, id, ws2, h2, ws3, rfl, h1, h3, h4, h5, h6⟩ := cmdBody_hash hb he
    exact Or.inl ⟨ts0, o, hh, ws1, id, ws2, h2, ws3, t, rest, by simp, ho, hh', h1, h3, h4, h5, h6, ht⟩
  | @content ts x t rest hb hu hx ht =>
    obtain ⟨hg, ho, hi, hw, hbl⟩ := hb
    exact Or.inr ⟨_, _, _, _, _, x, t, rest, rfl, InGroup.hash hg, ho, hi, hw, hbl, hx, ht⟩

/-- The guarantee for a complete run over `all`. -/
def RunOk (all : List Token) : TreeM PState → Prop
  | .ok s => Inv s all
  | .err e => ErrOk all e
  | .panic => Panics all

theorem drive_sound : ∀ (rest : List Token) (st : Step) (ts : List Token), StepOk st ts →
    RunOk (ts ++ rest) (st.drive rest) := by
  intro rest
  induction rest with
  | nil =>
    intro st ts h
    rw [List.append_nil]
    match st, h with
    | .done (.ok s), h => exact h
    | .done (.err e), h => exact h.weaken
    | .done .panic, h => exact h
    | .need k, h => trivial
  | cons t rest ih =>
    intro st ts h
    match st, h with
    | .done (.ok s), h =>
      have := ih (s.step t) (ts ++ [t]) (inv_step h t)
      rwa [List.append_assoc] at this
    | .done (.err e), h => exact ErrOk.append _ h.weaken
    | .done .panic, h => exact Panics.append _ h
    | .need k, h =>
      have := ih (k t) (ts ++ [t]) (h.2 t)
      rwa [List.append_assoc] at this

theorem init_text : AtText .main [] [] PState.init := by
  refine { tokens := rfl, nodes := ?_, current := ?_, state := rfl, nested := rfl, pats := ?_, named := ?_,
           gram := rfl, lengths := rfl }
  · rw [← Home.arena_eq]; rfl
  · rfl
  · exact ⟨by intro k; simp [PState.init, AMap.contains, Home.pn, patNames], by simp [Home.pn, patNames]⟩
  · exact ⟨by intro k; simp [PState.init, AMap.contains, Home.nn], by simp [Home.nn]⟩

theorem run_ok (ts : List Token) : RunOk ts ((Step.done (.ok PState.init)).drive ts) := by
  have := drive_sound ts (.done (.ok PState.init)) [] (.text (.main .nil) init_text)
  simpa using this

/-- Outside of open constructs the stack of the parser is empty exactly in the main string and the group. -/
theorem inv_final {s ts} (I : Inv s ts) (hn : s.nested = []) :
    ∃ d, Sentence d ts ∧ d.patNames.Nodup ∧ d.namedNames.Nodup ∧ s.nodes = d.arena ∧ s.tokens = ts ∧ s.hasGrammar = anyGr ts ∧ s.lengths = lens ts := by
  cases I with
  | @text h items ts H F =>
    cases h with
    | main =>
      cases H with
      | main hc =>
        refine ⟨⟨items, none⟩, .plain hc, by simpa [Home.pn, Doc.patNames] using F.pats.2, by simp [Doc.namedNames], ?_, F.tokens, F.gram, F.lengths⟩
        rw [F.nodes]; exact (Home.arena_eq .main items).symm
    | sub m ns id => have := F.nested; rw [hn] at this; cases this
  | pat H ho hi hb A => have := A.fields.nested; rw [hn] at this; cases this
  | kw H ho hi hb hk hbody A => have := A.fields.nested; rw [hn] at this; cases this
  | cmd H ho hh hb A => have := A.fields.nested; rw [hn] at this; cases this
  | @grp m ns ts H A =>
    obtain ⟨ts0, hh, gs, rfl, hc, hg, hgs⟩ := H
    refine ⟨⟨m, some ns⟩, .group hc hg hgs, A.pats.2, A.named.2, ?_, A.tokens, A.gram, A.lengths⟩
    rw [A.nodes, ← Home.group_view]; rfl
  | ns0 H ho A => have := A.nested; rw [hn] at this; cases this
  | ns1 H ho hi hw hb A => have := A.nested; rw [hn] at this; cases this
  | bad hp hun ho hi hw hb hx B => have := B.nested; rw [hn] at this; cases this
  | lit _ L => exact absurd hn L.nested

end Verif.TreeLemmas
