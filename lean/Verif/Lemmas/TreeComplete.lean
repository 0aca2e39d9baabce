import Verif.Lemmas.TreeSound
/-
The parser accepts every sentence of the grammar with unique identifiers.
-/
namespace Verif.TreeLemmas
open Verif Verif.Spec Verif.Spec.Rose

theorem drive_append : ∀ (ts us : List Token) (st : Step) (s : PState), st.drive ts = .ok s →
    st.drive (ts ++ us) = (Step.done (.ok s)).drive us := by
  intro ts
  induction ts with
  | nil =>
    intro us st s h
    match st, h with
    | .done (.ok s'), h => simp only [Step.drive] at h; cases h; rfl
    | .done (.err e), h => simp [Step.drive] at h
    | .done .panic, h => simp [Step.drive] at h
    | .need k, h => simp [Step.drive] at h
  | cons t ts ih =>
    intro us st s h
    match st, h with
    | .done (.ok s'), h => exact ih us (s'.step t) s h
    | .done (.err e), h => simp [Step.drive] at h
    | .done .panic, h => simp [Step.drive] at h
    | .need k, h => exact ih us (k t) s h

theorem drive_append_err : ∀ (ts us : List Token) (st : Step) (e : TreeError), e ≠ .endedAbruptly → st.drive ts = .err e →
    st.drive (ts ++ us) = .err e := by
  intro ts
  induction ts with
  | nil =>
    intro us st e hne h
    match st, h with
    | .done (.ok s'), h => simp [Step.drive] at h
    | .done (.err e), h => cases us <;> simpa [Step.drive] using h
    | .done .panic, h => simp [Step.drive] at h
    | .need k, h => simp only [Step.drive] at h; cases h; exact absurd rfl hne
  | cons t ts ih =>
    intro us st e hne h
    match st, h with
    | .done (.ok s'), h => exact ih us (s'.step t) e hne h
    | .done (.err e), h => simpa [Step.drive] using h
    | .done .panic, h => simp [Step.drive] at h
    | .need k, h => exact ih us (k t) e hne h

/-- Errors for repeated identifiers. -/
def Unique : TreeError → Prop
  | .uniquePattern _ => True
  | .uniqueNamed _ => True
  | _ => False

theorem Unique.ne {e} (h : Unique e) : e ≠ .endedAbruptly := by rintro rfl; exact h

/-- After reading `ts` the parser is in a state with property `P`, or, if `U` allows it, it has reported a repeated
identifier. -/
def Reach (U : Prop) (ts : List Token) (P : PState → Prop) : Prop :=
  (∃ s, (Step.done (.ok PState.init)).drive ts = .ok s ∧ P s) ∨
  U ∧ ∃ e, (Step.done (.ok PState.init)).drive ts = .err e ∧ Unique e

variable {U : Prop}

/-- Read further tokens `us`. -/
theorem Reach.more {ts us} {P Q : PState → Prop} (h : Reach U ts P)
    (f : ∀ s, P s → (∃ s', (Step.done (.ok s)).drive us = .ok s' ∧ Q s') ∨
      U ∧ ∃ e, (Step.done (.ok s)).drive us = .err e ∧ Unique e) : Reach U (ts ++ us) Q := by
  rcases h with ⟨s, h1, h2⟩ | ⟨hU, e, h1, h2⟩
  · unfold Reach
    rw [drive_append ts us _ s h1]
    exact f s h2
  · exact Or.inr ⟨hU, e, drive_append_err ts us _ e h2.ne h1, h2⟩

theorem Reach.one {ts t} {P Q : PState → Prop} (h : Reach U ts P)
    (f : ∀ s, P s → ∃ s', s.step t = .done (.ok s') ∧ Q s') : Reach U (ts ++ [t]) Q := by
  refine h.more fun s hs => Or.inl ?_
  obtain ⟨s', h3, h4⟩ := f s hs
  exact ⟨s', by simp only [Step.drive, h3], h4⟩

theorem Reach.two {ts t u} {P Q : PState → Prop} (h : Reach U ts P)
    (f : ∀ s, P s → ∃ k, s.step t = .need k ∧ ((∃ s', k u = .done (.ok s') ∧ Q s') ∨
      U ∧ ∃ e, k u = .done (.err e) ∧ Unique e)) : Reach U (ts ++ [t, u]) Q := by
  refine h.more fun s hs => ?_
  obtain ⟨k, h1, ⟨s', h2, h3⟩ | ⟨hU, e, h2, h3⟩⟩ := f s hs
  · exact Or.inl ⟨s', by simp only [Step.drive, h1, h2], h3⟩
  · exact Or.inr ⟨hU, e, by simp only [Step.drive, h1, h2], h3⟩

theorem Reach.three {ts t u v} {P Q : PState → Prop} (h : Reach U ts P)
    (f : ∀ s, P s → ∃ k, s.step t = .need k ∧ ∃ k', k u = .need k' ∧ ∃ s', k' v = .done (.ok s') ∧ Q s') :
    Reach U (ts ++ [t, u, v]) Q := by
  refine h.more fun s hs => Or.inl ?_
  obtain ⟨k, h3, k', h4, s', h5, h6⟩ := f s hs
  exact ⟨s', by simp only [Step.drive, h3, h4, h5], h6⟩

theorem snocInduction {α : Type} {P : List α → Prop} (nil : P []) (snoc : ∀ l a, P l → P (l ++ [a])) : ∀ l, P l := by
  intro l
  have h : ∀ l : List α, P l.reverse := by
    intro l
    induction l with
    | nil => exact nil
    | cons a l ih => rw [List.reverse_cons]; exact snoc _ _ ih
  simpa using h l.reverse

theorem Blank.init {ws : List Token} {t : Token} (h : Blank (ws ++ [t])) : Blank ws ∧ t.tokenType = .whiteSpace :=
  ⟨fun x hx => h x (by simp [hx]), h t (by simp)⟩

/-- `{id` followed by spaces. -/
theorem reach_pat {h items ts o id} (R : Reach U ts (AtText h items ts)) (ho : Gr '{' o)
    (hi : id.tokenType = .identifier) (hu : U ∨ id.string ∉ h.pn ++ patNames items) (ws : List Token) :
    Blank ws → Reach U (ts ++ o :: id :: ws) (AtPat h items ⟨ts.length + 1, id⟩ (ts ++ o :: id :: ws)) := by
  induction ws using snocInduction with
  | nil =>
    intro _
    refine R.two fun s F => ?_
    obtain ⟨k, h1, h2⟩ := text_open F ho
    obtain ⟨s1, h3, F1, hgr⟩ := h2 id
    refine ⟨k, h1, ?_⟩
    by_cases hm : id.string ∈ h.pn ++ patNames items
    · right
      have h4 := (start_ident F1 id (ts.length + 1) hi).1 hm
      exact ⟨hu.resolve_right (fun h => h hm), .uniquePattern id.string, by rw [h3, h4], trivial⟩
    · left
      obtain ⟨s', h4, F2⟩ := (start_ident F1 id (ts.length + 1) hi).2 hm
      refine ⟨s', by rw [h3, h4], ⟨?_, hgr⟩⟩
      rw [patNames_kw, ← List.append_assoc]
      exact F2
  | snoc ws t ih =>
    intro hb
    obtain ⟨hb, ht⟩ := Blank.init hb
    have := (ih hb).one fun s A => pat_blank A ht
    simpa using this

theorem reach_kw {h items ts0 o id ws k n sels body} (R : Reach U ts0 (AtText h items ts0)) (ho : Gr '{' o)
    (hi : id.tokenType = .identifier) (hu : U ∨ id.string ∉ h.pn ++ patNames items) (hb : Blank ws)
    (hk : k.tokenType = .identifier) (hn : n = ts0.length + 3 + ws.length) (hbody : KwBody n sels body) :
    Reach U (ts0 ++ o :: id :: ws ++ k :: body)
      (AtKw h items ⟨ts0.length + 1, id⟩ ⟨ts0.length + 2 + ws.length, k⟩ sels (ts0 ++ o :: id :: ws ++ k :: body)) := by
  induction hbody with
  | nil =>
    refine (reach_pat R ho hi hu ws hb).one fun s A => ?_
    obtain ⟨s', h1, h2⟩ := pat_ident A hk
    have : (ts0 ++ o :: id :: ws).length = ts0.length + 2 + ws.length := by simp; omega
    rw [this] at h2
    exact ⟨s', h1, h2⟩
  | @skip sels ts t _ ht ih =>
    have := ih.one fun s A => kw_skip A ht
    have e : ts0 ++ o :: id :: ws ++ k :: ts ++ [t] = ts0 ++ o :: id :: ws ++ k :: (ts ++ [t]) := by simp
    rwa [e] at this
  | @selector sels ts a hh b _ ha hx hbb ih =>
    have := ih.three (t := a) (u := hh) (v := b) fun s A => by
      obtain ⟨f, e1, e2⟩ := kw_ident A ha
      obtain ⟨g, e3, e4⟩ := (e2 hh).2 hx
      obtain ⟨s', e5, e6⟩ := (e4 b).2 hbb
      exact ⟨f, e1, g, e3, s', e5, e6⟩
    have e : ts0 ++ o :: id :: ws ++ k :: ts ++ [a, hh, b] = ts0 ++ o :: id :: ws ++ k :: (ts ++ [a, hh, b]) := by simp
    have hl : (ts0 ++ o :: id :: ws ++ k :: ts).length = n + ts.length := by simp; omega
    rw [e, hl] at this
    exact this

theorem reach_cmd {h items ts0 o hh n parts body} (R : Reach U ts0 (AtText h items ts0)) (ho : Gr '{' o)
    (hh' : Gr '#' hh) (hn : n = ts0.length + 2) (hb : CmdBody n parts body) :
    Reach U (ts0 ++ o :: hh :: body) (AtCmd h items parts (ts0 ++ o :: hh :: body)) := by
  induction hb with
  | nil =>
    refine R.two fun s F => ?_
    obtain ⟨k, h1, h2⟩ := text_open F ho
    obtain ⟨s1, h3, F1, hgr⟩ := h2 hh
    obtain ⟨s', h4, F2⟩ := start_cmd F1 hh (ts0.length + 1) hh'
    refine ⟨k, h1, Or.inl ⟨s', by rw [h3, h4], ⟨?_, hgr⟩⟩⟩
    rw [patNames_cmd]
    exact F2
  | blank _ ht ih =>
    have := ih.one fun s A => cmd_blank A ht
    simpa using this
  | @ident parts ts t _ ht ih =>
    have := ih.one fun s A => cmd_ident A ht
    have hl : (ts0 ++ o :: hh :: ts).length = n + ts.length := by simp; omega
    rw [hl] at this
    simpa using this
  | @hash p ts t _ ht ih =>
    have := ih.one fun s A => cmd_hash A ht
    have hl : (ts0 ++ o :: hh :: ts).length = n + ts.length := by simp; omega
    rw [hl] at this
    simpa using this

theorem reach_pattern {h items ts it w n} (R : Reach U ts (AtText h items ts)) (hp : Pattern n it w)
    (hn : n = ts.length) (hu : U ∨ (h.pn ++ patNames (items ++ [it])).Nodup) :
    Reach U (ts ++ w) (AtText h (items ++ [it]) (ts ++ w)) := by
  subst hn
  cases hp with
  | @simple o id ws c ho hi hb hc =>
    rw [patNames_kw, ← List.append_assoc, List.nodup_append] at hu
    have hu' : U ∨ id.string ∉ h.pn ++ patNames items :=
      hu.imp_right fun hu hm => hu.2.2 _ hm _ (List.mem_singleton.2 rfl) rfl
    have := (reach_pat R ho hi hu' ws hb).one fun s A => pat_close A hc
    simpa using this
  | @keyword o id ws k sels body c ho hi hb hk hbody hc =>
    rw [patNames_kw, ← List.append_assoc, List.nodup_append] at hu
    have hu' : U ∨ id.string ∉ h.pn ++ patNames items :=
      hu.imp_right fun hu hm => hu.2.2 _ hm _ (List.mem_singleton.2 rfl) rfl
    have := (reach_kw R ho hi hu' hb hk rfl hbody).one fun s A => kw_close A hc
    simpa using this
  | @command o hh parts body c ho hh' hbody hp he hc =>
    have := (reach_cmd R ho hh' rfl hbody).one fun s A => cmd_close A hc he hp
    simpa using this

theorem nodup_left {α : Type} {a b : List α} (h : (a ++ b).Nodup) : a.Nodup := (List.nodup_append.1 h).1

/-- Continue an open string; the empty content is excluded where the parser has not opened the string yet. -/
theorem reach_content {h : Home} {ts0 : List Token} {n : Nat} (hn : n = ts0.length) {ok : List Token → Prop}
    (hok : ∀ a b, a ≠ [] → ok (a ++ b) → ok a)
    (h0 : ok [] → Reach U ts0 (AtText h [] ts0))
    (h1 : ∀ t, t.tokenType ≠ .grammar → ok [t] →
      Reach U (ts0 ++ [t]) (AtText h [.text [⟨n, t⟩]] (ts0 ++ [t])))
    (h2 : ∀ t, h.isSub = true → Gr '#' t → ok [t] →
      Reach U (ts0 ++ [t]) (AtText h [.number ⟨n, t⟩] (ts0 ++ [t])))
    (h3 : ∀ t r, Gr '`' t ∨ Gr '{' t → ok (t :: r) → ok [])
    {items body} (hc : Content h.isSub n items body) :
    ok body → U ∨ (h.pn ++ patNames items).Nodup → Reach U (ts0 ++ body) (AtText h items (ts0 ++ body)) := by
  have nilItems : ∀ {sub items body}, Content sub n items body → body = [] → items = [] := by
    intro sub items body hc e
    cases hc with
    | nil => rfl
    | plain => simp at e
    | escaped => simp at e
    | number => simp at e
    | @pattern items ts it w hc hp =>
      cases hp <;> simp at e
  induction hc with
  | nil =>
    intro hk _
    simpa using h0 hk
  | @plain items ts t hc ht ih =>
    intro hk hu
    rw [patNames_pushText] at hu
    by_cases he : ts = []
    · obtain rfl := nilItems hc he
      subst he
      exact h1 t ht hk
    · have := (ih (hok _ _ he hk) hu).one fun s F => text_plain F ht
      have hl : (ts0 ++ ts).length = n + ts.length := by simp [hn]
      rw [hl] at this
      rwa [List.append_assoc] at this
  | @escaped items ts e t hc ht ih =>
    intro hk hu
    rw [patNames_pushText] at hu
    have hk' : ok ts := by
      by_cases he : ts = []
      · subst he; exact h3 e _ (Or.inl ht) hk
      · exact hok _ _ he hk
    have := (ih hk' hu).two (t := e) (u := t) fun s F => by
      obtain ⟨k, e1, e2⟩ := text_escape F ht
      exact ⟨k, e1, Or.inl (e2 t)⟩
    have hl : (ts0 ++ ts).length = n + ts.length := by simp [hn]
    rw [hl] at this
    rwa [List.append_assoc] at this
  | @number items ts t hc hs hnum ht ih =>
    intro hk hu
    rw [patNames_append] at hu
    by_cases he : ts = []
    · obtain rfl := nilItems hc he
      subst he
      exact h2 t hs ht hk
    · have hu' : U ∨ (h.pn ++ patNames items).Nodup := by
        rw [← List.append_assoc] at hu; exact hu.imp_right nodup_left
      cases h with
      | main => cases hs
      | sub m ns id =>
        have := (ih (hok _ _ he hk) hu').one fun s F => sub_hash F ht hnum
        have hl : (ts0 ++ ts).length = n + ts.length := by simp [hn]
        rw [hl] at this
        rwa [List.append_assoc] at this
  | @pattern items ts it w hc hp ih =>
    intro hk hu
    have hk' : ok ts := by
      by_cases he : ts = []
      · subst he
        cases hp with
        | simple ho => exact h3 _ _ (Or.inr ho) hk
        | keyword ho => exact h3 _ _ (Or.inr ho) hk
        | command ho => exact h3 _ _ (Or.inr ho) hk
      · exact hok _ _ he hk
    have hu' : U ∨ (h.pn ++ patNames items).Nodup := by
      rw [patNames_append, ← List.append_assoc] at hu; exact hu.imp_right nodup_left
    have := reach_pattern (ih hk' hu') hp (by simp [hn]) hu
    rwa [List.append_assoc] at this

theorem reach_main {items ts} (hc : Content false 0 items ts) (hu : U ∨ (patNames items).Nodup) :
    Reach U ts (AtText .main items ts) := by
  have base : Reach U [] (AtText .main [] []) := Or.inl ⟨_, rfl, init_text⟩
  have := reach_content (h := .main) (ts0 := []) (n := 0) rfl (ok := fun _ => True) (fun _ _ _ _ => trivial)
    (fun _ => base) (fun t ht _ => base.one fun s F => text_plain F ht) (fun t h => by cases h)
    (fun _ _ _ _ => trivial) hc trivial (by simpa [Home.pn] using hu)
  simpa using this

/-- `{id` and spaces in the group. -/
theorem reach_ns {m ns ts o id w} (R : Reach U ts (AtGrp m ns ts)) (ho : Gr '{' o) (hi : id.tokenType = .identifier)
    (hw : w.tokenType = .whiteSpace) (hu : U ∨ id.string ∉ ns.map (fun n => n.id.tok.string)) (ws : List Token) :
    Blank ws → Reach U (ts ++ o :: id :: w :: ws) (AtNs m ns (some ⟨ts.length + 1, id⟩) (ts ++ o :: id :: w :: ws)) := by
  induction ws using snocInduction with
  | nil =>
    intro _
    have := (R.one fun s A => grp_open A ho).more (us := [id, w])
      (Q := AtNs m ns (some ⟨ts.length + 1, id⟩) (ts ++ o :: id :: w :: [])) fun s A => by
      by_cases hm : id.string ∈ ns.map (fun n => n.id.tok.string)
      · right
        have e1 := (ns0_ident A hi).1 hm
        exact ⟨hu.resolve_right (fun h => h hm), .uniqueNamed id.string, by simp only [Step.drive, e1], trivial⟩
      · left
        obtain ⟨k, e1, e2⟩ := (ns0_ident A hi).2 hm
        obtain ⟨s', e3, e4⟩ := (e2 w).1 hw
        exact ⟨s', by simp only [Step.drive, e1, e3], by simpa using e4⟩
    simpa using this
  | snoc ws t ih =>
    intro hb
    obtain ⟨hb, ht⟩ := Blank.init hb
    have := (ih hb).one fun s A => ns1_blank A ht
    simpa using this

theorem reach_group {m ts0 h ns gs n} (hc : Content false 0 m ts0) (hg : Gr '#' h) (hn : n = ts0.length + 1)
    (hgs : Group n ns gs) :
    U ∨ (patNames m ++ (ns.map fun n => patNames n.items).flatten).Nodup →
    U ∨ (ns.map fun n => n.id.tok.string).Nodup → Reach U (ts0 ++ h :: gs) (AtGrp m ns (ts0 ++ h :: gs)) := by
  induction hgs with
  | nil =>
    intro hu _
    exact (reach_main hc (by simpa using hu)).one fun s F => text_group F hg
  | blank _ ht ih =>
    intro hu hv
    have := (ih hu hv).one fun s A => grp_blank A ht
    simpa using this
  | @named ns ts o id w ws items body c _ ho hi hw hb hst hcont hcl ih =>
    intro hu hv
    rw [List.map_append, List.flatten_append, ← List.append_assoc] at hu
    rw [List.map_append] at hv
    have hu1 := hu.imp_right nodup_left
    have hv1 := hv.imp_right nodup_left
    have hnew : U ∨ id.string ∉ ns.map (fun n => n.id.tok.string) := hv.imp_right fun hv hm =>
      (List.nodup_append.1 hv).2.2 _ hm _ (List.mem_singleton.2 rfl) rfl
    have R := reach_ns (ih hu1 hv1) ho hi hw hnew ws hb
    have hlen : (ts0 ++ h :: ts ++ o :: id :: w :: ws).length = n + ts.length + 3 + ws.length := by simp; omega
    have hidx : (ts0 ++ h :: ts).length + 1 = n + ts.length + 1 := by simp; omega
    rw [hidx] at R
    have R2 := reach_content (h := .sub m ns ⟨n + ts.length + 1, id⟩) (ts0 := ts0 ++ h :: ts ++ o :: id :: w :: ws)
      (n := n + ts.length + 3 + ws.length) hlen.symm (ok := Starts)
      (by
        intro a b ha hs
        cases a with
        | nil => exact absurd rfl ha
        | cons x xs => exact hs)
      (fun h => h.elim)
      (by
        intro t ht hs
        rcases hs with hs | hs
        · rw [← hlen]; exact R.one fun s A => ns1_ident A hs
        · exact absurd hs.1 ht)
      (by
        intro t _ ht hs
        rw [← hlen]; exact R.one fun s A => ns1_hash A ht)
      (by
        intro t r ht hs
        rcases hs with hs | hs
        · rcases ht with ht | ht <;> (rw [ht.1] at hs; cases hs)
        · rcases ht with ht | ht <;> (have := ht.2; rw [hs.2] at this; simp at this))
      hcont hst (by simpa [Home.pn] using hu)
    have R3 := R2.one fun s F => sub_close F hcl
    simpa using R3

/-- Every sentence is accepted with the preorder arena of its syntax, or an identifier is repeated. -/
theorem complete_or {d : Doc} {ts : List Token} (h : Sentence d ts) (hp : U ∨ d.patNames.Nodup)
    (hn : U ∨ d.namedNames.Nodup) :
    d.patNames.Nodup ∧ d.namedNames.Nodup ∧
      Tree.ofTokens ts = .ok { tokens := ts, hasGrammar := anyGr ts, lengths := lens ts, nodes := d.arena } ∨
    U ∧ ∃ e, Tree.ofTokens ts = .err e ∧ Unique e := by
  cases h with
  | @plain items ts hc =>
    rcases reach_main (U := U) hc (by simpa [Doc.patNames] using hp) with ⟨s, h1, F⟩ | ⟨hU, e, h1, h2⟩
    · have hnod : s.nodes = Doc.arena ⟨items, none⟩ := F.nodes.trans (Home.arena_eq .main items).symm
      refine Or.inl ⟨by simpa [Home.pn, Doc.patNames] using F.pats.2, by simp [Doc.namedNames], ?_⟩
      simp [Tree.ofTokens, h1, F.nested, Home.nested, F.tokens, F.gram, F.lengths, hnod]
    · exact Or.inr ⟨hU, e, by simp [Tree.ofTokens, h1], h2⟩
  | @group items ts h named gs hc hg hgs =>
    rcases reach_group (U := U) hc hg rfl hgs hp hn with ⟨s, h1, F⟩ | ⟨hU, e, h1, h2⟩
    · have hnod : s.nodes = Doc.arena ⟨items, some named⟩ := by rw [F.nodes, ← Home.group_view]; rfl
      refine Or.inl ⟨F.pats.2, F.named.2, ?_⟩
      simp [Tree.ofTokens, h1, F.nested, F.tokens, F.gram, F.lengths, hnod]
    · exact Or.inr ⟨hU, e, by simp [Tree.ofTokens, h1], h2⟩

theorem complete {d : Doc} {ts : List Token} (h : Sentence d ts) (hp : d.patNames.Nodup) (hn : d.namedNames.Nodup) :
    Tree.ofTokens ts = .ok { tokens := ts, hasGrammar := anyGr ts, lengths := lens ts, nodes := d.arena } :=
  (complete_or (U := False) h (Or.inr hp) (Or.inr hn)).elim (fun h => h.2.2) (fun h => h.1.elim)

/-- A sentence with a repeated identifier is rejected for that reason. -/
theorem complete_dup {d : Doc} {ts : List Token} (h : Sentence d ts) (hd : ¬ (d.patNames.Nodup ∧ d.namedNames.Nodup)) :
    ∃ e, Tree.ofTokens ts = .err e ∧ Unique e :=
  (complete_or (U := True) h (Or.inl trivial) (Or.inl trivial)).elim (fun h => absurd ⟨h.1, h.2.1⟩ hd) (fun h => h.2)

/-- What is accepted is a sentence with unique identifiers. -/
theorem sound {ts : List Token} {tree : Tree} (h : Tree.ofTokens ts = .ok tree) :
    ∃ d, Sentence d ts ∧ d.patNames.Nodup ∧ d.namedNames.Nodup ∧
      tree = { tokens := ts, hasGrammar := anyGr ts, lengths := lens ts, nodes := d.arena } := by
  have hr := run_ok ts
  unfold Tree.ofTokens at h
  cases hd : (Step.done (.ok PState.init)).drive ts with
  | panic => rw [hd] at h; cases h
  | err e => rw [hd] at h; cases h
  | ok s =>
    rw [hd] at h hr
    cases hn : s.nested with
    | cons a b => simp [hn] at h
    | nil =>
      obtain ⟨d, h1, h2, h3, h4, h5, h6, h7⟩ := inv_final hr hn
      refine ⟨d, h1, h2, h3, ?_⟩
      simp only [hn, List.isEmpty_nil, Bool.not_true, Bool.false_eq_true, if_false, Outcome.ok.injEq] at h
      rw [← h, h4, h5, h6, h7]

end Verif.TreeLemmas
