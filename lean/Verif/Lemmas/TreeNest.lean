import Verif.Lemmas.TreeComplete
/-
Only a closing brace leaves a nested state of the parser.
-/
namespace Verif.TreeLemmas
open Verif Verif.Spec

/-- If the action succeeds then its result satisfies `P`. -/
def Post {α : Type} (P : α → Prop) (x : TreeM α) : Prop := ∀ a, x = .ok a → P a

theorem Post.bind {α β : Type} {P : α → Prop} {Q : β → Prop} {x : TreeM α} {f : α → TreeM β} (h : Post P x)
    (g : ∀ a, P a → Post Q (f a)) : Post Q (x >>= f) := by
  intro b hb
  cases x with
  | ok a => exact g a (h a rfl) b hb
  | err e => cases hb
  | panic => cases hb

theorem Post.ok {α : Type} {P : α → Prop} {a : α} (h : P a) : Post P (.ok a) := by
  intro b hb; cases hb; exact h

theorem Post.pure {α : Type} {P : α → Prop} {a : α} (h : P a) : Post P (Pure.pure a) := Post.ok h

theorem Post.err {α : Type} {P : α → Prop} {e : TreeError} : Post (α := α) P (.err e) := by
  intro b hb; cases hb

theorem Post.triv {α : Type} {x : TreeM α} : Post (fun _ => True) x := fun _ _ => trivial

theorem Post.mono {α : Type} {P Q : α → Prop} {x : TreeM α} (h : Post P x) (g : ∀ a, P a → Q a) : Post Q x :=
  fun a ha => g a (h a ha)

/-- The nested states are `n`. -/
def Nst (n : List ParserState) (s : PState) : Prop := s.nested = n

variable {n : List ParserState} {s : PState}

theorem nst_move (h : Nst n s) : Post (Nst n) s.moveToContainer := by
  unfold PState.moveToContainer
  refine Post.bind Post.triv fun c _ => Post.bind Post.triv fun node _ => ?_
  split
  · exact Post.pure h
  · exact Post.pure h

theorem nst_create (h : Nst n s) (ty) : Post (Nst n) (s.createNode ty) := by
  unfold PState.createNode
  refine Post.bind (nst_move h) fun s' h' => Post.bind Post.triv fun c _ => Post.bind Post.triv fun p _ => ?_
  exact Post.pure h'

theorem nst_pushTok (h : Nst n s) (i) : Post (Nst n) (s.pushTokenToCurrent i) := by
  unfold PState.pushTokenToCurrent
  refine Post.bind Post.triv fun c _ => Post.bind Post.triv fun p _ => Post.bind Post.triv fun q _ => ?_
  exact Post.pure h

theorem nst_createAdd (h : Nst n s) (ty i) : Post (Nst n) (s.createNodeAddToken ty i) := by
  unfold PState.createNodeAddToken
  exact Post.bind (nst_create h ty) fun s' h' => nst_pushTok h' i

theorem nst_add (h : Nst n s) (ty i) : Post (Nst n) (s.addToken ty i) := by
  unfold PState.addToken
  refine Post.bind Post.triv fun c _ => Post.bind Post.triv fun p _ => ?_
  split
  · exact nst_pushTok h i
  · exact nst_createAdd h ty i

/-- Some nested state is open. -/
def Open (s : PState) : Prop := s.nested ≠ []

theorem Open.nst (h : Open s) : ∃ n, n ≠ [] ∧ Nst n s := ⟨s.nested, h, rfl⟩

theorem open_move (h : Open s) : Post Open s.moveToContainer :=
  (nst_move (n := s.nested) rfl).mono fun a (e : a.nested = s.nested) => by unfold Open; rw [e]; exact h

theorem open_create (h : Open s) (ty) : Post Open (s.createNode ty) :=
  (nst_create (n := s.nested) rfl ty).mono fun a (e : a.nested = s.nested) => by unfold Open; rw [e]; exact h

theorem open_createAdd (h : Open s) (ty i) : Post Open (s.createNodeAddToken ty i) :=
  (nst_createAdd (n := s.nested) rfl ty i).mono fun a (e : a.nested = s.nested) => by unfold Open; rw [e]; exact h

theorem open_add (h : Open s) (ty i) : Post Open (s.addToken ty i) :=
  (nst_add (n := s.nested) rfl ty i).mono fun a (e : a.nested = s.nested) => by unfold Open; rw [e]; exact h

theorem open_patternStart (t i) : Post Open (s.patternStart t i) := by
  unfold PState.patternStart
  split
  · refine Post.bind Post.triv fun s1 _ => ?_
    split
    · exact Post.err
    · refine Post.bind Post.triv fun c _ => Post.bind Post.triv fun s2 _ => Post.bind Post.triv fun s3 _ => ?_
      exact Post.pure (List.cons_ne_nil _ _)
  · split
    · split
      · exact Post.bind Post.triv fun s1 _ => Post.pure (List.cons_ne_nil _ _)
      · split
        · exact Post.bind Post.triv fun s1 _ => Post.pure (List.cons_ne_nil _ _)
        · exact Post.err
    · exact Post.err

/-- Every result of the step has an open nested state. -/
inductive SOpen : Step → Prop
  | done {r} : Post Open r → SOpen (.done r)
  | need {k} : (∀ t, SOpen (k t)) → SOpen (.need k)

theorem sopen_andThen {α : Type} {x : TreeM α} {P : α → Prop} {k : α → Step} (h : Post P x)
    (g : ∀ a, P a → SOpen (k a)) : SOpen (Step.andThen x k) := by
  cases x with
  | ok a => exact g a (h a rfl)
  | err e => exact .done Post.err
  | panic => exact .done (fun _ h => by cases h)

theorem sopen_err {e} : SOpen (.done (.err e)) := .done Post.err

theorem sopen_step {t : Token} (h : Open s) (ht : ¬ Gr '}' t) : SOpen (s.step t) := by
  have key : ∀ s : PState, Open s → ∀ cur, SOpen (match s.state with
      | .string => s.stepString t cur
      | .subString => s.stepSubString t cur
      | .pattern => s.stepPattern t cur
      | .keyword => s.stepKeyword t cur
      | .literalText => s.stepLiteralText t cur
      | .literal => s.stepLiteral t
      | .command => s.stepCommand t cur
      | .namedString => s.stepNamedString t cur
      | .namedGroup => s.stepNamedGroup t) := by
    intro s h cur
    cases s.state with
    | string =>
      simp only [PState.stepString]
      split
      · split
        · exact .need fun t => .done (open_add (by exact h) _ _)
        · split
          · exact .need fun t => .done (open_patternStart _ _)
          · split
            · exact .done (Post.bind (open_create (by exact h) _) fun a ha => Post.pure ha)
            · exact sopen_err
      · exact .done (open_add (by exact h) _ _)
    | subString =>
      simp only [PState.stepSubString]
      split
      next hg =>
        split
        · refine .done (Post.bind Post.triv fun b _ => ?_)
          split
          · exact Post.err
          · exact open_createAdd (by exact h) _ _
        · split
          · exact .need fun t => .done (open_add (by exact h) _ _)
          · split
            · exact .need fun t => .done (open_patternStart _ _)
            · split
              next hs => exact absurd ⟨hg, hs⟩ ht
              next => exact sopen_err
      next => exact .done (open_add (by exact h) _ _)
    | pattern =>
      simp only [PState.stepPattern]
      split
      · exact .done (Post.bind (open_createAdd (by exact h) _ _) fun a ha => Post.bind (open_move ha) fun b hb => Post.pure hb)
      · split
        · exact .done (Post.ok h)
        · split
          next hg =>
            split
            next => exact sopen_err
            next hs => exact absurd ⟨hg, Classical.not_not.1 hs⟩ ht
          next => exact sopen_err
    | keyword =>
      simp only [PState.stepKeyword]
      split
      · refine sopen_andThen (P := Open) (Post.bind (open_create (by exact h) _) fun a ha => Post.bind (open_add ha _ _)
          fun b hb => open_move hb) fun a ha => .need fun t => ?_
        dsimp only
        split
        · exact sopen_err
        · refine .need fun t => ?_
          dsimp only
          split
          · exact sopen_err
          · refine .done (Post.bind (open_add (by exact ha) _ _) fun b hb => Post.bind (open_move hb) fun c hc =>
              Post.bind Post.triv fun d _ => Post.bind Post.triv fun e _ => Post.pure hc)
      · split
        · exact .done (Post.ok h)
        · split
          next hg =>
            split
            next hs => exact absurd ⟨hg, hs⟩ ht
            next => exact .done (Post.ok h)
          next => exact sopen_err
    | literalText =>
      simp only [PState.stepLiteralText]
      split
      next hc =>
        refine .need fun t' => ?_
        dsimp only
        rw [if_pos hc.2]
        exact .done (open_add (by exact h) _ _)
      next => exact .done (open_add (by exact h) _ _)
    | literal =>
      simp only [PState.stepLiteral]
      split
      next hc => exact absurd hc ht
      next => exact sopen_err
    | command =>
      simp only [PState.stepCommand]
      split
      · exact .done (Post.bind (open_createAdd (by exact h) _ _) fun a ha => open_move ha)
      · split
        next hg =>
          split
          next hs => exact absurd ⟨hg, hs⟩ ht
          next =>
            split
            · exact .need fun t => .done (Post.bind Post.triv fun a _ => Post.pure (List.cons_ne_nil _ _))
            · split
              · refine .done (Post.bind Post.triv fun a _ => ?_)
                split
                · exact Post.err
                · exact open_createAdd (by exact h) _ _
              · exact sopen_err
        next =>
          split
          · exact .done (Post.ok h)
          · exact sopen_err
    | namedString =>
      simp only [PState.stepNamedString]
      split
      · refine sopen_andThen Post.triv fun len _ => ?_
        split
        · split
          · exact sopen_err
          · refine sopen_andThen (P := Open) (Post.bind (open_createAdd (by exact h) _ _) fun a ha => open_move ha)
              fun a ha => .need fun t => ?_
            dsimp only
            split
            · exact .done (Post.ok ha)
            · exact sopen_err
        · split
          · exact .done (Post.bind Post.triv fun a _ => Post.bind (open_createAdd (by exact List.cons_ne_nil _ _) _ _)
              fun b hb => Post.pure hb)
          · exact sopen_err
      · split
        · split
          · refine .done (Post.bind Post.triv fun a _ => ?_)
            split
            · exact Post.err
            · exact Post.bind Post.triv fun a _ => Post.bind (open_createAdd (by exact List.cons_ne_nil _ _) _ _)
                fun b hb => Post.pure hb
          · split
            · refine sopen_andThen Post.triv fun len _ => ?_
              split
              · exact sopen_err
              · exact .need fun t => .done (open_patternStart _ _)
            · split
              · refine sopen_andThen Post.triv fun len _ => ?_
                split
                · exact sopen_err
                · exact .need fun t => .done (Post.bind Post.triv fun a _ => open_createAdd (by exact List.cons_ne_nil _ _) _ _)
              · exact sopen_err
        · split
          · refine .done (Post.bind Post.triv fun len _ => ?_)
            split
            · exact Post.err
            · exact Post.bind Post.triv fun a _ => open_createAdd (by exact List.cons_ne_nil _ _) _ _
          · refine .done (Post.bind Post.triv fun len _ => ?_)
            split
            · exact Post.err
            · exact Post.pure h
    | namedGroup =>
      simp only [PState.stepNamedGroup]
      split
      · split
        · exact sopen_err
        · exact .done (Post.bind Post.triv fun a _ => Post.pure (List.cons_ne_nil _ _))
      · split
        · exact .done (Post.ok h)
        · exact sopen_err
  unfold PState.step
  refine key _ ?_ _
  split <;> exact h

theorem sopen_drive : ∀ (ts : List Token) (st : Step), SOpen st → (∀ t ∈ ts, ¬ Gr '}' t) →
    Post Open (st.drive ts) := by
  intro ts
  induction ts with
  | nil =>
    intro st h _
    cases h with
    | @done r h =>
      cases r with
      | ok s => exact h
      | err e => exact Post.err
      | panic => exact h
    | need h => exact Post.err
  | cons t ts ih =>
    intro st h hb
    have hb' := fun x hx => hb x (List.mem_cons_of_mem _ hx)
    cases h with
    | @done r h =>
      cases r with
      | ok s => exact ih _ (sopen_step (h s rfl) (hb t List.mem_cons_self)) hb'
      | err e => exact Post.err
      | panic => exact fun _ h => by cases h
    | need h => exact ih _ (h t) hb'

/-- A run that ends with an open nested state is not accepted. -/
theorem not_accepted {ts : List Token} {tree : Tree} (h : Post Open ((Step.done (.ok PState.init)).drive ts)) :
    Tree.ofTokens ts ≠ .ok tree := by
  intro ht
  unfold Tree.ofTokens at ht
  cases hd : (Step.done (.ok PState.init)).drive ts with
  | ok s =>
    rw [hd] at ht
    have := h s hd
    cases hn : s.nested with
    | nil => exact this hn
    | cons a b => simp [hn] at ht
  | err e => rw [hd] at ht; cases ht
  | panic => rw [hd] at ht; cases ht

theorem opened_then_closed {pre rest : List Token} {o : Token} {tree : Tree} (ho : Gr '{' o)
    (hpre : (∃ items, Content false 0 items pre) ∨ (∃ items ns, GrpHist items ns pre))
    (h : Tree.ofTokens (pre ++ o :: rest) = .ok tree) : ∃ t ∈ rest, Gr '}' t := by
  apply Classical.byContradiction
  intro hno
  have hb : ∀ t ∈ rest, ¬ Gr '}' t := fun t ht hg => hno ⟨t, ht, hg⟩
  refine not_accepted ?_ h
  have dead : ∀ e, Unique e → (Step.done (.ok PState.init)).drive pre = .err e →
      Post Open ((Step.done (.ok PState.init)).drive (pre ++ o :: rest)) := by
    intro e hu he
    rw [drive_append_err pre _ _ e (by rintro rfl; exact hu) he]
    exact Post.err
  rcases hpre with ⟨items, hc⟩ | ⟨items, ns, ts0, g, gs, rfl, hc, hg, hgs⟩
  · rcases reach_main (U := True) hc (Or.inl trivial) with ⟨s, h1, F⟩ | ⟨_, e, h1, h2⟩
    · rw [drive_append _ _ _ _ h1]
      obtain ⟨k, h2, h3⟩ := text_open F ho
      simp only [Step.drive, h2]
      refine sopen_drive _ _ (.need fun t => ?_) hb
      obtain ⟨s1, h4, _⟩ := h3 t
      rw [h4]
      exact .done (open_patternStart _ _)
    · exact dead e h2 h1
  · rcases reach_group (U := True) hc hg rfl hgs (Or.inl trivial) (Or.inl trivial) with ⟨s, h1, F⟩ | ⟨_, e, h1, h2⟩
    · rw [drive_append _ _ _ _ h1]
      obtain ⟨s', h2, F'⟩ := grp_open F ho
      simp only [Step.drive, h2]
      refine sopen_drive _ _ (.done (Post.ok ?_)) hb
      show s'.nested ≠ []
      rw [F'.nested]
      simp
    · exact dead e h2 h1

end Verif.TreeLemmas
