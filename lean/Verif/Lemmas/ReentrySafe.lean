import Verif.Lemmas.ReentryCalls
import Verif.Lemmas.ReentryRun
/-
Helper lemmas: what the making of a formatter asks, the localiser without caching, and results as those of the localiser
without cells.
-/
namespace Verif.ReentryLemmas
open Verif Verif.Spec

variable {D F P S : Type}

theorem talkNew_not (E : TalkEnv D F P) {string : Str} (h : ∀ t, Tree.tryNew E.icu E.grammar string = .ok t → ∀ i, ¬ Delayed t i)
    (tag : Str) (icuLanguage : Option Str) :
    Converses Any (IfOk fun f => NoCommands f.patterns) (talkNew E string tag icuLanguage) := by
  refine Converses.chain (q := fun t => ∀ i, ¬ Delayed t i) ?_ fun t ht => talkTree_not E ht tag icuLanguage
  intro t ht
  cases hx : Tree.tryNew E.icu E.grammar string with
  | ok t' => rw [hx] at ht; cases ht; exact h t hx
  | err e => rw [hx] at ht; cases ht
  | panic => rw [hx] at ht; cases ht

section
variable (E : TalkEnv D F P) {p : Request D F → Prop}
  (hE : ∀ name c, E.commands name = some c → ∀ ps, Converses p (fun _ => True) (c ps)) (t : Tree)

theorem any_value {α : Type} {t : FmtTalk D F P α} (h : Converses p (fun _ => True) t) :
    Converses p (IfOk fun _ => True) t := Converses.weaken h (fun _ h => h) fun x _ => IfOk.any x

theorem chain_asks {α β : Type} {x : FmtTalk D F P α} {k : α → FmtTalk D F P β} (h : Converses p (fun _ => True) x)
    (hk : ∀ a, Converses p (fun _ => True) (k a)) : Converses p (fun _ => True) (x.chain k) :=
  Converses.weaken (Converses.chain (q' := fun _ => True) (any_value h) fun a _ => any_value (hk a)) (fun _ h => h)
    fun _ _ => trivial

include hE

theorem talkPartCommand_asks (i : Nat) : Converses p (fun _ => True) (talkPartCommand E t i) := by
  refine chain_asks trivial fun ⟨delay, name, ps⟩ => ?_
  dsimp only
  split
  · trivial
  · refine chain_asks ?_ fun s => trivial
    unfold talkCommand
    cases hn : E.commands name with
    | none => trivial
    | some c => exact Converses.bind (hE name c hn _) fun _ _ => trivial

theorem talkNamed_asks (lang : Str) (patterns : AMap Str (List PatternPart)) (cs : List Nat) :
    ∀ pattern numbers selectors,
      Converses p (fun _ => True) (talkNamed E lang patterns t cs pattern numbers selectors) := by
  induction cs with
  | nil => intro _ _ _; trivial
  | cons c cs ih =>
    intro pattern numbers selectors
    refine chain_asks trivial fun ty => ?_
    split
    · exact chain_asks trivial fun _ => ih _ _ _
    split
    · exact ih _ _ _
    split
    · exact chain_asks trivial fun _ => ih _ _ _
    split
    · exact chain_asks (talkPartCommand_asks E hE t c) fun _ => ih _ _ _
    · trivial

theorem talkMain_asks (lang : Str) (patterns : AMap Str (List PatternPart)) (cs : List Nat) :
    ∀ pattern selectors, Converses p (fun _ => True) (talkMain E lang patterns t cs pattern selectors) := by
  induction cs with
  | nil => intro _ _; trivial
  | cons c cs ih =>
    intro pattern selectors
    refine chain_asks trivial fun ty => ?_
    split
    · exact chain_asks trivial fun _ => ih _ _
    split
    · exact chain_asks trivial fun _ => ih _ _
    split
    · exact chain_asks (talkPartCommand_asks E hE t c) fun _ => ih _ _
    · trivial

theorem talkGroup_asks (lang : Str) (cs : List Nat) :
    ∀ patterns numbers selectors, Converses p (fun _ => True) (talkGroup E lang t cs patterns numbers selectors) := by
  induction cs with
  | nil => intro _ _ _; trivial
  | cons c cs ih =>
    intro patterns numbers selectors
    refine chain_asks trivial fun name => ?_
    split
    · trivial
    · refine chain_asks trivial fun children => ?_
      exact chain_asks (talkNamed_asks E hE t lang patterns children [] numbers selectors) fun _ => ih _ _ _

theorem talkNew_asks (string tag : Str) (icuLanguage : Option Str) :
    Converses p (fun _ => True) (talkNew E string tag icuLanguage) := by
  refine chain_asks trivial fun t => ?_
  unfold talkTree
  split
  · trivial
  · refine chain_asks trivial fun lang => chain_asks trivial fun ty => ?_
    split
    · trivial
    · refine chain_asks trivial fun rootChildren => ?_
      refine chain_asks ?_ fun x => ?_
      · match rootChildren with
        | [] => trivial
        | [_] => trivial
        | _ :: group :: _ => exact chain_asks trivial fun named => talkGroup_asks E hE t lang named _ _ _
      · refine chain_asks trivial fun children => ?_
        exact chain_asks (talkMain_asks E hE t lang _ children [] _) fun _ => trivial

end

/-! ### Without caching -/

/-- Nothing is cached. -/
def Empty (l : Localiser S) : Prop := l.cache = []

section
variable {L : TalkLocEnv D F P} {scriptOf : Str → S}
  (hL : ∀ name c, L.fmt.commands name = some c → ∀ ps, Converses Uncached (fun _ => True) (c ps))

theorem reLiteral_empty {l : Localiser S} (hl : Empty l) (c i tag : Str) (fallback : Bool) :
    Tri none' off (reLiteral L c i tag fallback false) l (fun _ => Empty) Empty Empty :=
  (reLiteral_uncached L Calm.idle c i tag fallback (K := Empty)).weaken (fun _ _ h => h ▸ hl) (fun _ h => h ▸ hl) fun _ h => h

include hL

theorem reFormat_empty (depth : Nat)
    (ih : ∀ r (l : Localiser S), Uncached r → Empty l →
      Tri none' off (reRequest L scriptOf depth r) l (fun _ => Empty) Empty Empty)
    {l : Localiser S} (hl : Empty l) (c i : Str) (values : AMap Str (PValue D F)) (tag : Str) (fallback : Bool) :
    Tri none' off (reFormat L (reRequest L scriptOf depth) c i values tag fallback false) l (fun _ => Empty) Empty
      Empty := by
  unfold reFormat
  dsimp only
  refine Tri.andThen (Q := fun a l' => a = Sum.inr false ∧ Empty l') (Tri.read rfl ?_) ?_
  · refine Tri.andThen (Q := fun a l' => a = (false, none) ∧ Empty l') (Tri.get ⟨?_, hl⟩) ?_
    · rw [show l.cache = [] from hl]; rfl
    · rintro _ l' ⟨rfl, hl'⟩
      exact Tri.ret ⟨rfl, hl'⟩
  · rintro _ l' ⟨rfl, hl'⟩
    refine Tri.andThen (Q := fun _ => Empty) (Tri.result (fun _ _ => hl') (fun _ _ => hl') fun _ => hl') ?_
    intro a l'' hl''
    cases a with
    | error e => exact Tri.ret hl''
    | ok x =>
      obtain ⟨s, t⟩ := x
      dsimp only
      have hs : ∀ {l : Localiser S} {k}, Empty l → Tri none' off (reString (P := P) false false k s t) l (fun _ => Empty)
          Empty Empty := fun h => Tri.ret h
      split
      · exact hs hl''
      · refine Tri.andThen (Q := fun _ => Empty) (Tri.weaken (converse_tri (p := Uncached) (J := Empty) ih
          (talkNew_asks L.fmt hL s t (L.icuLanguage t)) hl'') (fun _ _ h => h.2) (fun _ h => h) fun _ h => h) ?_
        intro r l3 hl3
        cases r with
        | err e =>
          cases e with
          | noGrammar => exact hs hl3
          | _ => exact Tri.ret hl3
        | panic => exact Tri.result (fun _ _ => hl3) (fun _ _ => hl3) fun _ => hl3
        | ok f =>
          dsimp only
          rw [if_pos (by simp)]
          refine Tri.andThen (converse_tri (p := Uncached) (J := Empty) ih (talkFormat_asks (.inr hL) values) hl3) ?_
          rintro ⟨r, _⟩ l4 ⟨_, hl4⟩
          exact Tri.result (fun _ _ => hl4) (fun _ _ => hl4) fun _ => hl4

set_option linter.unusedSectionVars false in
mutual
theorem reData_empty (depth : Nat)
    (ih : ∀ r (l : Localiser S), Uncached r → Empty l →
      Tri none' off (reRequest L scriptOf depth r) l (fun _ => Empty) Empty Empty)
    (tag : Str) (fallback : Bool) (c i : Str) (values : Option (List (Str × PValue D F))) (l : Localiser S) (hl : Empty l) :
    Tri none' off (reData L (reRequest L scriptOf depth) tag fallback false c i values) l (fun _ => Empty) Empty
      Empty := by
  match values with
  | none => unfold reData; exact reLiteral_empty hl _ _ _ _
  | some vs =>
    unfold reData
    refine Tri.andThen (reValues_empty depth ih tag fallback vs [] l hl) fun r l' hl' => ?_
    cases r with
    | error e => exact Tri.ret hl'
    | ok values => exact reFormat_empty hL depth ih hl' _ _ _ _ _

theorem reValues_empty (depth : Nat)
    (ih : ∀ r (l : Localiser S), Uncached r → Empty l →
      Tri none' off (reRequest L scriptOf depth r) l (fun _ => Empty) Empty Empty)
    (tag : Str) (fallback : Bool) (values : List (Str × PValue D F)) (acc : AMap Str (PValue D F)) (l : Localiser S)
    (hl : Empty l) :
    Tri none' off (reValues L (reRequest L scriptOf depth) tag fallback false values acc) l (fun _ => Empty) Empty
      Empty := by
  match values with
  | [] => unfold reValues; exact Tri.ret hl
  | (name, .localisationData c i vs) :: rest =>
    unfold reValues
    refine Tri.andThen (reData_empty depth ih tag fallback c i vs l hl) fun r l' hl' => ?_
    cases r with
    | error e => exact Tri.ret hl'
    | ok x => exact reValues_empty depth ih tag fallback rest _ l' hl'
  | (name, .string s) :: rest => unfold reValues; exact reValues_empty depth ih tag fallback rest _ l hl
  | (name, .integer s) :: rest => unfold reValues; exact reValues_empty depth ih tag fallback rest _ l hl
  | (name, .unsigned s) :: rest => unfold reValues; exact reValues_empty depth ih tag fallback rest _ l hl
  | (name, .float s) :: rest => unfold reValues; exact reValues_empty depth ih tag fallback rest _ l hl
  | (name, .taggedString s t) :: rest => unfold reValues; exact reValues_empty depth ih tag fallback rest _ l hl
  | (name, .localised s t) :: rest => unfold reValues; exact reValues_empty depth ih tag fallback rest _ l hl
  | (name, .fixedDecimal s) :: rest => unfold reValues; exact reValues_empty depth ih tag fallback rest _ l hl
  | (name, .dateTime s t) :: rest => unfold reValues; exact reValues_empty depth ih tag fallback rest _ l hl
  | (name, .date s) :: rest => unfold reValues; exact reValues_empty depth ih tag fallback rest _ l hl
  | (name, .time s) :: rest => unfold reValues; exact reValues_empty depth ih tag fallback rest _ l hl
end

theorem reRequest_empty (depth : Nat) : ∀ r (l : Localiser S), Uncached r → Empty l →
    Tri none' off (reRequest L scriptOf depth r) l (fun _ => Empty) Empty Empty := by
  induction depth with
  | zero => intro r l _ hl; exact ⟨rfl, rfl, hl⟩
  | succ depth ih =>
    intro r l hr hl
    cases r with
    | format c i vs tag fallback caching =>
      cases hr
      exact reOptions_tri Calm.idle (Tri.andThen (reFormat_empty hL depth ih hl _ _ _ _ _) fun _ _ h => Tri.ret h)
    | literal c i tag fallback caching =>
      cases hr
      exact reOptions_tri Calm.idle (Tri.andThen (reLiteral_empty hl _ _ _ _) fun _ _ h => Tri.ret h)
    | data c i vs tag fallback caching =>
      cases hr
      exact reOptions_tri Calm.idle (Tri.andThen (reData_empty hL depth ih _ _ _ _ _ l hl) fun _ _ h => Tri.ret h)
    | defaults tag fallback caching =>
      refine Tri.andThen (reDefaults_tri Calm.idle scriptOf tag fallback caching) ?_
      rintro _ _ rfl
      refine Tri.ret ?_
      unfold Empty
      rw [setDefaults_cache]
      exact hl

end

/-! ### Results -/

theorem Tri.idle {α : Type} {x : ReM S α} {l : Localiser S} {Q : α → Localiser S → Prop} {J K : Localiser S → Prop}
    (h : Tri none' off x l Q J K) : (x (ReState.idle l)).1 ≠ .conflict ∧ ∃ l', (x (ReState.idle l)).2 = ReState.idle l' := by
  obtain ⟨h1, h2, h3⟩ := h
  refine ⟨fun h => ?_, (x (ReState.idle l)).2.loc, ?_⟩
  · have h : (x ⟨l, none', off⟩).1 = .conflict := h
    rw [h] at h3
    exact h3
  · show (x ⟨l, none', off⟩).2 = ⟨(x ⟨l, none', off⟩).2.loc, none', off⟩
    have : ∀ s : ReState S, s.shared = none' → s.exclusive = off → s = ⟨s.loc, none', off⟩ := by
      rintro ⟨_, _, _⟩ rfl rfl
      rfl
    exact this _ h1 h2

/-- Whatever the code ends with, the invariant holds. -/
theorem Tri.after {α : Type} {x : ReM S α} {l : Localiser S} {J : Localiser S → Prop}
    (h : Tri none' off x l (fun _ => J) J J) :
    (x (ReState.idle l)).1 ≠ .conflict ∧ ∃ l', (x (ReState.idle l)).2 = ReState.idle l' ∧ J l' := by
  obtain ⟨hc, l', hl'⟩ := h.idle
  refine ⟨hc, l', hl', ?_⟩
  have h3 := h.2.2
  have hl : (x ⟨l, none', off⟩).2.loc = l' := by
    have := congrArg ReState.loc hl'
    exact this
  rw [hl] at h3
  cases hx : (x ⟨l, none', off⟩).1 with
  | conflict => exact absurd hx hc
  | _ => rw [hx] at h3; exact h3

theorem Gives.answer {tag : Option Str} {fallback caching : Option Bool}
    {l : Localiser S} {x : Str → Bool → Bool → ReM S (Except (LocErr P) (Str × Str))} {r : LocM P (Str × Str) × Localiser S}
    (h : Gives none' off (x (tag.getD l.tag) (fallback.getD l.fallback) (caching.getD l.caching)) l r) :
    reOptions tag fallback caching (fun t fb ca => (x t fb ca).andThen fun r => .ret (some r)) (ReState.idle l) =
      (asRun (some r.1), ReState.idle r.2) := by
  have h1 : Tri none' off (reOptions tag fallback caching fun t fb ca => (x t fb ca).andThen fun r => ReM.ret (some r)) l
      (fun a l' => ∃ y, a = some y ∧ r = (toLoc y, l')) (fun l' => r = (.panic, l')) (fun _ => False) :=
    reOptions_tri Calm.idle (Tri.andThen h fun a l' h => Tri.ret ⟨a, rfl, h⟩)
  obtain ⟨hc, l', hl'⟩ := h1.idle
  have h3 := h1.2.2
  generalize reOptions tag fallback caching (fun t fb ca => (x t fb ca).andThen fun r => ReM.ret (some r)) = y at *
  have hl : (y ⟨l, none', off⟩).2.loc = l' := congrArg ReState.loc hl'
  rw [hl] at h3
  refine Prod.ext ?_ ?_
  · show (y ⟨l, none', off⟩).1 = _
    cases hx : (y ⟨l, none', off⟩).1 with
    | conflict => exact absurd hx hc
    | deep => rw [hx] at h3; exact h3.elim
    | panic => rw [hx] at h3; have h3 : r = (.panic, l') := h3; rw [h3]; rfl
    | value a =>
      rw [hx] at h3
      obtain ⟨y, rfl, h3⟩ := h3
      rw [h3]
      cases y <;> rfl
  · rw [hl']
    dsimp only
    congr 1
    cases hx : (y ⟨l, none', off⟩).1 with
    | conflict => exact absurd hx hc
    | deep => rw [hx] at h3; exact h3.elim
    | panic => rw [hx] at h3; have h3 : r = (.panic, l') := h3; rw [h3]
    | value a =>
      rw [hx] at h3
      obtain ⟨y, rfl, h3⟩ := h3
      rw [h3]

theorem reCall_plain (L : LocEnv D F P) (scriptOf : Str → S) (ask : Request D F → ReM S (Answer P)) (r : Request D F)
    (l : Localiser S) : reCall (talkLoc L) ask scriptOf r (ReState.idle l) =
      (asRun (l.call L scriptOf r).1, ReState.idle (l.call L scriptOf r).2) := by
  cases r with
  | format c i vs tag fallback caching =>
    exact Gives.answer (reFormat_gives L ask FreeCells.idle rfl _ _ _ _ _ _)
  | literal c i tag fallback caching =>
    exact Gives.answer (x := fun t fb ca => reLiteral (talkLoc L) c i t fb ca)
      (reLiteral_gives L FreeCells.idle rfl _ _ _ _ _)
  | data c i vs tag fallback caching =>
    exact Gives.answer (x := fun t fb ca => reData (talkLoc L) ask t fb ca c i vs)
      (reData_gives L ask FreeCells.idle rfl _ _ _ _ _ _ _)
  | defaults tag fallback caching =>
    have h1 : Tri none' off (reCall (talkLoc L) ask scriptOf (.defaults tag fallback caching)) l
        (fun a l' => a = none ∧ l' = l.setDefaults scriptOf tag fallback caching) (fun _ => False) (fun _ => False) :=
      Tri.andThen (reDefaults_tri Calm.idle scriptOf tag fallback caching) fun _ l' h => Tri.ret ⟨rfl, h⟩
    obtain ⟨hc, l', hl'⟩ := h1.idle
    have h3 := h1.2.2
    generalize reCall (talkLoc L) ask scriptOf (.defaults tag fallback caching) = y at *
    have hl : (y ⟨l, none', off⟩).2.loc = l' := congrArg ReState.loc hl'
    rw [hl] at h3
    cases hx : (y ⟨l, none', off⟩).1 with
    | conflict => exact absurd hx hc
    | deep => rw [hx] at h3; exact h3.elim
    | panic => rw [hx] at h3; exact h3.elim
    | value a =>
      rw [hx] at h3
      obtain ⟨rfl, rfl⟩ := h3
      exact Prod.ext hx hl'

end Verif.ReentryLemmas
