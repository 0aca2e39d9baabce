import Verif.Lemmas.ReentryRun
import Verif.Spec.Reentry
/-
Helper lemmas: which calls of commands never conflict.
-/
namespace Verif.ReentryLemmas
open Verif Verif.Spec

variable {D F P S : Type}

/-! ### Conversations -/

section
variable {R A α β : Type} {p : R → Prop}

theorem Converses.bind {q : α → Prop} {q' : β → Prop} {t : Talk R A α} {k : α → Talk R A β} (h : Converses p q t)
    (hk : ∀ a, q a → Converses p q' (k a)) : Converses p q' (t.bind k) := by
  induction t with
  | done a => exact hk a h
  | ask r next ih => exact ⟨h.1, fun a => ih a (h.2 a)⟩

theorem Converses.weaken {p' : R → Prop} {q q' : α → Prop} {t : Talk R A α} (h : Converses p q t)
    (hp : ∀ r, p r → p' r) (hq : ∀ a, q a → q' a) : Converses p' q' t := by
  induction t with
  | done a => exact hq a h
  | ask r next ih => exact ⟨hp r h.1, fun a => ih a (h.2 a)⟩

/-- The result, if there is one, satisfies `q`. -/
def IfOk {ε : Type} (q : α → Prop) (x : Outcome ε α) : Prop := ∀ a, x = .ok a → q a

theorem IfOk.ok {ε : Type} {q : α → Prop} {a : α} (h : q a) : IfOk (ε := ε) q (.ok a) := fun _ e => by cases e; exact h

theorem IfOk.err {ε : Type} {q : α → Prop} {e : ε} : IfOk q (.err e : Outcome ε α) := fun _ h => nomatch h

theorem IfOk.panic {ε : Type} {q : α → Prop} : IfOk q (.panic : Outcome ε α) := fun _ h => nomatch h

theorem IfOk.any {ε : Type} (x : Outcome ε α) : IfOk (fun _ => True) x := fun _ _ => trivial

theorem IfOk.bind {ε : Type} {q : α → Prop} {q' : β → Prop} {x : Outcome ε α} {k : α → Outcome ε β} (h : IfOk q x)
    (hk : ∀ a, q a → IfOk q' (k a)) : IfOk q' (x >>= k) := by
  cases x with
  | ok a => exact hk a (h a rfl)
  | err e => exact IfOk.err
  | panic => exact IfOk.panic

theorem Converses.chain {ε : Type} {q : α → Prop} {q' : β → Prop} {t : Talk R A (Outcome ε α)}
    {k : α → Talk R A (Outcome ε β)} (h : Converses p (IfOk q) t) (hk : ∀ a, q a → Converses p (IfOk q') (k a)) :
    Converses p (IfOk q') (t.chain k) := by
  refine Converses.bind h fun x hx => ?_
  cases x with
  | ok a => exact hk a (hx a rfl)
  | err e => exact IfOk.err
  | panic => exact IfOk.panic

end

/-! ### Which parts a formatter has -/

/-- No part is a delayed command. -/
def NoCommand (parts : List PatternPart) : Prop := ∀ strings, PatternPart.command strings ∉ parts

theorem NoCommand.nil : NoCommand [] := fun _ h => nomatch h

theorem NoCommand.snoc {parts : List PatternPart} {p : PatternPart} (h : NoCommand parts) (hp : ∀ ss, p ≠ .command ss) :
    NoCommand (parts ++ [p]) := by
  intro ss hs
  rcases List.mem_append.1 hs with hs | hs
  · exact h ss hs
  · exact hp ss (List.mem_singleton.1 hs).symm

/-- No part of any pattern is a delayed command. -/
def NoCommands (patterns : AMap Str (List PatternPart)) : Prop :=
  ∀ name parts, patterns.get name = some parts → NoCommand parts

theorem NoCommands.insert {patterns : AMap Str (List PatternPart)} (h : NoCommands patterns) {name : Str}
    {parts : List PatternPart} (hp : NoCommand parts) : NoCommands (patterns.insert name parts) := by
  intro n ps hn
  rw [AMap.get_insert] at hn
  split at hn
  · cases hn; exact hp
  · exact h n ps hn

theorem partText_not (t : Tree) (i : Nat) : IfOk (fun p => ∀ ss, p ≠ .command ss) (partText t i) :=
  IfOk.bind (IfOk.any _) fun _ _ => IfOk.bind (IfOk.any _) fun _ _ => IfOk.ok fun _ h => nomatch h

theorem partPlural_not (k p : Str) (c : ComplexType) (patterns : AMap Str (List PatternPart)) (sel : List (AMap Str Str))
    (strings : AMap Str Str) :
    IfOk (fun x : PatternPart × List (AMap Str Str) => ∀ ss, x.1 ≠ .command ss) (partPlural k p c patterns sel strings) := by
  refine IfOk.bind (IfOk.any _) fun other _ => ?_
  split
  · exact IfOk.err
  · exact IfOk.ok fun _ h => nomatch h

theorem partPattern_not (X : Icu4x D F) (lang : Str) (patterns : AMap Str (List PatternPart)) (t : Tree) (i : Nat)
    (sel : List (AMap Str Str)) :
    IfOk (fun x : PatternPart × List (AMap Str Str) => ∀ ss, x.1 ≠ .command ss) (partPattern X lang patterns t i sel) := by
  refine IfOk.bind (IfOk.any _) fun children _ => ?_
  cases children with
  | nil => exact IfOk.err
  | cons c rest =>
    refine IfOk.bind (IfOk.any _) fun ty _ => ?_
    split
    · exact IfOk.err
    · refine IfOk.bind (IfOk.any _) fun tok _ => ?_
      cases rest with
      | nil => exact IfOk.ok fun _ h => nomatch h
      | cons k _ =>
        refine IfOk.bind (IfOk.any _) fun ty _ => ?_
        split
        · exact IfOk.err
        · refine IfOk.bind (IfOk.any _) fun tok' _ => ?_
          unfold partKeyword
          split
          · exact IfOk.bind (IfOk.any _) fun _ _ => IfOk.bind (IfOk.any _) fun _ _ => IfOk.ok fun _ h => nomatch h
          split
          · exact IfOk.bind (IfOk.any _) fun _ _ => IfOk.bind (IfOk.any _) fun _ _ => IfOk.ok fun _ h => nomatch h
          split
          · exact IfOk.bind (IfOk.any _) fun _ _ => partPlural_not _ _ _ _ _ _
          split
          · exact IfOk.bind (IfOk.any _) fun _ _ => partPlural_not _ _ _ _ _ _
          split
          · exact IfOk.bind (IfOk.any _) fun _ _ => IfOk.bind (IfOk.any _) fun _ _ => IfOk.ok fun _ h => nomatch h
          · exact IfOk.err

theorem commandParts_delayed {t : Tree} {i : Nat} (h : ¬ Delayed t i) :
    IfOk (fun x : Bool × Str × List Str => x.1 = false) (commandParts t i) := by
  unfold commandParts
  cases hc : t.children i with
  | err e => exact IfOk.err
  | panic => exact IfOk.panic
  | ok children =>
    simp only [Outcome.bind_ok]
    cases children with
    | nil => exact IfOk.err
    | cons c rest =>
      refine IfOk.bind (IfOk.any _) fun ty _ => ?_
      split
      · exact IfOk.err
      · refine IfOk.bind (IfOk.any _) fun tok _ => ?_
        refine IfOk.bind (q := fun x : Bool × List Nat => x.1 = false) ?_ fun x hx => ?_
        · cases rest with
          | nil => exact IfOk.ok rfl
          | cons n rest =>
            dsimp only
            cases hn : t.nodeType n with
            | err e => exact IfOk.err
            | panic => exact IfOk.panic
            | ok ty =>
              simp only [Outcome.bind_ok]
              split
              · next e => exact absurd ⟨c, n, rest, hc, by rw [hn, e]⟩ h
              · exact IfOk.ok rfl
        · exact IfOk.bind (IfOk.any _) fun _ _ => IfOk.ok hx

section
variable (E : TalkEnv D F P)

/-- Any request. -/
abbrev Any : Request D F → Prop := fun _ => True

theorem any_requests {α : Type} (t : Talk (Request D F) (Answer P) α) : Converses Any (fun _ => True) t := by
  induction t with
  | done a => trivial
  | ask r next ih => exact ⟨trivial, ih⟩

theorem any_ok {α : Type} (t : FmtTalk D F P α) : Converses Any (IfOk fun _ => True) t :=
  Converses.weaken (any_requests t) (fun _ h => h) fun x _ => IfOk.any x

theorem quiet_any {α : Type} {p : Request D F → Prop} (x : FmtM α) :
    Converses p (IfOk fun _ => True) (quiet (P := P) x) := IfOk.any x

theorem talkPartCommand_not {t : Tree} {i : Nat} (h : ¬ Delayed t i) :
    Converses Any (IfOk fun p => ∀ ss, p ≠ .command ss) (talkPartCommand E t i) := by
  refine Converses.chain (q := fun x : Bool × Str × List Str => x.1 = false) (commandParts_delayed h) fun x hx => ?_
  obtain ⟨delay, name, ps⟩ := x
  cases hx
  exact Converses.chain (any_ok _) fun s _ => IfOk.ok fun _ h => nomatch h

variable {t : Tree} (ht : ∀ i, ¬ Delayed t i)
include ht

theorem talkNamed_not (lang : Str) (patterns : AMap Str (List PatternPart)) (cs : List Nat) :
    ∀ pattern numbers selectors, NoCommand pattern →
      Converses Any (IfOk fun x => NoCommand x.1) (talkNamed E lang patterns t cs pattern numbers selectors) := by
  induction cs with
  | nil => intro pattern _ _ h; exact IfOk.ok h
  | cons c cs ih =>
    intro pattern numbers selectors h
    refine Converses.chain (quiet_any _) fun ty _ => ?_
    split
    · exact Converses.chain (q := fun p : PatternPart => ∀ ss, p ≠ .command ss) (partText_not t c) fun p hp => ih _ _ _ (h.snoc hp)
    split
    · exact ih _ _ _ (h.snoc fun _ h => nomatch h)
    split
    · exact Converses.chain (q := fun x : PatternPart × List (AMap Str Str) => ∀ ss, x.1 ≠ .command ss)
        (partPattern_not _ _ _ _ _ _) fun p hp => ih _ _ _ (h.snoc hp)
    split
    · exact Converses.chain (talkPartCommand_not E (ht c)) fun p hp => ih _ _ _ (h.snoc hp)
    · exact IfOk.err

theorem talkMain_not (lang : Str) (patterns : AMap Str (List PatternPart)) (cs : List Nat) :
    ∀ pattern selectors, NoCommand pattern →
      Converses Any (IfOk fun x => NoCommand x.1) (talkMain E lang patterns t cs pattern selectors) := by
  induction cs with
  | nil => intro pattern _ h; exact IfOk.ok h
  | cons c cs ih =>
    intro pattern selectors h
    refine Converses.chain (quiet_any _) fun ty _ => ?_
    split
    · exact Converses.chain (q := fun p : PatternPart => ∀ ss, p ≠ .command ss) (partText_not t c) fun p hp => ih _ _ (h.snoc hp)
    split
    · exact Converses.chain (q := fun x : PatternPart × List (AMap Str Str) => ∀ ss, x.1 ≠ .command ss)
        (partPattern_not _ _ _ _ _ _) fun p hp => ih _ _ (h.snoc hp)
    split
    · exact Converses.chain (talkPartCommand_not E (ht c)) fun p hp => ih _ _ (h.snoc hp)
    · exact IfOk.err

theorem talkGroup_not (lang : Str) (cs : List Nat) :
    ∀ patterns numbers selectors, NoCommands patterns →
      Converses Any (IfOk fun x => NoCommands x.1) (talkGroup E lang t cs patterns numbers selectors) := by
  induction cs with
  | nil => intro patterns _ _ h; exact IfOk.ok h
  | cons c cs ih =>
    intro patterns numbers selectors h
    refine Converses.chain (quiet_any _) fun name _ => ?_
    split
    · exact IfOk.err
    · refine Converses.chain (quiet_any _) fun children _ => ?_
      exact Converses.chain (talkNamed_not E ht lang patterns children [] numbers selectors NoCommand.nil) fun x hx =>
        ih _ _ _ (h.insert hx)

theorem talkTree_not (tag : Str) (icuLanguage : Option Str) :
    Converses Any (IfOk fun f => NoCommands f.patterns) (talkTree E tag icuLanguage t) := by
  unfold talkTree
  have h0 : NoCommands [(mainName, [])] := by
    intro n ps h
    rw [AMap.get_cons] at h
    split at h
    · cases h; exact NoCommand.nil
    · cases h
  split
  · exact IfOk.err
  · refine Converses.chain (quiet_any _) fun lang _ => Converses.chain (quiet_any _) fun ty _ => ?_
    split
    · exact IfOk.err
    · refine Converses.chain (quiet_any _) fun rootChildren _ => ?_
      refine Converses.chain (q := fun x => NoCommands x.1) ?_ fun x hx => ?_
      · match rootChildren with
        | [] => exact IfOk.ok h0
        | [_] => exact IfOk.ok h0
        | _ :: group :: _ =>
          exact Converses.chain (quiet_any _) fun named _ => talkGroup_not E ht lang named _ _ _ h0
      · refine Converses.chain (quiet_any _) fun children _ => ?_
        exact Converses.chain (talkMain_not E ht lang _ children [] _ NoCommand.nil) fun y hy =>
          IfOk.ok (hx.insert hy)

end

/-! ### What is asked while formatting -/

theorem Converses.and {R A α : Type} {p p' : R → Prop} {q q' : α → Prop} {t : Talk R A α} (h : Converses p q t)
    (h' : Converses p' q' t) : Converses (fun r => p r ∧ p' r) (fun a => q a ∧ q' a) t := by
  induction t with
  | done a => exact ⟨h, h'⟩
  | ask r next ih => exact ⟨⟨h.1, h'.1⟩, fun a => ih a (h.2 a) (h'.2 a)⟩

/-- Formatting asks only what satisfies `p`: there is no delayed command, or all commands do so. -/
def Asks (E : TalkEnv D F P) (p : Request D F → Prop) (f : Formatter) : Prop :=
  NoCommands f.patterns ∨ ∀ name c, E.commands name = some c → ∀ ps, Converses p (fun _ => True) (c ps)

section
variable {E : TalkEnv D F P} {p : Request D F → Prop} {f : Formatter} (hf : Asks E p f) (values : AMap Str (PValue D F))
include hf

theorem talkParts_asks {rec : Str → List Str → TalkRes D F P} (hrec : ∀ n ns, Converses p (fun _ => True) (rec n ns))
    (parts : List PatternPart) (hp : NoCommands f.patterns → NoCommand parts) : ∀ acc numbers,
    Converses p (fun _ => True) (talkParts E f values rec parts acc numbers) := by
  induction parts with
  | nil => intro _ _; trivial
  | cons part rest ih =>
    intro acc numbers
    refine Converses.bind (q := fun _ => True) ?_ fun x _ => ?_
    · unfold talkPart
      cases part with
      | command strings =>
        rcases hf with hf | hf
        · exact absurd (List.mem_cons_self ..) (hp hf strings)
        · cases strings with
          | nil => trivial
          | cons name ps =>
            refine Converses.bind (q := fun _ => True) ?_ fun _ _ => trivial
            unfold talkCommand
            cases hn : E.commands name with
            | none => trivial
            | some c => exact Converses.bind (hf name c hn _) fun _ _ => trivial
      | patternComplex _ _ _ =>
        dsimp only
        split
        · exact hrec _ _
        · trivial
      | _ => trivial
    · split
      · exact ih (fun h => fun ss hs => hp h ss (List.mem_cons_of_mem _ hs)) _ _
      · trivial

theorem talkPattern_asks (depth : Nat) : ∀ named numbers,
    Converses p (fun _ => True) (talkPattern E f values depth named numbers) := by
  induction depth with
  | zero => intro _ _; trivial
  | succ depth ih =>
    intro named numbers
    unfold talkPattern
    cases hn : f.patterns.get named with
    | none => trivial
    | some parts => exact talkParts_asks hf values ih parts (fun h => h named parts hn) _ _

theorem talkFormat_asks :
    Converses p (fun x : FmtM (Str × Str) × Formatter => ∃ ns, x.2 = { f with numbers := ns }) (talkFormat E f values) := by
  refine Converses.bind (talkPattern_asks hf values _ _ _) fun x _ => ?_
  obtain ⟨r, ns⟩ := x
  cases r <;> exact ⟨ns, rfl⟩

end

/-! ### Code that never conflicts -/

section
variable {sh : Cell → Nat} {ex : Cell → Bool} {α : Type}

theorem converse_tri {ask : Request D F → ReM S (Answer P)} {p : Request D F → Prop} {q : α → Prop} {J : Localiser S → Prop}
    (hask : ∀ r l, p r → J l → Tri sh ex (ask r) l (fun _ => J) J J) {t : Talk (Request D F) (Answer P) α}
    (ht : Converses p q t) : ∀ {l : Localiser S}, J l → Tri sh ex (converse ask t) l (fun a l' => q a ∧ J l') J J := by
  induction t with
  | done a => intro l hl; exact Tri.ret ⟨ht, hl⟩
  | ask r next ih =>
    intro l hl
    exact Tri.andThen (hask r l ht.1 hl) fun a l' hl' => ih a (ht.2 a) hl'

/-- Cells that are never borrowed when a command is called; the cache is not borrowed exclusively. -/
structure Calm (sh : Cell → Nat) (ex : Cell → Bool) : Prop where
  cache : ex .cache = false
  tag : ex .tag = false ∧ sh .tag = 0
  fallback : ex .fallback = false ∧ sh .fallback = 0
  caching : ex .caching = false ∧ sh .caching = 0
  script : ex .script = false ∧ sh .script = 0

theorem Calm.idle : Calm (fun _ => 0) (fun _ => false) := by constructor <;> simp

theorem Calm.cached (h : Calm sh ex) (tag key : Str) : Calm (up sh .cache) (own ex (.formatter tag key)) := by
  constructor <;> simp [up, own, h.cache, h.tag, h.fallback, h.caching, h.script]

theorem reOptions_tri (h : Calm sh ex) {l : Localiser S} {tag : Option Str} {fallback caching : Option Bool}
    {body : Str → Bool → Bool → ReM S α} {Q : α → Localiser S → Prop} {J K : Localiser S → Prop}
    (hb : Tri sh ex (body (tag.getD l.tag) (fallback.getD l.fallback) (caching.getD l.caching)) l Q J K) :
    Tri sh ex (reOptions tag fallback caching body) l Q J K := by
  unfold reOptions
  refine Tri.andThen (Q := fun a l' => a = tag.getD l.tag ∧ l = l') ?_ ?_
  · cases tag with
    | some t => exact Tri.ret ⟨rfl, rfl⟩
    | none => exact Tri.read h.tag.1 (Tri.get ⟨rfl, rfl⟩)
  · rintro _ _ ⟨rfl, rfl⟩
    refine Tri.andThen (Q := fun a l' => a = fallback.getD l.fallback ∧ l = l')
      (Tri.read h.fallback.1 (Tri.get ⟨rfl, rfl⟩)) ?_
    rintro _ _ ⟨rfl, rfl⟩
    refine Tri.andThen (Q := fun a l' => a = caching.getD l.caching ∧ l = l')
      (Tri.read h.caching.1 (Tri.get ⟨rfl, rfl⟩)) ?_
    rintro _ _ ⟨rfl, rfl⟩
    exact hb

theorem reDefaults_tri (h : Calm sh ex) {l : Localiser S} (scriptOf : Str → S) (tag : Option Str)
    (fallback caching : Option Bool) {J K : Localiser S → Prop} :
    Tri sh ex (reDefaults scriptOf tag fallback caching) l
      (fun _ l' => l' = l.setDefaults scriptOf tag fallback caching) J K := by
  unfold reDefaults Localiser.setDefaults
  refine Tri.andThen (Q := fun _ l' => l' = match tag with
      | some t => { l with tag := t, script := scriptOf t }
      | none => l) ?_ ?_
  · cases tag with
    | none => exact Tri.ret rfl
    | some t =>
      refine Tri.andThen (Q := fun _ l' => l' = { l with tag := t })
        (Tri.write h.tag.1 h.tag.2 (Tri.set (fun l' h => by cases h; rfl) fun h => nomatch h)) ?_
      rintro _ _ rfl
      refine Tri.read h.tag.1 ?_
      refine Tri.andThen (Q := fun a l' => a = t ∧ l' = { l with tag := t }) (Tri.get ⟨rfl, rfl⟩) ?_
      rintro _ _ ⟨rfl, rfl⟩
      refine Tri.write h.script.1 ?_ (Tri.set (fun l' h => by cases h; rfl) fun h => nomatch h)
      simp [up, h.script.2]
  · intro _ l1 h1
    refine Tri.andThen (Q := fun _ l' => l' = match fallback with
        | some b => { l1 with fallback := b }
        | none => l1) ?_ ?_
    · cases fallback with
      | none => exact Tri.ret rfl
      | some b =>
        exact Tri.write h.fallback.1 h.fallback.2 (Tri.set (fun l' h => by cases h; rfl) fun h => nomatch h)
    · intro _ l2 h2
      cases caching with
      | none => exact Tri.ret (by rw [h2, h1]; cases tag <;> cases fallback <;> rfl)
      | some b =>
        exact Tri.write h.caching.1 h.caching.2 (Tri.set (fun l' h => by
          cases h; rw [h2, h1]; cases tag <;> cases fallback <;> rfl) fun h => nomatch h)

theorem reString_uncached {l : Localiser S} {exist : Bool} {key string tag : Str} {J K : Localiser S → Prop} :
    Tri sh ex (reString (P := P) false exist key string tag) l (fun _ l' => l = l') J K := Tri.ret rfl

theorem reLiteral_uncached (L : TalkLocEnv D F P) (h : Calm sh ex) {l : Localiser S} (c i tag : Str) (fallback : Bool)
    {K : Localiser S → Prop} :
    Tri sh ex (reLiteral L c i tag fallback false) l (fun _ l' => l = l') (fun l' => l = l') K := by
  refine Tri.andThen (Q := fun _ l' => l = l') (Tri.read h.cache (Tri.get rfl)) ?_
  rintro ⟨exist, d⟩ _ rfl
  cases d with
  | some d => cases d <;> exact Tri.ret rfl
  | none =>
    refine Tri.andThen (Q := fun _ l' => l = l') (Tri.result (fun _ _ => rfl) (fun _ _ => rfl) fun _ => rfl) ?_
    rintro r _ rfl
    cases r with
    | error e => exact Tri.ret rfl
    | ok x => exact reString_uncached

theorem setDefaults_cache (l : Localiser S) (scriptOf : Str → S) (tag : Option Str) (fallback caching : Option Bool) :
    (l.setDefaults scriptOf tag fallback caching).cache = l.cache := by
  cases tag <;> cases fallback <;> cases caching <;> rfl

/-- A harmless request never conflicts while a command is called, and leaves the cache as it is. -/
theorem harmless_tri (L : TalkLocEnv D F P) (scriptOf : Str → S) (h : Calm sh ex) (depth : Nat) {r : Request D F}
    (hr : Harmless r) (l : Localiser S) :
    Tri sh ex (reRequest L scriptOf depth r) l (fun _ l' => l'.cache = l.cache) (fun l' => l'.cache = l.cache)
      (fun l' => l'.cache = l.cache) := by
  cases depth with
  | zero => exact ⟨rfl, rfl, rfl⟩
  | succ depth =>
    cases r with
    | format _ _ _ _ _ _ => exact hr.elim
    | defaults tag fallback caching =>
      refine Tri.andThen (reDefaults_tri h scriptOf tag fallback caching) ?_
      rintro _ _ rfl
      exact Tri.ret (setDefaults_cache ..)
    | literal c i tag fallback caching =>
      cases hr
      refine reOptions_tri h (Tri.andThen (Q := fun _ l' => l = l')
        ((reLiteral_uncached L h c i _ _).weaken (fun _ _ h => h) (fun _ h => by rw [← h]) fun _ h => h) ?_)
      rintro _ _ rfl
      exact Tri.ret rfl
    | data c i values tag fallback caching =>
      obtain ⟨rfl, rfl⟩ := hr
      refine reOptions_tri h (Tri.andThen (Q := fun _ l' => l = l') ?_ ?_)
      · unfold reData
        exact (reLiteral_uncached L h c i _ _).weaken (fun _ _ h => h) (fun _ h => by rw [← h]) fun _ h => h
      · rintro _ _ rfl
        exact Tri.ret rfl

end

/-! ### The whole localiser -/

/-- Formatters in the cache ask only for what is harmless. -/
def Tame (L : TalkLocEnv D F P) (l : Localiser S) : Prop :=
  ∀ tag m key f, l.cache.get tag = some m → m.get key = some (.formatter f) → Asks L.fmt Harmless f

theorem Tame.insert {L : TalkLocEnv D F P} {l : Localiser S} {cache : Cache} {tag key : Str} {d : CacheData}
    {m : AMap Str CacheData} (h : ∀ k f, m.get k = some (.formatter f) → Asks L.fmt Harmless f)
    (hc : ∀ tag m key f, cache.get tag = some m → m.get key = some (.formatter f) → Asks L.fmt Harmless f)
    (hd : ∀ f, d = .formatter f → Asks L.fmt Harmless f) :
    Tame L { l with cache := cache.insert tag (m.insert key d) } := by
  intro t' m' k' f ht hk
  dsimp only at ht
  rw [AMap.get_insert] at ht
  split at ht
  · cases ht
    rw [AMap.get_insert] at hk
    split at hk
    · exact hd f (Option.some.inj hk)
    · exact h k' f hk
  · exact hc t' m' k' f ht hk

section
variable {L : TalkLocEnv D F P} {scriptOf : Str → S}
  (hL : ∀ c i tag s t, L.provider.string c i tag = .ok (some (s, t)) →
    Converses Any (IfOk (Asks L.fmt Harmless)) (talkNew L.fmt s t (L.icuLanguage t)))

/-- No cell is borrowed. -/
abbrev none' : Cell → Nat := fun _ => 0
/-- No cell is borrowed. -/
abbrev off : Cell → Bool := fun _ => false

theorem reFormatter_tri (depth : Nat) {l : Localiser S} (hl : Tame L l) {tag key : Str} {f : Formatter}
    (hf : Asks L.fmt Harmless f) (values : AMap Str (PValue D F)) :
    Tri (up none' .cache) off (reFormatter L (reRequest L scriptOf depth) tag key f values) l (fun _ => Tame L) (Tame L)
      (Tame L) := by
  refine Tri.write rfl (by simp [up]) ?_
  have hJ : ∀ l' : Localiser S, l'.cache = l.cache → Tame L l' := fun l' h => by unfold Tame; rw [h]; exact hl
  refine Tri.andThen (Tri.weaken (converse_tri (J := fun l' => l'.cache = l.cache) (fun r l' hr hl' => ?_)
    (talkFormat_asks hf values) (l := l) rfl) (fun _ _ h => h) hJ hJ) ?_
  · exact (harmless_tri L scriptOf (Calm.idle.cached tag key) depth hr l').weaken (fun _ _ h => h.trans hl')
      (fun _ h => h.trans hl') fun _ h => h.trans hl'
  · rintro ⟨r, f'⟩ l' ⟨⟨ns, hf'⟩, hl'⟩
    have hT : Tame L (putFormatter tag key f' l') := by
      have hl' := hJ l' hl'
      unfold putFormatter
      split
      · exact hl'
      · next m hm =>
        refine Tame.insert (fun k f h => hl' tag m k f hm h) hl' fun f'' h => ?_
        cases h
        have hf' : f' = { f with numbers := ns } := hf'
        rw [hf']
        exact hf
    refine Tri.andThen (Q := fun _ => Tame L) (Tri.set (fun l'' h => ?_) fun h => nomatch h) fun _ l'' h =>
      Tri.result (fun _ _ => h) (fun _ _ => h) fun _ => h
    cases h
    exact hT

theorem reString_tri {l : Localiser S} (hl : Tame L l) (caching exist : Bool) (key string tag : Str) :
    Tri none' off (reString (P := P) caching exist key string tag) l (fun _ => Tame L) (Tame L) (Tame L) := by
  unfold reString
  split
  · refine Tri.andThen (Q := fun _ => Tame L) (Tri.write rfl rfl (Tri.set (fun l' h => ?_) fun _ => hl)) fun _ _ h =>
      Tri.ret h
    obtain ⟨c, hc, rfl⟩ := Option.map_eq_some_iff.1 h
    unfold addStringToCache at hc
    split at hc
    · cases hc
      exact Tame.insert (m := []) (fun _ _ h => nomatch h) hl fun _ h => nomatch h
    · split at hc
      · cases hc
      · next m hm =>
        cases hc
        exact Tame.insert (fun k f h => hl tag m k f hm h) hl fun _ h => nomatch h
  · exact Tri.ret hl

include hL

theorem reFormat_tri (depth : Nat)
    (ih : ∀ r (l : Localiser S), Tame L l → Tri none' off (reRequest L scriptOf depth r) l (fun _ => Tame L) (Tame L) (Tame L))
    {l : Localiser S} (hl : Tame L l) (c i : Str) (values : AMap Str (PValue D F)) (tag : Str) (fallback caching : Bool) :
    Tri none' off (reFormat L (reRequest L scriptOf depth) c i values tag fallback caching) l (fun _ => Tame L) (Tame L)
      (Tame L) := by
  unfold reFormat
  generalize cacheKey c i = key
  dsimp only
  refine Tri.andThen (Q := fun _ => Tame L) (Tri.read rfl ?_) ?_
  · refine Tri.andThen (Q := fun a l' => a = ((l.cache.get tag).isSome, (l.cache.get tag).bind fun m => m.get key) ∧ l = l')
      (Tri.get ⟨rfl, rfl⟩) ?_
    rintro _ _ ⟨rfl, rfl⟩
    cases he : (l.cache.get tag).bind fun m => m.get key with
    | none => exact Tri.ret hl
    | some d =>
      cases d with
      | localised s t => exact Tri.ret hl
      | formatter f =>
        obtain ⟨m, hm, hk⟩ := Option.bind_eq_some_iff.1 he
        exact Tri.andThen (reFormatter_tri depth hl (hl tag m key f hm hk) values) fun _ _ h => Tri.ret h
  · intro a l' hl'
    cases a with
    | inl r => exact Tri.ret hl'
    | inr exist =>
      dsimp only
      refine Tri.andThen (Q := fun a l'' => Tame L l'' ∧ ∀ s t, a = .ok (s, t) → ∃ tag', L.provider.string c i tag' =
          .ok (some (s, t)))
        (Tri.result (fun a ha => ⟨hl', fun s t h => ?_⟩) (fun e _ => ⟨hl', fun _ _ h => nomatch h⟩) fun _ => hl') ?_
      · cases h
        unfold fetch at ha
        cases h1 : L.provider.string c i tag with
        | error e => rw [show L.plain.provider = L.provider from rfl, h1] at ha; cases ha
        | ok x =>
          cases x with
          | some x =>
            rw [show L.plain.provider = L.provider from rfl, h1] at ha
            cases ha
            exact ⟨tag, h1⟩
          | none =>
            rw [show L.plain.provider = L.provider from rfl, h1] at ha
            dsimp only at ha
            split at ha
            · cases ha
            · cases h2 : L.provider.default c with
              | error e => rw [h2] at ha; cases ha
              | ok d =>
                rw [h2] at ha
                dsimp only at ha
                cases h3 : L.provider.string c i d with
                | error e => rw [h3] at ha; cases ha
                | ok x =>
                  rw [h3] at ha
                  cases x with
                  | some x => cases ha; exact ⟨d, h3⟩
                  | none => cases ha
      · rintro a l'' ⟨hl'', hs⟩
        cases a with
        | error e => exact Tri.ret hl''
        | ok x =>
          obtain ⟨s, t⟩ := x
          obtain ⟨tag', htag'⟩ := hs s t rfl
          dsimp only
          split
          · exact reString_tri hl'' _ _ _ _ _
          · refine Tri.andThen (converse_tri (p := Any) (J := Tame L) (fun r l _ hl => ih r l hl) (hL c i tag' s t htag') hl'') ?_
            rintro r l3 ⟨hr, hl3⟩
            cases r with
            | err e =>
              cases e with
              | noGrammar => exact reString_tri hl3 _ _ _ _ _
              | _ => exact Tri.ret hl3
            | panic => exact Tri.result (fun _ _ => hl3) (fun _ _ => hl3) fun _ => hl3
            | ok f =>
              have hf := hr f rfl
              dsimp only
              split
              · refine Tri.andThen (converse_tri (p := Any) (q := fun _ => True) (J := Tame L) (fun r l _ hl => ih r l hl)
                  (any_requests _) hl3) ?_
                rintro ⟨r, _⟩ l4 ⟨_, hl4⟩
                exact Tri.result (fun _ _ => hl4) (fun _ _ => hl4) fun _ => hl4
              · unfold reCached
                refine Tri.andThen (Q := fun _ => Tame L)
                  (Tri.write rfl rfl (Tri.set (fun l' h => ?_) fun _ => hl3)) fun _ l4 hl4 => ?_
                · obtain ⟨c, hc, rfl⟩ := Option.map_eq_some_iff.1 h
                  unfold putNew at hc
                  split at hc
                  · cases hc
                    exact Tame.insert (m := []) (fun _ _ h => nomatch h) hl3 fun _ h => by cases h; exact hf
                  · split at hc
                    · cases hc
                    · next m hm =>
                      cases hc
                      exact Tame.insert (fun k f h => hl3 tag m k f hm h) hl3 fun _ h => by cases h; exact hf
                · refine Tri.read rfl ?_
                  refine Tri.andThen (Q := fun a l' => a = (l4.cache.get tag).bind (fun m => m.get key) ∧ l4 = l')
                    (Tri.get ⟨rfl, rfl⟩) ?_
                  rintro _ _ ⟨rfl, rfl⟩
                  cases he : (l4.cache.get tag).bind fun m => m.get key with
                  | none => exact Tri.result (fun _ _ => hl4) (fun _ _ => hl4) fun _ => hl4
                  | some d =>
                    cases d with
                    | localised s t => exact Tri.ret hl4
                    | formatter f =>
                      obtain ⟨m, hm, hk⟩ := Option.bind_eq_some_iff.1 he
                      exact reFormatter_tri depth hl4 (hl4 tag m key f hm hk) values

omit hL in
theorem reLiteral_tri {l : Localiser S} (hl : Tame L l) (c i tag : Str) (fallback caching : Bool) :
    Tri none' off (reLiteral L c i tag fallback caching) l (fun _ => Tame L) (Tame L) (Tame L) := by
  refine Tri.andThen (Q := fun _ => Tame L) (Tri.read rfl (Tri.get hl)) ?_
  rintro ⟨exist, d⟩ l' hl'
  cases d with
  | some d => cases d <;> exact Tri.ret hl'
  | none =>
    refine Tri.andThen (Q := fun _ => Tame L) (Tri.result (fun _ _ => hl') (fun _ _ => hl') fun _ => hl') ?_
    intro r l'' hl''
    cases r with
    | error e => exact Tri.ret hl''
    | ok x => exact reString_tri hl'' _ _ _ _ _

set_option linter.unusedSectionVars false in
mutual
theorem reData_tri (depth : Nat)
    (ih : ∀ r (l : Localiser S), Tame L l → Tri none' off (reRequest L scriptOf depth r) l (fun _ => Tame L) (Tame L) (Tame L))
    (tag : Str) (fallback caching : Bool) (c i : Str) (values : Option (List (Str × PValue D F))) (l : Localiser S)
    (hl : Tame L l) :
    Tri none' off (reData L (reRequest L scriptOf depth) tag fallback caching c i values) l (fun _ => Tame L) (Tame L)
      (Tame L) := by
  match values with
  | none => unfold reData; exact reLiteral_tri hl _ _ _ _ _
  | some vs =>
    unfold reData
    refine Tri.andThen (reValues_tri depth ih tag fallback caching vs [] l hl) fun r l' hl' => ?_
    cases r with
    | error e => exact Tri.ret hl'
    | ok values => exact reFormat_tri hL depth ih hl' _ _ _ _ _ _

theorem reValues_tri (depth : Nat)
    (ih : ∀ r (l : Localiser S), Tame L l → Tri none' off (reRequest L scriptOf depth r) l (fun _ => Tame L) (Tame L) (Tame L))
    (tag : Str) (fallback caching : Bool) (values : List (Str × PValue D F)) (acc : AMap Str (PValue D F)) (l : Localiser S)
    (hl : Tame L l) :
    Tri none' off (reValues L (reRequest L scriptOf depth) tag fallback caching values acc) l (fun _ => Tame L) (Tame L)
      (Tame L) := by
  match values with
  | [] => unfold reValues; exact Tri.ret hl
  | (name, .localisationData c i vs) :: rest =>
    unfold reValues
    refine Tri.andThen (reData_tri depth ih tag fallback caching c i vs l hl) fun r l' hl' => ?_
    cases r with
    | error e => exact Tri.ret hl'
    | ok x => exact reValues_tri depth ih tag fallback caching rest _ l' hl'
  | (name, .string s) :: rest => unfold reValues; exact reValues_tri depth ih tag fallback caching rest _ l hl
  | (name, .integer s) :: rest => unfold reValues; exact reValues_tri depth ih tag fallback caching rest _ l hl
  | (name, .unsigned s) :: rest => unfold reValues; exact reValues_tri depth ih tag fallback caching rest _ l hl
  | (name, .float s) :: rest => unfold reValues; exact reValues_tri depth ih tag fallback caching rest _ l hl
  | (name, .taggedString s t) :: rest => unfold reValues; exact reValues_tri depth ih tag fallback caching rest _ l hl
  | (name, .localised s t) :: rest => unfold reValues; exact reValues_tri depth ih tag fallback caching rest _ l hl
  | (name, .fixedDecimal s) :: rest => unfold reValues; exact reValues_tri depth ih tag fallback caching rest _ l hl
  | (name, .dateTime s t) :: rest => unfold reValues; exact reValues_tri depth ih tag fallback caching rest _ l hl
  | (name, .date s) :: rest => unfold reValues; exact reValues_tri depth ih tag fallback caching rest _ l hl
  | (name, .time s) :: rest => unfold reValues; exact reValues_tri depth ih tag fallback caching rest _ l hl
end

theorem reRequest_tri (depth : Nat) : ∀ r (l : Localiser S), Tame L l →
    Tri none' off (reRequest L scriptOf depth r) l (fun _ => Tame L) (Tame L) (Tame L) := by
  induction depth with
  | zero => intro r l hl; exact ⟨rfl, rfl, hl⟩
  | succ depth ih =>
    intro r l hl
    cases r with
    | format c i vs tag fallback caching =>
      exact reOptions_tri Calm.idle (Tri.andThen (reFormat_tri hL depth ih hl _ _ _ _ _ _) fun _ _ h => Tri.ret h)
    | literal c i tag fallback caching =>
      exact reOptions_tri Calm.idle (Tri.andThen (reLiteral_tri hl _ _ _ _ _) fun _ _ h => Tri.ret h)
    | data c i vs tag fallback caching =>
      exact reOptions_tri Calm.idle (Tri.andThen (reData_tri hL depth ih _ _ _ _ _ _ l hl) fun _ _ h => Tri.ret h)
    | defaults tag fallback caching =>
      refine Tri.andThen (reDefaults_tri Calm.idle scriptOf tag fallback caching) ?_
      rintro _ _ rfl
      refine Tri.ret ?_
      unfold Tame
      rw [setDefaults_cache]
      exact hl

end

end Verif.ReentryLemmas
