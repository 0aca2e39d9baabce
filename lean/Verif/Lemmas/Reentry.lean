import Verif.Spec.Reentry
import Verif.Lemmas.Registry
/-
Helper lemmas for commands that call the localiser.
-/
namespace Verif.ReentryLemmas
open Verif Verif.Spec

variable {D F P S : Type}

/-! ### Commands that do not call the localiser -/

theorem chain_done {R A ε α β : Type} {x : Outcome ε α} {k : α → Talk R A (Outcome ε β)} {g : α → Outcome ε β}
    (h : ∀ a, k a = .done (g a)) : (Talk.done x).chain k = .done (x >>= g) := by
  cases x with
  | ok a => exact h a
  | err e => rfl
  | panic => rfl

theorem talkCommand_env (E : FmtEnv D F) (name : Str) (parameters : List (PValue D F)) :
    talkCommand (talkEnv (P := P) E) name parameters = .done (callCommand E.commands name parameters) := by
  unfold talkCommand callCommand talkEnv CommandRegistry.command
  cases h : E.commands.get name with
  | none => simp [h, Outcome.mapErr]
  | some f => simp [h, Talk.bind]

theorem partCommand_eq (r : CommandRegistry D F) (t : Tree) (i : Nat) :
    partCommand r t i = (commandParts t i >>= fun x =>
      if x.1 then pure (.command (x.2.1 :: x.2.2))
      else callCommand r x.2.1 ((x.2.1 :: x.2.2).map .string) >>= fun s => pure (.text s)) := by
  unfold partCommand commandParts
  cases t.children i with
  | err e => rfl
  | panic => rfl
  | ok children =>
    simp only [Outcome.bind_ok]
    cases children with
    | nil => rfl
    | cons c rest =>
      dsimp only
      cases t.nodeType c with
      | err e => rfl
      | panic => rfl
      | ok ty =>
        simp only [Outcome.bind_ok]
        split
        · rfl
        · cases t.firstToken c with
          | err e => rfl
          | panic => rfl
          | ok name =>
            simp only [Outcome.bind_ok]
            cases rest with
            | nil =>
              simp only [Outcome.pure_eq, Outcome.bind_ok]
              cases commandParameters t [] with
              | err e => rfl
              | panic => rfl
              | ok ps => rfl
            | cons n rest =>
              dsimp only
              cases t.nodeType n with
              | err e => rfl
              | panic => rfl
              | ok ty =>
                simp only [Outcome.bind_ok]
                split <;> simp only [Outcome.pure_eq, Outcome.bind_ok]
                · cases commandParameters t rest with
                  | err e => rfl
                  | panic => rfl
                  | ok ps => rfl
                · cases commandParameters t (n :: rest) with
                  | err e => rfl
                  | panic => rfl
                  | ok ps => rfl

theorem talkPartCommand_env (E : FmtEnv D F) (t : Tree) (i : Nat) :
    talkPartCommand (talkEnv (P := P) E) t i = .done (partCommand E.commands t i) := by
  rw [partCommand_eq]
  refine chain_done fun x => ?_
  obtain ⟨delay, name, ps⟩ := x
  cases delay with
  | true => rfl
  | false =>
    simp only [talkCommand_env]
    exact chain_done fun s => rfl

theorem talkNamed_env (E : FmtEnv D F) (lang : Str) (patterns : AMap Str (List PatternPart)) (t : Tree) (cs : List Nat) :
    ∀ pattern numbers selectors, talkNamed (talkEnv (P := P) E) lang patterns t cs pattern numbers selectors =
      .done (buildNamed E lang patterns t cs pattern numbers selectors) := by
  induction cs with
  | nil => intro _ _ _; rfl
  | cons c cs ih =>
    intro pattern numbers selectors
    refine chain_done fun ty => ?_
    split
    · exact chain_done fun p => ih _ _ _
    split
    · exact ih _ _ _
    split
    · exact chain_done fun p => ih _ _ _
    split
    · rw [talkPartCommand_env]
      exact chain_done fun p => ih _ _ _
    · rfl

theorem talkMain_env (E : FmtEnv D F) (lang : Str) (patterns : AMap Str (List PatternPart)) (t : Tree) (cs : List Nat) :
    ∀ pattern selectors, talkMain (talkEnv (P := P) E) lang patterns t cs pattern selectors =
      .done (buildMain E lang patterns t cs pattern selectors) := by
  induction cs with
  | nil => intro _ _; rfl
  | cons c cs ih =>
    intro pattern selectors
    refine chain_done fun ty => ?_
    split
    · exact chain_done fun p => ih _ _
    split
    · exact chain_done fun p => ih _ _
    split
    · rw [talkPartCommand_env]
      exact chain_done fun p => ih _ _
    · rfl

theorem bind_assoc {ε α β γ : Type} (x : Outcome ε α) (f : α → Outcome ε β) (g : β → Outcome ε γ) :
    (x >>= f) >>= g = x >>= fun a => f a >>= g := by
  cases x <;> rfl

theorem talkGroup_env (E : FmtEnv D F) (lang : Str) (t : Tree) (cs : List Nat) :
    ∀ patterns numbers selectors, talkGroup (talkEnv (P := P) E) lang t cs patterns numbers selectors =
      .done (buildGroup E lang t cs patterns numbers selectors) := by
  induction cs with
  | nil => intro _ _ _; rfl
  | cons c cs ih =>
    intro patterns numbers selectors
    rw [buildGroup, ← bind_assoc]
    refine chain_done fun name => ?_
    split
    · rfl
    · rw [← bind_assoc]
      refine chain_done fun children => ?_
      rw [talkNamed_env]
      exact chain_done fun x => ih _ _ _

theorem talkTree_env (E : FmtEnv D F) (tag : Str) (icuLanguage : Option Str) (t : Tree) :
    talkTree (talkEnv (P := P) E) tag icuLanguage t = .done (Formatter.ofTree E tag icuLanguage t) := by
  unfold talkTree Formatter.ofTree
  split
  · rfl
  · refine chain_done fun lang => chain_done fun ty => ?_
    split
    · rfl
    · refine chain_done fun rootChildren => ?_
      have h : ∀ (m : FmtTalk D F P (AMap Str (List PatternPart) × List Str × List (AMap Str Str))) x,
          m = .done x → ∀ k g, (∀ a, k a = .done (g a)) → m.chain k = Talk.done (α := FmtM Formatter) (x >>= g) := by
        intro m x hm k g hk
        rw [hm]
        exact chain_done hk
      refine h _ _ ?_ _ _ fun x => ?_
      · match rootChildren with
        | [] => rfl
        | [_] => rfl
        | _ :: group :: _ => exact chain_done fun named => talkGroup_env E lang t named _ _ _
      · obtain ⟨patterns, numbers, selectors⟩ := x
        dsimp only
        rw [← bind_assoc]
        refine chain_done fun children => ?_
        rw [talkMain_env]
        exact chain_done fun x => rfl

theorem talkNew_env (E : FmtEnv D F) (string tag : Str) (icuLanguage : Option Str) :
    talkNew (talkEnv (P := P) E) string tag icuLanguage = .done (Formatter.tryNew E string tag icuLanguage) :=
  chain_done fun t => talkTree_env E tag icuLanguage t

theorem formatPart_complex (E : FmtEnv D F) (f : Formatter) (values : AMap Str (PValue D F)) (rec : Str → List Str → FmtRes)
    (p : Str) (c : ComplexType) (n : Nat) (numbers : List Str) :
    formatPart E f values rec (.patternComplex p c n) numbers =
      match formatPart E f values (fun named numbers => (some (.ok named), numbers)) (.patternComplex p c n) numbers with
      | (some (.ok named), numbers) => rec named numbers
      | r => r := by
  have hn : ∀ (category : D → PluralCategory) (d : D), findNumberSign E.icu4x f rec category d n numbers =
      match findNumberSign E.icu4x f (fun named numbers => (some (.ok named), numbers)) category d n numbers with
      | (some (.ok named), numbers) => rec named numbers
      | r => r := by
    intro category d
    unfold findNumberSign
    cases E.icu4x.decimal f.icuLanguage none with
    | error e => rfl
    | ok fdf =>
      dsimp only
      cases f.selectors[n]? with
      | none => rfl
      | some selectors =>
        dsimp only
        cases selectors.get (pluralCategory (category d)) with
        | none => rfl
        | some named =>
          dsimp only
          cases f.patterns.get named with
          | none => rfl
          | some pattern =>
            dsimp only
            obtain ⟨r, ns⟩ := updateNumbers (fdf d) pattern numbers
            cases r <;> rfl
  have hp : ∀ rules number what, formatPlural E.icu4x f rec rules number what n numbers =
      match formatPlural E.icu4x f (fun named numbers => (some (.ok named), numbers)) rules number what n numbers with
      | (some (.ok named), numbers) => rec named numbers
      | r => r := by
    intro rules number what
    unfold formatPlural
    cases rules with
    | error e => rfl
    | ok category =>
      cases number with
      | none => rfl
      | some x =>
        cases x with
        | err e => rfl
        | panic => rfl
        | ok d => exact hn category d
  unfold formatPart
  dsimp only
  cases values.get p with
  | none => rfl
  | some v =>
    dsimp only
    cases c with
    | plural => exact hp _ _ _
    | ordinal => exact hp _ _ _
    | select =>
      dsimp only
      cases toText v with
      | none => rfl
      | some s =>
        dsimp only
        unfold selectString
        cases f.selectors[n]? with
        | none => rfl
        | some selectors =>
          dsimp only
          cases selectors.get s with
          | none => rfl
          | some named => rfl

theorem talkPart_env (E : FmtEnv D F) (f : Formatter) (values : AMap Str (PValue D F))
    {rec : Str → List Str → TalkRes D F P} {rec' : Str → List Str → FmtRes} (hrec : ∀ n ns, rec n ns = .done (rec' n ns))
    (part : PatternPart) (numbers : List Str) :
    talkPart (talkEnv E) f values rec part numbers = .done (formatPart E f values rec' part numbers) := by
  cases part with
  | command strings =>
    cases strings with
    | nil => rfl
    | cons name ps =>
      show Talk.bind (talkCommand (talkEnv E) _ _) _ = _
      rw [talkCommand_env]
      rfl
  | patternComplex p c n =>
    rw [formatPart_complex]
    have : formatPart (talkEnv (P := P) E).plain f values (fun named numbers => (some (.ok named), numbers))
        (.patternComplex p c n) numbers =
      formatPart E f values (fun named numbers => (some (.ok named), numbers)) (.patternComplex p c n) numbers := rfl
    unfold talkPart
    rw [this]
    dsimp only
    generalize formatPart E f values _ _ numbers = y
    obtain ⟨r, ns⟩ := y
    match r with
    | none => rfl
    | some (.err e) => rfl
    | some .panic => rfl
    | some (.ok named) => exact hrec _ _
  | _ => rfl

theorem talkParts_env (E : FmtEnv D F) (f : Formatter) (values : AMap Str (PValue D F))
    {rec : Str → List Str → TalkRes D F P} {rec' : Str → List Str → FmtRes} (hrec : ∀ n ns, rec n ns = .done (rec' n ns))
    (parts : List PatternPart) : ∀ acc numbers,
    talkParts (talkEnv E) f values rec parts acc numbers = .done (formatParts E f values rec' parts acc numbers) := by
  induction parts with
  | nil => intro _ _; rfl
  | cons p ps ih =>
    intro acc numbers
    rw [talkParts, talkPart_env E f values hrec, formatParts]
    simp only [Talk.bind]
    generalize formatPart E f values _ _ numbers = y
    obtain ⟨r, ns⟩ := y
    match r with
    | none => rfl
    | some (.err e) => rfl
    | some .panic => rfl
    | some (.ok s) => exact ih _ _

theorem talkPattern_env (E : FmtEnv D F) (f : Formatter) (values : AMap Str (PValue D F)) (depth : Nat) : ∀ named numbers,
    talkPattern (talkEnv (P := P) E) f values depth named numbers = .done (formatPattern E f values depth named numbers) := by
  induction depth with
  | zero => intro _ _; rfl
  | succ depth ih =>
    intro named numbers
    rw [talkPattern, formatPattern]
    cases f.patterns.get named with
    | none => rfl
    | some pattern => exact talkParts_env E f values ih pattern _ _

theorem talkFormat_env (E : FmtEnv D F) (f : Formatter) (values : AMap Str (PValue D F)) :
    talkFormat (talkEnv (P := P) E) f values = .done (f.format E values) := by
  rw [talkFormat, talkPattern_env, Formatter.format]
  simp only [Talk.bind]
  generalize formatPattern E f values _ _ _ = y
  obtain ⟨r, ns⟩ := y
  cases r <;> rfl

/-! ### Cells that are free -/

section
variable {α β : Type}

/-- One more borrow. -/
def up (sh : Cell → Nat) (c : Cell) : Cell → Nat := fun d => if d = c then sh d + 1 else sh d

theorem up_down (sh : Cell → Nat) (c : Cell) : (fun d => if d = c then up sh c d - 1 else up sh c d) = sh := by
  funext d
  unfold up
  by_cases h : d = c <;> simp [h]

/-- The cell is borrowed exclusively. -/
def own (ex : Cell → Bool) (c : Cell) : Cell → Bool := fun d => if d = c then true else ex d

theorem own_free (ex : Cell → Bool) (c : Cell) (h : ex c = false) : (fun d => if d = c then false else own ex c d) = ex := by
  funext d
  unfold own
  by_cases h' : d = c
  · simp [h', h]
  · simp [h']

/-- Code that runs with certain borrows outstanding: it never conflicts and leaves the borrows as they were; `Q` holds of its
value and the localiser, `J` of the localiser after a panic, `K` when it was too deep. -/
def Tri (sh : Cell → Nat) (ex : Cell → Bool) (x : ReM S α) (l : Localiser S) (Q : α → Localiser S → Prop)
    (J K : Localiser S → Prop) : Prop :=
  (x ⟨l, sh, ex⟩).2.shared = sh ∧ (x ⟨l, sh, ex⟩).2.exclusive = ex ∧
    match (x ⟨l, sh, ex⟩).1 with
    | .value a => Q a (x ⟨l, sh, ex⟩).2.loc
    | .panic => J (x ⟨l, sh, ex⟩).2.loc
    | .deep => K (x ⟨l, sh, ex⟩).2.loc
    | .conflict => False

variable {sh : Cell → Nat} {ex : Cell → Bool} {l : Localiser S} {J K : Localiser S → Prop}

theorem Tri.weaken {x : ReM S α} {Q Q' : α → Localiser S → Prop} {J' K' : Localiser S → Prop} (h : Tri sh ex x l Q J K)
    (hq : ∀ a l, Q a l → Q' a l) (hj : ∀ l, J l → J' l) (hk : ∀ l, K l → K' l) : Tri sh ex x l Q' J' K' := by
  refine ⟨h.1, h.2.1, ?_⟩
  have := h.2.2
  revert this
  cases (x ⟨l, sh, ex⟩).1 with
  | value a => exact hq _ _
  | panic => exact hj _
  | deep => exact hk _
  | conflict => exact id

theorem Tri.andThen {x : ReM S α} {k : α → ReM S β} {Q : α → Localiser S → Prop} {Q' : β → Localiser S → Prop}
    (h : Tri sh ex x l Q J K) (hk : ∀ a l', Q a l' → Tri sh ex (k a) l' Q' J K) : Tri sh ex (x.andThen k) l Q' J K := by
  unfold Tri at h ⊢
  unfold ReM.andThen
  generalize x ⟨l, sh, ex⟩ = y at h
  obtain ⟨r, l', sh', ex'⟩ := y
  obtain ⟨h1, h2, h3⟩ := h
  simp only at h1 h2 h3
  subst h1 h2
  cases r with
  | value a => exact hk a l' h3
  | panic => exact ⟨rfl, rfl, h3⟩
  | deep => exact ⟨rfl, rfl, h3⟩
  | conflict => exact h3.elim

theorem Tri.ret {a : α} {Q : α → Localiser S → Prop} (h : Q a l) : Tri sh ex (ReM.ret a) l Q J K := ⟨rfl, rfl, h⟩

theorem Tri.get {f : Localiser S → α} {Q : α → Localiser S → Prop} (h : Q (f l) l) : Tri sh ex (ReM.get f) l Q J K :=
  ⟨rfl, rfl, h⟩

theorem Tri.set {f : Localiser S → Option (Localiser S)} {Q : Unit → Localiser S → Prop} (h : ∀ l', f l = some l' → Q () l')
    (hn : f l = none → J l) : Tri sh ex (ReM.set f) l Q J K := by
  unfold Tri ReM.set
  dsimp only
  cases hf : f l with
  | none => exact ⟨rfl, rfl, hn hf⟩
  | some l' => exact ⟨rfl, rfl, h l' hf⟩

theorem Tri.result {r : LocM P α} {Q : Except (LocErr P) α → Localiser S → Prop} (h : ∀ a, r = .ok a → Q (.ok a) l)
    (he : ∀ e, r = .err e → Q (.error e) l) (hp : r = .panic → J l) : Tri sh ex (ReM.result r) l Q J K := by
  cases r with
  | ok a => exact ⟨rfl, rfl, h a rfl⟩
  | err e => exact ⟨rfl, rfl, he e rfl⟩
  | panic => exact ⟨rfl, rfl, hp rfl⟩

theorem Tri.read {c : Cell} {body : ReM S α} {Q : α → Localiser S → Prop} (hc : ex c = false)
    (h : Tri (up sh c) ex body l Q J K) : Tri sh ex (ReM.read c body) l Q J K := by
  unfold Tri at h ⊢
  unfold ReM.read
  simp only [hc]
  have hs : (⟨l, fun d => if d = c then sh d + 1 else sh d, ex⟩ : ReState S) = ⟨l, up sh c, ex⟩ := rfl
  simp only [Bool.false_eq_true, if_false, hs]
  generalize body ⟨l, up sh c, ex⟩ = y at h
  obtain ⟨r, l', sh', ex'⟩ := y
  obtain ⟨h1, h2, h3⟩ := h
  simp only at h1 h2 h3
  subst h1 h2
  exact ⟨up_down sh c, rfl, h3⟩

theorem Tri.write {c : Cell} {body : ReM S α} {Q : α → Localiser S → Prop} (hc : ex c = false) (hs : sh c = 0)
    (h : Tri sh (own ex c) body l Q J K) : Tri sh ex (ReM.write c body) l Q J K := by
  unfold Tri at h ⊢
  unfold ReM.write
  simp only [hc, hs]
  have he : (⟨l, sh, fun d => if d = c then true else ex d⟩ : ReState S) = ⟨l, sh, own ex c⟩ := rfl
  simp only [he, Bool.false_eq_true, false_or, ne_eq, not_true_eq_false, if_false]
  generalize body ⟨l, sh, own ex c⟩ = y at h
  obtain ⟨r, l', sh', ex'⟩ := y
  obtain ⟨h1, h2, h3⟩ := h
  simp only at h1 h2 h3
  subst h1 h2
  exact ⟨rfl, own_free ex c hc, h3⟩

end

end Verif.ReentryLemmas
