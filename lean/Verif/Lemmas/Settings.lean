import Verif.Spec.Settings
import Verif.Lemmas.LockSync
/-
Helper lemmas: which locks can be poisoned.
-/
namespace Verif.LockLemmas
open Verif Verif.Spec

variable {D F P S α β : Type}

/-- The code, which begins with the locks `held`: it leaves the settings usable, poisons only locks that it holds for writing, and ends
with the locks `top` and a result that satisfies `Q`. -/
def Calm (Q : α → Prop) (top : List (Cell × Bool)) : List (Cell × Bool) → Locking (LkState S) α → Prop
  | held, .done a => held = top ∧ Q a
  | held, .step effect next => ∀ s, SettingsUsable s → SettingsUsable (effect s) ∧
      (∀ c, (effect s).poisoned c = true → s.poisoned c = true ∨ (c, true) ∈ held) ∧ Calm Q top held (next s)
  | held, .acquire c x next => Calm Q top ((c, x) :: held) next
  | held, .release c x next => Calm Q top (held.erase (c, x)) next

theorem Calm.bind {Q : α → Prop} {R : β → Prop} {mid top : List (Cell × Bool)} {k : α → Locking (LkState S) β}
    (hk : ∀ a, Q a → Calm R top mid (k a)) : ∀ {p : Locking (LkState S) α} {held}, Calm Q mid held p → Calm R top held (p.bind k)
  | .done a, _, h => by obtain ⟨rfl, hq⟩ := h; exact hk a hq
  | .step _ _, _, h => fun s hs => ⟨(h s hs).1, (h s hs).2.1, Calm.bind hk (h s hs).2.2⟩
  | .acquire _ _ n, _, h => Calm.bind (p := n) hk h
  | .release _ _ n, _, h => Calm.bind (p := n) hk h

/-- The result is a value. -/
def Sure : Run α → Prop
  | .value _ => True
  | _ => False

/-- Any result. -/
def AnyRun : Run α → Prop := fun _ => True

section
variable {held : List (Cell × Bool)}

theorem Calm.andThen {x : LkM S α} {k : α → LkM S β} (h : Calm AnyRun held held x) (hk : ∀ a, Calm AnyRun held held (k a)) :
    Calm AnyRun held held (x.andThen k) := by
  refine Calm.bind (fun r _ => ?_) h
  cases r with
  | value a => exact hk a
  | _ => exact ⟨rfl, trivial⟩

theorem Calm.andThen_sure {x : LkM S α} {k : α → LkM S β} (h : Calm Sure held held x) (hk : ∀ a, Calm Sure held held (k a)) :
    Calm Sure held held (x.andThen k) := by
  refine Calm.bind (fun r hr => ?_) h
  cases r with
  | value a => exact hk a
  | _ => exact hr.elim

theorem Calm.ret {a : α} : Calm AnyRun held held (LkM.ret a : LkM S α) := ⟨rfl, trivial⟩

theorem Calm.ret_sure {a : α} : Calm Sure held held (LkM.ret a : LkM S α) := ⟨rfl, trivial⟩

theorem same_state {s : LkState S} (hs : SettingsUsable s) {p : Prop} (h : p) :
    SettingsUsable (id s) ∧ (∀ c, (id s).poisoned c = true → s.poisoned c = true ∨ (c, true) ∈ held) ∧ p :=
  ⟨hs, fun _ h => .inl h, h⟩

theorem Calm.read {c : Cell} {body : LkM S α} (h : Calm AnyRun ((c, false) :: held) ((c, false) :: held) body) :
    Calm AnyRun held held (LkM.read c body) := by
  refine fun s hs => same_state hs ?_
  refine Calm.bind (mid := (c, false) :: held) (Q := AnyRun) ?_ ?_
  · exact fun r _ => ⟨List.erase_cons_head _ _, trivial⟩
  · split
    · exact ⟨rfl, trivial⟩
    · exact h

theorem Calm.read_sure {c : Cell} (hc : Setting c) {body : LkM S α} (h : Calm Sure ((c, false) :: held) ((c, false) :: held) body) :
    Calm Sure held held (LkM.read c body) := by
  refine fun s hs => same_state hs ?_
  refine Calm.bind (mid := (c, false) :: held) (Q := Sure) ?_ ?_
  · exact fun r hr => ⟨List.erase_cons_head _ _, hr⟩
  · rw [if_neg (by rw [hs c hc]; exact Bool.false_ne_true)]
    exact h

theorem poison_held {c : Cell} (r : Run α) {s : LkState S} (d : Cell) (h : (LkM.poison c r s).poisoned d = true) :
    s.poisoned d = true ∨ (d, true) ∈ (c, true) :: held := by
  cases r with
  | panic =>
    simp only [LkM.poison] at h
    by_cases hd : d = c
    · exact .inr (by simp [hd])
    · rw [if_neg hd] at h
      exact .inl h
  | value _ => exact .inl h
  | conflict => exact .inl h
  | deep => exact .inl h

theorem Calm.write {c : Cell} (hc : ¬ Setting c) {body : LkM S α} (h : Calm AnyRun ((c, true) :: held) ((c, true) :: held) body) :
    Calm AnyRun held held (LkM.write c body) := by
  refine fun s hs => same_state hs ?_
  refine Calm.bind (mid := (c, true) :: held) (Q := AnyRun) ?_ ?_
  · refine fun r _ s' hs' => ⟨fun d hd => ?_, poison_held r, List.erase_cons_head _ _, trivial⟩
    cases r with
    | panic =>
      simp only [LkM.poison]
      rw [if_neg (fun h => hc (by rw [← h]; exact hd))]
      exact hs' d hd
    | _ => exact hs' d hd
  · split
    · exact ⟨rfl, trivial⟩
    · exact h

theorem Calm.write_sure {c : Cell} (hc : Setting c) {body : LkM S α} (h : Calm Sure ((c, true) :: held) ((c, true) :: held) body) :
    Calm Sure held held (LkM.write c body) := by
  refine fun s hs => same_state hs ?_
  refine Calm.bind (mid := (c, true) :: held) (Q := Sure) ?_ ?_
  · refine fun r hr s' hs' => ⟨?_, poison_held r, List.erase_cons_head _ _, hr⟩
    cases r with
    | value a => exact hs'
    | _ => exact hr.elim
  · rw [if_neg (by rw [hs c hc]; exact Bool.false_ne_true)]
    exact h

theorem Calm.get {f : Localiser S → α} : Calm AnyRun held held (LkM.get f) := fun _ hs => same_state hs ⟨rfl, trivial⟩

theorem Calm.get_sure {f : Localiser S → α} : Calm Sure held held (LkM.get f) := fun _ hs => same_state hs ⟨rfl, trivial⟩

theorem Calm.weaken {Q R : α → Prop} (hq : ∀ a, Q a → R a) {top : List (Cell × Bool)} :
    ∀ {p : Locking (LkState S) α} {held}, Calm Q top held p → Calm R top held p
  | .done _, _, h => ⟨h.1, hq _ h.2⟩
  | .step _ _, _, h => fun s hs => ⟨(h s hs).1, (h s hs).2.1, Calm.weaken hq (h s hs).2.2⟩
  | .acquire _ _ n, _, h => Calm.weaken (p := n) hq h
  | .release _ _ n, _, h => Calm.weaken (p := n) hq h

theorem Calm.set {f : Localiser S → Option (Localiser S)} {fresh : Str → Str → Bool} :
    Calm AnyRun held held (LkM.set f fresh) := by
  intro s hs
  dsimp only
  cases hf : f s.loc with
  | none => exact ⟨hs, fun _ h => .inl h, rfl, trivial⟩
  | some l =>
    refine ⟨fun c hc => ?_, fun c h => ?_, rfl, trivial⟩
    · cases c <;> first | exact hc.elim | exact hs _ hc
    · cases c <;> first | exact .inl h | skip
      dsimp only at h
      split at h
      · cases h
      · exact .inl h

theorem Calm.set_sure {f : Localiser S → Localiser S} : Calm Sure held held (LkM.set fun l => some (f l)) := by
  intro s hs
  refine ⟨fun c hc => ?_, fun c h => ?_, rfl, trivial⟩
  · cases c <;> first | exact hc.elim | exact hs _ hc
  · cases c <;> exact .inl h

theorem Calm.result {r : LocM P α} : Calm AnyRun held held (LkM.result r : LkM S _) := by
  cases r <;> exact ⟨rfl, trivial⟩

theorem Calm.converse {ask : Request D F → LkM S (Answer P)} (hask : ∀ r, Calm AnyRun held held (ask r))
    (t : Talk (Request D F) (Answer P) α) : Calm AnyRun held held (lkConverse ask t) := by
  induction t with
  | done a => exact Calm.ret
  | ask r next ih => exact Calm.andThen (hask r) fun a => ih a

end

/-! ### The localiser -/

section
variable {L : TalkLocEnv D F P} {ask : Request D F → LkM S (Answer P)} (hask : ∀ held r, Calm AnyRun held held (ask r))
include hask

theorem lkFormatter_calm {held : List (Cell × Bool)} (tag key : Str) (f : Formatter) (values : AMap Str (PValue D F)) :
    Calm AnyRun held held (lkFormatter L ask tag key f values) :=
  Calm.write id <| Calm.andThen Calm.get fun _ => Calm.andThen (Calm.converse (hask _) _) fun ⟨_, _⟩ =>
    Calm.andThen Calm.set fun _ => Calm.result

omit hask in
theorem lkString_calm {held : List (Cell × Bool)} (caching exist : Bool) (key string tag : Str) :
    Calm AnyRun held held (lkString (P := P) (S := S) caching exist key string tag) := by
  unfold lkString
  split
  · exact Calm.andThen (Calm.write id Calm.set) fun _ => Calm.ret
  · exact Calm.ret

theorem lkFormat_calm {held : List (Cell × Bool)} (c i : Str) (values : AMap Str (PValue D F)) (tag : Str) (fallback caching : Bool) :
    Calm AnyRun held held (lkFormat L ask c i values tag fallback caching) := by
  unfold lkFormat
  generalize cacheKey c i = key
  dsimp only
  refine Calm.andThen (Calm.read (Calm.andThen Calm.get fun a => ?_)) fun a => ?_
  · obtain ⟨exist, d⟩ := a
    cases d with
    | none => exact Calm.ret
    | some d =>
      cases d with
      | localised s t => exact Calm.ret
      | formatter f => exact Calm.andThen (lkFormatter_calm hask _ _ _ _) fun _ => Calm.ret
  · cases a with
    | inl r => exact Calm.ret
    | inr exist =>
      refine Calm.andThen Calm.result fun a => ?_
      cases a with
      | error e => exact Calm.ret
      | ok x =>
        obtain ⟨s, t⟩ := x
        dsimp only
        split
        · exact lkString_calm _ _ _ _ _
        · refine Calm.andThen (Calm.converse (hask _) _) fun r => ?_
          cases r with
          | err e =>
            cases e with
            | noGrammar => exact lkString_calm _ _ _ _ _
            | _ => exact Calm.ret
          | panic => exact Calm.result
          | ok f =>
            dsimp only
            split
            · exact Calm.andThen (Calm.converse (hask _) _) fun ⟨_, _⟩ => Calm.result
            · unfold lkCached
              refine Calm.andThen (Calm.write id Calm.set) fun _ => Calm.read (Calm.andThen Calm.get fun d => ?_)
              cases d with
              | none => exact Calm.result
              | some d =>
                cases d with
                | localised s t => exact Calm.ret
                | formatter f => exact lkFormatter_calm hask _ _ _ _

omit hask in
theorem lkLiteral_calm {held : List (Cell × Bool)} (c i tag : Str) (fallback caching : Bool) :
    Calm AnyRun held held (lkLiteral (S := S) L c i tag fallback caching) := by
  refine Calm.andThen (Calm.read Calm.get) fun a => ?_
  obtain ⟨exist, d⟩ := a
  cases d with
  | some d => cases d <;> exact Calm.ret
  | none =>
    refine Calm.andThen Calm.result fun r => ?_
    cases r with
    | error e => exact Calm.ret
    | ok x => exact lkString_calm _ _ _ _ _

mutual
theorem lkData_calm {held : List (Cell × Bool)} (tag : Str) (fallback caching : Bool) (c i : Str)
    (values : Option (List (Str × PValue D F))) : Calm AnyRun held held (lkData L ask tag fallback caching c i values) := by
  match values with
  | none => unfold lkData; exact lkLiteral_calm _ _ _ _ _
  | some vs =>
    unfold lkData
    refine Calm.andThen (lkValues_calm tag fallback caching vs []) fun r => ?_
    cases r with
    | error e => exact Calm.ret
    | ok values => exact lkFormat_calm hask _ _ _ _ _ _

theorem lkValues_calm {held : List (Cell × Bool)} (tag : Str) (fallback caching : Bool) (values : List (Str × PValue D F))
    (acc : AMap Str (PValue D F)) : Calm AnyRun held held (lkValues L ask tag fallback caching values acc) := by
  match values with
  | [] => unfold lkValues; exact Calm.ret
  | (name, .localisationData c i vs) :: rest =>
    unfold lkValues
    refine Calm.andThen (lkData_calm tag fallback caching c i vs) fun r => ?_
    cases r with
    | error e => exact Calm.ret
    | ok x => exact lkValues_calm tag fallback caching rest _
  | (name, .string s) :: rest => unfold lkValues; exact lkValues_calm tag fallback caching rest _
  | (name, .integer s) :: rest => unfold lkValues; exact lkValues_calm tag fallback caching rest _
  | (name, .unsigned s) :: rest => unfold lkValues; exact lkValues_calm tag fallback caching rest _
  | (name, .float s) :: rest => unfold lkValues; exact lkValues_calm tag fallback caching rest _
  | (name, .taggedString s t) :: rest => unfold lkValues; exact lkValues_calm tag fallback caching rest _
  | (name, .localised s t) :: rest => unfold lkValues; exact lkValues_calm tag fallback caching rest _
  | (name, .fixedDecimal s) :: rest => unfold lkValues; exact lkValues_calm tag fallback caching rest _
  | (name, .dateTime s t) :: rest => unfold lkValues; exact lkValues_calm tag fallback caching rest _
  | (name, .date s) :: rest => unfold lkValues; exact lkValues_calm tag fallback caching rest _
  | (name, .time s) :: rest => unfold lkValues; exact lkValues_calm tag fallback caching rest _
end

omit hask in
theorem lkOptions_calm {held : List (Cell × Bool)} {tag : Option Str} {fallback caching : Option Bool}
    {body : Str → Bool → Bool → LkM S α} (h : ∀ t fb ca, Calm AnyRun held held (body t fb ca)) :
    Calm AnyRun held held (lkOptions tag fallback caching body) := by
  unfold lkOptions
  refine Calm.andThen ?_ fun t => Calm.andThen (Calm.read Calm.get) fun fb => Calm.andThen (Calm.read Calm.get) fun ca => h _ _ _
  cases tag with
  | some t => exact Calm.ret
  | none => exact Calm.read Calm.get

omit hask in
theorem lkDefaults_calm {held : List (Cell × Bool)} (scriptOf : Str → S) (tag : Option Str) (fallback caching : Option Bool) :
    Calm Sure held held (lkDefaults scriptOf tag fallback caching) := by
  unfold lkDefaults
  refine Calm.andThen_sure ?_ fun _ => Calm.andThen_sure ?_ fun _ => ?_
  · cases tag with
    | none => exact Calm.ret_sure
    | some t =>
      exact Calm.andThen_sure (Calm.write_sure (c := .tag) trivial Calm.set_sure) fun _ =>
        Calm.read_sure (c := .tag) trivial (Calm.andThen_sure Calm.get_sure fun _ => Calm.write_sure (c := .script) trivial Calm.set_sure)
  · cases fallback with
    | none => exact Calm.ret_sure
    | some b => exact Calm.write_sure (c := .fallback) trivial Calm.set_sure
  · cases caching with
    | none => exact Calm.ret_sure
    | some b => exact Calm.write_sure (c := .caching) trivial Calm.set_sure

end

theorem lkRequest_calm (L : TalkLocEnv D F P) (scriptOf : Str → S) (depth : Nat) : ∀ held r,
    Calm AnyRun held held (lkRequest L scriptOf depth r) := by
  induction depth with
  | zero => intro held r; exact ⟨rfl, trivial⟩
  | succ depth ih =>
    intro held r
    cases r with
    | format c i vs tag fallback caching =>
      exact lkOptions_calm fun t fb ca => Calm.andThen (lkFormat_calm ih _ _ _ _ _ _) fun _ => Calm.ret
    | literal c i tag fallback caching =>
      exact lkOptions_calm fun t fb ca => Calm.andThen (lkLiteral_calm _ _ _ _ _) fun _ => Calm.ret
    | data c i vs tag fallback caching =>
      exact lkOptions_calm fun t fb ca => Calm.andThen (lkData_calm ih _ _ _ _ _ _) fun _ => Calm.ret
    | defaults tag fallback caching =>
      exact Calm.andThen (Calm.weaken (fun _ _ => trivial) (lkDefaults_calm scriptOf tag fallback caching)) fun _ => Calm.ret

theorem lkThread_calm (L : TalkLocEnv D F P) (scriptOf : Str → S) (depth : Nat) (requests : List (Request D F)) :
    ∀ answers : List (Run (Answer P)), Calm (fun _ => True) [] [] (lkThread L scriptOf depth requests answers) := by
  induction requests with
  | nil => intro answers; exact ⟨rfl, trivial⟩
  | cons r rest ih =>
    intro answers
    refine Calm.bind (Q := AnyRun) (fun a _ => ?_) (lkRequest_calm L scriptOf depth [] r)
    cases a with
    | value a => exact ih _
    | _ => exact ⟨rfl, trivial⟩

theorem lkThread_defaults (L : TalkLocEnv D F P) (scriptOf : Str → S) (depth : Nat) (requests : List (Request D F))
    (hr : ∀ r ∈ requests, OnlyDefaults r) : ∀ answers : List (Run (Answer P)),
    Calm (fun as => as = answers ++ List.replicate requests.length (.value none)) [] []
      (lkThread L scriptOf (depth + 1) requests answers) := by
  induction requests with
  | nil => intro answers; exact ⟨rfl, by simp⟩
  | cons r rest ih =>
    intro answers
    have h1 := hr r (List.mem_cons_self ..)
    cases r with
    | defaults tag fallback caching =>
      have h2 : Calm (fun a : Run (Answer P) => a = .value none) [] []
          (lkRequest L scriptOf (depth + 1) (.defaults tag fallback caching)) := by
        refine Calm.bind (Q := Sure) (fun a ha => ?_) (lkDefaults_calm scriptOf tag fallback caching)
        cases a with
        | value a => exact ⟨rfl, rfl⟩
        | _ => exact ha.elim
      refine Calm.bind (Q := fun a : Run (Answer P) => a = .value none) (fun a ha => ?_) h2
      subst ha
      refine Calm.weaken ?_ (ih (fun r hm => hr r (List.mem_cons_of_mem _ hm)) (answers ++ [.value none]))
      rintro _ rfl
      simp [List.replicate_succ]
    | _ => exact h1.elim

/-! ### Runs -/

theorem advance_calm {Q : α → Prop} {s : LkState S} {t : LockThread (LkState S) α} (hs : SettingsUsable s) (h : Calm Q [] t.held t.prog) :
    SettingsUsable (t.advance s).1 ∧ (∀ c, (t.advance s).1.poisoned c = true → s.poisoned c = true ∨ (c, true) ∈ t.held) ∧
      Calm Q [] (t.advance s).2.held (t.advance s).2.prog := by
  obtain ⟨p, held, w⟩ := t
  cases p with
  | done a => exact ⟨hs, fun _ h => .inl h, h⟩
  | step e n => exact h s hs
  | acquire c x n =>
    cases w with
    | true => exact ⟨hs, fun _ h => .inl h, h⟩
    | false => exact ⟨hs, fun _ h => .inl h, h⟩
  | release c x n => exact ⟨hs, fun _ h => .inl h, h⟩

theorem lockStep_calm (policy : List (LockThread (LkState S) α) → Cell → Bool) {Q : Nat → α → Prop} {s : LkState S}
    {threads : List (LockThread (LkState S) α)} (hs : SettingsUsable s)
    (h : ∀ i t, threads[i]? = some t → Calm (Q i) [] t.held t.prog) (i : Nat) :
    SettingsUsable (lockStep policy s threads i).1 ∧
      (∀ c, (lockStep policy s threads i).1.poisoned c = true → s.poisoned c = true ∨
        ∃ t, threads[i]? = some t ∧ (c, true) ∈ t.held) ∧
      ∀ j t, (lockStep policy s threads i).2[j]? = some t → Calm (Q j) [] t.held t.prog := by
  unfold lockStep
  cases hi : threads[i]? with
  | none => exact ⟨hs, fun _ h => .inl h, h⟩
  | some t =>
    dsimp only
    split
    · obtain ⟨h1, h2, h3⟩ := advance_calm hs (h i t hi)
      refine ⟨h1, fun c hc => (h2 c hc).imp id fun h => ⟨t, rfl, h⟩, fun j u hj => ?_⟩
      rw [List.getElem?_set] at hj
      by_cases hij : i = j
      · subst hij
        simp only [if_true] at hj
        split at hj
        · cases hj; exact h3
        · cases hj
      · rw [if_neg hij] at hj
        exact h j u hj
    · exact ⟨hs, fun _ h => .inl h, h⟩

theorem lockRun_calm (policy : List (LockThread (LkState S) α) → Cell → Bool) {Q : Nat → α → Prop} (schedule : List Nat) :
    ∀ {s : LkState S} {threads : List (LockThread (LkState S) α)}, SettingsUsable s →
      (∀ i t, threads[i]? = some t → Calm (Q i) [] t.held t.prog) →
      SettingsUsable (lockRun policy s threads schedule).1 ∧
        ∀ j t, (lockRun policy s threads schedule).2[j]? = some t → Calm (Q j) [] t.held t.prog := by
  induction schedule with
  | nil => intro s threads hs h; exact ⟨hs, h⟩
  | cons i rest ih =>
    intro s threads hs h
    obtain ⟨h1, -, h2⟩ := lockStep_calm policy hs h i
    exact ih h1 h2

end Verif.LockLemmas
