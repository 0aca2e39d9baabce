import Verif.Model.LocaliserSync
/-
Threads that change the defaults: which phase of a change each thread is in.
-/
namespace Verif.SyncLemmas
open Verif

variable {D F P S α β : Type}

/-- Where a thread is in a change of the default language. -/
inductive Phase (S : Type) where
  | idle
  | owing
  | holding (script : S)
  | releasing

/-- The thread holds the read lock of the tag. -/
def Phase.holds : Phase S → Nat
  | .holding _ => 1
  | .releasing => 1
  | _ => 0

/-- The thread has still to write the script data. -/
def Phase.Owes : Phase S → Prop
  | .owing => True
  | .holding _ => True
  | _ => False

/-- The program is in the phase and follows the order of steps. -/
def Follows (scriptOf : Str → S) : Phase S → Act (Shared S) α → Prop
  | ph, .done _ => ph = .idle
  | .idle, .step ready effect next =>
      (∀ s, ready s = false → s.readers ≠ 0) ∧ ∀ s, ready s = true →
        ((effect s).tag = s.tag ∧ (effect s).script = s.script ∧ (effect s).readers = s.readers ∧
          Follows scriptOf .idle (next s)) ∨
        (s.readers = 0 ∧ (effect s).readers = s.readers ∧ (effect s).script = s.script ∧ Follows scriptOf .owing (next s))
  | .owing, .step ready effect next => ∀ s, ready s = true ∧ (effect s).tag = s.tag ∧ (effect s).script = s.script ∧
      (effect s).readers = s.readers + 1 ∧ Follows scriptOf (.holding (scriptOf s.tag)) (next s)
  | .holding d, .step ready effect next => ∀ s, ready s = true ∧ (effect s).tag = s.tag ∧ (effect s).script = d ∧
      (effect s).readers = s.readers ∧ Follows scriptOf .releasing (next s)
  | .releasing, .step ready effect next => ∀ s, ready s = true ∧ (effect s).tag = s.tag ∧
      (effect s).script = s.script ∧ (effect s).readers = s.readers - 1 ∧ Follows scriptOf .idle (next s)

theorem Follows.bind {scriptOf : Str → S} {p : Act (Shared S) α} {f : α → Act (Shared S) β}
    (hf : ∀ a, Follows scriptOf .idle (f a)) : ∀ ph, Follows scriptOf ph p → Follows scriptOf ph (p.bind f) := by
  induction p with
  | done a => intro ph h; simp only [Follows] at h; subst h; exact hf a
  | step ready effect next ih =>
    intro ph h
    cases ph with
    | idle =>
      refine ⟨h.1, fun s hs => ?_⟩
      rcases h.2 s hs with ⟨h1, h2, h3, h4⟩ | ⟨h1, h2, h3, h4⟩
      · exact .inl ⟨h1, h2, h3, ih s _ h4⟩
      · exact .inr ⟨h1, h2, h3, ih s _ h4⟩
    | owing => intro s; obtain ⟨h1, h2, h3, h4, h5⟩ := h s; exact ⟨h1, h2, h3, h4, ih s _ h5⟩
    | holding d => intro s; obtain ⟨h1, h2, h3, h4, h5⟩ := h s; exact ⟨h1, h2, h3, h4, ih s _ h5⟩
    | releasing => intro s; obtain ⟨h1, h2, h3, h4, h5⟩ := h s; exact ⟨h1, h2, h3, h4, ih s _ h5⟩

/-- Steps that change neither tag nor script data. -/
theorem Follows.atomic {scriptOf : Str → S} {f : Shared S → Shared S × Act (Shared S) α}
    (h : ∀ s, (f s).1.tag = s.tag ∧ (f s).1.script = s.script ∧ (f s).1.readers = s.readers ∧
      Follows scriptOf .idle (f s).2) : Follows scriptOf .idle (Act.atomic f) :=
  ⟨fun _ h => by simp at h, fun s _ => .inl (h s)⟩

theorem follows_read {scriptOf : Str → S} (f : Shared S → α) : Follows scriptOf .idle (Act.read f) :=
  Follows.atomic fun _ => ⟨rfl, rfl, rfl, rfl⟩

theorem follows_done {scriptOf : Str → S} (a : α) : Follows scriptOf .idle (.done a : Act (Shared S) α) := rfl

theorem useFormatter_same (E : FmtEnv D F) (s : Shared S) (m : AMap Str CacheData) (tag key : Str) (f : Formatter)
    (values : AMap Str (PValue D F)) (scriptOf : Str → S) :
    let r := useFormatter (P := P) E s m tag key f values
    r.1.tag = s.tag ∧ r.1.script = s.script ∧ r.1.readers = s.readers ∧ Follows scriptOf .idle r.2 := by
  unfold useFormatter
  by_cases h : s.broken tag key = true
  · simp only [h, if_true]; exact ⟨trivial, trivial, trivial, rfl⟩
  · simp only [h]; exact ⟨rfl, rfl, rfl, rfl⟩

theorem follows_storeStep {scriptOf : Str → S} (ex : Bool) (tag key : Str) (e : CacheData)
    {rest : Call S P α} (hr : Follows scriptOf .idle rest) : Follows scriptOf .idle (storeStep ex tag key e rest) := by
  refine Follows.atomic fun s => ?_
  by_cases h : s.poisoned = true
  · simp only [h, if_true]; exact ⟨trivial, trivial, trivial, rfl⟩
  · simp only [h]
    unfold store
    cases ex with
    | false => exact ⟨rfl, rfl, rfl, hr⟩
    | true =>
      simp only [not_true, if_false]
      cases AMap.get s.cache tag with
      | none => exact ⟨rfl, rfl, rfl, rfl⟩
      | some m => exact ⟨rfl, rfl, rfl, hr⟩

theorem follows_return {scriptOf : Str → S} (ca ex : Bool) (key s t : Str) :
    Follows scriptOf .idle (syncReturn (P := P) ca ex key s t) := by
  unfold syncReturn
  cases ca with
  | false => exact rfl
  | true => exact follows_storeStep _ _ _ _ rfl

theorem follows_reuse {scriptOf : Str → S} (E : FmtEnv D F) (tag key : Str) (values : AMap Str (PValue D F)) :
    Follows scriptOf .idle (syncReuse (P := P) E tag key values) := by
  refine Follows.atomic fun s => ?_
  by_cases h : s.poisoned = true
  · simp only [h, if_true]; exact ⟨trivial, trivial, trivial, rfl⟩
  · simp only [h]
    cases AMap.get s.cache tag with
    | none => exact ⟨rfl, rfl, rfl, rfl⟩
    | some m =>
      simp only
      cases m.get key with
      | none => exact ⟨rfl, rfl, rfl, rfl⟩
      | some e =>
        cases e with
        | localised s' t => exact ⟨rfl, rfl, rfl, rfl⟩
        | formatter f => exact useFormatter_same E s m tag key f values scriptOf

theorem follows_formatMiss {scriptOf : Str → S} (L : LocEnv D F P) (c i : Str) (values : AMap Str (PValue D F)) (tag : Str)
    (fb ca ex : Bool) : Follows scriptOf .idle (syncFormatMiss L c i values tag fb ca ex) := by
  unfold syncFormatMiss
  cases fetch L c i tag fb with
  | err e => exact rfl
  | panic => exact rfl
  | ok r =>
    obtain ⟨s, t⟩ := r
    simp only
    by_cases hs : s = []
    · simp only [hs, if_true]; exact follows_return _ _ _ _ _
    · simp only [hs, if_false]
      cases Formatter.tryNew L.fmt s t (L.icuLanguage t) with
      | panic => exact rfl
      | err e => cases e <;> first | exact follows_return _ _ _ _ _ | exact rfl
      | ok f =>
        cases ca with
        | false => exact rfl
        | true => exact follows_storeStep _ _ _ _ (follows_reuse _ _ _ _)

theorem follows_format {scriptOf : Str → S} (L : LocEnv D F P) (c i : Str) (values : AMap Str (PValue D F)) (tag : Str)
    (fb ca : Bool) : Follows scriptOf .idle (syncFormat L c i values tag fb ca) := by
  refine Follows.atomic fun s => ?_
  by_cases h : s.poisoned = true
  · simp only [h, if_true]; exact ⟨trivial, trivial, trivial, rfl⟩
  · simp only [h]
    cases (AMap.get s.cache tag).bind fun m => (m.get (cacheKey c i)).map fun d => (m, d) with
    | none => exact ⟨rfl, rfl, rfl, follows_formatMiss _ _ _ _ _ _ _ _⟩
    | some x =>
      obtain ⟨m, e⟩ := x
      cases e with
      | localised s' t => exact ⟨rfl, rfl, rfl, rfl⟩
      | formatter f => exact useFormatter_same L.fmt s m tag _ f values scriptOf

theorem follows_literal {scriptOf : Str → S} (L : LocEnv D F P) (c i : Str) (tag : Str)
    (fb ca : Bool) : Follows scriptOf .idle (syncLiteral L c i tag fb ca) := by
  refine Follows.atomic fun s => ?_
  by_cases h : s.poisoned = true
  · simp only [h, if_true]; exact ⟨trivial, trivial, trivial, rfl⟩
  · simp only [h]
    cases (AMap.get s.cache tag).bind fun m => m.get (cacheKey c i) with
    | none =>
      refine ⟨rfl, rfl, rfl, ?_⟩
      cases fetch L c i tag fb with
      | err e => exact rfl
      | panic => exact rfl
      | ok r => exact follows_return _ _ _ _ _
    | some e =>
      cases e with
      | localised s' t => exact ⟨rfl, rfl, rfl, rfl⟩
      | formatter f => exact ⟨rfl, rfl, rfl, rfl⟩

mutual
theorem follows_data {scriptOf : Str → S} (L : LocEnv D F P) (tag : Str) (fb ca : Bool) (c i : Str)
    (values : Option (List (Str × PValue D F))) : Follows scriptOf .idle (syncData L tag fb ca c i values) := by
  match values with
  | none => simp only [syncData]; exact follows_literal _ _ _ _ _ _
  | some vs =>
    simp only [syncData]
    refine Follows.bind (fun a => ?_) _ (follows_values L tag fb ca vs [])
    cases a with
    | ok m => exact follows_format _ _ _ _ _ _ _
    | err e => exact rfl
    | panic => exact rfl

theorem follows_values {scriptOf : Str → S} (L : LocEnv D F P) (tag : Str) (fb ca : Bool)
    (values : List (Str × PValue D F)) (acc : AMap Str (PValue D F)) :
    Follows scriptOf .idle (syncValues L tag fb ca values acc) := by
  match values with
  | [] => simp only [syncValues]; exact rfl
  | (name, .localisationData c i vs) :: rest =>
    simp only [syncValues]
    refine Follows.bind (fun a => ?_) _ (follows_data L tag fb ca c i vs)
    match a with
    | .ok (s, t) => exact follows_values L tag fb ca rest _
    | .err e => exact rfl
    | .panic => exact rfl
  | (name, .string _) :: rest => simp only [syncValues]; exact follows_values L tag fb ca rest _
  | (name, .integer _) :: rest => simp only [syncValues]; exact follows_values L tag fb ca rest _
  | (name, .unsigned _) :: rest => simp only [syncValues]; exact follows_values L tag fb ca rest _
  | (name, .float _) :: rest => simp only [syncValues]; exact follows_values L tag fb ca rest _
  | (name, .taggedString _ _) :: rest => simp only [syncValues]; exact follows_values L tag fb ca rest _
  | (name, .localised _ _) :: rest => simp only [syncValues]; exact follows_values L tag fb ca rest _
  | (name, .fixedDecimal _) :: rest => simp only [syncValues]; exact follows_values L tag fb ca rest _
  | (name, .dateTime _ _) :: rest => simp only [syncValues]; exact follows_values L tag fb ca rest _
  | (name, .date _) :: rest => simp only [syncValues]; exact follows_values L tag fb ca rest _
  | (name, .time _) :: rest => simp only [syncValues]; exact follows_values L tag fb ca rest _
end

theorem follows_setTag (scriptOf : Str → S) (tag : Str) : Follows scriptOf .idle (syncSetTag scriptOf tag) := by
  refine ⟨fun s h => by simpa using h, fun s h => .inr ⟨by simpa using h, rfl, rfl, fun s => ⟨rfl, rfl, rfl, rfl, ?_⟩⟩⟩
  exact fun s' => ⟨rfl, rfl, rfl, rfl, fun s'' => ⟨rfl, rfl, rfl, rfl, rfl⟩⟩

theorem follows_defaults (scriptOf : Str → S) (tag : Option Str) (fb ca : Option Bool) :
    Follows scriptOf .idle (syncDefaults scriptOf tag fb ca) := by
  unfold syncDefaults
  refine Follows.bind (fun _ => Follows.bind (fun _ => ?_) _ ?_) _ ?_
  · cases ca with
    | none => exact rfl
    | some b => exact Follows.atomic fun s => ⟨rfl, rfl, rfl, rfl⟩
  · cases fb with
    | none => exact rfl
    | some b => exact Follows.atomic fun s => ⟨rfl, rfl, rfl, rfl⟩
  · cases tag with
    | none => exact rfl
    | some t => exact follows_setTag _ _

theorem follows_options {scriptOf : Str → S} (tag : Option Str) (fb ca : Option Bool)
    {rest : Str → Bool → Bool → Act (Shared S) α} (h : ∀ t f c, Follows scriptOf .idle (rest t f c)) :
    Follows scriptOf .idle (syncOptions tag fb ca rest) :=
  Follows.bind (fun _ => Follows.bind (fun _ => Follows.bind (fun _ => h _ _ _) _ (follows_read _)) _ (follows_read _)) _
    (follows_read _)

theorem follows_call (L : LocEnv D F P) (scriptOf : Str → S) (r : Request D F) :
    Follows scriptOf .idle (syncCall L scriptOf r) := by
  cases r with
  | format c i vs t fb ca =>
    exact follows_options _ _ _ fun _ _ _ => Follows.bind (fun _ => follows_done _) _ (follows_format _ _ _ _ _ _ _)
  | literal c i t fb ca =>
    exact follows_options _ _ _ fun _ _ _ => Follows.bind (fun _ => follows_done _) _ (follows_literal _ _ _ _ _ _)
  | data c i vs t fb ca =>
    exact follows_options _ _ _ fun _ _ _ => Follows.bind (fun _ => follows_done _) _ (follows_data _ _ _ _ _ _ _)
  | defaults t fb ca => exact Follows.bind (fun _ => follows_done _) _ (follows_defaults _ _ _ _)

theorem follows_thread (L : LocEnv D F P) (scriptOf : Str → S) (calls : List (Request D F)) :
    ∀ answers, Follows scriptOf .idle (syncThread L scriptOf calls answers) := by
  induction calls with
  | nil => intro answers; exact rfl
  | cons r rest ih =>
    intro answers
    refine Follows.bind (fun a => ?_) _ (follows_call L scriptOf r)
    match a with
    | some .panic => exact rfl
    | some (.ok x) => exact ih _
    | some (.err e) => exact ih _
    | none => exact ih _

/-! ### All threads together -/

/-- The state and the phases of the threads. -/
structure Consistent (scriptOf : Str → S) (s : Shared S) (phases : List (Phase S)) : Prop where
  readers : s.readers = (phases.map Phase.holds).sum
  holding : ∀ d, Phase.holding d ∈ phases → d = scriptOf s.tag
  script : s.script = scriptOf s.tag ∨ ∃ ph ∈ phases, ph.Owes

theorem sum_set (f : Phase S → Nat) : ∀ (l : List (Phase S)) (i : Nat) (a b : Phase S), l[i]? = some a →
    ((l.set i b).map f).sum + f a = (l.map f).sum + f b
  | [], i, a, b, h => by simp at h
  | x :: l, 0, a, b, h => by
    simp only [List.getElem?_cons_zero, Option.some.injEq] at h
    subst h
    simp only [List.set_cons_zero, List.map_cons, List.sum_cons]
    omega
  | x :: l, i + 1, a, b, h => by
    simp only [List.getElem?_cons_succ] at h
    have := sum_set f l i a b h
    simp only [List.set_cons_succ, List.map_cons, List.sum_cons]
    omega

theorem holds_le (l : List (Phase S)) {ph : Phase S} (h : ph ∈ l) : ph.holds ≤ (l.map Phase.holds).sum := by
  induction l with
  | nil => cases h
  | cons x l ih =>
    simp only [List.map_cons, List.sum_cons]
    rcases List.mem_cons.1 h with h | h
    · subst h; omega
    · have := ih h; omega

theorem mem_set_or {γ : Type} {l : List γ} {i : Nat} {b x : γ} (h : x ∈ l.set i b) : x = b ∨ x ∈ l := by
  rcases List.mem_or_eq_of_mem_set h with h | h
  · exact .inr h
  · exact .inl h

theorem owes_set {l : List (Phase S)} {i : Nat} {a b : Phase S} (hi : l[i]? = some a) (h : ∃ ph ∈ l, ph.Owes)
    (hab : a.Owes → b.Owes) : ∃ ph ∈ l.set i b, ph.Owes := by
  obtain ⟨ph, hm, ho⟩ := h
  obtain ⟨j, hj⟩ := List.mem_iff_getElem?.1 hm
  by_cases hij : i = j
  · subst hij
    rw [hi] at hj
    cases hj
    refine ⟨b, List.mem_iff_getElem?.2 ⟨i, ?_⟩, hab ho⟩
    have hlt : i < l.length := (List.getElem?_eq_some_iff.1 hi).1
    simp [hlt]
  · exact ⟨ph, List.mem_iff_getElem?.2 ⟨j, by simp [hij, hj]⟩, ho⟩

/-- Threads with their phases. -/
inductive AllFollow (scriptOf : Str → S) : List (Phase S) → List (Act (Shared S) α) → Prop
  | nil : AllFollow scriptOf [] []
  | cons {ph phs p ps} : Follows scriptOf ph p → AllFollow scriptOf phs ps → AllFollow scriptOf (ph :: phs) (p :: ps)

theorem AllFollow.length_eq {scriptOf : Str → S} {l : List (Phase S)} {m : List (Act (Shared S) α)}
    (h : AllFollow scriptOf l m) : l.length = m.length := by
  induction h with
  | nil => rfl
  | cons _ _ ih => simp [ih]

theorem follow_get {scriptOf : Str → S} {l : List (Phase S)} {m : List (Act (Shared S) α)} (h : AllFollow scriptOf l m) :
    ∀ {i : Nat} {y : Act (Shared S) α}, m[i]? = some y → ∃ x, l[i]? = some x ∧ Follows scriptOf x y := by
  induction h with
  | nil => intro i y h; simp at h
  | cons hxy _ ih =>
    intro i y h
    cases i with
    | zero => simp only [List.getElem?_cons_zero, Option.some.injEq] at h; subst h; exact ⟨_, rfl, hxy⟩
    | succ i => simp only [List.getElem?_cons_succ] at h ⊢; exact ih h

theorem follow_set {scriptOf : Str → S} {l : List (Phase S)} {m : List (Act (Shared S) α)} (h : AllFollow scriptOf l m) :
    ∀ (i : Nat) {x : Phase S} {y : Act (Shared S) α}, Follows scriptOf x y → AllFollow scriptOf (l.set i x) (m.set i y) := by
  induction h with
  | nil => intro i x y _; exact .nil
  | cons hxy hl ih =>
    intro i x y h
    cases i with
    | zero => exact .cons h hl
    | succ i => exact .cons hxy (ih i h)

theorem consistent_step {scriptOf : Str → S} {s : Shared S} {threads : List (Act (Shared S) α)} {phases : List (Phase S)}
    (hc : Consistent scriptOf s phases) (hf : AllFollow scriptOf phases threads) (i : Nat) :
    ∃ phases', Consistent scriptOf (stepThread s threads i).1 phases' ∧
      AllFollow scriptOf phases' (stepThread s threads i).2 := by
  unfold stepThread
  cases hp : threads[i]? with
  | none => exact ⟨phases, hc, hf⟩
  | some p =>
    obtain ⟨ph, hph, hfp⟩ := follow_get hf hp
    cases p with
    | done a =>
      refine ⟨phases, hc, ?_⟩
      simp only [Act.advance]
      have : threads.set i (.done a) = threads := by
        apply List.ext_getElem?
        intro j
        rw [List.getElem?_set]
        by_cases hij : i = j
        · subst hij
          by_cases hlt : i < threads.length
          · simp only [if_true, hlt]; exact hp.symm
          · simp [hlt]
        · simp [hij]
      rw [this]
      exact hf
    | step ready effect next =>
      simp only [Act.advance]
      by_cases hr : ready s = true
      rotate_left
      · refine ⟨phases, by simpa [hr] using hc, ?_⟩
        simp only [hr]
        have := follow_set hf i hfp
        have hset : phases.set i ph = phases := by
          apply List.ext_getElem?
          intro j
          rw [List.getElem?_set]
          by_cases hij : i = j
          · subst hij
            by_cases hlt : i < phases.length
            · simp only [if_true, hlt]; exact hph.symm
            · simp [hlt]
          · simp [hij]
        rw [hset] at this
        exact this
      · simp only [hr, if_true]
        have hmem : ph ∈ phases := List.mem_iff_getElem?.2 ⟨i, hph⟩
        have hkeep : ∀ ph', (effect s).tag = s.tag → (∀ d, ph' = .holding d → d = scriptOf s.tag) →
            ∀ d, Phase.holding d ∈ phases.set i ph' → d = scriptOf (effect s).tag := by
          intro ph' ht hn d hd
          rw [ht]
          rcases mem_set_or hd with h | h
          · exact hn d h.symm
          · exact hc.holding d h
        cases ph with
        | idle =>
          rcases hfp.2 s hr with ⟨h1, h2, h3, h4⟩ | ⟨h1, h2, h3, h4⟩
          · refine ⟨phases.set i .idle, ⟨?_, hkeep _ h1 (by simp), ?_⟩, follow_set hf i h4⟩
            · have := sum_set Phase.holds phases i .idle .idle hph
              rw [h3, hc.readers]; omega
            · rw [h1, h2]
              rcases hc.script with h | h
              · exact .inl h
              · exact .inr (owes_set hph h id)
          · refine ⟨phases.set i .owing, ⟨?_, ?_, ?_⟩, follow_set hf i h4⟩
            · have := sum_set Phase.holds phases i .idle .owing hph
              simp only [Phase.holds] at this
              rw [h2, hc.readers]; omega
            · intro d hd
              rcases mem_set_or hd with h | h
              · cases h
              · have := holds_le phases h
                rw [← hc.readers, h1] at this
                simp [Phase.holds] at this
            · refine .inr ⟨.owing, List.mem_iff_getElem?.2 ⟨i, ?_⟩, trivial⟩
              have hlt : i < phases.length := (List.getElem?_eq_some_iff.1 hph).1
              simp [hlt]
        | owing =>
          obtain ⟨_, h1, h2, h3, h4⟩ := hfp s
          refine ⟨phases.set i (.holding (scriptOf s.tag)), ⟨?_, hkeep _ h1 ?_, ?_⟩, follow_set hf i h4⟩
          · have := sum_set Phase.holds phases i .owing (.holding (scriptOf s.tag)) hph
            simp only [Phase.holds] at this
            rw [h3, hc.readers]; omega
          · intro d hd; cases hd; rfl
          · rw [h1, h2]
            rcases hc.script with h | h
            · exact .inl h
            · exact .inr (owes_set hph h fun _ => trivial)
        | holding d =>
          obtain ⟨_, h1, h2, h3, h4⟩ := hfp s
          refine ⟨phases.set i .releasing, ⟨?_, hkeep _ h1 (by simp), ?_⟩, follow_set hf i h4⟩
          · have := sum_set Phase.holds phases i (.holding d) .releasing hph
            simp only [Phase.holds] at this
            rw [h3, hc.readers]; omega
          · rw [h1, h2]
            exact .inl (hc.holding d hmem)
        | releasing =>
          obtain ⟨_, h1, h2, h3, h4⟩ := hfp s
          refine ⟨phases.set i .idle, ⟨?_, hkeep _ h1 (by simp), ?_⟩, follow_set hf i h4⟩
          · have := sum_set Phase.holds phases i .releasing .idle hph
            simp only [Phase.holds] at this
            rw [h3, hc.readers]; omega
          · rw [h1, h2]
            rcases hc.script with h | h
            · exact .inl h
            · exact .inr (owes_set hph h (fun h => h.elim))

theorem consistent_run {scriptOf : Str → S} (schedule : List Nat) : ∀ {s : Shared S} {threads : List (Act (Shared S) α)}
    {phases : List (Phase S)}, Consistent scriptOf s phases → AllFollow scriptOf phases threads →
    ∃ phases', Consistent scriptOf (runThreads s threads schedule).1 phases' ∧
      AllFollow scriptOf phases' (runThreads s threads schedule).2 := by
  induction schedule with
  | nil => intro s threads phases hc hf; exact ⟨phases, hc, hf⟩
  | cons i rest ih =>
    intro s threads phases hc hf
    obtain ⟨phases', hc', hf'⟩ := consistent_step hc hf i
    exact ih hc' hf'

theorem follows_all (L : LocEnv D F P) (scriptOf : Str → S) (threads : List (List (Request D F))) :
    AllFollow scriptOf (threads.map fun _ => .idle) (threads.map fun calls => syncThread L scriptOf calls []) := by
  induction threads with
  | nil => exact .nil
  | cons calls rest ih => exact .cons (follows_thread L scriptOf calls []) ih

theorem consistent_start (scriptOf : Str → S) (l : Localiser S) (h : l.script = scriptOf l.tag)
    (threads : List (List (Request D F))) : Consistent scriptOf l.share (threads.map fun _ => .idle) where
  readers := by
    induction threads with
    | nil => rfl
    | cons x rest ih => simpa [Phase.holds] using ih
  holding := by intro d hd; simp at hd
  script := .inl h

/-- When all threads have ended. -/
theorem consistent_end {scriptOf : Str → S} {s : Shared S} {threads : List (Act (Shared S) α)} {phases : List (Phase S)}
    (hc : Consistent scriptOf s phases) (hf : AllFollow scriptOf phases threads)
    (hd : ∀ p ∈ threads, p.result.isSome = true) : s.script = scriptOf s.tag ∧ s.readers = 0 := by
  have hidle : ∀ ph ∈ phases, ph = .idle := by
    clear hc
    induction hf with
    | nil => intro ph h; cases h
    | @cons ph phs p ps hp _ ih =>
      intro ph' h
      rcases List.mem_cons.1 h with h | h
      · subst h
        have := hd p (by simp)
        cases p with
        | done a => exact hp
        | step _ _ _ => simp [Act.result] at this
      · exact ih (fun q hq => hd q (by simp [hq])) ph' h
  constructor
  · rcases hc.script with h | ⟨ph, hm, ho⟩
    · exact h
    · rw [hidle ph hm] at ho; exact ho.elim
  · rw [hc.readers]
    clear hc hf hd
    induction phases with
    | nil => rfl
    | cons ph rest ih =>
      simp only [List.map_cons, List.sum_cons, hidle ph (by simp), Phase.holds]
      simpa using ih fun q hq => hidle q (by simp [hq])

/-- There is no deadlock. -/
theorem consistent_progress {scriptOf : Str → S} {s : Shared S} {threads : List (Act (Shared S) α)}
    {phases : List (Phase S)} (hc : Consistent scriptOf s phases) (hf : AllFollow scriptOf phases threads) :
    (∀ p ∈ threads, p.result.isSome = true) ∨ ∃ p ∈ threads, p.ready s = true := by
  by_cases hr : s.readers = 0
  · by_cases hd : ∀ p ∈ threads, p.result.isSome = true
    · exact .inl hd
    · refine .inr ?_
      simp only [Classical.not_forall] at hd
      obtain ⟨p, hp, hn⟩ := hd
      refine ⟨p, hp, ?_⟩
      obtain ⟨i, hi⟩ := List.mem_iff_getElem?.1 hp
      obtain ⟨ph, _, hfp⟩ := follow_get hf hi
      cases p with
      | done a => simp [Act.result] at hn
      | step ready effect next =>
        cases ph with
        | idle =>
          cases hready : ready s with
          | true => exact hready
          | false => exact absurd hr (hfp.1 s hready)
        | owing => exact (hfp s).1
        | holding d => exact (hfp s).1
        | releasing => exact (hfp s).1
  · refine .inr ?_
    have hex : ∃ ph ∈ phases, ph.holds ≠ 0 := by
      apply Classical.byContradiction
      intro hn
      simp only [not_exists, not_and, Classical.not_not] at hn
      refine hr (hc.readers.trans ?_)
      clear hc hf hr
      induction phases with
      | nil => rfl
      | cons ph rest ih =>
        simp only [List.map_cons, List.sum_cons, hn ph (by simp)]
        simpa using ih fun q hq => hn q (by simp [hq])
    obtain ⟨ph, hm, hh⟩ := hex
    obtain ⟨i, hi⟩ := List.mem_iff_getElem?.1 hm
    have hlen : phases.length = threads.length := hf.length_eq
    have hlt : i < threads.length := hlen ▸ (List.getElem?_eq_some_iff.1 hi).1
    obtain ⟨ph', hi', hfp⟩ := follow_get hf (List.getElem?_eq_getElem hlt)
    rw [hi] at hi'
    cases hi'
    refine ⟨threads[i], List.getElem_mem hlt, ?_⟩
    generalize threads[i] = p at hfp
    cases ph with
    | idle => exact absurd rfl hh
    | owing => exact absurd rfl hh
    | holding d =>
      cases p with
      | done a => exact absurd hfp (by simp [Follows])
      | step ready effect next => exact (hfp s).1
    | releasing =>
      cases p with
      | done a => exact absurd hfp (by simp [Follows])
      | step ready effect next => exact (hfp s).1

end Verif.SyncLemmas
