import Verif.Lemmas.LockSync
/-
Helper lemmas: a thread alone waits for itself when the localiser without threads meets a borrowed cell.
-/
namespace Verif.LockLemmas
open Verif Verif.Spec

variable {D F P S σ α β : Type}

/-- The lock is free for the only thread. -/
def free (held : List (Cell × Bool)) (c : Cell) (x : Bool) : Bool :=
  if x then held.all fun h => h.1 != c else !held.contains (c, true)

/-- The only thread runs as far as it can: to the end, with what it then holds, or `none` if it waits for itself. -/
def alone : Locking σ α → List (Cell × Bool) → σ → Option (α × List (Cell × Bool) × σ)
  | .done a, held, s => some (a, held, s)
  | .step effect next, held, s => alone (next s) held (effect s)
  | .acquire c x next, held, s => if free held c x then alone next ((c, x) :: held) s else none
  | .release c x next, held, s => alone next (held.erase (c, x)) s

theorem alone_bind (p : Locking σ α) (k : α → Locking σ β) : ∀ held s, alone (p.bind k) held s =
    (alone p held s).bind fun x => alone (k x.1) x.2.1 x.2.2 := by
  induction p with
  | done a => intro held s; rfl
  | step e n ih => intro held s; exact ih s held (e s)
  | acquire c x n ih =>
    intro held s
    simp only [Locking.bind, alone]
    split
    · exact ih _ _
    · rfl
  | release c x n ih => intro held s; exact ih _ _

/-! ### Runs of one thread -/

theorem granted_alone (policy : List (LockThread σ α) → Cell → Bool) (held : List (Cell × Bool)) (c : Cell) (x : Bool)
    (n : Locking σ α) : granted policy [⟨.acquire c x n, held, true⟩] c x = free held c x := by
  cases x with
  | true => simp [granted, free]
  | false => simp [granted, free, LockThread.wantsToWrite]

/-- How the only thread ends. -/
def Ends (policy : List (LockThread σ α) → Cell → Bool) (s : σ) (t : LockThread σ α) :
    Option (α × List (Cell × Bool) × σ) → Prop
  | some (a, held, s') => ∃ n, lockRun policy s [t] (List.replicate n 0) = (s', [⟨.done a, held, false⟩])
  | none => ∃ n, Deadlock policy (lockRun policy s [t] (List.replicate n 0)).2

theorem Ends.back {policy : List (LockThread σ α) → Cell → Bool} {s s' : σ} {t t' : LockThread σ α} (k : Nat)
    (h : lockRun policy s [t] (List.replicate k 0) = (s', [t'])) {o : Option (α × List (Cell × Bool) × σ)}
    (he : Ends policy s' t' o) : Ends policy s t o := by
  have hn : ∀ n, lockRun policy s [t] (List.replicate (k + n) 0) = lockRun policy s' [t'] (List.replicate n 0) := by
    intro n
    rw [← List.replicate_append_replicate, lockRun_append, h]
  cases o with
  | none => obtain ⟨n, he⟩ := he; exact ⟨k + n, by rw [hn]; exact he⟩
  | some x => obtain ⟨n, he⟩ := he; exact ⟨k + n, (hn n).trans he⟩

/-- Turns of the only thread. -/
theorem run_alone (policy : List (LockThread σ α) → Cell → Bool) (p : Locking σ α) : ∀ held s,
    Ends policy s ⟨p, held, false⟩ (alone p held s) := by
  induction p with
  | done a => intro held s; exact ⟨0, rfl⟩
  | step e next ih => intro held s; exact Ends.back 1 rfl (ih s held (e s))
  | acquire c x next ih =>
    intro held s
    have hg := granted_alone policy held c x next
    have h1 : lockRun policy s [⟨.acquire c x next, held, false⟩] [0] = (s, [⟨.acquire c x next, held, true⟩]) := rfl
    simp only [alone]
    by_cases hf : free held c x = true
    · rw [if_pos hf]
      refine Ends.back 2 ?_ (ih ((c, x) :: held) s)
      show lockRun policy s [⟨.acquire c x next, held, true⟩] [0] = _
      have hr : (⟨.acquire c x next, held, true⟩ : LockThread σ α).ready policy [⟨.acquire c x next, held, true⟩] = true := by
        simp only [LockThread.ready, hg, hf, Bool.or_true]
      simp only [lockRun, lockStep, List.getElem?_cons_zero, hr, if_true]
      rfl
    · rw [if_neg hf]
      refine ⟨1, ?_⟩
      rw [show List.replicate 1 0 = [0] from rfl, h1]
      refine ⟨⟨_, List.mem_singleton.2 rfl, fun ⟨a, h⟩ => nomatch h⟩, fun t ht => ?_⟩
      rw [List.mem_singleton.1 ht]
      simp only [LockThread.ready, hg, Bool.not_true, Bool.false_or]
      simpa using hf
  | release c x next ih => intro held s; exact Ends.back 1 rfl (ih (held.erase (c, x)) s)

/-- Only the turns of the thread matter. -/
theorem run_one (policy : List (LockThread σ α) → Cell → Bool) (schedule : List Nat) : ∀ (s : σ) (t : LockThread σ α),
    ∃ n, lockRun policy s [t] schedule = lockRun policy s [t] (List.replicate n 0) := by
  induction schedule with
  | nil => intro s t; exact ⟨0, rfl⟩
  | cons i rest ih =>
    intro s t
    cases i with
    | zero =>
      have hl := lockStep_length policy s [t] 0
      simp only [lockRun]
      match he : (lockStep policy s [t] 0).2, hl with
      | [t'], _ =>
        obtain ⟨n, hn⟩ := ih (lockStep policy s [t] 0).1 t'
        refine ⟨n + 1, hn.trans ?_⟩
        simp only [List.replicate_succ, lockRun, he]
    | succ i => exact ih s t

theorem stuck_stays {policy : List (LockThread σ α) → Cell → Bool} {threads : List (LockThread σ α)}
    (h : ∀ t ∈ threads, t.ready policy threads = false) (schedule : List Nat) : ∀ s : σ,
    lockRun policy s threads schedule = (s, threads) := by
  induction schedule with
  | nil => intro s; rfl
  | cons i rest ih =>
    intro s
    have : lockStep policy s threads i = (s, threads) := by
      unfold lockStep
      cases ht : threads[i]? with
      | none => rfl
      | some t =>
        dsimp only
        rw [h t (List.mem_of_getElem? ht)]
        rfl
    simp only [lockRun, this]
    exact ih s

/-- A thread that comes to its end alone is never in a deadlock. -/
theorem ended {policy : List (LockThread σ α) → Cell → Bool} {s : σ} {t : LockThread σ α} {n : Nat} {s' : σ} {a : α}
    {held : List (Cell × Bool)} (h : lockRun policy s [t] (List.replicate n 0) = (s', [⟨.done a, held, false⟩]))
    (schedule : List Nat) : ¬ Deadlock policy (lockRun policy s [t] schedule).2 := by
  obtain ⟨m, hm⟩ := run_one policy schedule s t
  rw [hm]
  intro hd
  have hdone : ∀ t ∈ [(⟨.done a, held, false⟩ : LockThread σ α)],
      t.ready policy [⟨.done a, held, false⟩] = false := by
    intro t ht; rw [List.mem_singleton.1 ht]; rfl
  have hboth : lockRun policy s [t] (List.replicate m 0) = (s', [⟨.done a, held, false⟩]) := by
    rcases Nat.le_total m n with hmn | hmn
    · obtain ⟨k, rfl⟩ := Nat.exists_eq_add_of_le hmn
      rw [← List.replicate_append_replicate, lockRun_append, stuck_stays hd.2] at h
      exact h
    · obtain ⟨k, rfl⟩ := Nat.exists_eq_add_of_le hmn
      rw [← List.replicate_append_replicate, lockRun_append, h]
      exact stuck_stays hdone _ _
  rw [hboth] at hd
  obtain ⟨⟨t', ht', hf⟩, _⟩ := hd
  rw [List.mem_singleton.1 ht'] at hf
  exact hf ⟨a, rfl⟩

/-! ### As the localiser with cells -/

/-- The borrows are those of the locks. -/
def Holds (held : List (Cell × Bool)) (s : ReState S) : Prop :=
  ∀ c, s.shared c = held.count (c, false) ∧ s.exclusive c = held.contains (c, true)

/-- What the code with locks does alone is what the code with cells does. -/
def Sim (held : List (Cell × Bool)) (l : Localiser S) (x : LkM S α) (y : ReM S α) : Prop :=
  ∀ s, Holds held s → s.loc = l → ∀ p : Cell → Bool, (∀ c, p c = false) →
    ((y s).1 = .conflict ∧ alone x held ⟨l, p⟩ = none) ∨
    ((y s).1 ≠ .conflict ∧ ∃ p', alone x held ⟨l, p⟩ = some ((y s).1, held, ⟨(y s).2.loc, p'⟩) ∧ Holds held (y s).2 ∧
      ((∃ a, (y s).1 = .value a) → ∀ c, p' c = false))

section
variable {held : List (Cell × Bool)} {l : Localiser S}

theorem Sim.ret {a : α} : Sim held l (LkM.ret a) (ReM.ret a) := fun _ hs hl p hp =>
  .inr ⟨(fun h => nomatch h), p, by subst hl; rfl, hs, fun _ => hp⟩

theorem Sim.panic : Sim held l (.done .panic) (fun s => (.panic, s) : ReM S α) := fun _ hs hl p _ =>
  .inr ⟨(fun h => nomatch h), p, by subst hl; rfl, hs, (fun ⟨_, h⟩ => nomatch h)⟩

theorem Sim.deep : Sim held l (.done .deep) (fun s => (.deep, s) : ReM S α) := fun _ hs hl p _ =>
  .inr ⟨(fun h => nomatch h), p, by subst hl; rfl, hs, (fun ⟨_, h⟩ => nomatch h)⟩

theorem Sim.result {r : LocM P α} : Sim held l (LkM.result r) (ReM.result r) := by
  cases r with
  | ok a => exact Sim.ret
  | err e => exact Sim.ret
  | panic => exact Sim.panic

theorem Sim.andThen {x : LkM S α} {y : ReM S α} {k : α → LkM S β} {k' : α → ReM S β} (h : Sim held l x y)
    (hk : ∀ a l', Sim held l' (k a) (k' a)) : Sim held l (x.andThen k) (y.andThen k') := by
  intro s hs hl p hp
  unfold LkM.andThen ReM.andThen
  rw [alone_bind]
  rcases h s hs hl p hp with ⟨h1, h2⟩ | ⟨h1, p', h2, h3, h4⟩
  · rw [h2]
    generalize y s = r at h1
    obtain ⟨r, s'⟩ := r
    cases h1
    exact .inl ⟨rfl, rfl⟩
  · rw [h2]
    generalize y s = r at h1 h3 h4 ⊢
    obtain ⟨r, s'⟩ := r
    cases r with
    | value a => exact hk a s'.loc s' h3 rfl p' (h4 ⟨a, rfl⟩)
    | conflict => exact absurd rfl h1
    | panic => exact .inr ⟨(fun h => nomatch h), p', rfl, h3, (fun ⟨_, h⟩ => nomatch h)⟩
    | deep => exact .inr ⟨(fun h => nomatch h), p', rfl, h3, (fun ⟨_, h⟩ => nomatch h)⟩

/-- What is looked at, is so afterwards. -/
theorem Sim.look {f : Localiser S → α} {k : α → LkM S β} {k' : α → ReM S β} (h : Sim held l (k (f l)) (k' (f l))) :
    Sim held l ((LkM.get f).andThen k) ((ReM.get f).andThen k') := by
  intro s hs hl p hp
  have := h s hs hl p hp
  subst hl
  exact this

theorem Sim.get {f : Localiser S → α} : Sim held l (LkM.get f) (ReM.get f) := fun _ hs hl p hp =>
  .inr ⟨(fun h => nomatch h), p, by subst hl; rfl, hs, fun _ => hp⟩

theorem Sim.set {f : Localiser S → Option (Localiser S)} {fresh : Str → Str → Bool} :
    Sim held l (LkM.set f fresh) (ReM.set f) := by
  intro s hs hl p hp
  subst hl
  unfold LkM.set ReM.set
  simp only [alone]
  cases hf : f s.loc with
  | none => exact .inr ⟨(fun h => nomatch h), p, rfl, hs, (fun ⟨_, h⟩ => nomatch h)⟩
  | some l' =>
    refine .inr ⟨(fun h => nomatch h), _, rfl, hs, fun _ c => ?_⟩
    cases c with
    | formatter t k =>
      dsimp only
      split
      · rfl
      · exact hp _
    | _ => exact hp _

theorem free_read {s : ReState S} (hs : Holds held s) (c : Cell) : free held c false = !s.exclusive c := by
  simp [free, (hs c).2]

theorem free_write {s : ReState S} (hs : Holds held s) (c : Cell) :
    free held c true = true ↔ ¬ (s.exclusive c = true ∨ s.shared c ≠ 0) := by
  rw [(hs c).1, (hs c).2]
  simp only [free, if_true, List.all_eq_true, bne_iff_ne, ne_eq]
  constructor
  · intro h
    rintro (h' | h')
    · exact h (c, true) (by simpa using h') rfl
    · exact h (c, false) (Classical.byContradiction fun hn => h' (List.count_eq_zero.2 hn)) rfl
  · rintro h ⟨d, x⟩ hm rfl
    cases x with
    | true => exact h (.inl (by simpa using hm))
    | false => exact h (.inr fun h0 => List.count_eq_zero.1 h0 hm)

theorem Sim.read {c : Cell} {x : LkM S α} {y : ReM S α} (h : Sim ((c, false) :: held) l x y) :
    Sim held l (LkM.read c x) (ReM.read c y) := by
  intro s hs hl p hp
  unfold LkM.read ReM.read
  simp only [alone, free_read hs c]
  cases he : s.exclusive c with
  | true => exact .inl ⟨rfl, rfl⟩
  | false =>
    simp only [Bool.not_false, if_true, hp c, Bool.false_eq_true, if_false, id, alone_bind]
    have hs' : Holds ((c, false) :: held) { s with shared := fun d => if d = c then s.shared d + 1 else s.shared d } := by
      intro d
      refine ⟨?_, ?_⟩
      · dsimp only
        rw [List.count_cons, (hs d).1]
        by_cases hd : d = c
        · subst hd; simp
        · rw [if_neg hd, if_neg (by simpa using fun h => hd h.symm)]; rfl
      · dsimp only
        rw [(hs d).2]
        simp
    rcases h _ hs' hl p hp with ⟨h1, h2⟩ | ⟨h1, p', h2, h3, h4⟩
    · rw [h2]; exact .inl ⟨h1, rfl⟩
    · rw [h2]
      refine .inr ⟨h1, p', ?_, fun d => ⟨?_, ?_⟩, h4⟩
      · simp only [Option.bind_some, alone, List.erase_cons_head]
      · dsimp only
        rw [(h3 d).1, List.count_cons]
        by_cases hd : d = c
        · subst hd; simp
        · rw [if_neg hd, if_neg (by simpa using fun h => hd h.symm)]; rfl
      · dsimp only
        rw [(h3 d).2]
        simp

theorem poison_loc (c : Cell) (r : Run α) (s : LkState S) : (LkM.poison c r s).loc = s.loc := by
  cases r <;> rfl

theorem Sim.write {c : Cell} {x : LkM S α} {y : ReM S α} (h : Sim ((c, true) :: held) l x y) :
    Sim held l (LkM.write c x) (ReM.write c y) := by
  intro s hs hl p hp
  unfold LkM.write ReM.write
  simp only [alone]
  by_cases hf : free held c true = true
  · have hn := (free_write hs c).1 hf
    rw [if_pos hf, if_neg hn]
    simp only [hp c, Bool.false_eq_true, if_false, id, alone_bind]
    have hn' : held.contains (c, true) = false := by
      rw [← (hs c).2]
      cases he : s.exclusive c with
      | true => exact absurd (.inl he) hn
      | false => rfl
    have hs' : Holds ((c, true) :: held) { s with exclusive := fun d => if d = c then true else s.exclusive d } := by
      intro d
      refine ⟨?_, ?_⟩
      · dsimp only
        rw [(hs d).1]
        simp
      · dsimp only
        rw [(hs d).2]
        by_cases hd : d = c
        · subst hd; simp
        · simp [hd]
    rcases h _ hs' hl p hp with ⟨h1, h2⟩ | ⟨h1, p', h2, h3, h4⟩
    · rw [h2]; exact .inl ⟨h1, rfl⟩
    · rw [h2]
      generalize y { s with exclusive := fun d => if d = c then true else s.exclusive d } = r at h1 h3 h4 ⊢
      obtain ⟨r, s'⟩ := r
      refine .inr ⟨h1, (LkM.poison c r ⟨s'.loc, p'⟩).poisoned, ?_, fun d => ⟨?_, ?_⟩, ?_⟩
      · simp only [Option.bind_some, alone, List.erase_cons_head]
        cases r <;> rfl
      · have := (h3 d).1
        dsimp only at this ⊢
        rw [this]
        simp
      · have := (h3 d).2
        dsimp only at this ⊢
        by_cases hd : d = c
        · subst hd; rw [if_pos rfl, hn']
        · rw [if_neg hd, this]; simp [hd]
      · rintro ⟨a, ha⟩
        dsimp only at ha
        subst ha
        exact h4 ⟨a, rfl⟩
  · rw [if_neg hf, if_pos (Classical.byContradiction fun hn => hf ((free_write hs c).2 hn))]
    exact .inl ⟨rfl, rfl⟩

theorem Sim.converse {ask : Request D F → LkM S (Answer P)} {ask' : Request D F → ReM S (Answer P)}
    (h : ∀ r l, Sim held l (ask r) (ask' r)) (t : Talk (Request D F) (Answer P) α) :
    ∀ l, Sim held l (lkConverse ask t) (Verif.converse ask' t) := by
  induction t with
  | done a => intro l; exact Sim.ret
  | ask r next ih => intro l; exact Sim.andThen (h r l) fun a l' => ih a l'

end

section
variable (L : TalkLocEnv D F P) {ask : Request D F → LkM S (Answer P)} {ask' : Request D F → ReM S (Answer P)}
  (h : ∀ held r l, Sim held l (ask r) (ask' r))

include h in
theorem sim_formatter {held : List (Cell × Bool)} {l : Localiser S} {tag key : Str} {f : Formatter}
    (hf : ((l.cache.get tag).bind fun m => m.get key) = some (.formatter f)) (values : AMap Str (PValue D F)) :
    Sim held l (lkFormatter L ask tag key f values) (reFormatter L ask' tag key f values) := by
  refine Sim.write ?_
  have hc : cachedFormatter tag key l = some f := by unfold cachedFormatter; rw [hf]
  have hb : Sim ((.formatter tag key, true) :: held) l
      ((lkConverse ask (talkFormat L.fmt f values)).andThen fun (r, f) =>
        (LkM.set fun l => some (putFormatter tag key f l)).andThen fun _ => .result (r.mapErr (LocErr.formatter (P := P))))
      ((converse ask' (talkFormat L.fmt f values)).andThen fun (r, f) =>
        (ReM.set fun l => some (putFormatter tag key f l)).andThen fun _ => .result (r.mapErr (LocErr.formatter (P := P)))) :=
    Sim.andThen (Sim.converse (h _) _ l) fun ⟨r, f⟩ l' => Sim.andThen Sim.set fun _ _ => Sim.result
  intro s hs hl p hp
  have := hb s hs hl p hp
  show _ ∨ _
  simp only [LkM.andThen, LkM.get, Locking.bind, alone, hc, Option.getD_some, id] at this ⊢
  exact this

theorem sim_string {held : List (Cell × Bool)} {l : Localiser S} (caching exist : Bool) (key string tag : Str) :
    Sim held l (lkString (P := P) caching exist key string tag) (reString caching exist key string tag) := by
  unfold lkString reString
  split
  · exact Sim.andThen (Sim.write Sim.set) fun _ _ => Sim.ret
  · exact Sim.ret

include h in
theorem sim_format {held : List (Cell × Bool)} {l : Localiser S} (c i : Str) (values : AMap Str (PValue D F)) (tag : Str)
    (fallback caching : Bool) :
    Sim held l (lkFormat L ask c i values tag fallback caching) (reFormat L ask' c i values tag fallback caching) := by
  unfold lkFormat reFormat
  generalize cacheKey c i = key
  dsimp only
  refine Sim.andThen (Sim.read (Sim.look ?_)) fun a l' => ?_
  · cases he : (l.cache.get tag).bind fun m => m.get key with
    | none => exact Sim.ret
    | some d =>
      cases d with
      | localised s t => exact Sim.ret
      | formatter f => exact Sim.andThen (sim_formatter L h he values) fun _ _ => Sim.ret
  · cases a with
    | inl r => exact Sim.ret
    | inr exist =>
      refine Sim.andThen Sim.result fun a l' => ?_
      cases a with
      | error e => exact Sim.ret
      | ok x =>
        obtain ⟨s, t⟩ := x
        dsimp only
        split
        · exact sim_string _ _ _ _ _
        · refine Sim.andThen (Sim.converse (h _) _ _) fun r l' => ?_
          cases r with
          | err e =>
            cases e with
            | noGrammar => exact sim_string _ _ _ _ _
            | _ => exact Sim.ret
          | panic => exact Sim.panic
          | ok f =>
            dsimp only
            split
            · exact Sim.andThen (Sim.converse (h _) _ _) fun _ _ => Sim.result
            · unfold lkCached reCached
              refine Sim.andThen (Sim.write Sim.set) fun _ l' => Sim.read (Sim.look ?_)
              cases he : (l'.cache.get tag).bind fun m => m.get key with
              | none => exact Sim.panic
              | some d =>
                cases d with
                | localised s t => exact Sim.ret
                | formatter f => exact sim_formatter L h he values

theorem sim_literal {held : List (Cell × Bool)} {l : Localiser S} (c i tag : Str) (fallback caching : Bool) :
    Sim held l (lkLiteral L c i tag fallback caching) (reLiteral L c i tag fallback caching) := by
  refine Sim.andThen (Sim.read Sim.get) ?_
  rintro ⟨exist, d⟩ l'
  cases d with
  | some d => cases d <;> exact Sim.ret
  | none =>
    refine Sim.andThen Sim.result fun r l' => ?_
    cases r with
    | error e => exact Sim.ret
    | ok x => exact sim_string _ _ _ _ _

include h

set_option linter.unusedSectionVars false in
mutual
theorem sim_data {held : List (Cell × Bool)} (tag : Str) (fallback caching : Bool) (c i : Str)
    (values : Option (List (Str × PValue D F))) (l : Localiser S) :
    Sim held l (lkData L ask tag fallback caching c i values) (reData L ask' tag fallback caching c i values) := by
  match values with
  | none => unfold lkData reData; exact sim_literal L _ _ _ _ _
  | some vs =>
    unfold lkData reData
    refine Sim.andThen (sim_values tag fallback caching vs [] l) fun r l' => ?_
    cases r with
    | error e => exact Sim.ret
    | ok values => exact sim_format L h _ _ _ _ _ _

theorem sim_values {held : List (Cell × Bool)} (tag : Str) (fallback caching : Bool) (values : List (Str × PValue D F))
    (acc : AMap Str (PValue D F)) (l : Localiser S) :
    Sim held l (lkValues L ask tag fallback caching values acc) (reValues L ask' tag fallback caching values acc) := by
  match values with
  | [] => unfold lkValues reValues; exact Sim.ret
  | (name, .localisationData c i vs) :: rest =>
    unfold lkValues reValues
    refine Sim.andThen (sim_data tag fallback caching c i vs l) fun r l' => ?_
    cases r with
    | error e => exact Sim.ret
    | ok x => exact sim_values tag fallback caching rest _ l'
  | (name, .string s) :: rest => unfold lkValues reValues; exact sim_values tag fallback caching rest _ l
  | (name, .integer s) :: rest => unfold lkValues reValues; exact sim_values tag fallback caching rest _ l
  | (name, .unsigned s) :: rest => unfold lkValues reValues; exact sim_values tag fallback caching rest _ l
  | (name, .float s) :: rest => unfold lkValues reValues; exact sim_values tag fallback caching rest _ l
  | (name, .taggedString s t) :: rest => unfold lkValues reValues; exact sim_values tag fallback caching rest _ l
  | (name, .localised s t) :: rest => unfold lkValues reValues; exact sim_values tag fallback caching rest _ l
  | (name, .fixedDecimal s) :: rest => unfold lkValues reValues; exact sim_values tag fallback caching rest _ l
  | (name, .dateTime s t) :: rest => unfold lkValues reValues; exact sim_values tag fallback caching rest _ l
  | (name, .date s) :: rest => unfold lkValues reValues; exact sim_values tag fallback caching rest _ l
  | (name, .time s) :: rest => unfold lkValues reValues; exact sim_values tag fallback caching rest _ l
end

omit h in
theorem sim_options {held : List (Cell × Bool)} {l : Localiser S} {tag : Option Str} {fallback caching : Option Bool}
    {body : Str → Bool → Bool → LkM S α} {body' : Str → Bool → Bool → ReM S α}
    (hb : ∀ t fb ca l, Sim held l (body t fb ca) (body' t fb ca)) :
    Sim held l (lkOptions tag fallback caching body) (reOptions tag fallback caching body') := by
  refine Sim.andThen ?_ fun t l => Sim.andThen (Sim.read Sim.get) fun fb l => Sim.andThen (Sim.read Sim.get) fun ca l => hb t fb ca l
  cases tag with
  | some t => exact Sim.ret
  | none => exact Sim.read Sim.get

omit h in
theorem sim_defaults {held : List (Cell × Bool)} {l : Localiser S} (scriptOf : Str → S) (tag : Option Str)
    (fallback caching : Option Bool) :
    Sim held l (lkDefaults scriptOf tag fallback caching) (reDefaults scriptOf tag fallback caching) := by
  refine Sim.andThen ?_ fun _ l => Sim.andThen ?_ fun _ l => ?_
  · cases tag with
    | none => exact Sim.ret
    | some t =>
      exact Sim.andThen (Sim.write Sim.set) fun _ _ => Sim.read (Sim.andThen Sim.get fun _ _ => Sim.write Sim.set)
  · cases fallback with
    | none => exact Sim.ret
    | some b => exact Sim.write Sim.set
  · cases caching with
    | none => exact Sim.ret
    | some b => exact Sim.write Sim.set

omit h in
theorem sim_request (scriptOf : Str → S) (depth : Nat) : ∀ held r (l : Localiser S),
    Sim held l (lkRequest L scriptOf depth r) (reRequest L scriptOf depth r) := by
  induction depth with
  | zero => intro held r l; exact Sim.deep
  | succ depth ih =>
    intro held r l
    cases r with
    | format c i vs tag fallback caching =>
      exact sim_options fun t fb ca l => Sim.andThen (sim_format L ih _ _ _ _ _ _) fun _ _ => Sim.ret
    | literal c i tag fallback caching =>
      exact sim_options fun t fb ca l => Sim.andThen (sim_literal L _ _ _ _ _) fun _ _ => Sim.ret
    | data c i vs tag fallback caching =>
      exact sim_options fun t fb ca l => Sim.andThen (sim_data L ih _ _ _ _ _ _ l) fun _ _ => Sim.ret
    | defaults tag fallback caching => exact Sim.andThen (sim_defaults scriptOf tag fallback caching) fun _ _ => Sim.ret

end

theorem alone_request (L : TalkLocEnv D F P) (scriptOf : Str → S) (depth : Nat) (r : Request D F) (l : Localiser S)
    (policy : List (LockThread (LkState S) (List (Run (Answer P)))) → Cell → Bool) :
    ((reRequest L scriptOf depth r (.idle l)).1 = .conflict ∧
      ∃ schedule, Deadlock policy
        (lockRun policy ⟨l, fun _ => false⟩ [.start (lkThread L scriptOf depth [r] [])] schedule).2) ∨
    ((reRequest L scriptOf depth r (.idle l)).1 ≠ .conflict ∧ ∃ n poisoned,
      lockRun policy ⟨l, fun _ => false⟩ [.start (lkThread L scriptOf depth [r] [])] (List.replicate n 0) =
        (⟨(reRequest L scriptOf depth r (.idle l)).2.loc, poisoned⟩,
          [⟨.done [(reRequest L scriptOf depth r (.idle l)).1], [], false⟩])) := by
  have hs : Holds [] (ReState.idle l) := fun c => ⟨rfl, rfl⟩
  have ha := run_alone policy (lkThread L scriptOf depth [r] []) [] ⟨l, fun _ => false⟩
  have he : alone (lkThread L scriptOf depth [r] []) [] ⟨l, fun _ => false⟩ =
      (alone (lkRequest L scriptOf depth r) [] ⟨l, fun _ => false⟩).bind fun x => some ([x.1], x.2.1, x.2.2) := by
    rw [lkThread, alone_bind]
    congr 1
    funext x
    obtain ⟨r, h, s⟩ := x
    cases r <;> rfl
  rw [he] at ha
  rcases sim_request L scriptOf depth [] r l _ hs rfl (fun _ => false) (fun _ => rfl) with ⟨h1, h2⟩ | ⟨h1, p', h2, _, _⟩
  · rw [h2] at ha
    obtain ⟨n, hn⟩ := ha
    exact .inl ⟨h1, _, hn⟩
  · rw [h2] at ha
    obtain ⟨n, hn⟩ := ha
    exact .inr ⟨h1, n, p', hn⟩

end Verif.LockLemmas
