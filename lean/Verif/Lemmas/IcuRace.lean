import Verif.Lemmas.IcuSync
/-
Helper lemmas: when requests of several threads for one text give the same ICU language identifier, and when not.
-/
namespace Verif.Act

variable {σ α β γ : Type}

/-! ### What one thread relies on, and what the others may rely on -/

/-- Whatever others do within `R`, the steps of the program are within `G` and its result meets `Q`. -/
def RG (R G : σ → σ → Prop) (Q : α → σ → Prop) : Act σ α → σ → Prop
  | .done a, s => Q a s
  | .step ready effect next, s0 => ∀ s, R s0 s → ready s = true → G s (effect s) ∧ (next s).RG R G Q (effect s)

theorem RG.mono {R G : σ → σ → Prop} {Q : α → σ → Prop} (htrans : ∀ a b c, R a b → R b c → R a c)
    (hQ : ∀ a s s', Q a s → R s s' → Q a s') {p : Act σ α} {s s' : σ} (h : p.RG R G Q s) (hr : R s s') : p.RG R G Q s' := by
  cases p with
  | done a => exact hQ a s s' h hr
  | step ready effect next => exact fun t ht => h t (htrans _ _ _ hr ht)

theorem RG.bind {R G : σ → σ → Prop} {Q : α → σ → Prop} {Q' : β → σ → Prop} {f : α → Act σ β} {p : Act σ α} : ∀ {s : σ},
    p.RG R G Q s → (∀ a s', Q a s' → (f a).RG R G Q' s') → (p.bind f).RG R G Q' s := by
  induction p with
  | done a => intro s h hf; exact hf a s h
  | step ready effect next ih =>
    intro s h hf t hr hready
    obtain ⟨h1, h2⟩ := h t hr hready
    exact ⟨h1, ih t h2 hf⟩

theorem RG.atomic {R G : σ → σ → Prop} {Q : α → σ → Prop} {f : σ → σ × Act σ α} {s : σ}
    (h : ∀ t, R s t → G t (f t).1 ∧ (f t).2.RG R G Q (f t).1) : (Act.atomic f).RG R G Q s :=
  fun t hr _ => h t hr

/-- Threads that rely on what the others guarantee. -/
theorem rg_run {R G : Nat → σ → σ → Prop} {Q : Nat → α → σ → Prop} (htrans : ∀ i a b c, R i a b → R i b c → R i a c)
    (hrefl : ∀ i a, R i a a) (hQ : ∀ i a s s', Q i a s → R i s s' → Q i a s')
    (hRG : ∀ i j a b, i ≠ j → G i a b → R j a b) (schedule : List Nat) : ∀ (s : σ) (threads : List (Act σ α)),
    (∀ i (p : Act σ α), threads[i]? = some p → p.RG (R i) (G i) (Q i) s) →
    ∀ i (p : Act σ α), (runThreads s threads schedule).2[i]? = some p →
      p.RG (R i) (G i) (Q i) (runThreads s threads schedule).1 := by
  induction schedule with
  | nil => intro s threads h; exact h
  | cons k rest ih =>
    intro s threads h
    simp only [runThreads]
    refine ih _ _ ?_
    unfold stepThread
    cases hp : threads[k]? with
    | none => exact h
    | some p =>
      have hok := h k p hp
      have hadv : (p.advance s).2.RG (R k) (G k) (Q k) (p.advance s).1 ∧ ∀ j, k ≠ j → R j s (p.advance s).1 := by
        cases p with
        | done a => exact ⟨hok, fun j _ => hrefl _ _⟩
        | step ready effect next =>
          simp only [advance]
          by_cases hr : ready s = true
          · simp only [hr, if_true]
            obtain ⟨h1, h2⟩ := hok s (hrefl _ s) hr
            exact ⟨h2, fun j hj => hRG _ _ _ _ hj h1⟩
          · simp only [hr]
            exact ⟨hok, fun j _ => hrefl _ _⟩
      intro j q hq
      simp only [List.getElem?_set] at hq
      by_cases hkj : k = j
      · subst hkj
        by_cases hlt : k < threads.length
        · simp only [if_true, hlt, Option.some.injEq] at hq
          subst hq
          exact hadv.1
        · simp [hlt] at hq
      · simp only [hkj, if_false] at hq
        exact (h j q hq).mono (htrans j) (hQ j) (hadv.2 j hkj)

/-! ### Two threads, one of which runs for a while -/

theorem bind_assoc' (p : Act σ α) (f : α → Act σ β) (g : β → Act σ γ) :
    (p.bind f).bind g = p.bind fun a => (f a).bind g := by
  induction p with
  | done a => rfl
  | step ready effect next ih => simp only [bind, ih]

/-- A program makes some steps alone. -/
inductive Solo : σ → Act σ α → σ → Act σ α → Prop
  | refl (s p) : Solo s p s p
  | more {s p s' p'} : Solo (p.advance s).1 (p.advance s).2 s' p' → Solo s p s' p'

theorem Solo.trans {s s' s'' : σ} {p p' p'' : Act σ α} (h : Solo s p s' p') (h' : Solo s' p' s'' p'') : Solo s p s'' p'' := by
  induction h with
  | refl => exact h'
  | more _ ih => exact .more (ih h')

/-- The first part of a program runs alone to its end. -/
theorem solo_bind {f : α → Act σ β} {p : Act σ α} : ∀ {s s' : σ} {a : α}, p.alone s = (s', some a) →
    Solo s (p.bind f) s' (f a) := by
  induction p with
  | done a => intro s s' b h; cases h; exact .refl _ _
  | step ready effect next ih =>
    intro s s' a h
    simp only [alone] at h
    by_cases hr : ready s = true
    · simp only [hr, if_true] at h
      refine .more ?_
      simp only [Act.bind, advance, hr, if_true]
      exact ih s h
    · simp [hr] at h

theorem Free.alone {p : Act σ α} : p.Free → ∀ s, ∃ s' a, p.alone s = (s', some a) := by
  induction p with
  | done a => intro _ s; exact ⟨s, a, rfl⟩
  | step ready effect next ih =>
    intro h s
    obtain ⟨s', a, h'⟩ := ih s (h.2 s) (effect s)
    exact ⟨s', a, by simp only [Act.alone, h.1 s, if_true]; exact h'⟩

/-- Some schedule leads to a state in which two threads are there. -/
def Pair (s : σ) (threads : List (Act σ α)) (s' : σ) (i : Nat) (p : Act σ α) (j : Nat) (q : Act σ α) : Prop :=
  ∃ schedule, (runThreads s threads schedule).1 = s' ∧ (runThreads s threads schedule).2[i]? = some p ∧
    (runThreads s threads schedule).2[j]? = some q

theorem Pair.symm {s s' : σ} {threads : List (Act σ α)} {i j : Nat} {p q : Act σ α} (h : Pair s threads s' i p j q) :
    Pair s threads s' j q i p := by
  obtain ⟨schedule, h1, h2, h3⟩ := h
  exact ⟨schedule, h1, h3, h2⟩

theorem Pair.solo {s s' s'' : σ} {threads : List (Act σ α)} {i j : Nat} (hij : i ≠ j) {p p' q : Act σ α}
    (h : Pair s threads s' i p j q) (hs : Solo s' p s'' p') : Pair s threads s'' i p' j q := by
  induction hs with
  | refl => exact h
  | @more s1 p1 s2 p2 _ ih =>
    apply ih
    obtain ⟨schedule, h1, h2, h3⟩ := h
    refine ⟨schedule ++ [i], ?_⟩
    rw [run_append]
    simp only [runThreads, stepThread, h2, h1, true_and]
    have hlt : i < (runThreads s threads schedule).2.length := by
      rcases Nat.lt_or_ge i (runThreads s threads schedule).2.length with h' | h'
      · exact h'
      · rw [List.getElem?_eq_none h'] at h2; cases h2
    rw [List.getElem?_set_ne hij]
    exact ⟨by simp [hlt], h3⟩

end Verif.Act

namespace Verif.IcuSyncLemmas
open Verif

variable {L : Type}

/-! ### Only one thread asks for the text -/

/-- The entry of the text is not changed. -/
def SameEntry (c : Str) (m m' : IcuShared L) : Prop := m'.entries.get c = m.entries.get c

theorem sameEntry_trans (c : Str) (a b d : IcuShared L) (h : SameEntry c a b) (h' : SameEntry c b d) : SameEntry c a d :=
  Eq.trans h' h

/-- A thread that does not ask for the text does not change the entry. -/
theorem icuThread_guarantee (parse : Str → Option L) {c : Str} : ∀ (ts : List TagRef), (∀ t ∈ ts, t.text ≠ c) →
    ∀ s : IcuShared L, (icuThread parse ts).RG (fun _ _ => True) (SameEntry c) (fun _ _ => True) s := by
  intro ts
  induction ts with
  | nil => intro _ s; exact trivial
  | cons t ts ih =>
    intro h s
    refine Act.RG.bind (Q := fun _ _ => True) ?_ fun r s' _ => ?_
    · refine Act.RG.atomic fun m _ => ?_
      dsimp only
      cases m.entries.get t.text with
      | some a => exact ⟨rfl, trivial⟩
      | none =>
        dsimp only
        cases parse t.text with
        | none => exact ⟨rfl, trivial⟩
        | some l =>
          refine ⟨rfl, Act.RG.atomic fun m' _ => ⟨?_, trivial⟩⟩
          show (m'.entries.insert t.text m.heap.length).get c = _
          rw [AMap.get_insert, if_neg (h t (by simp))]
    · cases r with
      | none => exact trivial
      | some x => exact Act.RG.bind (ih (fun t ht => h t (by simp [ht])) s') fun _ _ _ => trivial

/-- All identifiers for the text are one object. -/
def OneObject (c : Str) (a : Nat) (rs : List (TagRef × Option (Nat × L))) : Prop :=
  ∀ x ∈ rs, x.1.text = c → ∀ v, x.2 = some v → v.1 = a

/-- A request of the thread that alone asks for the text. -/
theorem icuShared_only (parse : Str → Option L) {c : Str} (t : TagRef) (s : IcuShared L) :
    (icuShared parse t).RG (SameEntry c) (fun _ _ => True) (fun r m =>
      (t.text ≠ c → m.entries.get c = s.entries.get c) ∧
      (t.text = c → ∀ v, r = some v → m.entries.get c = some v.1) ∧
      (∀ a, s.entries.get c = some a → m.entries.get c = some a)) s := by
  refine Act.RG.atomic fun m hm => ⟨trivial, ?_⟩
  have hm : m.entries.get c = s.entries.get c := hm
  dsimp only
  cases hg : m.entries.get t.text with
  | some a =>
    refine ⟨fun _ => hm, fun e v hv => ?_, fun a h => by rw [hm]; exact h⟩
    rw [← e, hg]
    cases hx : m.heap[a]? with
    | none => rw [hx] at hv; cases hv
    | some y => rw [hx] at hv; cases hv; rfl
  | none =>
    dsimp only
    cases parse t.text with
    | none => exact ⟨fun _ => hm, fun _ v hv => (nomatch hv), fun a h => by rw [hm]; exact h⟩
    | some l =>
      refine Act.RG.atomic fun m' hm' => ⟨trivial, ?_⟩
      have hm' : m'.entries.get c = m.entries.get c := hm'
      refine ⟨fun hne => ?_, fun e v hv => ?_, fun a h => ?_⟩
      · show (m'.entries.insert t.text m.heap.length).get c = _
        rw [AMap.get_insert, if_neg hne, hm', hm]
      · cases hv
        show (m'.entries.insert t.text m.heap.length).get c = _
        rw [e, AMap.get_insert_self]
      · show (m'.entries.insert t.text m.heap.length).get c = _
        have hne : t.text ≠ c := fun e => by rw [e, hm, h] at hg; cases hg
        rw [AMap.get_insert, if_neg hne, hm', hm]
        exact h

/-- The thread that alone asks for the text, when there is an entry. -/
theorem icuThread_known (parse : Str → Option L) {c : Str} {a : Nat} : ∀ (ts : List TagRef) (s : IcuShared L),
    s.entries.get c = some a →
    (icuThread parse ts).RG (SameEntry c) (fun _ _ => True) (fun rs _ => OneObject c a rs) s := by
  intro ts
  induction ts with
  | nil => intro s _ x hx; cases hx
  | cons t ts ih =>
    intro s hs
    refine Act.RG.bind (icuShared_only parse t s) fun r s' ⟨_, h2, h3⟩ => ?_
    have h3 := h3 a hs
    cases r with
    | none => intro x hx _ v hv; rw [List.mem_singleton.1 hx] at hv; cases hv
    | some y =>
      refine Act.RG.bind (ih s' h3) fun rs s'' hrs => ?_
      intro x hx e v hv
      rcases List.mem_cons.1 hx with rfl | hx
      · cases hv
        have := h2 e _ rfl
        rw [h3] at this
        exact (Option.some.inj this).symm
      · exact hrs x hx e v hv

/-- The thread that alone asks for the text. -/
theorem icuThread_only (parse : Str → Option L) {c : Str} : ∀ (ts : List TagRef) (s : IcuShared L),
    (icuThread parse ts).RG (SameEntry c) (fun _ _ => True) (fun rs _ => ∃ a, OneObject c a rs) s := by
  intro ts
  induction ts with
  | nil => intro s; exact ⟨0, fun x hx => nomatch hx⟩
  | cons t ts ih =>
    intro s
    refine Act.RG.bind (icuShared_only parse t s) fun r s' ⟨_, h2, _⟩ => ?_
    cases r with
    | none => exact ⟨0, fun x hx _ v hv => by rw [List.mem_singleton.1 hx] at hv; cases hv⟩
    | some y =>
      by_cases e : t.text = c
      · refine Act.RG.bind (icuThread_known parse ts s' (h2 e y rfl)) fun rs s'' hrs => ⟨y.1, ?_⟩
        intro x hx e' v hv
        rcases List.mem_cons.1 hx with rfl | hx
        · cases hv; rfl
        · exact hrs x hx e' v hv
      · refine Act.RG.bind (ih s') fun rs s'' ⟨a, hrs⟩ => ⟨a, ?_⟩
        intro x hx e' v hv
        rcases List.mem_cons.1 hx with rfl | hx
        · exact absurd e' e
        · exact hrs x hx e' v hv

theorem only_run (parse : Str → Option L) {c : Str} (k : Nat) (m : IcuShared L) (programs : List (List TagRef))
    (hk : ∀ i ts, programs[i]? = some ts → i ≠ k → ∀ t ∈ ts, t.text ≠ c) (schedule : List Nat)
    (rs : List (TagRef × Option (Nat × L)))
    (hr : (runThreads m (programs.map (icuThread parse)) schedule).2[k]?.bind Act.result = some rs) :
    ∃ a, OneObject c a rs := by
  have := Act.rg_run (R := fun i => if i = k then SameEntry c else fun _ _ => True)
    (G := fun i => if i = k then fun _ _ => True else SameEntry (L := L) c)
    (Q := fun i rs _ => i = k → ∃ a, OneObject (L := L) c a rs)
    (by
      intro i a b d h h'
      by_cases e : i = k
      · simp only [e, if_true] at h h' ⊢
        exact sameEntry_trans c _ _ _ h h'
      · simp only [e, if_false])
    (by
      intro i a
      by_cases e : i = k
      · simp only [e, if_true]; exact rfl
      · simp only [e, if_false])
    (by intro i a s s' h _; exact h)
    (by
      intro i j a b hij h
      by_cases e : j = k
      · have : i ≠ k := fun h => hij (h.trans e.symm)
        simp only [e, this, if_true, if_false] at h ⊢
        exact h
      · simp only [e, if_false])
    schedule m (programs.map (icuThread parse)) (by
      intro i p hp
      rw [List.getElem?_map] at hp
      cases ht : programs[i]? with
      | none => rw [ht] at hp; cases hp
      | some ts =>
        rw [ht] at hp
        cases hp
        by_cases e : i = k
        · simp only [e, if_true]
          have h := icuThread_only parse (c := c) ts m
          simpa only [true_implies] using h
        · simp only [e, if_false]
          have h := icuThread_guarantee parse ts (hk i ts ht e) m
          simpa only [false_implies] using h)
  cases hp : (runThreads m (programs.map (icuThread parse)) schedule).2[k]? with
  | none => rw [hp] at hr; cases hr
  | some p =>
    rw [hp] at hr
    have := this k p hp
    cases p with
    | step _ _ _ => cases hr
    | done a => cases hr; exact this rfl

/-! ### Two threads ask for the text -/

/-- A thread runs alone until it asks for the text for the first time. -/
theorem solo_up_to (parse : Str → Option L) {c : Str} (rest : List TagRef) : ∀ (pre : List TagRef)
    (h : List (TagRef × Option (Nat × L)) → Act (IcuShared L) (List (TagRef × Option (Nat × L)))) (m : IcuShared L),
    (∀ t ∈ pre, t.text ≠ c ∧ (parse t.text).isSome = true) → IcuSharedOk parse m → m.entries.get c = none →
    ∃ m' front, Act.Solo m ((icuThread parse (pre ++ rest)).bind h) m' ((icuThread parse rest).bind fun rs => h (front ++ rs)) ∧
      IcuSharedOk parse m' ∧ m'.entries.get c = none := by
  intro pre
  induction pre with
  | nil => intro h m _ hm hc; exact ⟨m, [], .refl _ _, hm, hc⟩
  | cons t pre ih =>
    intro h m hpre hm hc
    obtain ⟨hne, hp⟩ := hpre t (by simp)
    obtain ⟨s1, r, h1, h2, h3⟩ := Act.Leads.alone (R := IcuLater) (fun _ => List.prefix_refl _)
      (icuShared_leads parse t m) (icuShared_free parse t) hm
    have hc1 : s1.entries.get c = none := by
      rw [icuShared, Act.alone_atomic] at h1
      cases hg : m.entries.get t.text with
      | some a => simp only [hg, Act.alone] at h1; cases h1; exact hc
      | none =>
        simp only [hg] at h1
        cases hpt : parse t.text with
        | none => rw [hpt] at h1; cases h1; exact hc
        | some l =>
          simp only [hpt, Act.alone_atomic, Act.alone] at h1
          cases h1
          show (m.entries.insert t.text m.heap.length).get c = none
          rw [AMap.get_insert, if_neg hne]; exact hc
    cases r with
    | none => rw [show parse t.text = none from h3] at hp; cases hp
    | some y =>
      obtain ⟨m', front, i1, i2, i3⟩ := ih (fun rs => h ((t, some y) :: rs)) s1 (fun u hu => hpre u (by simp [hu])) h2 hc1
      refine ⟨m', (t, some y) :: front, ?_, i2, i3⟩
      refine Act.Solo.trans (s' := s1) (p' := (icuThread parse (pre ++ rest)).bind fun rs => h ((t, some y) :: rs)) ?_ i1
      show Act.Solo m (((icuShared parse t).bind _).bind h) _ _
      rw [Act.bind_assoc']
      refine Act.Solo.trans (Act.solo_bind h1) ?_
      simp only [Act.bind_assoc', Act.bind]
      exact .refl _ _

/-- Two threads that ask for a text without entry get different objects in some schedule. -/
theorem race (parse : Str → Option L) {m : IcuShared L} (hm : IcuSharedOk parse m) {programs : List (List TagRef)}
    (hall : ∀ ts ∈ programs, ∀ t ∈ ts, (parse t.text).isSome = true) {c : Str} (hc : m.entries.get c = none) {i j : Nat}
    (hij : i ≠ j) {ts us : List TagRef} (hi : programs[i]? = some ts) (hj : programs[j]? = some us) {t u : TagRef}
    (ht : t ∈ ts) (hu : u ∈ us) (htc : t.text = c) (huc : u.text = c) :
    ∃ schedule rs rs' t' u' v v', (runThreads m (programs.map (icuThread parse)) schedule).2[i]?.bind Act.result = some rs ∧
      (runThreads m (programs.map (icuThread parse)) schedule).2[j]?.bind Act.result = some rs' ∧
      (t', some v) ∈ rs ∧ (u', some v') ∈ rs' ∧ t'.text = c ∧ u'.text = c ∧ v.1 ≠ v'.1 := by
  have split : ∀ (l : List TagRef) (x : TagRef), x ∈ l → x.text = c → ∃ pre y post, l = pre ++ y :: post ∧ y.text = c ∧
      ∀ z ∈ pre, z.text ≠ c := by
    intro l
    induction l with
    | nil => intro x hx; cases hx
    | cons a l ih =>
      intro x hx hxc
      by_cases ha : a.text = c
      · exact ⟨[], a, l, rfl, ha, by simp⟩
      · rcases List.mem_cons.1 hx with rfl | hx
        · exact absurd hxc ha
        · obtain ⟨pre, y, post, rfl, hy, hz⟩ := ih x hx hxc
          refine ⟨a :: pre, y, post, rfl, hy, fun z hz' => ?_⟩
          rcases List.mem_cons.1 hz' with rfl | hz'
          · exact ha
          · exact hz z hz'
  have hp1 := hall ts (List.mem_of_getElem? hi)
  have hp2 := hall us (List.mem_of_getElem? hj)
  obtain ⟨pre1, t1, post1, rfl, ht1, hn1⟩ := split ts t ht htc
  obtain ⟨pre2, u1, post2, rfl, hu1, hn2⟩ := split us u hu huc
  have h0 : Act.Pair m (programs.map (icuThread parse)) m i ((icuThread parse (pre1 ++ t1 :: post1)).bind .done) j
      ((icuThread parse (pre2 ++ u1 :: post2)).bind .done) := by
    have hb : ∀ {α : Type} (p : Act (IcuShared L) α), p.bind .done = p := by
      intro α p
      induction p with
      | done a => rfl
      | step ready effect next ih => simp only [Act.bind, ih]
    exact ⟨[], rfl, by simp [runThreads, hi, hb], by simp [runThreads, hj, hb]⟩
  obtain ⟨m1, front1, s1, hm1, hc1⟩ := solo_up_to parse (t1 :: post1) pre1 .done m
    (fun x hx => ⟨hn1 x hx, hp1 x (by simp [hx])⟩) hm hc
  have h1 := h0.solo hij s1
  obtain ⟨m2, front2, s2, hm2, hc2⟩ := solo_up_to parse (u1 :: post2) pre2 .done m1
    (fun x hx => ⟨hn2 x hx, hp2 x (by simp [hx])⟩) hm1 hc1
  have h2 := h1.symm.solo (Ne.symm hij) s2
  obtain ⟨l, hl⟩ := Option.isSome_iff_exists.1 (hp1 t1 (by simp))
  rw [ht1] at hl
  have step : ∀ (x : TagRef) (post : List TagRef) (front) (s : IcuShared L), x.text = c → s.entries.get c = none →
      Act.Solo s ((icuThread parse (x :: post)).bind fun rs => .done (front ++ rs))
        { s with heap := s.heap ++ [(c, l)] }
        (Act.atomic fun m => ({ m with entries := m.entries.insert c s.heap.length },
          (icuThread parse post).bind fun rs => .done (front ++ (x, some (s.heap.length, l)) :: rs))) := by
    intro x post front s hx hs
    refine .more ?_
    simp only [icuThread, icuShared, Act.atomic, Act.bind, Act.advance, if_true, hx, hs, hl, Act.bind_assoc']
    exact .refl _ _
  have h3 := h2.solo (Ne.symm hij) (step u1 post2 front2 m2 hu1 hc2)
  have h4 := h3.symm.solo hij (step t1 post1 front1 _ ht1 hc2)
  have enter : ∀ (s : IcuShared L) (f : IcuShared L → IcuShared L × Act (IcuShared L) (List (TagRef × Option (Nat × L)))),
      Act.Solo s (Act.atomic f) (f s).1 (f s).2 := by
    intro s f
    refine .more ?_
    simp only [Act.atomic, Act.advance, if_true]
    exact .refl _ _
  have h5 := h4.solo hij (enter _ _)
  have h6 := h5.symm.solo (Ne.symm hij) (enter _ _)
  obtain ⟨m7, rs2, a7⟩ := (icuThread_free parse post2).alone _
  have h7 := h6.solo (Ne.symm hij) (Act.solo_bind a7)
  obtain ⟨m8, rs1, a8⟩ := (icuThread_free parse post1).alone m7
  have h8 := h7.symm.solo hij (Act.solo_bind a8)
  obtain ⟨schedule, _, r1, r2⟩ := h8
  refine ⟨schedule, _, _, t1, u1, (m2.heap.length + 1, l), (m2.heap.length, l), by rw [r1]; rfl, by rw [r2]; rfl, ?_, by simp,
    ht1, hu1, by simp⟩
  simp

end Verif.IcuSyncLemmas
