import Verif.Lemmas.RegistrySync
/-
Helper lemmas: when requests of several threads for one tag give the same object, and when not.
-/
namespace Verif.RegistrySyncLemmas
open Verif Verif.RegistryLemmas
variable {E : Type}

/-! ### Only one thread asks for the tag -/

/-- Thread `i`, which alone asks for `c`, did not register it yet. -/
structure Unregistered (c : Str) (i : Nat) (s : TagSys E) : Prop where
  tag : s.reg.tags.get c = none
  text : ∀ k h, s.reg.tags.get k = some h → h.text = k
  dep : ∀ k h, s.reg.deprecated.get k = some h → h.text = c → ∃ t, s.threads[i]? = some t ∧ t.pc = .insertTags h
  done : ∀ (j : Nat) t q h, s.threads[j]? = some t → (q, Except.ok h) ∈ t.done → h.text ≠ c
  pc : ∀ (j : Nat) t, s.threads[j]? = some t →
    match t.pc with
    | .insertAlias h => h.text ≠ c
    | .insertDeprecated h => h.text = c → j = i
    | .insertTags h => h.text = c → j = i
    | _ => True

theorem unregistered_assemble {c : Str} {o : Nat} {s : TagSys E} {r : Registry} {l : Option Nat} {i : Nat}
    {t t' : TagThread E} (hi : Unregistered c o s) (hti : s.threads[i]? = some t)
    (h1 : r.tags.get c = none) (h2 : ∀ k h, r.tags.get k = some h → h.text = k)
    (h3 : ∀ k h, r.deprecated.get k = some h → h.text = c →
      (s.reg.deprecated.get k = some h ∧ (i = o → t.pc ≠ .insertTags h)) ∨ (i = o ∧ t'.pc = .insertTags h))
    (h4 : ∀ q h, (q, Except.ok h) ∈ t'.done → (q, Except.ok h) ∈ t.done ∨ h.text ≠ c)
    (h5 : match t'.pc with
      | .insertAlias h => h.text ≠ c
      | .insertDeprecated h => h.text = c → i = o
      | .insertTags h => h.text = c → i = o
      | _ => True) :
    Unregistered c o ({ reg := r, tagsLock := l, threads := s.threads.set i t' } : TagSys E) := by
  have hlt : i < s.threads.length := by
    rcases Nat.lt_or_ge i s.threads.length with h' | h'
    · exact h'
    · rw [List.getElem?_eq_none h'] at hti; cases hti
  constructor
  · exact h1
  · exact h2
  · intro k h hk htx
    rcases h3 k h hk htx with ⟨hk, hne⟩ | ⟨rfl, hp⟩
    · obtain ⟨to, ho, hpo⟩ := hi.dep k h hk htx
      by_cases hio : i = o
      · subst hio
        rw [hti] at ho; cases ho
        exact absurd hpo (hne rfl)
      · exact ⟨to, by simp [List.getElem?_set_ne hio, ho], hpo⟩
    · exact ⟨t', by simp [hlt], hp⟩
  · intro j tj q h hj hq
    rcases getElem?_set_cases hj with ⟨rfl, rfl⟩ | ⟨_, hj⟩
    · rcases h4 q h hq with hq | hq
      · exact hi.done _ t q h hti hq
      · exact hq
    · exact hi.done j tj q h hj hq
  · intro j tj hj
    rcases getElem?_set_cases hj with ⟨rfl, rfl⟩ | ⟨_, hj⟩
    · exact h5
    · exact hi.pc j tj hj

theorem unregistered_step (canon : Str → Except E Str) (warm : List Str) (programs : List (List Str)) (c : Str) (o : Nat)
    (hown : ∀ (j : Nat) p q, programs[j]? = some p → q ∈ p → canon q = .ok c → j = o) (s s' : TagSys E) (i : Nat)
    (hsys : SysInv canon warm programs s) (hi : Unregistered c o s) (hs : s.step canon i = some s') :
    Unregistered c o s' ∨ ∃ h0, PreInv c h0 s' := by
  unfold TagSys.step at hs
  have fin : ∀ (t : TagThread E) q a h', (∀ h, a = Except.ok h → h.text ≠ c) →
      ∀ q', (q', Except.ok h') ∈ (t.finish q a).done → (q', Except.ok h') ∈ t.done ∨ h'.text ≠ c := by
    intro t q a h' ha q' hm
    simp only [TagThread.finish, List.mem_append, List.mem_singleton, Prod.mk.injEq] at hm
    rcases hm with hm | ⟨_, hm⟩
    · exact Or.inl hm
    · exact Or.inr (ha h' hm.symm)
  cases hti : s.threads[i]? with
  | none => simp [hti] at hs
  | some t =>
    simp only [hti] at hs
    have hlt : i < s.threads.length := by
      rcases Nat.lt_or_ge i s.threads.length with h' | h'
      · exact h'
      · rw [List.getElem?_eq_none h'] at hti; cases hti
    obtain ⟨p, hp⟩ : ∃ p, programs[i]? = some p :=
      ⟨programs[i]'(by rw [← hsys.len]; exact hlt), List.getElem?_eq_getElem _⟩
    have ht : ThreadOk canon p t := hsys.threads i t p hti hp
    cases hq : t.todo with
    | nil => simp [hq] at hs
    | cons q rest =>
      simp only [hq] at hs
      have hpcok := hi.pc i t hti
      have hqp : q ∈ p := by rw [← ht.prog, hq]; simp
      have hmine : canon q = .ok c → i = o := hown i p q hp hqp
      have htagq : ∀ k h, s.reg.tags.get k = some h → h.text ≠ c := by
        rintro k h hk rfl
        have := hi.text k h hk; subst this
        rw [hi.tag] at hk; cases hk
      have keep : (∀ h, t.pc ≠ .insertTags h) → ∀ (t' : TagThread E) k h, s.reg.deprecated.get k = some h → h.text = c →
          (s.reg.deprecated.get k = some h ∧ (i = o → t.pc ≠ .insertTags h)) ∨ (i = o ∧ t'.pc = .insertTags h) :=
        fun hne _ k h hk _ => Or.inl ⟨hk, fun _ => hne h⟩
      cases hpc : t.pc with
      | lookupTags =>
        have hne : ∀ h, t.pc ≠ .insertTags h := by intro h; rw [hpc]; exact nofun
        simp only [hpc] at hs
        split at hs
        · cases hs
        · cases hg : s.reg.tags.get q with
          | some h =>
            simp only [hg, Option.some.injEq] at hs
            subst hs
            refine Or.inl (unregistered_assemble (s := s) (t := t) hi hti hi.tag hi.text (keep hne _) ?_ trivial)
            exact fun q' h' hm => fin t q _ h' (fun h e => by cases e; exact htagq _ _ hg) q' hm
          | none =>
            simp only [hg, Option.some.injEq] at hs
            subst hs
            exact Or.inl (unregistered_assemble (s := s) (t := t) hi hti hi.tag hi.text (keep hne _)
              (fun _ _ h => Or.inl h) trivial)
      | lookupDeprecated =>
        have hne : ∀ h, t.pc ≠ .insertTags h := by intro h; rw [hpc]; exact nofun
        simp only [hpc] at hs
        cases hg : s.reg.deprecated.get q with
        | some h =>
          simp only [hg, Option.some.injEq] at hs
          subst hs
          have hh : h.text ≠ c := by
            intro e
            have := (hsys.reg.dep _ _ hg).1
            rw [e] at this
            have hio := hmine this
            subst hio
            obtain ⟨t2, ht2, hp2⟩ := hi.dep _ _ hg e
            rw [hti] at ht2; cases ht2
            exact hne h hp2
          refine Or.inl (unregistered_assemble (s := s) (t := t) hi hti hi.tag hi.text (keep hne _) ?_ trivial)
          exact fun q' h' hm => fin t q _ h' (fun h e => by cases e; exact hh) q' hm
        | none =>
          simp only [hg] at hs
          cases hc : canon q with
          | error e =>
            simp only [hc, Option.some.injEq] at hs
            subst hs
            refine Or.inl (unregistered_assemble (s := s) (t := t) hi hti hi.tag hi.text (keep hne _) ?_ trivial)
            exact fun q' h' hm => fin t q _ h' (fun h e => by cases e) q' hm
          | ok c' =>
            simp only [hc, Option.some.injEq] at hs
            subst hs
            exact Or.inl (unregistered_assemble (s := s) (t := t) hi hti hi.tag hi.text (keep hne _)
              (fun _ _ h => Or.inl h) trivial)
      | lookupCanonical c' =>
        have hne : ∀ h, t.pc ≠ .insertTags h := by intro h; rw [hpc]; exact nofun
        have hcq : canon q = .ok c' := by have := ht.pc q rest hq; rw [hpc] at this; exact this
        simp only [hpc] at hs
        split at hs
        · cases hs
        · cases hg : s.reg.tags.get c' with
          | some h =>
            simp only [hg, Option.some.injEq] at hs
            subst hs
            exact Or.inl (unregistered_assemble (s := s) (t := t) hi hti hi.tag hi.text (keep hne _)
              (fun _ _ h => Or.inl h) (htagq _ _ hg))
          | none =>
            simp only [hg] at hs
            have hm : c' = c → i = o := by rintro rfl; exact hmine hcq
            split at hs
            · simp only [Option.some.injEq] at hs
              subst hs
              exact Or.inl (unregistered_assemble (s := s) (t := t) hi hti hi.tag hi.text (keep hne _)
                (fun _ _ h => Or.inl h) hm)
            · simp only [Option.some.injEq] at hs
              subst hs
              exact Or.inl (unregistered_assemble (s := s) (t := t) hi hti hi.tag hi.text (keep hne _)
                (fun _ _ h => Or.inl h) hm)
      | insertAlias h =>
        have hne : ∀ h, t.pc ≠ .insertTags h := by intro h; rw [hpc]; exact nofun
        simp only [hpc, Option.some.injEq] at hs hpcok
        subst hs
        refine Or.inl (unregistered_assemble (s := s) (t := t) hi hti hi.tag hi.text ?_ ?_ trivial)
        · intro k h' hk htx
          simp only [AMap.get_insert] at hk
          by_cases hqk : q = k
          · simp [hqk] at hk; subst hk; exact absurd htx hpcok
          · simp [hqk] at hk; exact keep hne _ k h' hk htx
        · exact fun q' h' hm => fin t q _ h' (fun h e => by cases e; exact hpcok) q' hm
      | insertDeprecated h =>
        have hne : ∀ h, t.pc ≠ .insertTags h := by intro h; rw [hpc]; exact nofun
        simp only [hpc, Option.some.injEq] at hs hpcok
        subst hs
        refine Or.inl (unregistered_assemble (s := s) (t := t) hi hti hi.tag hi.text ?_ (fun _ _ h => Or.inl h) hpcok)
        intro k h' hk htx
        simp only [AMap.get_insert] at hk
        by_cases hqk : q = k
        · simp [hqk] at hk; subst hk; exact Or.inr ⟨hpcok htx, rfl⟩
        · simp [hqk] at hk; exact keep hne _ k h' hk htx
      | insertTags h =>
        simp only [hpc] at hs hpcok
        split at hs
        · cases hs
        · simp only [Option.some.injEq] at hs
          subst hs
          have htext : ∀ k h', (s.reg.tags.insert h.text h).get k = some h' → h'.text = k := by
            intro k h' hk
            simp only [AMap.get_insert] at hk
            by_cases hqk : h.text = k
            · simp [hqk] at hk; subst hk; exact hqk
            · simp [hqk] at hk; exact hi.text _ _ hk
          by_cases hc : h.text = c
          · right
            have hio := hpcok hc
            subst hio
            refine ⟨h, ?_, htext, ?_, ?_, ?_⟩
            · simp only [TagSys.setThread, hc, AMap.get_insert_self]
            · intro k h' hk htx
              obtain ⟨t2, ht2, hp2⟩ := hi.dep k h' hk htx
              rw [hti] at ht2; cases ht2
              rw [hpc] at hp2; cases hp2; rfl
            · intro j tj q' h' hj hm htx
              rcases getElem?_set_cases hj with ⟨rfl, rfl⟩ | ⟨_, hj⟩
              · simp only [TagThread.finish, List.mem_append, List.mem_singleton, Prod.mk.injEq,
                  Except.ok.injEq] at hm
                rcases hm with hm | ⟨_, rfl⟩
                · exact absurd htx (hi.done _ _ _ _ hti hm)
                · rfl
              · exact absurd htx (hi.done _ _ _ _ hj hm)
            · intro j tj hj
              rcases getElem?_set_cases hj with ⟨rfl, rfl⟩ | ⟨hji, hj⟩
              · trivial
              · have := hi.pc j tj hj
                revert this
                cases tj.pc with
                | insertAlias h2 => exact fun hn e => absurd e hn
                | insertDeprecated h2 => exact fun hn e => hji (hn e)
                | insertTags h2 => exact fun hn e => hji (hn e)
                | _ => exact fun _ => trivial
          · left
            refine unregistered_assemble (s := s) (t := t) hi hti ?_ htext ?_ ?_ trivial
            · simp only; rw [AMap.get_insert_ne _ _ hc]; exact hi.tag
            · intro k h' hk htx
              refine Or.inl ⟨hk, fun _ e => ?_⟩
              rw [hpc] at e; cases e; exact hc htx
            · exact fun q' h' hm => fin t q _ h' (fun h e => by cases e; exact hc) q' hm

theorem unregistered_run (canon : Str → Except E Str) (hid : Idem canon) (warm : List Str) (programs : List (List Str))
    (c : Str) (o : Nat) (hown : ∀ (j : Nat) p q, programs[j]? = some p → q ∈ p → canon q = .ok c → j = o)
    (schedule : List Nat) : ∀ s : TagSys E, SysInv canon warm programs s → Unregistered c o s ∨ (∃ h0, PreInv c h0 s) →
      Unregistered c o (s.run canon schedule) ∨ ∃ h0, PreInv c h0 (s.run canon schedule) := by
  induction schedule with
  | nil => intro s _ h; exact h
  | cons i rest ih =>
    intro s hsys h
    simp only [TagSys.run, List.foldl_cons]
    cases hs : s.step canon i with
    | none => exact ih s hsys h
    | some s' =>
      refine ih s' (step_inv canon hid warm programs s s' i hsys hs) ?_
      rcases h with h | ⟨h0, h⟩
      · exact unregistered_step canon warm programs c o hown s s' i hsys h hs
      · exact Or.inr ⟨h0, pre_step canon c h0 s s' i h hs⟩

theorem unregistered_start (canon : Str → Except E Str) (warm : List Str) (reg : Registry)
    (hreg : Inv canon warm reg) (programs : List (List Str)) (c : Str) (o : Nat) (hc : reg.tags.get c = none) :
    Unregistered c o (TagSys.start (E := E) reg programs) := by
  constructor
  · exact hc
  · exact fun k h hk => (hreg.tagsText k h hk).1
  · intro k h hk e
    have := (hreg.depVal k h hk).2
    rw [e, hc] at this; cases this
  · intro i t q h ht hq
    simp [TagSys.start] at ht
    obtain ⟨a, _, rfl⟩ := ht
    simp at hq
  · intro i t ht
    simp [TagSys.start] at ht
    obtain ⟨a, _, rfl⟩ := ht
    trivial

/-! ### Two threads ask for the tag -/

/-- No thread is within a request and nobody registered `c`. -/
structure Resting (c : Str) (s : TagSys E) : Prop where
  pc : ∀ (j : Nat) t, s.threads[j]? = some t → t.pc = .lookupTags
  lock : s.tagsLock = none
  tag : s.reg.tags.get c = none

theorem run_append (canon : Str → Except E Str) (s : TagSys E) (a b : List Nat) :
    s.run canon (a ++ b) = (s.run canon a).run canon b := by
  simp [TagSys.run, List.foldl_append]

theorem run_one {canon : Str → Except E Str} {s s' : TagSys E} {i : Nat} (h : s.step canon i = some s') (rest : List Nat) :
    s.run canon (i :: rest) = s'.run canon rest := by
  simp [TagSys.run, h]

section steps
variable {canon : Str → Except E Str} {s : TagSys E} {i : Nat} {t : TagThread E} {q : Str} {rest : List Str}

theorem step_found (hti : s.threads[i]? = some t) (hq : t.todo = q :: rest) (hp : t.pc = .lookupTags) (hl : s.tagsLock = none)
    {h : TagRef} (hg : s.reg.tags.get q = some h) : s.step canon i = some (s.setThread i (t.finish q (.ok h))) := by
  simp [TagSys.step, hti, hq, hp, hl, hg]

theorem step_missed (hti : s.threads[i]? = some t) (hq : t.todo = q :: rest) (hp : t.pc = .lookupTags)
    (hl : s.tagsLock = none) (hg : s.reg.tags.get q = none) :
    s.step canon i = some (s.setThread i { t with pc := .lookupDeprecated }) := by
  simp [TagSys.step, hti, hq, hp, hl, hg]

theorem step_foundDeprecated (hti : s.threads[i]? = some t) (hq : t.todo = q :: rest) (hp : t.pc = .lookupDeprecated)
    {h : TagRef} (hg : s.reg.deprecated.get q = some h) : s.step canon i = some (s.setThread i (t.finish q (.ok h))) := by
  simp [TagSys.step, hti, hq, hp, hg]

theorem step_invalid (hti : s.threads[i]? = some t) (hq : t.todo = q :: rest) (hp : t.pc = .lookupDeprecated)
    (hg : s.reg.deprecated.get q = none) {e : E} (hc : canon q = .error e) :
    s.step canon i = some (s.setThread i (t.finish q (.error e))) := by
  simp [TagSys.step, hti, hq, hp, hg, hc]

theorem step_valid (hti : s.threads[i]? = some t) (hq : t.todo = q :: rest) (hp : t.pc = .lookupDeprecated)
    (hg : s.reg.deprecated.get q = none) {c : Str} (hc : canon q = .ok c) :
    s.step canon i = some (s.setThread i { t with pc := .lookupCanonical c }) := by
  simp [TagSys.step, hti, hq, hp, hg, hc]

theorem step_known {c : Str} (hti : s.threads[i]? = some t) (hq : t.todo = q :: rest) (hp : t.pc = .lookupCanonical c)
    (hl : s.tagsLock = none) {h : TagRef} (hg : s.reg.tags.get c = some h) :
    s.step canon i = some ({ s with tagsLock := some i }.setThread i { t with pc := .insertAlias h }) := by
  simp [TagSys.step, hti, hq, hp, hl, hg]

theorem step_new {c : Str} (hti : s.threads[i]? = some t) (hq : t.todo = q :: rest) (hp : t.pc = .lookupCanonical c)
    (hl : s.tagsLock = none) (hg : s.reg.tags.get c = none) :
    s.step canon i = some ({ s with reg := { s.reg with nextAddr := s.reg.nextAddr + 1 } }.setThread i
      { t with pc := if q ≠ c then .insertDeprecated ⟨s.reg.nextAddr, c⟩ else .insertTags ⟨s.reg.nextAddr, c⟩ }) := by
  by_cases h : q = c <;> simp [TagSys.step, hti, hq, hp, hl, hg, h]

theorem step_alias {h : TagRef} (hti : s.threads[i]? = some t) (hq : t.todo = q :: rest) (hp : t.pc = .insertAlias h) :
    s.step canon i = some ({ s with
      reg := { s.reg with deprecated := s.reg.deprecated.insert q h }, tagsLock := none }.setThread i (t.finish q (.ok h))) := by
  simp [TagSys.step, hti, hq, hp]

theorem step_deprecate {h : TagRef} (hti : s.threads[i]? = some t) (hq : t.todo = q :: rest)
    (hp : t.pc = .insertDeprecated h) :
    s.step canon i = some ({ s with
      reg := { s.reg with deprecated := s.reg.deprecated.insert q h } }.setThread i { t with pc := .insertTags h }) := by
  simp [TagSys.step, hti, hq, hp]

theorem step_register {h : TagRef} (hti : s.threads[i]? = some t) (hq : t.todo = q :: rest) (hp : t.pc = .insertTags h)
    (hl : s.tagsLock = none) :
    s.step canon i = some ({ s with
      reg := { s.reg with tags := s.reg.tags.insert h.text h } }.setThread i (t.finish q (.ok h))) := by
  simp [TagSys.step, hti, hq, hp, hl]

end steps

theorem lt_of_getElem? {α : Type} {l : List α} {i : Nat} {x : α} (h : l[i]? = some x) : i < l.length := by
  rcases Nat.lt_or_ge i l.length with h' | h'
  · exact h'
  · rw [List.getElem?_eq_none h'] at h; cases h

/-- What stays the same while thread `i` runs alone. -/
structure Served (s s' : TagSys E) (i : Nat) (c : Str) (t' : TagThread E) : Prop where
  threads : s'.threads = s.threads.set i t'
  lock : s'.tagsLock = none
  tag : s'.reg.tags.get c = s.reg.tags.get c

/-- Thread `i` alone serves a request that is not for `c`. -/
theorem serve_other (canon : Str → Except E Str) (c : Str) (s : TagSys E) (i : Nat) (t : TagThread E) (q : Str)
    (rest : List Str) (hti : s.threads[i]? = some t) (hq : t.todo = q :: rest) (hp : t.pc = .lookupTags)
    (hl : s.tagsLock = none) (hc : canon q ≠ .ok c) :
    ∃ sched a, Served s (s.run canon sched) i c (t.finish q a) := by
  have hlt := lt_of_getElem? hti
  have fin : ∀ (t1 : TagThread E) a, t1.todo = t.todo → t1.done = t.done → t1.finish q a = t.finish q a := by
    intro t1 a h1 h2; simp [TagThread.finish, h1, h2]
  cases hg : s.reg.tags.get q with
  | some h =>
    refine ⟨[i], .ok h, ?_⟩
    rw [run_one (step_found hti hq hp hl hg)]
    exact ⟨rfl, hl, rfl⟩
  | none =>
    have e1 := step_missed (canon := canon) hti hq hp hl hg
    let t1 : TagThread E := { t with pc := .lookupDeprecated }
    have ht1 : (s.setThread i t1).threads[i]? = some t1 := by simp [TagSys.setThread, hlt]
    cases hd : s.reg.deprecated.get q with
    | some h =>
      refine ⟨[i, i], .ok h, ?_⟩
      rw [run_one e1, run_one (step_foundDeprecated (s := s.setThread i t1) ht1 hq rfl hd)]
      exact ⟨by simp [TagSys.run, TagSys.setThread, fin t1 _ rfl rfl], hl, rfl⟩
    | none =>
      cases hcq : canon q with
      | error e =>
        refine ⟨[i, i], .error e, ?_⟩
        rw [run_one e1, run_one (step_invalid (s := s.setThread i t1) ht1 hq rfl hd hcq)]
        exact ⟨by simp [TagSys.run, TagSys.setThread, fin t1 _ rfl rfl], hl, rfl⟩
      | ok c' =>
        have hne : c' ≠ c := by rintro rfl; exact hc hcq
        have e2 := step_valid (s := s.setThread i t1) ht1 hq rfl hd hcq
        let t2 : TagThread E := { t1 with pc := .lookupCanonical c' }
        let s2 := (s.setThread i t1).setThread i t2
        have ht2 : s2.threads[i]? = some t2 := by simp [s2, TagSys.setThread, hlt]
        cases hk : s.reg.tags.get c' with
        | some h =>
          have e3 := step_known (canon := canon) (s := s2) ht2 hq rfl hl hk
          let t3 : TagThread E := { t2 with pc := .insertAlias h }
          have ht3 : ({ s2 with tagsLock := some i }.setThread i t3).threads[i]? = some t3 := by
            simp [s2, TagSys.setThread, hlt]
          refine ⟨[i, i, i, i], .ok h, ?_⟩
          rw [run_one e1, run_one e2, run_one e3, run_one (step_alias ht3 hq rfl)]
          exact ⟨by simp [s2, TagSys.run, TagSys.setThread, fin t3 _ rfl rfl], rfl, rfl⟩
        | none =>
          have e3 := step_new (canon := canon) (s := s2) ht2 hq rfl hl hk
          let h : TagRef := ⟨s.reg.nextAddr, c'⟩
          by_cases hqc : q = c'
          · let t3 : TagThread E := { t2 with pc := .insertTags h }
            let s3 := { s2 with reg := { s2.reg with nextAddr := s2.reg.nextAddr + 1 } }.setThread i t3
            have e3' : s2.step canon i = some s3 := by rw [e3, if_neg (by simpa using hqc)]; rfl
            have ht3 : s3.threads[i]? = some t3 := by simp [s3, s2, TagSys.setThread, hlt]
            refine ⟨[i, i, i, i], .ok h, ?_⟩
            rw [run_one e1, run_one e2, run_one e3', run_one (step_register ht3 hq rfl hl)]
            refine ⟨by simp [s3, s2, TagSys.run, TagSys.setThread, fin t3 _ rfl rfl], hl, ?_⟩
            exact AMap.get_insert_ne _ _ hne
          · let t3 : TagThread E := { t2 with pc := .insertDeprecated h }
            let s3 := { s2 with reg := { s2.reg with nextAddr := s2.reg.nextAddr + 1 } }.setThread i t3
            have e3' : s2.step canon i = some s3 := by rw [e3, if_pos (by simpa using hqc)]; rfl
            have ht3 : s3.threads[i]? = some t3 := by simp [s3, s2, TagSys.setThread, hlt]
            have e4 := step_deprecate (canon := canon) ht3 hq rfl
            let t4 : TagThread E := { t3 with pc := .insertTags h }
            let s4 := { s3 with reg := { s3.reg with deprecated := s3.reg.deprecated.insert q h } }.setThread i t4
            have ht4 : s4.threads[i]? = some t4 := by simp [s4, s3, s2, TagSys.setThread, hlt]
            refine ⟨[i, i, i, i, i], .ok h, ?_⟩
            rw [run_one e1, run_one e2, run_one e3', run_one e4, run_one (step_register (s := s4) ht4 hq rfl hl)]
            refine ⟨by simp [s4, s3, s2, TagSys.run, TagSys.setThread, fin t4 _ rfl rfl], hl, ?_⟩
            exact AMap.get_insert_ne _ _ hne

/-- Thread `i` alone runs up to its first request for `c`. -/
theorem run_up_to (canon : Str → Except E Str) (c : Str) (i : Nat) (rest : List Str) : ∀ (before : List Str) (s : TagSys E)
    (t : TagThread E), s.threads[i]? = some t → t.todo = before ++ rest → Resting c s → (∀ q ∈ before, canon q ≠ .ok c) →
    ∃ sched t', Resting c (s.run canon sched) ∧ (s.run canon sched).threads = s.threads.set i t' ∧ t'.todo = rest := by
  intro before
  induction before with
  | nil =>
    intro s t hti hq hr _
    refine ⟨[], t, hr, ?_, by simpa using hq⟩
    have hlt := lt_of_getElem? hti
    apply List.ext_getElem?
    intro j
    by_cases hij : i = j
    · subst hij
      rw [List.getElem?_set_self hlt]; exact hti
    · simp [TagSys.run, List.getElem?_set_ne hij]
  | cons q before ih =>
    intro s t hti hq hr hb
    obtain ⟨sched, a, hs⟩ := serve_other canon c s i t q (before ++ rest) hti hq (hr.pc i t hti) hr.lock (hb q (by simp))
    have hlt := lt_of_getElem? hti
    have hr' : Resting c (s.run canon sched) := by
      refine ⟨?_, hs.lock, hs.tag.trans hr.tag⟩
      intro j tj hj
      rw [hs.threads] at hj
      rcases getElem?_set_cases hj with ⟨_, rfl⟩ | ⟨_, hj⟩
      · rfl
      · exact hr.pc j tj hj
    obtain ⟨sched2, t', h1, h2, h3⟩ := ih (s.run canon sched) (t.finish q a) (by rw [hs.threads]; simp [hlt])
      (by simp [TagThread.finish, hq]) hr' (fun q' h => hb q' (by simp [h]))
    refine ⟨sched ++ sched2, t', ?_, ?_, h3⟩
    · rw [run_append]; exact h1
    · rw [run_append, h2, hs.threads, List.set_set]

/-- The first request for `c`. -/
theorem first_request (canon : Str → Except E Str) (c : Str) : ∀ (p : List Str), (∃ q ∈ p, canon q = .ok c) →
    ∃ before q rest, p = before ++ q :: rest ∧ canon q = .ok c ∧ ∀ q ∈ before, canon q ≠ .ok c
  | [], h => by obtain ⟨_, h, _⟩ := h; cases h
  | x :: p, h => by
    by_cases hx : canon x = .ok c
    · exact ⟨[], x, p, rfl, hx, nofun⟩
    · obtain ⟨q, hq, hc⟩ := h
      have hq' : q ∈ p := by
        rcases List.mem_cons.1 hq with rfl | h
        · exact absurd hc hx
        · exact h
      obtain ⟨b, q, r, rfl, h1, h2⟩ := first_request canon c p ⟨q, hq', hc⟩
      refine ⟨x :: b, q, r, rfl, h1, ?_⟩
      intro y hy
      rcases List.mem_cons.1 hy with rfl | hy
      · exact hx
      · exact h2 y hy

/-- Having allocated its object, a thread registers it and returns it. -/
theorem finish_new (canon : Str → Except E Str) (s : TagSys E) (i : Nat) (t : TagThread E) (q : Str) (rest : List Str)
    (h : TagRef) (hti : s.threads[i]? = some t) (hq : t.todo = q :: rest) (hl : s.tagsLock = none)
    (hp : t.pc = if q ≠ h.text then .insertDeprecated h else .insertTags h) :
    ∃ sched, (s.run canon sched).threads = s.threads.set i (t.finish q (.ok h)) ∧ (s.run canon sched).tagsLock = none := by
  have hlt := lt_of_getElem? hti
  by_cases hqc : q = h.text
  · rw [if_neg (by simpa using hqc)] at hp
    refine ⟨[i], ?_⟩
    rw [run_one (step_register hti hq hp hl)]
    exact ⟨rfl, hl⟩
  · rw [if_pos hqc] at hp
    have e1 := step_deprecate (canon := canon) hti hq hp
    let t1 : TagThread E := { t with pc := .insertTags h }
    let s1 := { s with reg := { s.reg with deprecated := s.reg.deprecated.insert q h } }.setThread i t1
    have ht1 : s1.threads[i]? = some t1 := by simp [s1, TagSys.setThread, hlt]
    refine ⟨[i, i], ?_⟩
    rw [run_one e1, run_one (step_register (s := s1) ht1 hq rfl hl)]
    refine ⟨?_, hl⟩
    simp [s1, t1, TagSys.run, TagSys.setThread, TagThread.finish]

/-- Two threads that are about to ask for `c`, which nobody registered, may get different objects. -/
theorem race (canon : Str → Except E Str) (warm : List Str) (programs : List (List Str)) (c : Str) (s : TagSys E)
    (hsys : SysInv canon warm programs s) (hr : Resting c s) (i j : Nat) (hij : i ≠ j) (t t' : TagThread E)
    (hti : s.threads[i]? = some t) (htj : s.threads[j]? = some t') (q q' : Str) (rest rest' : List Str)
    (hq : t.todo = q :: rest) (hq' : t'.todo = q' :: rest') (hc : canon q = .ok c) (hc' : canon q' = .ok c) :
    ∃ sched u u' h h', (s.run canon sched).threads[i]? = some u ∧ (s.run canon sched).threads[j]? = some u' ∧
      (q, Except.ok h) ∈ u.done ∧ (q', Except.ok h') ∈ u'.done ∧ h.addr ≠ h'.addr := by
  have hji : j ≠ i := fun e => hij e.symm
  have hli := lt_of_getElem? hti
  have hlj := lt_of_getElem? htj
  have miss : ∀ x, canon x = .ok c → s.reg.tags.get x = none := by
    intro x hx
    cases hg : s.reg.tags.get x with
    | none => rfl
    | some h =>
      have := (hsys.reg.tags _ _ hg).2.1
      rw [hx] at this; cases this
      rw [hr.tag] at hg; cases hg
  have missd : ∀ x, canon x = .ok c → s.reg.deprecated.get x = none := by
    intro x hx
    cases hg : s.reg.deprecated.get x with
    | none => rfl
    | some h =>
      have h1 := (hsys.reg.dep _ _ hg).1
      rw [hx] at h1
      have hcov := hsys.cover.dep _ _ hg
      cases h1
      rcases hcov with hk | ⟨k, tk, _, _, hh, hk, _, hp, _⟩
      · rw [AMap.mem_keys_iff] at hk
        obtain ⟨v, hv⟩ := hk
        rw [hr.tag] at hv; cases hv
      · rw [hr.pc k tk hk] at hp; cases hp
  -- both look for the tag
  let t1 : TagThread E := { t with pc := .lookupDeprecated }
  let t2 : TagThread E := { t with pc := .lookupCanonical c }
  let u1 : TagThread E := { t' with pc := .lookupDeprecated }
  let u2 : TagThread E := { t' with pc := .lookupCanonical c }
  let s1 := s.setThread i t1
  let s2 := s1.setThread i t2
  let s3 := s2.setThread j u1
  let s4 := s3.setThread j u2
  have e1 : s.step canon i = some s1 := step_missed hti hq (hr.pc i t hti) hr.lock (miss q hc)
  have e2 : s1.step canon i = some s2 :=
    step_valid (s := s1) (t := t1) (by simp [s1, TagSys.setThread, hli]) hq rfl (missd q hc) hc
  have e3 : s2.step canon j = some s3 :=
    step_missed (s := s2) (t := t') (by simp [s2, s1, TagSys.setThread, hij, htj]) hq' (hr.pc j t' htj) hr.lock (miss q' hc')
  have e4 : s3.step canon j = some s4 :=
    step_valid (s := s3) (t := u1) (by simp [s3, s2, s1, TagSys.setThread, hlj]) hq' rfl (missd q' hc') hc'
  -- both allocate
  let h : TagRef := ⟨s.reg.nextAddr, c⟩
  let h' : TagRef := ⟨s.reg.nextAddr + 1, c⟩
  let t3 : TagThread E := { t with pc := if q ≠ c then .insertDeprecated h else .insertTags h }
  let u3 : TagThread E := { t' with pc := if q' ≠ c then .insertDeprecated h' else .insertTags h' }
  let s5 := { s4 with reg := { s4.reg with nextAddr := s4.reg.nextAddr + 1 } }.setThread i t3
  let s6 := { s5 with reg := { s5.reg with nextAddr := s5.reg.nextAddr + 1 } }.setThread j u3
  have e5 : s4.step canon i = some s5 :=
    step_new (s := s4) (t := t2) (by simp [s4, s3, s2, s1, TagSys.setThread, hji, hli]) hq rfl hr.lock hr.tag
  have e6 : s5.step canon j = some s6 :=
    step_new (s := s5) (t := u2) (by simp [s5, s4, s3, s2, s1, TagSys.setThread, hij, hlj]) hq' rfl hr.lock hr.tag
  -- both register
  obtain ⟨sa, ha, hla⟩ := finish_new canon s6 i t3 q rest h
    (by simp [s6, s5, s4, s3, s2, s1, TagSys.setThread, hji, hli]) hq hr.lock rfl
  have hj6 : (s6.run canon sa).threads[j]? = some u3 := by
    rw [ha]; simp [s6, s5, s4, s3, s2, s1, TagSys.setThread, hij, hlj]
  obtain ⟨sb, hb, _⟩ := finish_new canon (s6.run canon sa) j u3 q' rest' h' hj6 hq' hla rfl
  refine ⟨[i, i, j, j, i, j] ++ (sa ++ sb), t3.finish q (.ok h), u3.finish q' (.ok h'), h, h', ?_⟩
  have hrun : s.run canon ([i, i, j, j, i, j] ++ (sa ++ sb)) = (s6.run canon sa).run canon sb := by
    rw [run_append, run_append, run_one e1, run_one e2, run_one e3, run_one e4, run_one e5, run_one e6]; rfl
  rw [hrun, hb, ha]
  refine ⟨?_, ?_, ?_, ?_, ?_⟩
  · simp [s6, s5, s4, s3, s2, s1, TagSys.setThread, hji, hli]
  · simp [s6, s5, s4, s3, s2, s1, TagSys.setThread, hlj]
  · simp [TagThread.finish]
  · simp [TagThread.finish]
  · simp [h, h']

/-! ### The listing of deprecated spellings -/

/-- The canonical spelling `c` is not listed as deprecated and no thread is about to do that. -/
structure Unlisted (c : Str) (s : TagSys E) : Prop where
  dep : s.reg.deprecated.get c = none
  pc : ∀ (j : Nat) t rest, s.threads[j]? = some t → t.todo = c :: rest →
    t.pc = .lookupTags ∨ (s.reg.tags.get c = none ∧ (∀ h, t.pc ≠ .insertAlias h ∧ t.pc ≠ .insertDeprecated h))

theorem unlisted_assemble {c : Str} {s : TagSys E} {r : Registry} {l : Option Nat} {i : Nat}
    {t t' : TagThread E} (hi : Unlisted c s) (hti : s.threads[i]? = some t)
    (h1 : r.deprecated.get c = none) (h2 : r.tags.get c = s.reg.tags.get c)
    (h3 : ∀ rest, t'.todo = c :: rest → t'.pc = .lookupTags ∨
      (s.reg.tags.get c = none ∧ (∀ h, t'.pc ≠ .insertAlias h ∧ t'.pc ≠ .insertDeprecated h))) :
    Unlisted c ({ reg := r, tagsLock := l, threads := s.threads.set i t' } : TagSys E) := by
  refine ⟨h1, ?_⟩
  intro j tj rest hj hr
  rcases getElem?_set_cases hj with ⟨rfl, rfl⟩ | ⟨_, hj⟩
  · rw [h2]; exact h3 rest hr
  · rw [h2]; exact hi.pc j tj rest hj hr

theorem unlisted_step (canon : Str → Except E Str) (warm : List Str) (programs : List (List Str)) (c : Str)
    (hcc : canon c = .ok c) (s s' : TagSys E) (i : Nat) (hsys : SysInv canon warm programs s) (hi : Unlisted c s)
    (hone : s.reg.tags.get c = none → ∀ (j k : Nat) p p', programs[j]? = some p → programs[k]? = some p' →
      (∃ q ∈ p, canon q = .ok c) → (∃ q ∈ p', canon q = .ok c) → j = k)
    (hs : s.step canon i = some s') : Unlisted c s' := by
  unfold TagSys.step at hs
  cases hti : s.threads[i]? with
  | none => simp [hti] at hs
  | some t =>
    simp only [hti] at hs
    have hlt := lt_of_getElem? hti
    have prog : ∀ (j : Nat) tj, s.threads[j]? = some tj → ∃ p, programs[j]? = some p ∧ ThreadOk canon p tj := by
      intro j tj hj
      have hl := lt_of_getElem? hj
      rw [hsys.len] at hl
      exact ⟨_, List.getElem?_eq_getElem hl, hsys.threads j tj _ hj (List.getElem?_eq_getElem hl)⟩
    obtain ⟨p, hp, ht⟩ := prog i t hti
    cases hq : t.todo with
    | nil => simp [hq] at hs
    | cons q rest =>
      simp only [hq] at hs
      have hqp : q ∈ p := by rw [← ht.prog, hq]; simp
      have hpcok := fun rest => hi.pc i t rest hti
      cases hpc : t.pc with
      | lookupTags =>
        simp only [hpc] at hs
        split at hs
        · cases hs
        · cases hg : s.reg.tags.get q with
          | some h =>
            simp only [hg, Option.some.injEq] at hs
            subst hs
            exact unlisted_assemble (s := s) (t := t) hi hti hi.dep rfl (fun _ _ => Or.inl rfl)
          | none =>
            simp only [hg, Option.some.injEq] at hs
            subst hs
            refine unlisted_assemble (s := s) (t := t) hi hti hi.dep rfl (fun r e => Or.inr ⟨?_, fun _ => ⟨nofun, nofun⟩⟩)
            simp only [List.cons.injEq] at e
            rw [← e.1]; exact hg
      | lookupDeprecated =>
        simp only [hpc] at hs
        cases hg : s.reg.deprecated.get q with
        | some h =>
          simp only [hg, Option.some.injEq] at hs
          subst hs
          exact unlisted_assemble (s := s) (t := t) hi hti hi.dep rfl (fun _ _ => Or.inl rfl)
        | none =>
          simp only [hg] at hs
          cases hc : canon q with
          | error e =>
            simp only [hc, Option.some.injEq] at hs
            subst hs
            exact unlisted_assemble (s := s) (t := t) hi hti hi.dep rfl (fun _ _ => Or.inl rfl)
          | ok c' =>
            simp only [hc, Option.some.injEq] at hs
            subst hs
            refine unlisted_assemble (s := s) (t := t) hi hti hi.dep rfl (fun r e => Or.inr ⟨?_, fun _ => ⟨nofun, nofun⟩⟩)
            rcases hpcok r (hq.trans e) with h | h
            · rw [hpc] at h; cases h
            · exact h.1
      | lookupCanonical c' =>
        have hcq : canon q = .ok c' := by have := ht.pc q rest hq; rw [hpc] at this; exact this
        simp only [hpc] at hs
        have back : ∀ r, t.todo = c :: r → q = c ∧ c' = c ∧ s.reg.tags.get c = none := by
          intro r e
          have e' := e
          rw [hq] at e'
          obtain ⟨rfl, _⟩ := List.cons.inj e'
          rw [hcc] at hcq; cases hcq
          refine ⟨rfl, rfl, ?_⟩
          rcases hpcok r e with h | h
          · rw [hpc] at h; cases h
          · exact h.1
        split at hs
        · cases hs
        · cases hg : s.reg.tags.get c' with
          | some h =>
            simp only [hg, Option.some.injEq] at hs
            subst hs
            refine unlisted_assemble (s := s) (t := t) hi hti hi.dep rfl (fun r e => ?_)
            obtain ⟨_, rfl, hn⟩ := back r (hq.trans e)
            rw [hg] at hn; cases hn
          | none =>
            simp only [hg] at hs
            split at hs
            · next hne =>
              simp only [Option.some.injEq] at hs
              subst hs
              refine unlisted_assemble (s := s) (t := t) hi hti hi.dep rfl (fun r e => ?_)
              obtain ⟨rfl, rfl, _⟩ := back r (hq.trans e)
              exact absurd rfl hne
            · simp only [Option.some.injEq] at hs
              subst hs
              refine unlisted_assemble (s := s) (t := t) hi hti hi.dep rfl (fun r e => Or.inr ⟨?_, fun _ => ⟨nofun, nofun⟩⟩)
              exact (back r (hq.trans e)).2.2
      | insertAlias h =>
        simp only [hpc, Option.some.injEq] at hs
        subst hs
        have hne : q ≠ c := by
          rintro rfl
          rcases hpcok rest hq with h' | h'
          · rw [hpc] at h'; cases h'
          · exact (h'.2 h).1 hpc
        refine unlisted_assemble (s := s) (t := t) hi hti ?_ rfl (fun _ _ => Or.inl rfl)
        simp only; rw [AMap.get_insert_ne _ _ hne]; exact hi.dep
      | insertDeprecated h =>
        simp only [hpc, Option.some.injEq] at hs
        subst hs
        have hne : q ≠ c := by
          rintro rfl
          rcases hpcok rest hq with h' | h'
          · rw [hpc] at h'; cases h'
          · exact (h'.2 h).2 hpc
        refine unlisted_assemble (s := s) (t := t) hi hti ?_ rfl (fun r e => ?_)
        · simp only; rw [AMap.get_insert_ne _ _ hne]; exact hi.dep
        · simp only [List.cons.injEq] at e
          exact absurd e.1 hne
      | insertTags h =>
        have hcq : canon q = .ok h.text := by have := ht.pc q rest hq; rw [hpc] at this; exact this
        simp only [hpc] at hs
        split at hs
        · cases hs
        · simp only [Option.some.injEq] at hs
          subst hs
          by_cases hc : h.text = c
          · rw [hc] at hcq
            refine ⟨hi.dep, ?_⟩
            intro j tj r hj hr
            rcases getElem?_set_cases hj with ⟨_, rfl⟩ | ⟨hji, hj⟩
            · exact Or.inl rfl
            · rcases hi.pc j tj r hj hr with h' | ⟨hn, _⟩
              · exact Or.inl h'
              · obtain ⟨pj, hpj, htj⟩ := prog j tj hj
                refine absurd (hone hn j i pj p hpj hp ⟨c, ?_, hcc⟩ ⟨q, hqp, hcq⟩) hji
                rw [← htj.prog, hr]; simp
          · refine unlisted_assemble (s := s) (t := t) hi hti hi.dep ?_ (fun _ _ => Or.inl rfl)
            exact AMap.get_insert_ne _ _ hc

/-- Registered tags stay registered. -/
theorem tags_stay (canon : Str → Except E Str) (c : Str) (s s' : TagSys E) (i : Nat) (h : s.reg.tags.get c ≠ none)
    (hs : s.step canon i = some s') : s'.reg.tags.get c ≠ none := by
  unfold TagSys.step at hs
  have ins : ∀ k (v : TagRef), (s.reg.tags.insert k v).get c ≠ none := by
    intro k v
    rw [AMap.get_insert]
    by_cases hk : k = c
    · simp [hk]
    · simpa [hk] using h
  repeat' (first | split at hs | (dsimp only at hs; split at hs))
  all_goals first | (cases hs; done) | (simp only [Option.some.injEq] at hs; subst hs)
  all_goals first | exact h | exact ins _ _

theorem unlisted_run (canon : Str → Except E Str) (hid : Idem canon) (warm : List Str) (programs : List (List Str))
    (c : Str) (hcc : canon c = .ok c) (schedule : List Nat) : ∀ s : TagSys E, SysInv canon warm programs s →
    Unlisted c s → (s.reg.tags.get c = none → ∀ (j k : Nat) p p', programs[j]? = some p → programs[k]? = some p' →
      (∃ q ∈ p, canon q = .ok c) → (∃ q ∈ p', canon q = .ok c) → j = k) → Unlisted c (s.run canon schedule) := by
  induction schedule with
  | nil => intro s _ h _; exact h
  | cons i rest ih =>
    intro s hsys h hone
    simp only [TagSys.run, List.foldl_cons]
    cases hs : s.step canon i with
    | none => exact ih s hsys h hone
    | some s' =>
      refine ih s' (step_inv canon hid warm programs s s' i hsys hs)
        (unlisted_step canon warm programs c hcc s s' i hsys h hone hs) (fun hn => hone ?_)
      cases hg : s.reg.tags.get c with
      | none => rfl
      | some x => exact absurd hn (tags_stay canon c s s' i (by rw [hg]; nofun) hs)

end Verif.RegistrySyncLemmas
