import Verif.Model.RegistrySync
import Verif.Lemmas.Registry
/-
Helper lemmas for the concurrent language tag registry.
-/
namespace Verif.RegistrySyncLemmas
open Verif Verif.RegistryLemmas
variable {E : Type}

/-- Is `a` the right answer for request `q` (by value)? -/
def Answer (canon : Str → Except E Str) (q : Str) (a : Except E TagRef) : Prop :=
  match canon q with
  | .error e => a = .error e
  | .ok c => ∃ h, a = .ok h ∧ h.text = c

/-- Local knowledge of a thread. -/
def PcOk (canon : Str → Except E Str) (q : Str) : TagPc → Prop
  | .lookupTags => True
  | .lookupDeprecated => True
  | .lookupCanonical c => canon q = .ok c
  | .insertAlias h => canon q = .ok h.text
  | .insertDeprecated h => canon q = .ok h.text
  | .insertTags h => canon q = .ok h.text

structure ThreadOk (canon : Str → Except E Str) (p : List Str) (t : TagThread E) : Prop where
  prog : t.done.map Prod.fst ++ t.todo = p
  answers : ∀ q a, (q, a) ∈ t.done → Answer canon q a
  pc : ∀ q rest, t.todo = q :: rest → PcOk canon q t.pc
  idle : t.todo = [] → t.pc = .lookupTags

structure RegOk (canon : Str → Except E Str) (all : List Str) (r : Registry) : Prop where
  nodup : r.tags.keys.Nodup
  tags : ∀ k h, r.tags.get k = some h → h.text = k ∧ canon k = .ok k ∧ ∃ q ∈ all, canon q = .ok k
  dep : ∀ k h, r.deprecated.get k = some h → canon k = .ok h.text ∧ k ∈ all

def LockOk (s : TagSys E) : Prop :=
  ∀ i, s.tagsLock = some i → ∃ t q rest h, s.threads[i]? = some t ∧ t.todo = q :: rest ∧ t.pc = .insertAlias h

/-- A canonical text is registered, or some thread is about to register it. -/
def Covered (s : TagSys E) (c : Str) : Prop :=
  c ∈ s.reg.tags.keys ∨ ∃ (j : Nat) (t : TagThread E) (q : Str) (rest : List Str) (h : TagRef), s.threads[j]? = some t ∧
    t.todo = q :: rest ∧ t.pc = .insertTags h ∧ h.text = c

structure CoverOk (s : TagSys E) : Prop where
  dep : ∀ k h, s.reg.deprecated.get k = some h → Covered s h.text
  done : ∀ (i : Nat) t q h, s.threads[i]? = some t → (q, Except.ok h) ∈ t.done → Covered s h.text
  aliased : ∀ (i : Nat) t h, s.threads[i]? = some t → t.pc = .insertAlias h → Covered s h.text

structure SysInv (canon : Str → Except E Str) (warm : List Str) (programs : List (List Str)) (s : TagSys E) :
    Prop where
  len : s.threads.length = programs.length
  threads : ∀ (i : Nat) t p, s.threads[i]? = some t → programs[i]? = some p → ThreadOk canon p t
  reg : RegOk canon (warm ++ programs.flatten) s.reg
  lock : LockOk s
  cover : CoverOk s

theorem start_inv (canon : Str → Except E Str) (hid : Idem canon) (warm : List Str) (reg : Registry)
    (hreg : Inv canon warm reg) (programs : List (List Str)) :
    SysInv canon warm programs (TagSys.start reg programs) := by
  constructor
  · simp [TagSys.start]
  · intro i t p ht hp
    simp [TagSys.start] at ht
    obtain ⟨a, ha, rfl⟩ := ht
    rw [hp] at ha; cases ha
    constructor <;> simp [PcOk]
  · refine ⟨hreg.tagsNodup, ?_, ?_⟩
    · intro k h hk
      obtain ⟨q, hq, hc⟩ := (hreg.tagsKeys k).1 ((AMap.mem_keys_iff _ _).2 ⟨h, hk⟩)
      exact ⟨(hreg.tagsText k h hk).1, hid _ _ hc, q, by simp [hq], hc⟩
    · intro k h hk
      have h1 := (hreg.depKeys k).1 ((AMap.mem_keys_iff _ _).2 ⟨h, hk⟩)
      exact ⟨(hreg.depVal k h hk).1, by simp [h1.1]⟩
  · intro i h; simp [TagSys.start] at h
  · constructor
    · intro k h hk
      left
      exact (AMap.mem_keys_iff _ _).2 ⟨h, (hreg.depVal k h hk).2⟩
    · intro i t q h ht hq
      simp [TagSys.start] at ht
      obtain ⟨a, _, rfl⟩ := ht
      simp at hq
    · intro i t h ht hp
      simp [TagSys.start] at ht
      obtain ⟨a, _, rfl⟩ := ht
      simp at hp

theorem finish_ok {canon : Str → Except E Str} {p : List Str} {t : TagThread E} {q : Str} {rest : List Str}
    {a : Except E TagRef} (h : ThreadOk canon p t) (hq : t.todo = q :: rest) (ha : Answer canon q a) :
    ThreadOk canon p (t.finish q a) := by
  constructor
  · simp [TagThread.finish, hq, ← h.prog]
  · intro q' a' hm
    simp only [TagThread.finish, List.mem_append, List.mem_singleton] at hm
    rcases hm with hm | hm
    · exact h.answers _ _ hm
    · cases hm; exact ha
  · intro q' rest' _
    simp [TagThread.finish, PcOk]
  · intro _; rfl

theorem pc_ok {canon : Str → Except E Str} {p : List Str} {t : TagThread E} {q : Str} {rest : List Str}
    {pc : TagPc} (h : ThreadOk canon p t) (hq : t.todo = q :: rest) (hp : PcOk canon q pc) :
    ThreadOk canon p { todo := q :: rest, pc := pc, done := t.done } := by
  constructor
  · rw [← h.prog, hq]
  · exact h.answers
  · intro q' rest' e
    cases e; exact hp
  · intro e; cases e

theorem getElem?_set_cases {α : Type} {l : List α} {i j : Nat} {x y : α} (h : (l.set i x)[j]? = some y) :
    (j = i ∧ y = x) ∨ (j ≠ i ∧ l[j]? = some y) := by
  by_cases hij : i = j
  · subst hij
    rw [List.getElem?_set_self'] at h
    cases hl : l[i]? with
    | none => simp [hl] at h
    | some z => simp [hl] at h; exact Or.inl ⟨rfl, h.symm⟩
  · rw [List.getElem?_set_ne hij] at h
    exact Or.inr ⟨fun e => hij e.symm, h⟩

/-- Replacing thread `i` (not about to register a tag) in a system whose registered tags only grow keeps
coverage. -/
theorem covered_mono {s : TagSys E} {r : Registry} {l : Option Nat} {i : Nat} {t t' : TagThread E} {c : Str}
    (hi : s.threads[i]? = some t)
    (hr : ∀ k, k ∈ s.reg.tags.keys → k ∈ r.tags.keys)
    (ht : ∀ q rest h, t.todo = q :: rest → t.pc = .insertTags h → h.text ∈ r.tags.keys ∨
      (t'.todo = q :: rest ∧ t'.pc = .insertTags h))
    (h : Covered s c) :
    Covered ({ reg := r, tagsLock := l, threads := s.threads.set i t' } : TagSys E) c := by
  have hlt : i < s.threads.length := by
    rcases Nat.lt_or_ge i s.threads.length with h' | h'
    · exact h'
    · rw [List.getElem?_eq_none h'] at hi; cases hi
  rcases h with h | ⟨j, tj, q, rest, hh, hj, hq, hp, htx⟩
  · exact Or.inl (hr _ h)
  · by_cases hij : i = j
    · subst hij
      rw [hi] at hj; cases hj
      rcases ht q rest hh hq hp with h | ⟨h1, h2⟩
      · exact Or.inl (by rw [← htx]; exact h)
      · exact Or.inr ⟨i, t', q, rest, hh, by simp [hlt], h1, h2, htx⟩
    · exact Or.inr ⟨j, tj, q, rest, hh, by simp [List.getElem?_set_ne hij, hj], hq, hp, htx⟩

theorem lock_other {s : TagSys E} {r : Registry} {i : Nat} {t t' : TagThread E}
    (hl : LockOk s) (hi : s.threads[i]? = some t) (hp : ∀ h, t.pc ≠ .insertAlias h) :
    LockOk ({ reg := r, tagsLock := s.tagsLock, threads := s.threads.set i t' } : TagSys E) := by
  intro j hj
  obtain ⟨tj, q, rest, h, h1, h2, h3⟩ := hl j hj
  have hij : i ≠ j := by
    rintro rfl
    rw [hi] at h1; cases h1; exact hp h h3
  exact ⟨tj, q, rest, h, by simp [List.getElem?_set_ne hij, h1], h2, h3⟩

/-- Assembling the invariant after a step of thread `i`. -/
theorem assemble {canon : Str → Except E Str} {warm : List Str} {programs : List (List Str)} {s : TagSys E} {r : Registry}
    {l : Option Nat} {i : Nat} {t t' : TagThread E}
    (hi : SysInv canon warm programs s) (hti : s.threads[i]? = some t)
    (hth : ∀ p, programs[i]? = some p → ThreadOk canon p t')
    (hreg : RegOk canon (warm ++ programs.flatten) r)
    (hlock : LockOk ({ reg := r, tagsLock := l, threads := s.threads.set i t' } : TagSys E))
    (htags : ∀ k, k ∈ s.reg.tags.keys → k ∈ r.tags.keys)
    (hmove : ∀ q rest h, t.todo = q :: rest → t.pc = .insertTags h → h.text ∈ r.tags.keys ∨
      (t'.todo = q :: rest ∧ t'.pc = .insertTags h))
    (hdep : ∀ k h, r.deprecated.get k = some h → s.reg.deprecated.get k = some h ∨
      Covered ({ reg := r, tagsLock := l, threads := s.threads.set i t' } : TagSys E) h.text)
    (hdone : ∀ q h, (q, Except.ok h) ∈ t'.done → (q, Except.ok h) ∈ t.done ∨
      Covered ({ reg := r, tagsLock := l, threads := s.threads.set i t' } : TagSys E) h.text)
    (halias : ∀ h, t'.pc = .insertAlias h →
      Covered ({ reg := r, tagsLock := l, threads := s.threads.set i t' } : TagSys E) h.text) :
    SysInv canon warm programs ({ reg := r, tagsLock := l, threads := s.threads.set i t' } : TagSys E) := by
  have mono : ∀ c, Covered s c →
      Covered ({ reg := r, tagsLock := l, threads := s.threads.set i t' } : TagSys E) c :=
    fun c hc => covered_mono hti htags hmove hc
  constructor
  · simpa using hi.len
  · intro j tj p hj hp
    rcases getElem?_set_cases hj with ⟨rfl, rfl⟩ | ⟨_, hj⟩
    · exact hth p hp
    · exact hi.threads j tj p hj hp
  · exact hreg
  · exact hlock
  · constructor
    · intro k h hk
      rcases hdep k h hk with hk | hk
      · exact mono _ (hi.cover.dep k h hk)
      · exact hk
    · intro j tj q h hj hq
      rcases getElem?_set_cases hj with ⟨rfl, rfl⟩ | ⟨_, hj⟩
      · rcases hdone q h hq with hq | hq
        · exact mono _ (hi.cover.done _ t q h hti hq)
        · exact hq
      · exact mono _ (hi.cover.done j tj q h hj hq)
    · intro j tj h hj hp
      rcases getElem?_set_cases hj with ⟨rfl, rfl⟩ | ⟨_, hj⟩
      · exact halias h hp
      · exact mono _ (hi.cover.aliased j tj h hj hp)

theorem step_inv (canon : Str → Except E Str) (hid : Idem canon) (warm : List Str) (programs : List (List Str)) (s s' : TagSys E)
    (i : Nat) (hi : SysInv canon warm programs s) (hs : s.step canon i = some s') : SysInv canon warm programs s' := by
  unfold TagSys.step at hs
  cases hti : s.threads[i]? with
  | none => simp [hti] at hs
  | some t =>
    simp only [hti] at hs
    have hlt : i < s.threads.length := by
      rcases Nat.lt_or_ge i s.threads.length with h' | h'
      · exact h'
      · rw [List.getElem?_eq_none h'] at hti; cases hti
    obtain ⟨p, hp⟩ : ∃ p, programs[i]? = some p :=
      ⟨programs[i]'(by rw [← hi.len]; exact hlt), List.getElem?_eq_getElem _⟩
    have ht : ThreadOk canon p t := hi.threads i t p hti hp
    have hpm : ∀ p', programs[i]? = some p' → p' = p := by intro p' h; rw [hp] at h; cases h; rfl
    cases hq : t.todo with
    | nil => simp [hq] at hs
    | cons q rest =>
      simp only [hq] at hs
      have hqall : q ∈ warm ++ programs.flatten := by
        rw [List.mem_append, List.mem_flatten]
        refine Or.inr ⟨p, List.mem_of_getElem? hp, ?_⟩
        rw [← ht.prog, hq]; simp
      cases hpc : t.pc with
      | lookupTags =>
        simp only [hpc] at hs
        split at hs
        · cases hs
        · cases hg : s.reg.tags.get q with
          | some h =>
            simp only [hg, Option.some.injEq] at hs
            subst hs
            have hh := hi.reg.tags _ _ hg
            refine assemble (s := s) (t := t) hi hti ?_ hi.reg ?_ (fun _ h => h) ?_ (fun _ _ h => Or.inl h) ?_ ?_
            · intro p' hp'; rw [hpm p' hp']
              exact finish_ok ht hq (by simp [Answer, hh.2.1, hh.1])
            · exact lock_other hi.lock hti (by simp [hpc])
            · intro q' r' h' _ hp'; rw [hpc] at hp'; cases hp'
            · intro q' h' hm
              simp only [TagThread.finish, List.mem_append, List.mem_singleton, Prod.mk.injEq,
                Except.ok.injEq] at hm
              rcases hm with hm | ⟨_, rfl⟩
              · exact Or.inl hm
              · right; left
                rw [hh.1]; exact (AMap.mem_keys_iff _ _).2 ⟨_, hg⟩
            · intro h' hp'; cases hp'
          | none =>
            simp only [hg, Option.some.injEq] at hs
            subst hs
            refine assemble (s := s) (t := t) hi hti ?_ hi.reg ?_ (fun _ h => h) ?_ (fun _ _ h => Or.inl h) (fun _ _ h => Or.inl h) ?_
            · intro p' hp'; rw [hpm p' hp']; exact pc_ok ht hq trivial
            · exact lock_other hi.lock hti (by simp [hpc])
            · intro q' r' h' _ hp'; rw [hpc] at hp'; cases hp'
            · intro h' hp'; cases hp'
      | lookupDeprecated =>
        simp only [hpc] at hs
        cases hg : s.reg.deprecated.get q with
        | some h =>
          simp only [hg, Option.some.injEq] at hs
          subst hs
          have hh := hi.reg.dep _ _ hg
          refine assemble (s := s) (t := t) hi hti ?_ hi.reg ?_ (fun _ h => h) ?_ (fun _ _ h => Or.inl h) ?_ ?_
          · intro p' hp'; rw [hpm p' hp']
            exact finish_ok ht hq (by simp [Answer, hh.1])
          · exact lock_other hi.lock hti (by simp [hpc])
          · intro q' r' h' _ hp'; rw [hpc] at hp'; cases hp'
          · intro q' h' hm
            simp only [TagThread.finish, List.mem_append, List.mem_singleton, Prod.mk.injEq,
              Except.ok.injEq] at hm
            rcases hm with hm | ⟨_, rfl⟩
            · exact Or.inl hm
            · right
              refine covered_mono hti (fun _ h => h) ?_ (hi.cover.dep _ _ hg)
              intro q' r' h' _ hp'; rw [hpc] at hp'; cases hp'
          · intro h' hp'; cases hp'
        | none =>
          simp only [hg] at hs
          cases hc : canon q with
          | error e =>
            simp only [hc, Option.some.injEq] at hs
            subst hs
            refine assemble (s := s) (t := t) hi hti ?_ hi.reg ?_ (fun _ h => h) ?_ (fun _ _ h => Or.inl h) ?_ ?_
            · intro p' hp'; rw [hpm p' hp']
              exact finish_ok ht hq (by simp [Answer, hc])
            · exact lock_other hi.lock hti (by simp [hpc])
            · intro q' r' h' _ hp'; rw [hpc] at hp'; cases hp'
            · intro q' h' hm
              simp only [TagThread.finish, List.mem_append, List.mem_singleton, Prod.mk.injEq,
                reduceCtorEq, and_false, or_false] at hm
              exact Or.inl hm
            · intro h' hp'; cases hp'
          | ok c =>
            simp only [hc, Option.some.injEq] at hs
            subst hs
            refine assemble (s := s) (t := t) hi hti ?_ hi.reg ?_ (fun _ h => h) ?_ (fun _ _ h => Or.inl h) (fun _ _ h => Or.inl h) ?_
            · intro p' hp'; rw [hpm p' hp']; exact pc_ok ht hq hc
            · exact lock_other hi.lock hti (by simp [hpc])
            · intro q' r' h' _ hp'; rw [hpc] at hp'; cases hp'
            · intro h' hp'; cases hp'
      | lookupCanonical c =>
        simp only [hpc] at hs
        have hcq : canon q = .ok c := by have := ht.pc q rest hq; rw [hpc] at this; exact this
        split at hs
        · cases hs
        · next hl =>
          cases hg : s.reg.tags.get c with
          | some h =>
            simp only [hg, Option.some.injEq] at hs
            subst hs
            have hh := hi.reg.tags _ _ hg
            refine assemble (s := s) (t := t) hi hti ?_ hi.reg ?_ (fun _ h => h) ?_ (fun _ _ h => Or.inl h) (fun _ _ h => Or.inl h) ?_
            · intro p' hp'; rw [hpm p' hp']; exact pc_ok ht hq (by simp [PcOk, hcq, hh.1])
            · intro j hj
              simp only [Option.some.injEq] at hj
              subst hj
              exact ⟨_, q, rest, h, by simp only [List.getElem?_set_self hlt]; rfl, rfl, rfl⟩
            · intro q' r' h' _ hp'; rw [hpc] at hp'; cases hp'
            · intro h' hp'
              simp only [TagPc.insertAlias.injEq] at hp'
              subst hp'
              left; rw [hh.1]; exact (AMap.mem_keys_iff _ _).2 ⟨_, hg⟩
          | none =>
            simp only [hg] at hs
            have hreg' : RegOk canon (warm ++ programs.flatten) { s.reg with nextAddr := s.reg.nextAddr + 1 } :=
              ⟨hi.reg.nodup, hi.reg.tags, hi.reg.dep⟩
            split at hs
            · simp only [Option.some.injEq] at hs
              subst hs
              refine assemble (s := s) (t := t) hi hti ?_ hreg' ?_ (fun _ h => h) ?_ (fun _ _ h => Or.inl h)
                (fun _ _ h => Or.inl h) ?_
              · intro p' hp'; rw [hpm p' hp']; exact pc_ok ht hq hcq
              · exact lock_other hi.lock hti (by simp [hpc])
              · intro q' r' h' _ hp'; rw [hpc] at hp'; cases hp'
              · intro h' hp'; cases hp'
            · simp only [Option.some.injEq] at hs
              subst hs
              refine assemble (s := s) (t := t) hi hti ?_ hreg' ?_ (fun _ h => h) ?_ (fun _ _ h => Or.inl h)
                (fun _ _ h => Or.inl h) ?_
              · intro p' hp'; rw [hpm p' hp']; exact pc_ok ht hq hcq
              · exact lock_other hi.lock hti (by simp [hpc])
              · intro q' r' h' _ hp'; rw [hpc] at hp'; cases hp'
              · intro h' hp'; cases hp'
      | insertAlias h =>
        simp only [hpc, Option.some.injEq] at hs
        subst hs
        have hcq : canon q = .ok h.text := by have := ht.pc q rest hq; rw [hpc] at this; exact this
        have hcov : ∀ l t', Covered (TagSys.mk { s.reg with deprecated := s.reg.deprecated.insert q h } l
            (s.threads.set i t')) h.text := by
          intro l t'
          refine covered_mono hti (fun _ h => h) ?_ (hi.cover.aliased i t h hti hpc)
          intro q' r' h' _ hp'; rw [hpc] at hp'; cases hp'
        refine assemble (s := s) (t := t) hi hti ?_ ?_ ?_ (fun _ h => h) ?_ ?_ ?_ ?_
        · intro p' hp'; rw [hpm p' hp']
          exact finish_ok ht hq (by simp [Answer, hcq])
        · refine ⟨hi.reg.nodup, hi.reg.tags, ?_⟩
          intro k h' hk
          simp only [AMap.get_insert] at hk
          by_cases hqk : q = k
          · simp [hqk] at hk; subst hk; rw [← hqk]; exact ⟨hcq, hqall⟩
          · simp [hqk] at hk; exact hi.reg.dep _ _ hk
        · intro j hj; cases hj
        · intro q' r' h' _ hp'; rw [hpc] at hp'; cases hp'
        · intro k h' hk
          simp only [AMap.get_insert] at hk
          by_cases hqk : q = k
          · simp [hqk] at hk; subst hk; exact Or.inr (hcov _ _)
          · simp [hqk] at hk; exact Or.inl hk
        · intro q' h' hm
          simp only [TagThread.finish, List.mem_append, List.mem_singleton, Prod.mk.injEq,
            Except.ok.injEq] at hm
          rcases hm with hm | ⟨_, rfl⟩
          · exact Or.inl hm
          · exact Or.inr (hcov _ _)
        · intro h' hp'; cases hp'
      | insertDeprecated h =>
        simp only [hpc, Option.some.injEq] at hs
        subst hs
        have hcq : canon q = .ok h.text := by have := ht.pc q rest hq; rw [hpc] at this; exact this
        refine assemble (s := s) (t := t) hi hti ?_ ?_ ?_ (fun _ h => h) ?_ ?_ (fun _ _ h => Or.inl h) ?_
        · intro p' hp'; rw [hpm p' hp']
          exact pc_ok ht hq hcq
        · refine ⟨hi.reg.nodup, hi.reg.tags, ?_⟩
          intro k h' hk
          simp only [AMap.get_insert] at hk
          by_cases hqk : q = k
          · simp [hqk] at hk; subst hk; rw [← hqk]; exact ⟨hcq, hqall⟩
          · simp [hqk] at hk; exact hi.reg.dep _ _ hk
        · exact lock_other hi.lock hti (by simp [hpc])
        · intro q' r' h' _ hp'; rw [hpc] at hp'; cases hp'
        · intro k h' hk
          simp only [AMap.get_insert] at hk
          by_cases hqk : q = k
          · simp [hqk] at hk; subst hk
            exact Or.inr (Or.inr ⟨i, _, q, rest, h, by simp only [List.getElem?_set_self hlt]; rfl, rfl, rfl, rfl⟩)
          · simp [hqk] at hk; exact Or.inl hk
        · intro h' hp'; cases hp'
      | insertTags h =>
        simp only [hpc] at hs
        have hcq : canon q = .ok h.text := by have := ht.pc q rest hq; rw [hpc] at this; exact this
        split at hs
        · cases hs
        · simp only [Option.some.injEq] at hs
          subst hs
          have hkey : h.text ∈ (s.reg.tags.insert h.text h).keys := by
            rw [AMap.mem_keys_insert]; exact Or.inl rfl
          refine assemble (s := s) (t := t) hi hti ?_ ?_ ?_ ?_ ?_ (fun _ _ h => Or.inl h) ?_ ?_
          · intro p' hp'; rw [hpm p' hp']
            exact finish_ok ht hq (by simp [Answer, hcq])
          · refine ⟨AMap.nodup_insert _ _ hi.reg.nodup, ?_, hi.reg.dep⟩
            intro k h' hk
            simp only [AMap.get_insert] at hk
            by_cases hqk : h.text = k
            · simp [hqk] at hk; subst hk; subst hqk
              exact ⟨rfl, hid _ _ hcq, q, hqall, hcq⟩
            · simp [hqk] at hk; exact hi.reg.tags _ _ hk
          · exact lock_other hi.lock hti (by simp [hpc])
          · intro k hk; rw [AMap.mem_keys_insert]; exact Or.inr hk
          · intro q' r' h' _ hp'; rw [hpc] at hp'; cases hp'; exact Or.inl hkey
          · intro q' h' hm
            simp only [TagThread.finish, List.mem_append, List.mem_singleton, Prod.mk.injEq,
              Except.ok.injEq] at hm
            rcases hm with hm | ⟨_, rfl⟩
            · exact Or.inl hm
            · exact Or.inr (Or.inl hkey)
          · intro h' hp'; cases hp'

theorem run_inv (canon : Str → Except E Str) (hid : Idem canon) (warm : List Str) (programs : List (List Str)) (schedule : List Nat) :
    ∀ s : TagSys E, SysInv canon warm programs s → SysInv canon warm programs (s.run canon schedule) := by
  induction schedule with
  | nil => intro s h; exact h
  | cons i rest ih =>
    intro s h
    simp only [TagSys.run, List.foldl_cons]
    apply ih
    cases hs : s.step canon i with
    | none => simpa using h
    | some s' => simpa using step_inv canon hid warm programs s s' i h hs

/-- In an invariant state with an unfinished call some thread can step. -/
theorem progress (canon : Str → Except E Str) (warm : List Str) (programs : List (List Str)) (s : TagSys E)
    (hi : SysInv canon warm programs s) (i : Nat) (t : TagThread E) (hti : s.threads[i]? = some t) (hne : t.todo ≠ []) :
    ∃ j, (s.step canon j).isSome := by
  have stepAlias : ∀ (j : Nat) tj q rest h, s.threads[j]? = some tj → tj.todo = q :: rest → tj.pc = .insertAlias h →
      (s.step canon j).isSome := by
    intro j tj q rest h h1 h2 h3
    simp [TagSys.step, h1, h2, h3]
  cases hl : s.tagsLock with
  | some j =>
    obtain ⟨tj, q, rest, h, h1, h2, h3⟩ := hi.lock j hl
    exact ⟨j, stepAlias j tj q rest h h1 h2 h3⟩
  | none =>
    refine ⟨i, ?_⟩
    cases hq : t.todo with
    | nil => exact absurd hq hne
    | cons q rest =>
      simp only [TagSys.step, hti, hq, hl]
      cases hpc : t.pc with
      | lookupTags => cases hg : s.reg.tags.get q <;> simp [hg]
      | lookupDeprecated =>
        cases hg : s.reg.deprecated.get q with
        | some h => simp [hg]
        | none => cases hc : canon q <;> simp [hg, hc]
      | lookupCanonical c =>
        cases hg : s.reg.tags.get c with
        | some h => simp [hg]
        | none => by_cases hqc : q = c <;> simp [hg, hqc]
      | insertAlias h => simp
      | insertDeprecated h => simp
      | insertTags h => simp

/-! Identity of a tag registered before the threads start -/

structure PreInv (c : Str) (h0 : TagRef) (s : TagSys E) : Prop where
  tag : s.reg.tags.get c = some h0
  text : ∀ k h, s.reg.tags.get k = some h → h.text = k
  dep : ∀ k h, s.reg.deprecated.get k = some h → h.text = c → h = h0
  done : ∀ (i : Nat) t q h, s.threads[i]? = some t → (q, Except.ok h) ∈ t.done → h.text = c → h = h0
  pc : ∀ (i : Nat) t, s.threads[i]? = some t →
    match t.pc with
    | .insertAlias h => h.text = c → h = h0
    | .insertDeprecated h => h.text ≠ c
    | .insertTags h => h.text ≠ c
    | _ => True

theorem pre_assemble {c : Str} {h0 : TagRef} {s : TagSys E} {r : Registry} {l : Option Nat} {i : Nat}
    {t t' : TagThread E} (hi : PreInv c h0 s) (hti : s.threads[i]? = some t)
    (h1 : r.tags.get c = some h0) (h2 : ∀ k h, r.tags.get k = some h → h.text = k)
    (h3 : ∀ k h, r.deprecated.get k = some h → h.text = c → h = h0)
    (h4 : ∀ q h, (q, Except.ok h) ∈ t'.done → (q, Except.ok h) ∈ t.done ∨ (h.text = c → h = h0))
    (h5 : match t'.pc with
      | .insertAlias h => h.text = c → h = h0
      | .insertDeprecated h => h.text ≠ c
      | .insertTags h => h.text ≠ c
      | _ => True) :
    PreInv c h0 ({ reg := r, tagsLock := l, threads := s.threads.set i t' } : TagSys E) := by
  constructor
  · exact h1
  · exact h2
  · exact h3
  · intro j tj q h hj hq
    rcases getElem?_set_cases hj with ⟨rfl, rfl⟩ | ⟨_, hj⟩
    · rcases h4 q h hq with hq | hq
      · exact hi.done _ t q h hti hq
      · exact hq
    · exact hi.done j tj q h hj hq
  · intro j tj hj
    rcases getElem?_set_cases hj with ⟨rfl, rfl⟩ | ⟨_, hj⟩
    · exact h5
    · exact hi.pc j tj hj

theorem pre_step (canon : Str → Except E Str) (c : Str) (h0 : TagRef) (s s' : TagSys E) (i : Nat)
    (hi : PreInv c h0 s) (hs : s.step canon i = some s') : PreInv c h0 s' := by
  unfold TagSys.step at hs
  have fin : ∀ (t : TagThread E) q a h', (∀ h, a = Except.ok h → h.text = c → h = h0) →
      ∀ q', (q', Except.ok h') ∈ (t.finish q a).done → (q', Except.ok h') ∈ t.done ∨ (h'.text = c → h' = h0) := by
    intro t q a h' ha q' hm
    simp only [TagThread.finish, List.mem_append, List.mem_singleton, Prod.mk.injEq] at hm
    rcases hm with hm | ⟨_, hm⟩
    · exact Or.inl hm
    · exact Or.inr (ha h' hm.symm)
  cases hti : s.threads[i]? with
  | none => simp [hti] at hs
  | some t =>
    simp only [hti] at hs
    cases hq : t.todo with
    | nil => simp [hq] at hs
    | cons q rest =>
      simp only [hq] at hs
      have hpcok := hi.pc i t hti
      have htagq : ∀ k h, s.reg.tags.get k = some h → h.text = c → h = h0 := by
        intro k h hk htx
        rw [hi.text k h hk] at htx
        subst htx
        have := hi.tag; rw [hk] at this; cases this; rfl
      cases hpc : t.pc with
      | lookupTags =>
        simp only [hpc] at hs
        split at hs
        · cases hs
        · cases hg : s.reg.tags.get q with
          | some h =>
            simp only [hg, Option.some.injEq] at hs
            subst hs
            refine pre_assemble (s := s) (t := t) hi hti hi.tag hi.text hi.dep ?_ trivial
            exact fun q' h' hm => fin t q _ h' (fun h e => by cases e; exact htagq _ _ hg) q' hm
          | none =>
            simp only [hg, Option.some.injEq] at hs
            subst hs
            exact pre_assemble (s := s) (t := t) hi hti hi.tag hi.text hi.dep (fun _ _ h => Or.inl h) trivial
      | lookupDeprecated =>
        simp only [hpc] at hs
        cases hg : s.reg.deprecated.get q with
        | some h =>
          simp only [hg, Option.some.injEq] at hs
          subst hs
          refine pre_assemble (s := s) (t := t) hi hti hi.tag hi.text hi.dep ?_ trivial
          exact fun q' h' hm => fin t q _ h' (fun h e => by cases e; exact hi.dep _ _ hg) q' hm
        | none =>
          simp only [hg] at hs
          cases hc : canon q with
          | error e =>
            simp only [hc, Option.some.injEq] at hs
            subst hs
            refine pre_assemble (s := s) (t := t) hi hti hi.tag hi.text hi.dep ?_ trivial
            exact fun q' h' hm => fin t q _ h' (fun h e => by cases e) q' hm
          | ok c' =>
            simp only [hc, Option.some.injEq] at hs
            subst hs
            exact pre_assemble (s := s) (t := t) hi hti hi.tag hi.text hi.dep (fun _ _ h => Or.inl h) trivial
      | lookupCanonical c' =>
        simp only [hpc] at hs
        split at hs
        · cases hs
        · cases hg : s.reg.tags.get c' with
          | some h =>
            simp only [hg, Option.some.injEq] at hs
            subst hs
            exact pre_assemble (s := s) (t := t) hi hti hi.tag hi.text hi.dep (fun _ _ h => Or.inl h)
              (htagq _ _ hg)
          | none =>
            simp only [hg] at hs
            have hne : c' ≠ c := by
              rintro rfl; rw [hi.tag] at hg; cases hg
            split at hs
            · simp only [Option.some.injEq] at hs
              subst hs
              exact pre_assemble (s := s) (t := t) hi hti hi.tag hi.text hi.dep (fun _ _ h => Or.inl h) hne
            · simp only [Option.some.injEq] at hs
              subst hs
              exact pre_assemble (s := s) (t := t) hi hti hi.tag hi.text hi.dep (fun _ _ h => Or.inl h) hne
      | insertAlias h =>
        simp only [hpc, Option.some.injEq] at hs hpcok
        subst hs
        refine pre_assemble (s := s) (t := t) hi hti hi.tag hi.text ?_ ?_ trivial
        · intro k h' hk
          simp only [AMap.get_insert] at hk
          by_cases hqk : q = k
          · simp [hqk] at hk; subst hk; exact hpcok
          · simp [hqk] at hk; exact hi.dep _ _ hk
        · exact fun q' h' hm => fin t q _ h' (fun h e => by cases e; exact hpcok) q' hm
      | insertDeprecated h =>
        simp only [hpc, Option.some.injEq] at hs hpcok
        subst hs
        refine pre_assemble (s := s) (t := t) hi hti hi.tag hi.text ?_ (fun _ _ h => Or.inl h) hpcok
        intro k h' hk
        simp only [AMap.get_insert] at hk
        by_cases hqk : q = k
        · simp [hqk] at hk; subst hk; exact fun e => absurd e hpcok
        · simp [hqk] at hk; exact hi.dep _ _ hk
      | insertTags h =>
        simp only [hpc] at hs hpcok
        split at hs
        · cases hs
        · simp only [Option.some.injEq] at hs
          subst hs
          refine pre_assemble (s := s) (t := t) hi hti ?_ ?_ hi.dep ?_ trivial
          · simp only; rw [AMap.get_insert_ne _ _ hpcok]; exact hi.tag
          · intro k h' hk
            simp only [AMap.get_insert] at hk
            by_cases hqk : h.text = k
            · simp [hqk] at hk; subst hk; exact hqk
            · simp [hqk] at hk; exact hi.text _ _ hk
          · exact fun q' h' hm => fin t q _ h' (fun h e => by cases e; exact fun e => absurd e hpcok) q' hm

theorem pre_run (canon : Str → Except E Str) (c : Str) (h0 : TagRef) (schedule : List Nat) :
    ∀ s : TagSys E, PreInv c h0 s → PreInv c h0 (s.run canon schedule) := by
  induction schedule with
  | nil => intro s h; exact h
  | cons i rest ih =>
    intro s h
    simp only [TagSys.run, List.foldl_cons]
    apply ih
    cases hs : s.step canon i with
    | none => simpa using h
    | some s' => simpa using pre_step canon c h0 s s' i h hs

theorem pre_start (canon : Str → Except E Str) (warm : List Str) (reg : Registry)
    (hreg : Inv canon warm reg) (programs : List (List Str)) (c : Str) (h0 : TagRef) (hc : reg.tags.get c = some h0) :
    PreInv c h0 (TagSys.start (E := E) reg programs) := by
  constructor
  · exact hc
  · exact fun k h hk => (hreg.tagsText k h hk).1
  · intro k h hk e
    have := (hreg.depVal k h hk).2
    rw [e, hc] at this; cases this; rfl
  · intro i t q h ht hq
    simp [TagSys.start] at ht
    obtain ⟨a, _, rfl⟩ := ht
    simp at hq
  · intro i t ht
    simp [TagSys.start] at ht
    obtain ⟨a, _, rfl⟩ := ht
    trivial

end Verif.RegistrySyncLemmas
