import Verif.Model.IcuSync
import Verif.Lemmas.InterleaveState
import Verif.Lemmas.Registry
/-
Helper lemmas for the shared cache of ICU language identifiers.
-/
namespace Verif.IcuSyncLemmas
open Verif

variable {L : Type}

/-- Every entry refers to an object that was made of the text of the entry, and objects have what parsing gives. -/
structure IcuSharedOk (parse : Str → Option L) (m : IcuShared L) : Prop where
  entries : ∀ k a, m.entries.get k = some a → ∃ l, m.heap[a]? = some (k, l)
  heap : ∀ x ∈ m.heap, parse x.1 = some x.2

/-- A registry without identifiers. -/
def icuEmpty : IcuShared L := ⟨[], []⟩

theorem icuEmpty_ok (parse : Str → Option L) : IcuSharedOk parse icuEmpty :=
  ⟨fun _ _ h => by simp [icuEmpty] at h, fun _ h => by simp [icuEmpty] at h⟩

/-- What a request gives: a panic if the text cannot be parsed, otherwise an object that was made of the text. -/
def IcuAnswer (parse : Str → Option L) (m : IcuShared L) (t : TagRef) : Option (Nat × L) → Prop
  | none => parse t.text = none
  | some x => m.heap[x.1]? = some (t.text, x.2) ∧ parse t.text = some x.2

/-- Objects stay. -/
def IcuLater (m m' : IcuShared L) : Prop := m.heap <+: m'.heap

theorem prefix_get {α : Type} {a b : List α} (h : a <+: b) {n : Nat} {x : α} (hx : a[n]? = some x) : b[n]? = some x := by
  obtain ⟨c, rfl⟩ := h
  obtain ⟨hn, rfl⟩ := List.getElem?_eq_some_iff.1 hx
  rw [List.getElem?_append_left hn, List.getElem?_eq_getElem hn]

theorem icuAnswer_later {parse : Str → Option L} {m m' : IcuShared L} (h : IcuLater m m') {t : TagRef}
    {r : Option (Nat × L)} (ha : IcuAnswer parse m t r) : IcuAnswer parse m' t r := by
  cases r with
  | none => exact ha
  | some x => exact ⟨prefix_get h ha.1, ha.2⟩

theorem icuShared_leads (parse : Str → Option L) (t : TagRef) (s : IcuShared L) :
    (icuShared parse t).Leads (IcuSharedOk parse) IcuLater (fun r m => IcuAnswer parse m t r) s := by
  refine Act.Leads.atomic fun m _ hm => ?_
  dsimp only
  cases hg : m.entries.get t.text with
  | some a =>
    obtain ⟨l, hl⟩ := hm.entries _ _ hg
    dsimp only
    refine ⟨hm, List.prefix_refl _, ?_⟩
    show IcuAnswer parse m t (m.heap[a]?.map fun x => (a, x.2))
    rw [hl]
    exact ⟨hl, hm.heap (t.text, l) (List.mem_of_getElem? hl)⟩
  | none =>
    dsimp only
    cases hp : parse t.text with
    | none => exact ⟨hm, List.prefix_refl _, hp⟩
    | some l =>
      dsimp only
      have hgrow : m.heap <+: m.heap ++ [(t.text, l)] := List.prefix_append _ _
      have hnew : (m.heap ++ [(t.text, l)])[m.heap.length]? = some (t.text, l) := by simp
      refine ⟨⟨fun k a h => ?_, fun x hx => ?_⟩, hgrow, Act.Leads.atomic fun m' hr hm' => ?_⟩
      · obtain ⟨l', h'⟩ := hm.entries k a h
        exact ⟨l', prefix_get hgrow h'⟩
      · rcases List.mem_append.1 hx with h | h
        · exact hm.heap x h
        · rw [List.mem_singleton.1 h]; exact hp
      · have hnew' := prefix_get hr hnew
        refine ⟨⟨fun k a h => ?_, hm'.heap⟩, List.prefix_refl _, hnew', hp⟩
        rw [AMap.get_insert] at h
        split at h
        · next e =>
          cases h
          rw [← e]
          exact ⟨l, hnew'⟩
        · exact hm'.entries k a h

/-- What a thread gets. -/
def IcuAnswers (parse : Str → Option L) (m : IcuShared L) (ts : List TagRef) (rs : List (TagRef × Option (Nat × L))) : Prop :=
  (∀ x ∈ rs, IcuAnswer parse m x.1 x.2) ∧ rs.map Prod.fst <+: ts ∧
    ((∀ t ∈ ts, (parse t.text).isSome = true) → rs.map Prod.fst = ts)

theorem icuAnswers_later {parse : Str → Option L} {m m' : IcuShared L} (h : IcuLater m m') {ts : List TagRef}
    {rs : List (TagRef × Option (Nat × L))} (ha : IcuAnswers parse m ts rs) : IcuAnswers parse m' ts rs :=
  ⟨fun x hx => icuAnswer_later h (ha.1 x hx), ha.2⟩

theorem later_trans (a b c : IcuShared L) (h : IcuLater a b) (h' : IcuLater b c) : IcuLater a c := List.IsPrefix.trans h h'

theorem icuThread_leads (parse : Str → Option L) (ts : List TagRef) : ∀ s : IcuShared L, IcuSharedOk parse s →
    (icuThread parse ts).Leads (IcuSharedOk parse) IcuLater (fun rs m => IcuAnswers parse m ts rs) s := by
  induction ts with
  | nil => intro s _; exact ⟨fun _ h => (nomatch h), List.prefix_refl _, fun _ => rfl⟩
  | cons t ts ih =>
    intro s hs
    refine Act.Leads.bind later_trans (fun _ => List.prefix_refl _) (icuShared_leads parse t s) hs fun r s' hr hs' ha => ?_
    cases r with
    | none =>
      refine ⟨fun x hx => ?_, ⟨ts, rfl⟩, fun h => ?_⟩
      · rw [List.mem_singleton.1 hx]; exact ha
      · have := h t (List.mem_cons_self ..)
        rw [show parse t.text = none from ha] at this
        cases this
    | some x =>
      refine Act.Leads.bind later_trans (fun _ => List.prefix_refl _) (ih s' hs') hs' fun rs s'' hr' _ hrs => ?_
      refine ⟨fun y hy => ?_, ?_, fun h => ?_⟩
      · rcases List.mem_cons.1 hy with rfl | hy
        · exact icuAnswer_later hr' ha
        · exact hrs.1 y hy
      · rw [List.map_cons]
        exact List.prefix_cons_inj t |>.2 hrs.2.1
      · rw [List.map_cons, hrs.2.2 fun t' h' => h t' (List.mem_cons_of_mem _ h')]

theorem icu_run (parse : Str → Option L) {m : IcuShared L} (hm : IcuSharedOk parse m) (programs : List (List TagRef))
    (schedule : List Nat) :
    let r := runThreads m (programs.map (icuThread parse)) schedule
    IcuSharedOk parse r.1 ∧ ∀ (i : Nat) ts rs, programs[i]? = some ts → r.2[i]?.bind Act.result = some rs →
      IcuAnswers parse r.1 ts rs := by
  intro r
  obtain ⟨h1, _, h3⟩ := Act.leads_run (I := IcuSharedOk parse) (R := IcuLater) later_trans (fun _ => List.prefix_refl _)
    (Q := fun i rs m => ∀ ts, programs[i]? = some ts → IcuAnswers parse m ts rs)
    (fun i rs m m' h hr ts ht => icuAnswers_later hr (h ts ht)) schedule m (programs.map (icuThread parse)) hm
    (fun i p hp => by
      rw [List.getElem?_map] at hp
      cases ht : programs[i]? with
      | none => rw [ht] at hp; cases hp
      | some ts =>
        rw [ht] at hp
        cases hp
        exact (icuThread_leads parse ts m hm).weaken fun rs m' h ts' e => by cases e; exact h)
  refine ⟨h1, fun i ts rs ht hrs => ?_⟩
  cases hp : r.2[i]? with
  | none => rw [hp] at hrs; cases hrs
  | some p =>
    rw [hp] at hrs
    have := h3 i p hp
    cases p with
    | step _ _ _ => cases hrs
    | done a => cases hrs; exact this ts ht

/-! ### No waiting -/

theorem icuShared_free (parse : Str → Option L) (t : TagRef) : (icuShared parse t).Free := by
  refine Act.Free.atomic fun m => ?_
  dsimp only
  cases m.entries.get t.text with
  | some a => exact trivial
  | none =>
    dsimp only
    cases parse t.text with
    | none => exact trivial
    | some l => exact Act.Free.atomic fun _ => trivial

theorem icuThread_free (parse : Str → Option L) (ts : List TagRef) : (icuThread parse ts).Free := by
  induction ts with
  | nil => exact trivial
  | cons t ts ih =>
    refine Act.Free.bind (icuShared_free parse t) fun r => ?_
    cases r with
    | none => exact trivial
    | some x => exact Act.Free.bind ih fun _ => trivial

theorem free_run {σ α : Type} (schedule : List Nat) : ∀ (s : σ) (threads : List (Act σ α)), (∀ p ∈ threads, p.Free) →
    ∀ p ∈ (runThreads s threads schedule).2, p.Free := by
  induction schedule with
  | nil => intro s threads h; exact h
  | cons i rest ih =>
    intro s threads h
    refine ih _ _ ?_
    unfold stepThread
    cases hi : threads[i]? with
    | none => exact h
    | some p =>
      intro q hq
      rcases List.mem_or_eq_of_mem_set hq with hq | rfl
      · exact h q hq
      · have hp := h p (List.mem_of_getElem? hi)
        cases p with
        | done a => exact trivial
        | step ready effect next =>
          simp only [Act.advance, hp.1 s, if_true]
          exact hp.2 s

/-! ### An entry that is there stays -/

theorem icuShared_kept (parse : Str → Option L) {c : Str} {a : Nat} {l : L} (t : TagRef) (s : IcuShared L) :
    (icuShared parse t).Ok (fun m => m.entries.get c = some a ∧ m.heap[a]? = some (c, l)) IcuLater
      (fun r => t.text = c → r = some (a, l)) s := by
  refine Act.Ok.atomic fun m _ hm => ?_
  dsimp only
  cases hg : m.entries.get t.text with
  | some a' =>
    refine ⟨hm, List.prefix_refl _, fun e => ?_⟩
    rw [e, hm.1] at hg
    cases hg
    rw [hm.2]
    rfl
  | none =>
    have hne : t.text ≠ c := fun e => by rw [e, hm.1] at hg; cases hg
    dsimp only
    cases parse t.text with
    | none => exact ⟨hm, List.prefix_refl _, fun e => absurd e hne⟩
    | some l' =>
      dsimp only
      have hgrow : m.heap <+: m.heap ++ [(t.text, l')] := List.prefix_append _ _
      refine ⟨⟨hm.1, prefix_get hgrow hm.2⟩, hgrow, Act.Ok.atomic fun m' _ hm' => ?_⟩
      refine ⟨⟨?_, hm'.2⟩, List.prefix_refl _, fun e => absurd e hne⟩
      rw [AMap.get_insert, if_neg hne]
      exact hm'.1

theorem icuThread_kept (parse : Str → Option L) {c : Str} {a : Nat} {l : L} (ts : List TagRef) : ∀ s : IcuShared L,
    (icuThread parse ts).Ok (fun m => m.entries.get c = some a ∧ m.heap[a]? = some (c, l)) IcuLater
      (fun rs => ∀ x ∈ rs, x.1.text = c → x.2 = some (a, l)) s := by
  induction ts with
  | nil => intro s; exact fun _ h => (nomatch h)
  | cons t ts ih =>
    intro s
    refine Act.Ok.bind later_trans (fun _ => List.prefix_refl _) (icuShared_kept parse t s) fun r s' _ ha => ?_
    cases r with
    | none => exact fun x hx e => by rw [List.mem_singleton.1 hx] at e ⊢; exact ha e
    | some y =>
      refine Act.Ok.bind later_trans (fun _ => List.prefix_refl _) (ih s') fun rs s'' _ hrs => ?_
      intro x hx e
      rcases List.mem_cons.1 hx with rfl | hx
      · exact ha e
      · exact hrs x hx e

end Verif.IcuSyncLemmas
