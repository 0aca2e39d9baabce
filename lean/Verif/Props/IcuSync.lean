import Verif.Lemmas.IcuRace
/-
C76: the cache of ICU language identifiers, shared by threads.
-/
namespace Verif.Props
open Verif Verif.IcuSyncLemmas

variable {L : Type}

/-- The registry after some threads made requests in some schedule; not all of them need to be finished. -/
def icuAfter (parse : Str → Option L) (programs : List (List TagRef)) (schedule : List Nat) : IcuShared L :=
  (runThreads ⟨[], []⟩ (programs.map (icuThread parse)) schedule).1

/-- The results of a thread that is finished. -/
def icuResult (parse : Str → Option L) (m : IcuShared L) (programs : List (List TagRef)) (schedule : List Nat) (i : Nat) :
    Option (List (TagRef × Option (Nat × L))) :=
  (runThreads m (programs.map (icuThread parse)) schedule).2[i]?.bind Act.result

theorem icuAfter_ok (parse : Str → Option L) (programs : List (List TagRef)) (schedule : List Nat) :
    IcuSharedOk parse (icuAfter parse programs schedule) :=
  (icu_run parse (icuEmpty_ok parse) programs schedule).1

/-- **C76, values.** Whatever threads did before, under every schedule of any threads, the identifier that a thread gets for a
tag is the one parsed from the text of the tag; a request panics only if that fails, and otherwise every request is
answered. -/
theorem C76_values (parse : Str → Option L) (before programs : List (List TagRef)) (earlier schedule : List Nat) (i : Nat)
    (ts : List TagRef) (rs : List (TagRef × Option (Nat × L))) (ht : programs[i]? = some ts)
    (hr : icuResult parse (icuAfter parse before earlier) programs schedule i = some rs) :
    (∀ x ∈ rs, x.2.map Prod.snd = parse x.1.text) ∧ rs.map Prod.fst <+: ts ∧
      ((∀ t ∈ ts, (parse t.text).isSome = true) → rs.map Prod.fst = ts) := by
  obtain ⟨h1, h2⟩ := (icu_run parse (icuAfter_ok parse before earlier) programs schedule).2 i ts rs ht hr
  refine ⟨fun x hx => ?_, h2⟩
  have := h1 x hx
  cases hx2 : x.2 with
  | none => rw [hx2] at this; exact Eq.symm this
  | some v => rw [hx2] at this; exact this.2.symm

/-- **C76, different texts.** One object is never the answer for tags of different texts, whichever threads asked. -/
theorem C76_different_objects (parse : Str → Option L) (before programs : List (List TagRef)) (earlier schedule : List Nat)
    (i j : Nat) (rs rs' : List (TagRef × Option (Nat × L)))
    (hr : icuResult parse (icuAfter parse before earlier) programs schedule i = some rs)
    (hr' : icuResult parse (icuAfter parse before earlier) programs schedule j = some rs') (t t' : TagRef) (v v' : Nat × L)
    (h : (t, some v) ∈ rs) (h' : (t', some v') ∈ rs') (he : v.1 = v'.1) : t.text = t'.text := by
  have key := (icu_run parse (icuAfter_ok parse before earlier) programs schedule).2
  have hprog : ∀ k xs, icuResult parse (icuAfter parse before earlier) programs schedule k = some xs →
      ∃ ts, programs[k]? = some ts := by
    intro k xs hk
    have hlen := Act.run_length schedule (icuAfter parse before earlier) (programs.map (icuThread parse))
    have hlt : k < programs.length := by
      by_cases hk' : k < programs.length
      · exact hk'
      · rw [icuResult, List.getElem?_eq_none (by rw [hlen, List.length_map]; omega)] at hk
        cases hk
    exact ⟨_, List.getElem?_eq_getElem hlt⟩
  obtain ⟨ts, hts⟩ := hprog i rs hr
  obtain ⟨ts', hts'⟩ := hprog j rs' hr'
  have a := ((key i ts rs hts hr).1 _ h).1
  have b := ((key j ts' rs' hts' hr').1 _ h').1
  rw [he, b] at a
  exact (congrArg Prod.fst (Option.some.inj a)).symm

/-- **C76, no waiting.** A thread that is not finished can always make its next step. -/
theorem C76_never_waits (parse : Str → Option L) (before programs : List (List TagRef)) (earlier schedule : List Nat)
    (p : Act (IcuShared L) (List (TagRef × Option (Nat × L))))
    (hp : p ∈ (runThreads (icuAfter parse before earlier) (programs.map (icuThread parse)) schedule).2)
    (hn : p.result = none) :
    p.ready (runThreads (icuAfter parse before earlier) (programs.map (icuThread parse)) schedule).1 = true := by
  have := free_run schedule (icuAfter parse before earlier) (programs.map (icuThread parse)) (by
    intro q hq
    obtain ⟨ts, _, rfl⟩ := List.mem_map.1 hq
    exact icuThread_free parse ts) p hp
  cases p with
  | done a => cases hn
  | step ready effect next => exact this.1 _

/-- **C76 is violated.** Two threads that ask at the same time for the identifier of one tag get different objects. -/
theorem C76_violated : ∃ (schedule : List Nat) (t : TagRef) (v v' : Nat × Str),
    icuResult some ⟨[], []⟩ [[t], [t]] schedule 0 = some [(t, some v)] ∧
    icuResult some ⟨[], []⟩ [[t], [t]] schedule 1 = some [(t, some v')] ∧ v.1 ≠ v'.1 :=
  ⟨[0, 1, 0, 1], ⟨0, "en".toList⟩, (0, "en".toList), (1, "en".toList), rfl, rfl, by decide⟩

/-- **C76, same object, partial.** When a thread got the identifier of a tag while no other was running, all threads that
start afterwards get the same object for tags of the same text, under every schedule. Missing: threads that make the first
requests at the same time. -/
theorem C76_same_object_partial (parse : Str → Option L) (before programs : List (List TagRef)) (earlier schedule : List Nat)
    (t : TagRef) (v : Nat × L) (m : IcuShared L)
    (h0 : (icuShared parse t).alone (icuAfter parse before earlier) = (m, some (some v))) (i : Nat)
    (rs : List (TagRef × Option (Nat × L))) (hr : icuResult parse m programs schedule i = some rs) (t' : TagRef)
    (r : Option (Nat × L)) (hm : (t', r) ∈ rs) (he : t'.text = t.text) : r = some v := by
  have hm0 := icuAfter_ok parse before earlier
  have hI : m.entries.get t.text = some v.1 ∧ m.heap[v.1]? = some (t.text, v.2) := by
    rw [icuShared, Act.alone_atomic] at h0
    cases hg : (icuAfter parse before earlier).entries.get t.text with
    | some a =>
      obtain ⟨l, hl⟩ := hm0.entries _ _ hg
      simp only [hg, Act.alone, hl, Option.map_some, Prod.mk.injEq, Option.some.injEq] at h0
      obtain ⟨rfl, rfl⟩ := h0
      exact ⟨hg, hl⟩
    | none =>
      cases hp : parse t.text with
      | none => simp [hg, hp, Act.alone] at h0
      | some l =>
        simp only [hg, hp, Act.alone_atomic, Act.alone, Prod.mk.injEq, Option.some.injEq] at h0
        obtain ⟨rfl, rfl⟩ := h0
        exact ⟨AMap.get_insert_self _ _ _, by simp⟩
  obtain ⟨_, h3⟩ := Act.ok_run (R := IcuLater) later_trans (fun _ => List.prefix_refl _) schedule m
    (programs.map (icuThread parse)) (fun _ rs => ∀ x ∈ rs, x.1.text = t.text → x.2 = some (v.1, v.2)) hI
    (fun j p hp => by
      rw [List.getElem?_map] at hp
      cases ht : programs[j]? with
      | none => rw [ht] at hp; cases hp
      | some ts => rw [ht] at hp; cases hp; exact icuThread_kept parse ts m)
  rw [icuResult] at hr
  cases hp : (runThreads m (programs.map (icuThread parse)) schedule).2[i]? with
  | none => rw [hp] at hr; cases hr
  | some p =>
    rw [hp] at hr
    have := h3 i p hp
    cases p with
    | step _ _ _ => cases hr
    | done a => cases hr; exact this (t', r) hm he

/-- Under every schedule, all identifiers that threads get for the text are one object. -/
def AlwaysShared (parse : Str → Option L) (m : IcuShared L) (programs : List (List TagRef)) (c : Str) : Prop :=
  ∀ schedule i j rs rs', icuResult parse m programs schedule i = some rs → icuResult parse m programs schedule j = some rs' →
    ∀ t t' v v', (t, some v) ∈ rs → (t', some v') ∈ rs' → t.text = c → t'.text = c → v.1 = v'.1

/-- **C76, same object, exactly.** Whatever threads did before, threads that ask only for tags that ICU can parse get one
object for a text under every schedule exactly if the text has an entry when they start, or at most one of them asks for it. -/
theorem C76_same_object_exactly_partial (parse : Str → Option L) (before programs : List (List TagRef)) (earlier : List Nat)
    (hall : ∀ ts ∈ programs, ∀ t ∈ ts, (parse t.text).isSome = true) (c : Str) :
    AlwaysShared parse (icuAfter parse before earlier) programs c ↔
      (∃ a, (icuAfter parse before earlier).entries.get c = some a) ∨
      ∀ (i j : Nat) (ts us : List TagRef), programs[i]? = some ts → programs[j]? = some us → (∃ t ∈ ts, t.text = c) → (∃ u ∈ us, u.text = c) →
        i = j := by
  have hm := icuAfter_ok parse before earlier
  constructor
  · intro h
    cases hg : (icuAfter parse before earlier).entries.get c with
    | some a => exact .inl ⟨a, rfl⟩
    | none =>
      right
      rintro i j ts us hi hj ⟨t, ht, htc⟩ ⟨u, hu, huc⟩
      by_cases hij : i = j
      · exact hij
      · obtain ⟨schedule, rs, rs', t', u', v, v', h1, h2, h3, h4, h5, h6, h7⟩ := race parse hm hall hg hij hi hj ht hu htc huc
        exact absurd (h schedule i j rs rs' h1 h2 t' u' v v' h3 h4 h5 h6) h7
  · rintro (⟨a, ha⟩ | hone) schedule i j rs rs' hr hr' t t' v v' hv hv' htc htc'
    · obtain ⟨l, hl⟩ := hm.entries c a ha
      have hres : ∀ k xs, icuResult parse (icuAfter parse before earlier) programs schedule k = some xs →
          ∀ x ∈ xs, x.1.text = c → x.2 = some (a, l) := by
        intro k xs hk
        obtain ⟨_, h3⟩ := Act.ok_run (I := fun m => m.entries.get c = some a ∧ m.heap[a]? = some (c, l)) (R := IcuLater)
          later_trans (fun _ => List.prefix_refl _) schedule (icuAfter parse before earlier) (programs.map (icuThread parse))
          (fun _ rs => ∀ x ∈ rs, x.1.text = c → x.2 = some (a, l)) ⟨ha, hl⟩
          (fun j p hp => by
            rw [List.getElem?_map] at hp
            cases ht : programs[j]? with
            | none => rw [ht] at hp; cases hp
            | some ts => rw [ht] at hp; cases hp; exact icuThread_kept parse ts _)
        rw [icuResult] at hk
        cases hp : (runThreads (icuAfter parse before earlier) (programs.map (icuThread parse)) schedule).2[k]? with
        | none => rw [hp] at hk; cases hk
        | some p =>
          rw [hp] at hk
          have := h3 k p hp
          cases p with
          | step _ _ _ => cases hk
          | done a => cases hk; exact this
      have e1 := hres i rs hr _ hv htc
      have e2 := hres j rs' hr' _ hv' htc'
      cases e1; cases e2; rfl
    · have hask : ∀ k xs, icuResult parse (icuAfter parse before earlier) programs schedule k = some xs →
          ∀ x ∈ xs, x.1.text = c → ∃ us, programs[k]? = some us ∧ ∃ u ∈ us, u.text = c := by
        intro k xs hk x hx hxc
        have hlen := Act.run_length schedule (icuAfter parse before earlier) (programs.map (icuThread parse))
        have hlt : k < programs.length := by
          by_cases hk' : k < programs.length
          · exact hk'
          · rw [icuResult, List.getElem?_eq_none (by rw [hlen, List.length_map]; omega)] at hk
            cases hk
        obtain ⟨_, h2, _⟩ := C76_values parse before programs earlier schedule k _ xs (List.getElem?_eq_getElem hlt) hk
        exact ⟨_, List.getElem?_eq_getElem hlt, x.1, h2.subset (List.mem_map.2 ⟨x, hx, rfl⟩), hxc⟩
      obtain ⟨us, hus, hu⟩ := hask i rs hr _ hv htc
      obtain ⟨us', hus', hu'⟩ := hask j rs' hr' _ hv' htc'
      have hij := hone i j us us' hus hus' hu hu'
      subst hij
      rw [hr] at hr'; cases hr'
      obtain ⟨a, ha⟩ := only_run parse i (icuAfter parse before earlier) programs (fun k ts hk hne t ht e =>
        hne (hone k i ts us hk hus ⟨t, ht, e⟩ hu)) schedule rs hr
      rw [ha _ hv htc v rfl, ha _ hv' htc' v' rfl]

/-- Both sides hold for `it`, and neither for `en`. -/
example : let programs : List (List TagRef) := [[⟨0, "en".toList⟩, ⟨1, "it".toList⟩], [⟨0, "en".toList⟩]]
    AlwaysShared some (icuAfter some [] []) programs "it".toList ∧ ¬ AlwaysShared some (icuAfter some [] []) programs "en".toList := by
  refine ⟨(C76_same_object_exactly_partial some [] _ [] (fun _ _ _ _ => rfl) _).2 (.inr ?_), fun h => ?_⟩
  · rintro i j ts us hi hj ⟨t, ht, htc⟩ ⟨u, hu, huc⟩
    have key : ∀ (k : Nat) (xs : List TagRef), ([[⟨0, "en".toList⟩, ⟨1, "it".toList⟩], [⟨0, "en".toList⟩]] :
        List (List TagRef))[k]? = some xs → (∃ x ∈ xs, x.text = "it".toList) → k = 0 := by
      rintro (_ | _ | k) xs hk ⟨x, hx, hxc⟩
      · rfl
      · cases hk; rw [List.mem_singleton.1 hx] at hxc; exact absurd hxc (by decide)
      · cases hk
    rw [key i ts hi ⟨t, ht, htc⟩, key j us hj ⟨u, hu, huc⟩]
  · rcases (C76_same_object_exactly_partial some [] _ [] (fun _ _ _ _ => rfl) _).1 h with ⟨a, ha⟩ | h
    · cases ha
    · exact absurd (h 0 1 _ _ rfl rfl ⟨⟨0, "en".toList⟩, by simp, rfl⟩ ⟨⟨0, "en".toList⟩, by simp, rfl⟩) (by decide)

/-- Two threads ask for two tags, in an order that mixes their steps. -/
example :
    icuResult some ⟨[], []⟩ [[⟨0, "en".toList⟩, ⟨1, "it".toList⟩], [⟨1, "it".toList⟩]] [0, 1, 0, 1, 0, 0] 0 =
      some [(⟨0, "en".toList⟩, some (0, "en".toList)), (⟨1, "it".toList⟩, some (1, "it".toList))] ∧
    icuResult some ⟨[], []⟩ [[⟨0, "en".toList⟩, ⟨1, "it".toList⟩], [⟨1, "it".toList⟩]] [0, 1, 0, 1, 0, 0] 1 =
      some [(⟨1, "it".toList⟩, some (1, "it".toList))] := ⟨rfl, rfl⟩

end Verif.Props
