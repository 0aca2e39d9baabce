import Verif.Lemmas.RegistryRace
/-
Property theorems C06–C10 and C46: the language tag registry, /repo/crates/utility/src/language.rs.
-/
namespace Verif.Props
open Verif Verif.RegistryLemmas Verif.RegistrySyncLemmas
variable {E : Type}

/-- A small concrete canonicaliser for examples: `_` becomes `-`; the empty tag is an error. -/
def demoCanon (q : Str) : Except Unit Str :=
  if q.isEmpty then .error () else .ok (q.map fun c => if c = '_' then '-' else c)

/-- The idempotence hypothesis used below is satisfiable. -/
theorem demoCanon_idem : Idem demoCanon := by
  intro q c h
  unfold demoCanon at *
  split at h
  · cases h
  · next hq =>
    cases h
    have : ¬ (q.map fun c => if c = '_' then '-' else c).isEmpty := by simpa using hq
    simp only [this, if_false, List.map_map, Except.ok.injEq, Bool.false_eq_true]
    apply List.map_congr_left
    intro a _
    simp only [Function.comp]
    by_cases h : a = '_' <;> simp [h]

/-- **C06.** In every history each request succeeds exactly when canonicalisation succeeds, with the canonical
text (or the canonicaliser's error). -/
theorem C06_canonical_in_every_history (canon : Str → Except E Str)
    (hid : ∀ q c, canon q = .ok c → canon c = .ok c) (history : List Str) (q : Str) (a : Except E TagRef)
    (h : (q, a) ∈ (Registry.new.run canon history).1) :
    (∀ c, canon q = .ok c → ∃ t, a = .ok t ∧ t.text = c) ∧ (∀ e, canon q = .error e → a = .error e) := by
  obtain ⟨_, _, _, h4⟩ := run_spec canon hid history [] Registry.new (inv_new canon)
  have := h4 q a h
  constructor
  · intro c hc; simp only [hc] at this; obtain ⟨t, h1, h2, _⟩ := this; exact ⟨t, h1, h2⟩
  · intro e he; simp only [he] at this; exact this

/-- **C06, every request is answered.** The requests answered are exactly those made, in order. -/
theorem C06_all_answered (canon : Str → Except E Str)
    (hid : ∀ q c, canon q = .ok c → canon c = .ok c) (history : List Str) :
    (Registry.new.run canon history).1.map Prod.fst = history :=
  (run_spec canon hid history [] Registry.new (inv_new canon)).2.2.1

/-- **C06, failing requests change nothing.** After any history a request with an invalid tag leaves the registry
as it was. -/
theorem C06_failure_changes_nothing (canon : Str → Except E Str)
    (hid : ∀ q c, canon q = .ok c → canon c = .ok c) (history : List Str) (q : Str) (e : E) (hq : canon q = .error e) :
    ((Registry.new.run canon history).2.tag canon q).2 = (Registry.new.run canon history).2 := by
  have h := run_spec canon hid history [] Registry.new (inv_new canon)
  have := (tag_spec canon hid _ _ q h.1).2.1 e hq
  rw [this]

example : (∀ q c, demoCanon q = .ok c → demoCanon c = .ok c) ∧
    ("en_ZA".toList, Except.ok { addr := 0, text := "en-ZA".toList }) ∈
      (Registry.new.run demoCanon ["en_ZA".toList, "".toList, "en-ZA".toList, "en_ZA".toList]).1 :=
  ⟨demoCanon_idem, List.mem_cons_self⟩

/-- **C07.** In every single-threaded history two successful requests return pointer-equal tags exactly when their
canonical forms agree. -/
theorem C07_interned (canon : Str → Except E Str)
    (hid : ∀ q c, canon q = .ok c → canon c = .ok c) (history : List Str) (q q' : Str) (t t' : TagRef)
    (h : (q, .ok t) ∈ (Registry.new.run canon history).1)
    (h' : (q', .ok t') ∈ (Registry.new.run canon history).1) :
    (t.addr = t'.addr ↔ canon q = canon q') ∧ (t.addr = t'.addr → t = t') := by
  obtain ⟨hi, _, _, h4⟩ := run_spec canon hid history [] Registry.new (inv_new canon)
  have a := h4 q _ h
  have a' := h4 q' _ h'
  cases hc : canon q with
  | error e => simp [hc] at a
  | ok c =>
    cases hc' : canon q' with
    | error e => simp [hc'] at a'
    | ok c' =>
      simp only [hc] at a
      simp only [hc'] at a'
      obtain ⟨x, hx, hx2, hx3⟩ := a
      obtain ⟨y, hy, hy2, hy3⟩ := a'
      cases hx; cases hy
      constructor
      · constructor
        · intro e; rw [hi.tagsInj _ _ _ _ hx3 hy3 e]
        · intro e; cases e; rw [hx3] at hy3; cases hy3; rfl
      · intro e
        have := hi.tagsInj _ _ _ _ hx3 hy3 e
        subst this
        rw [hx3] at hy3; cases hy3; rfl

example : (Registry.new.run demoCanon ["en_ZA".toList, "de".toList, "en-ZA".toList]).1.map
    (fun x => x.2.toOption.map TagRef.addr) = [some 0, some 1, some 0] := by rfl

/-- **C08.** After every history: `list()` holds exactly one tag per canonical form successfully requested;
`list_deprecated()` holds, for each distinct non-canonical spelling successfully requested, the tag of its canonical
form; `list_all()` is both. -/
theorem C08_listings (canon : Str → Except E Str)
    (hid : ∀ q c, canon q = .ok c → canon c = .ok c) (history : List Str) :
    let r := (Registry.new.run canon history).2
    (r.list.map TagRef.text).Nodup ∧
    (∀ c, c ∈ r.list.map TagRef.text ↔ ∃ q ∈ history, canon q = .ok c) ∧
    (∃ spellings : List Str, spellings.Nodup ∧
      (∀ q, q ∈ spellings ↔ q ∈ history ∧ ∃ c, canon q = .ok c ∧ c ≠ q) ∧
      r.listDeprecated.map (fun t => Except.ok t.text) = spellings.map canon) ∧
    r.listAll = r.list ++ r.listDeprecated := by
  intro r
  obtain ⟨hi, _, _, _⟩ := run_spec canon hid history [] Registry.new (inv_new canon)
  change Inv canon ([] ++ history) r at hi
  rw [List.nil_append] at hi
  have hkeys : r.list.map TagRef.text = r.tags.keys := by
    simp only [Registry.list, AMap.values, AMap.keys, List.map_map]
    apply List.map_congr_left
    intro x hx
    have := AMap.get_of_mem hi.tagsNodup (k := x.1) (v := x.2) hx
    exact (hi.tagsText _ _ this).1
  refine ⟨?_, ?_, ?_, rfl⟩
  · rw [hkeys]; exact hi.tagsNodup
  · intro c; rw [hkeys]; exact hi.tagsKeys c
  · refine ⟨r.deprecated.keys, hi.depNodup, hi.depKeys, ?_⟩
    simp only [Registry.listDeprecated, AMap.values, AMap.keys, List.map_map]
    apply List.map_congr_left
    intro x hx
    have := AMap.get_of_mem hi.depNodup (k := x.1) (v := x.2) hx
    exact (hi.depVal _ _ this).1.symm

example : ((Registry.new.run demoCanon ["en_ZA".toList, "de".toList, "en_ZA".toList, "en-ZA".toList]).2).listAll.map
    TagRef.text = ["en-ZA".toList, "de".toList, "en-ZA".toList] := by rfl

/-- Registries which have served some requests sequentially before threads are started. -/
def warmed (canon : Str → Except E Str) (warm : List Str) : Registry := (Registry.new.run canon warm).2

/-- **C09, values.** Under every schedule of every number of threads, every completed request got the right answer
by value, in program order. -/
theorem C09_concurrent_values (canon : Str → Except E Str)
    (hid : ∀ q c, canon q = .ok c → canon c = .ok c) (warm : List Str) (programs : List (List Str))
    (schedule : List Nat) (i : Nat) (t : TagThread E) (p : List Str)
    (ht : ((TagSys.start (warmed canon warm) programs).run canon schedule).threads[i]? = some t)
    (hp : programs[i]? = some p) :
    t.done.map Prod.fst ++ t.todo = p ∧
    ∀ q a, (q, a) ∈ t.done →
      (∀ c, canon q = .ok c → ∃ h, a = .ok h ∧ h.text = c) ∧ (∀ e, canon q = .error e → a = .error e) := by
  have h0 : Inv canon warm (warmed canon warm) := by
    simpa [warmed] using (run_spec canon hid warm [] Registry.new (inv_new canon)).1
  have hi := run_inv canon hid warm programs schedule _ (start_inv canon hid warm _ h0 programs)
  have h := hi.threads i t p ht hp
  refine ⟨h.prog, fun q a hm => ?_⟩
  have := h.answers q a hm
  unfold Answer at this
  constructor
  · intro c hc; simpa [hc] using this
  · intro e he; simpa [he] using this

/-- **C09, no deadlock.** In every reachable state with an unfinished request some thread can take a step. -/
theorem C09_no_deadlock (canon : Str → Except E Str)
    (hid : ∀ q c, canon q = .ok c → canon c = .ok c) (warm : List Str) (programs : List (List Str))
    (schedule : List Nat) (i : Nat) (t : TagThread E)
    (ht : ((TagSys.start (warmed canon warm) programs).run canon schedule).threads[i]? = some t)
    (hne : t.todo ≠ []) :
    ∃ j, (((TagSys.start (warmed canon warm) programs).run canon schedule).step canon j).isSome := by
  have h0 : Inv canon warm (warmed canon warm) := by
    simpa [warmed] using (run_spec canon hid warm [] Registry.new (inv_new canon)).1
  exact progress canon warm programs _
    (run_inv canon hid warm programs schedule _ (start_inv canon hid warm _ h0 programs)) i t ht hne

/-- **C09, listing.** When all threads have finished, `list()` holds exactly one tag per canonical form of the
requests made before and by the threads. -/
theorem C09_quiescent_list (canon : Str → Except E Str)
    (hid : ∀ q c, canon q = .ok c → canon c = .ok c) (warm : List Str) (programs : List (List Str))
    (schedule : List Nat)
    (hfin : ∀ t ∈ ((TagSys.start (warmed canon warm) programs).run canon schedule).threads, t.todo = []) :
    let r := ((TagSys.start (warmed canon warm) programs).run canon schedule).reg
    (r.list.map TagRef.text).Nodup ∧
    ∀ c, c ∈ r.list.map TagRef.text ↔ ∃ q ∈ warm ++ programs.flatten, canon q = .ok c := by
  intro r
  have h0 : Inv canon warm (warmed canon warm) := by
    simpa [warmed] using (run_spec canon hid warm [] Registry.new (inv_new canon)).1
  have hi := run_inv canon hid warm programs schedule _ (start_inv canon hid warm _ h0 programs)
  have hkeys : r.list.map TagRef.text = r.tags.keys := by
    simp only [Registry.list, AMap.values, AMap.keys, List.map_map]
    apply List.map_congr_left
    intro x hx
    have := AMap.get_of_mem hi.reg.nodup (k := x.1) (v := x.2) hx
    exact (hi.reg.tags _ _ this).1
  rw [hkeys]
  refine ⟨hi.reg.nodup, fun c => ⟨?_, ?_⟩⟩
  · intro hc
    obtain ⟨h, hh⟩ := (AMap.mem_keys_iff _ _).1 hc
    exact (hi.reg.tags _ _ hh).2.2
  · rintro ⟨q, hq, hc⟩
    rcases List.mem_append.1 hq with hq | hq
    · -- registered before the threads started; tags only grow
      have hmono : ∀ (sched : List Nat) (s : TagSys E) (k : Str), k ∈ s.reg.tags.keys →
          k ∈ (s.run canon sched).reg.tags.keys := by
        intro sched
        induction sched with
        | nil => intro s k hk; exact hk
        | cons j rest ih =>
          intro s k hk
          simp only [TagSys.run, List.foldl_cons]
          apply ih
          cases hs : s.step canon j with
          | none => simpa using hk
          | some s' =>
            simp only [Option.getD_some]
            unfold TagSys.step at hs
            repeat' (first | split at hs | (simp only [] at hs; split at hs))
            all_goals first
              | (cases hs; done)
              | (simp only [Option.some.injEq] at hs; subst hs; exact hk)
              | (simp only [Option.some.injEq] at hs; subst hs
                 simp only [TagSys.setThread, AMap.mem_keys_insert]; exact Or.inr hk)
      exact hmono schedule _ c ((h0.tagsKeys c).2 ⟨q, hq, hc⟩)
    · obtain ⟨p, hp, hqp⟩ := List.mem_flatten.1 hq
      obtain ⟨i, hip⟩ := List.getElem?_of_mem hp
      have hlt : i < programs.length := by
        rcases Nat.lt_or_ge i programs.length with h' | h'
        · exact h'
        · rw [List.getElem?_eq_none h'] at hip; cases hip
      have hti := List.getElem?_eq_getElem (l := ((TagSys.start (warmed canon warm) programs).run canon
        schedule).threads) (i := i) (by rw [hi.len]; exact hlt)
      have hth := hi.threads i _ p hti hip
      have hdone := hth.prog
      rw [hfin _ (List.mem_of_getElem? hti), List.append_nil] at hdone
      rw [← hdone] at hqp
      obtain ⟨⟨q', a⟩, hm, rfl⟩ := List.mem_map.1 hqp
      have ha := hth.answers _ _ hm
      simp only [Answer] at ha
      rw [hc] at ha
      obtain ⟨h, rfl, htx⟩ := ha
      have hcov := hi.cover.done i _ _ h hti hm
      rw [htx] at hcov
      rcases hcov with hcov | ⟨j, tj, q2, rest, hh, hj, hq2, _, _⟩
      · exact hcov
      · rw [hfin tj (List.mem_of_getElem? hj)] at hq2; cases hq2

/-- Two threads, several requests, a concrete schedule in which all finish. -/
example : ∀ t ∈ ((TagSys.start (E := Unit) (warmed demoCanon ["de".toList])
      [["en_ZA".toList, "de".toList], ["en-ZA".toList]]).run demoCanon
      [0, 1, 0, 1, 0, 1, 0, 1, 0, 1, 0, 1]).threads, t.todo = [] := by decide

/-- **C10, violated.** Two threads racing on the same new tag obtain different tag objects, and the duplicate stays
visible: a spelling registered as deprecated keeps referring to the other object. -/
theorem C10_interning_violated : ∃ (programs : List (List Str)) (schedule : List Nat),
    let s := (TagSys.start (E := Unit) Registry.new programs).run demoCanon schedule
    (∀ t ∈ s.threads, t.todo = []) ∧
    (∃ t t' : TagThread Unit, s.threads[0]? = some t ∧ s.threads[1]? = some t' ∧
      ∃ q q' h h', (q, Except.ok h) ∈ t.done ∧ (q', Except.ok h') ∈ t'.done ∧
        demoCanon q = demoCanon q' ∧ h.addr ≠ h'.addr) ∧
    -- also afterwards the registry answers two spellings of one tag with different objects
    (s.reg.tags.get "en-ZA".toList).map TagRef.addr ≠ (s.reg.deprecated.get "en_ZA".toList).map TagRef.addr := by
  refine ⟨[["en_ZA".toList], ["en-ZA".toList]], [0, 1, 0, 1, 0, 1, 0, 0, 1, 1], by decide, ?_, by decide⟩
  refine ⟨_, _, rfl, rfl, "en_ZA".toList, "en-ZA".toList, ⟨0, "en-ZA".toList⟩, ⟨1, "en-ZA".toList⟩, ?_, ?_, ?_, ?_⟩
  · exact List.mem_singleton.2 rfl
  · exact List.mem_singleton.2 rfl
  · rfl
  · decide

/-- **C10, violated for listings.** A race can put a canonical spelling into `list_deprecated()`, which no
sequential history does (C08). -/
theorem C10_deprecated_listing_violated : ∃ (programs : List (List Str)) (schedule : List Nat),
    let s := (TagSys.start (E := Unit) Registry.new programs).run demoCanon schedule
    (∀ t ∈ s.threads, t.todo = []) ∧ programs.flatten = ["en".toList, "en".toList] ∧
    demoCanon "en".toList = .ok "en".toList ∧ s.reg.listDeprecated.map TagRef.text = ["en".toList] := by
  refine ⟨[["en".toList], ["en".toList]], [0, 1, 0, 1, 0, 0, 1, 1], by decide, rfl, rfl, rfl⟩

/-- **C10, partial.** What is missing: tags first requested by racing threads. Proved: all requests, of any threads
under any schedule, for a tag which was registered before the threads started obtain the very same tag object. -/
theorem C10_interned_when_registered_before_partial (canon : Str → Except E Str)
    (hid : ∀ q c, canon q = .ok c → canon c = .ok c) (warm : List Str) (programs : List (List Str))
    (c : Str) (hc : ∃ q ∈ warm, canon q = .ok c) :
    ∃ h0 : TagRef, (warmed canon warm).tags.get c = some h0 ∧
      ∀ (schedule : List Nat) (i : Nat) (t : TagThread E) (q : Str) (h : TagRef),
        ((TagSys.start (warmed canon warm) programs).run canon schedule).threads[i]? = some t →
        (q, .ok h) ∈ t.done → canon q = .ok c → h = h0 := by
  have hinv : Inv canon warm (warmed canon warm) := by
    simpa [warmed] using (run_spec canon hid warm [] Registry.new (inv_new canon)).1
  obtain ⟨h0, hh0⟩ := (AMap.mem_keys_iff _ _).1 ((hinv.tagsKeys c).2 hc)
  refine ⟨h0, hh0, ?_⟩
  intro schedule i t q h hti hm hq
  have hp := pre_run canon c h0 schedule _ (pre_start canon warm _ hinv programs c h0 hh0)
  have hi := run_inv canon hid warm programs schedule _ (start_inv canon hid warm _ hinv programs)
  have hlt : i < programs.length := by
    rw [← hi.len]
    rcases Nat.lt_or_ge i ((TagSys.start (warmed canon warm) programs).run canon schedule).threads.length with h' | h'
    · exact h'
    · rw [List.getElem?_eq_none h'] at hti; cases hti
  have hth := hi.threads i t _ hti (List.getElem?_eq_getElem hlt)
  have ha := hth.answers _ _ hm
  simp only [Answer, hq] at ha
  obtain ⟨h', e, htx⟩ := ha
  cases e
  exact hp.done i t q h hti hm htx

example : ∃ q ∈ ["de".toList, "en_ZA".toList], demoCanon q = .ok "en-ZA".toList :=
  ⟨"en_ZA".toList, by simp, rfl⟩

/-- Whatever the schedule, all answers of all threads for the canonical text `c` are one object. -/
def AlwaysInterned (canon : Str → Except E Str) (warm : List Str) (programs : List (List Str)) (c : Str) : Prop :=
  ∀ (schedule : List Nat) (i j : Nat) (t t' : TagThread E) (q q' : Str) (h h' : TagRef),
    ((TagSys.start (warmed canon warm) programs).run canon schedule).threads[i]? = some t →
    ((TagSys.start (warmed canon warm) programs).run canon schedule).threads[j]? = some t' →
    (q, .ok h) ∈ t.done → (q', .ok h') ∈ t'.done → canon q = .ok c → canon q' = .ok c → h = h'

/-- **C10, partial, the exact condition.** What is missing: as in `C10_interning_violated`. Proved: the answers for a
canonical text are one object under every schedule exactly when the text was registered before the threads started, or
when at most one thread ever asks for it (in any spelling). So the race exists for every tag two threads are first to
ask for, whatever else they ask for before or after. -/
theorem C10_interned_exactly_partial (canon : Str → Except E Str)
    (hid : ∀ q c, canon q = .ok c → canon c = .ok c) (warm : List Str) (programs : List (List Str)) (c : Str) :
    AlwaysInterned canon warm programs c ↔
      (∃ q ∈ warm, canon q = .ok c) ∨
      (∀ (i j : Nat) (p p' : List Str), programs[i]? = some p → programs[j]? = some p' →
        (∃ q ∈ p, canon q = .ok c) → (∃ q ∈ p', canon q = .ok c) → i = j) := by
  have hinv : Inv canon warm (warmed canon warm) := by
    simpa [warmed] using (run_spec canon hid warm [] Registry.new (inv_new canon)).1
  have hstart := start_inv canon hid warm _ hinv programs
  constructor
  · intro hall
    by_cases hw : ∃ q ∈ warm, canon q = .ok c
    · exact Or.inl hw
    right
    intro i j p p' hp hp' hr hr'
    by_cases hij : i = j
    · exact hij
    exfalso
    have hnone : (warmed canon warm).tags.get c = none := by
      cases hg : (warmed canon warm).tags.get c with
      | none => rfl
      | some h => exact absurd ((hinv.tagsKeys c).1 ((AMap.mem_keys_iff _ _).2 ⟨h, hg⟩)) hw
    obtain ⟨before, q, rest, rfl, hq, hb⟩ := first_request canon c p hr
    obtain ⟨before', q', rest', rfl, hq', hb'⟩ := first_request canon c p' hr'
    let s := TagSys.start (E := E) (warmed canon warm) programs
    have hs : Resting c s := by
      refine ⟨?_, rfl, hnone⟩
      intro k t ht
      simp [s, TagSys.start] at ht
      obtain ⟨a, _, rfl⟩ := ht
      rfl
    obtain ⟨sched1, t, hs1, hth1, hq1⟩ := run_up_to canon c i (q :: rest) before s
      { todo := before ++ q :: rest, pc := .lookupTags, done := [] }
      (by simp [s, TagSys.start, hp]) rfl hs hb
    obtain ⟨sched2, t', hs2, hth2, hq2⟩ := run_up_to canon c j (q' :: rest') before' (s.run canon sched1)
      { todo := before' ++ q' :: rest', pc := .lookupTags, done := [] }
      (by rw [hth1, List.getElem?_set_ne hij]; simp [s, TagSys.start, hp']) rfl hs1 hb'
    have hli : i < s.threads.length := by simpa [s, TagSys.start] using lt_of_getElem? hp
    have hlj : j < s.threads.length := by simpa [s, TagSys.start] using lt_of_getElem? hp'
    have hsys : SysInv canon warm programs ((s.run canon sched1).run canon sched2) :=
      run_inv canon hid warm programs _ _ (run_inv canon hid warm programs _ _ hstart)
    obtain ⟨sched3, u, u', h, h', h1, h2, h3, h4, h5⟩ := race canon warm programs c _ hsys hs2 i j hij t t'
      (by rw [hth2, List.getElem?_set_ne (fun e => hij e.symm), hth1, List.getElem?_set_self hli])
      (by rw [hth2, hth1, List.getElem?_set_self (by simpa using hlj)]) q q' rest rest' hq1 hq2 hq hq'
    rw [← run_append, ← run_append] at h1 h2
    exact h5 (congrArg TagRef.addr (hall _ i j u u' q q' h h' h1 h2 h3 h4 hq hq'))
  · intro hcond schedule i j t t' q q' h h' hti htj hm hm' hq hq'
    have hi := run_inv canon hid warm programs schedule _ hstart
    have text : ∀ (i : Nat) (t : TagThread E) q (h : TagRef),
        ((TagSys.start (warmed canon warm) programs).run canon schedule).threads[i]? = some t →
        (q, .ok h) ∈ t.done → canon q = .ok c → h.text = c := by
      intro i t q h hti hm hq
      have hlt : i < programs.length := by rw [← hi.len]; exact lt_of_getElem? hti
      have ha := (hi.threads i t _ hti (List.getElem?_eq_getElem hlt)).answers _ _ hm
      simp only [Answer, hq] at ha
      obtain ⟨h', e, htx⟩ := ha
      cases e
      exact htx
    by_cases hw : ∃ q ∈ warm, canon q = .ok c
    · obtain ⟨h0, _, hall⟩ := C10_interned_when_registered_before_partial canon hid warm programs c hw
      rw [hall schedule i t q h hti hm hq, hall schedule j t' q' h' htj hm' hq']
    · have hone := hcond.resolve_left hw
      have hnone : (warmed canon warm).tags.get c = none := by
        cases hg : (warmed canon warm).tags.get c with
        | none => rfl
        | some h => exact absurd ((hinv.tagsKeys c).1 ((AMap.mem_keys_iff _ _).2 ⟨h, hg⟩)) hw
      have hlt : i < programs.length := by rw [← hi.len]; exact lt_of_getElem? hti
      have hth := hi.threads i t _ hti (List.getElem?_eq_getElem hlt)
      have hmem : q ∈ programs[i] := by
        rw [← hth.prog]
        exact List.mem_append_left _ (List.mem_map.2 ⟨_, hm, rfl⟩)
      have hown : ∀ (k : Nat) p x, programs[k]? = some p → x ∈ p → canon x = .ok c → k = i :=
        fun k p x hk hx hcx => hone k i p _ hk (List.getElem?_eq_getElem hlt) ⟨x, hx, hcx⟩ ⟨q, hmem, hq⟩
      rcases unregistered_run canon hid warm programs c i hown schedule _ hstart
        (Or.inl (unregistered_start canon warm _ hinv programs c i hnone)) with hu | ⟨h0, hpre⟩
      · exact absurd (text i t q h hti hm hq) (hu.done i t q h hti hm)
      · rw [hpre.done i t q h hti hm (text i t q h hti hm hq), hpre.done j t' q' h' htj hm' (text j t' q' h' htj hm' hq')]

/-- Both sides of the exact condition occur: one thread may ask for `en-ZA` in two spellings while the other asks for
`de`; with `en_ZA` in both programs the condition fails. -/
example : AlwaysInterned demoCanon [] [["en_ZA".toList, "en-ZA".toList], ["de".toList]] "en-ZA".toList ∧
    ¬ AlwaysInterned demoCanon [] [["de".toList, "en_ZA".toList], ["en-ZA".toList, "de".toList]] "en-ZA".toList := by
  rw [C10_interned_exactly_partial _ demoCanon_idem, C10_interned_exactly_partial _ demoCanon_idem]
  constructor
  · right
    have key : ∀ (i : Nat) (p : List Str), [["en_ZA".toList, "en-ZA".toList], ["de".toList]][i]? = some p →
        (∃ q ∈ p, demoCanon q = .ok "en-ZA".toList) → i = 0 := by
      intro i p hp hq
      match i, hp with
      | 0, _ => rfl
      | 1, hp =>
        simp only [List.getElem?_cons_succ, List.getElem?_cons_zero, Option.some.injEq] at hp
        subst hp
        obtain ⟨q, hq, hc⟩ := hq
        rw [List.mem_singleton] at hq
        subst hq
        have := Except.ok.inj hc
        exact absurd this (by decide)
      | n + 2, hp => simp at hp
    intro i j p p' hp hp' hq hq'
    rw [key i p hp hq, key j p' hp' hq']
  · rintro (⟨q, hq, _⟩ | h)
    · cases hq
    · exact absurd (h 0 1 _ _ rfl rfl ⟨"en_ZA".toList, by decide, rfl⟩ ⟨"en-ZA".toList, by decide, rfl⟩) (by decide)

/-- **C10, partial, listings.** What is missing: as in `C10_deprecated_listing_violated`. Proved: a canonical spelling
that was registered before the threads started, or that at most one thread asks for, is never a key of the deprecated
map, whatever the schedule. -/
theorem C10_unlisted_partial (canon : Str → Except E Str)
    (hid : ∀ q c, canon q = .ok c → canon c = .ok c) (warm : List Str) (programs : List (List Str)) (c : Str)
    (hcc : canon c = .ok c)
    (hcond : (∃ q ∈ warm, canon q = .ok c) ∨
      (∀ (i j : Nat) (p p' : List Str), programs[i]? = some p → programs[j]? = some p' →
        (∃ q ∈ p, canon q = .ok c) → (∃ q ∈ p', canon q = .ok c) → i = j)) (schedule : List Nat) :
    c ∉ ((TagSys.start (warmed canon warm) programs).run canon schedule).reg.deprecated.keys := by
  have hinv : Inv canon warm (warmed canon warm) := by
    simpa [warmed] using (run_spec canon hid warm [] Registry.new (inv_new canon)).1
  have hstart : Unlisted c (TagSys.start (E := E) (warmed canon warm) programs) := by
    constructor
    · cases hg : (warmed canon warm).deprecated.get c with
      | none => exact hg
      | some h =>
        obtain ⟨_, c', h1, h2⟩ := (hinv.depKeys c).1 ((AMap.mem_keys_iff _ _).2 ⟨h, hg⟩)
        rw [hcc] at h1; cases h1
        exact absurd rfl h2
    · intro j t rest ht _
      simp [TagSys.start] at ht
      obtain ⟨a, _, rfl⟩ := ht
      exact Or.inl rfl
  have hrun := unlisted_run canon hid warm programs c hcc schedule _ (start_inv canon hid warm _ hinv programs) hstart
    (fun hn => hcond.resolve_left fun hw => by
      obtain ⟨h, hg⟩ := (AMap.mem_keys_iff _ _).1 ((hinv.tagsKeys c).2 hw)
      have hn' : (warmed canon warm).tags.get c = none := hn
      rw [hg] at hn'; cases hn')
  intro hk
  obtain ⟨h, hg⟩ := (AMap.mem_keys_iff _ _).1 hk
  rw [hrun.dep] at hg; cases hg

example : demoCanon "en-ZA".toList = .ok "en-ZA".toList ∧ ∃ q ∈ ["en_ZA".toList], demoCanon q = .ok "en-ZA".toList :=
  ⟨rfl, "en_ZA".toList, by simp, rfl⟩

/-- **C46.** In every history of `icu_language` requests each answer is the parsed identifier of the tag text (a panic
happens exactly if that text does not parse), and two answers are the same object exactly when the tag texts agree. -/
theorem C46_icu_language_cached {L : Type} (parse : Str → Option L) (history : List TagRef)
    (t t' : TagRef) (a a' : Option (Nat × L))
    (h : (t, a) ∈ (IcuCache.run parse { entries := [], nextAddr := 0 } history).1)
    (h' : (t', a') ∈ (IcuCache.run parse { entries := [], nextAddr := 0 } history).1) :
    a.map Prod.snd = parse t.text ∧
    (∀ v v', a = some v → a' = some v' → (v.1 = v'.1 ↔ t.text = t'.text)) := by
  obtain ⟨hi, _, h3⟩ := icu_run_spec parse history { entries := [], nextAddr := 0 }
    (by constructor <;> simp)
  refine ⟨(h3 t a h).1, ?_⟩
  intro v v' hv hv'
  have e1 := (h3 t a h).2 v hv
  have e2 := (h3 t' a' h').2 v' hv'
  constructor
  · intro e
    obtain ⟨x, l⟩ := v
    obtain ⟨y, l'⟩ := v'
    simp only at e; subst e
    exact hi.inj _ _ _ _ _ e1 e2
  · intro e
    rw [e, e2] at e1; cases e1; rfl

example : (IcuCache.run (fun s => some s.length) { entries := [], nextAddr := 0 }
    [⟨0, "en".toList⟩, ⟨1, "en-ZA".toList⟩, ⟨2, "en".toList⟩]).1.map Prod.snd =
    [some (0, 2), some (1, 5), some (0, 2)] := by rfl

end Verif.Props
