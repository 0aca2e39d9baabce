import Verif.Lemmas.LocaliserSync
import Verif.Lemmas.LocaliserDefaults
import Verif.Props.Localiser
/-
Property theorems C33 and C49–C51: defaults, and the localiser shared by threads,
/repo/crates/localiser/src/localiser.rs.

A thread is a list of calls that it makes one after the other; a schedule says which thread makes the next step.
-/
namespace Verif.Props
open Verif Verif.Spec Verif.LocaliserLemmas Verif.SyncLemmas

variable {D F P S : Type}

/-- The threads before their first steps. -/
def threadsOf (L : LocEnv D F P) (scriptOf : Str → S) (threads : List (List (Request D F))) :
    List (Act (Shared S) (List (Option (LocM P (Str × Str))))) :=
  threads.map fun calls => syncThread L scriptOf calls []

/-! ### C33: changing defaults concurrently -/

/-- **C33.** When all threads have ended, whatever they called, the script data is that of the default language. -/
theorem C33_script_data_follows_language (L : LocEnv D F P) (scriptOf : Str → S) (l : Localiser S)
    (h : l.script = scriptOf l.tag) (threads : List (List (Request D F))) (schedule : List Nat) :
    let r := runThreads l.share (threadsOf L scriptOf threads) schedule
    (∀ p ∈ r.2, p.result.isSome = true) → r.1.script = scriptOf r.1.tag := by
  obtain ⟨phases, hc, hf⟩ := consistent_run schedule (consistent_start scriptOf l h threads) (follows_all L scriptOf threads)
  exact fun hd => (consistent_end hc hf hd).1

/-- **C33, no deadlock.** Under every endless schedule that leaves no thread out for ever all threads end. -/
theorem C33_threads_end (L : LocEnv D F P) (scriptOf : Str → S) (l : Localiser S) (h : l.script = scriptOf l.tag)
    (threads : List (List (Request D F))) (schedule : Nat → Nat)
    (hfair : ∀ i n, i < threads.length → ∃ m, schedule (n + m) = i) :
    ∃ n, ∀ p ∈ (during l.share (threadsOf L scriptOf threads) schedule n).2, p.result.isSome = true := by
  refine Act.fair_ends (C := fun s ts => ∃ phases, Consistent scriptOf s phases ∧ AllFollow scriptOf phases ts)
    ?_ ?_ _ _ ⟨_, consistent_start scriptOf l h threads, follows_all L scriptOf threads⟩ _ (by simpa [threadsOf] using hfair)
  · rintro s ts i ⟨phases, hc, hf⟩
    exact consistent_step hc hf i
  · rintro s ts ⟨phases, hc, hf⟩
    exact consistent_progress hc hf

/-- A localiser whose script data is the language itself. -/
def demoShared : Localiser Str := { Demo.start true with script := "en".toList }

/-- Two threads change the default language at the same time; the second waits in vain once (its second step). -/
example :
    let change := fun t : String => [(.defaults (some t.toList) none none : Request Nat Unit)]
    let r := runThreads demoShared.share (threadsOf (Demo.loc demoRows) id [change "de", change "fr"]) [0, 0, 1, 0, 0, 1, 1, 1, 1]
    (r.1.tag, r.1.script, r.2.map fun p => p.result.isSome) = ("fr".toList, "fr".toList, [true, true]) ∧
    let r := runThreads demoShared.share (threadsOf (Demo.loc demoRows) id [change "de", change "fr"]) [0, 1, 0, 1, 1, 0, 0, 1]
    (r.1.tag, r.1.script, r.2.map fun p => p.result.isSome) = ("fr".toList, "fr".toList, [true, true]) := by decide +kernel

/-- In the middle of a change script data and language do not fit. -/
example :
    let change := fun t : String => [(.defaults (some t.toList) none none : Request Nat Unit)]
    let r := runThreads demoShared.share (threadsOf (Demo.loc demoRows) id [change "de"]) [0]
    (r.1.tag, r.1.script) = ("de".toList, "en".toList) := by decide +kernel

/-- The turns are taken one after the other. -/
example : ∀ i n, i < 2 → ∃ m, (n + m) % 2 = i := fun i n _ => ⟨i + n, by omega⟩

/-! ### C49: defaults are those set last -/

/-- The call sets the default language. -/
def SetsTag : Request D F → Bool
  | .defaults (some _) _ _ => true
  | _ => false

/-- The call sets the default of fallback. -/
def SetsFallback : Request D F → Bool
  | .defaults _ (some _) _ => true
  | _ => false

/-- The call sets the default of caching. -/
def SetsCaching : Request D F → Bool
  | .defaults _ _ (some _) => true
  | _ => false

theorem call_keeps (L : LocEnv D F P) (scriptOf : Str → S) (l : Localiser S) (r : Request D F) :
    (SetsTag r = false → (l.call L scriptOf r).2.tag = l.tag ∧ (l.call L scriptOf r).2.script = l.script) ∧
    (SetsFallback r = false → (l.call L scriptOf r).2.fallback = l.fallback) ∧
    (SetsCaching r = false → (l.call L scriptOf r).2.caching = l.caching) := by
  cases r with
  | defaults t fb ca =>
    cases t <;> cases fb <;> cases ca <;> simp [SetsTag, SetsFallback, SetsCaching, Localiser.call, Localiser.setDefaults]
  | _ => exact ⟨fun _ => ⟨rfl, rfl⟩, fun _ => rfl, fun _ => rfl⟩

theorem after_keeps (L : LocEnv D F P) (scriptOf : Str → S) (calls : List (Request D F)) : ∀ l : Localiser S,
    ((∀ r ∈ calls, SetsTag r = false) →
      (l.after L scriptOf calls).tag = l.tag ∧ (l.after L scriptOf calls).script = l.script) ∧
    ((∀ r ∈ calls, SetsFallback r = false) → (l.after L scriptOf calls).fallback = l.fallback) ∧
    ((∀ r ∈ calls, SetsCaching r = false) → (l.after L scriptOf calls).caching = l.caching) := by
  induction calls with
  | nil => intro l; exact ⟨fun _ => ⟨rfl, rfl⟩, fun _ => rfl, fun _ => rfl⟩
  | cons r rest ih =>
    intro l
    obtain ⟨h1, h2, h3⟩ := call_keeps L scriptOf l r
    obtain ⟨i1, i2, i3⟩ := ih (l.call L scriptOf r).2
    refine ⟨fun h => ?_, fun h => ?_, fun h => ?_⟩
    · obtain ⟨a, b⟩ := i1 fun q hq => h q (by simp [hq])
      obtain ⟨c, d⟩ := h1 (h r (by simp))
      exact ⟨a.trans c, b.trans d⟩
    · exact (i2 fun q hq => h q (by simp [hq])).trans (h2 (h r (by simp)))
    · exact (i3 fun q hq => h q (by simp [hq])).trans (h3 (h r (by simp)))

/-- **C49.** Each default is the one set last, or the first one if none was set; the script data is that of the default
language set last; requests change none of them. -/
theorem C49_defaults_are_those_set_last (L : LocEnv D F P) (scriptOf : Str → S) (l : Localiser S)
    (before later : List (Request D F)) (tag : Option Str) (fallback caching : Option Bool) :
    let l' := l.after L scriptOf (before ++ .defaults tag fallback caching :: later)
    (∀ t, tag = some t → (∀ r ∈ later, SetsTag r = false) → l'.tag = t ∧ l'.script = scriptOf t) ∧
    (∀ b, fallback = some b → (∀ r ∈ later, SetsFallback r = false) → l'.fallback = b) ∧
    (∀ b, caching = some b → (∀ r ∈ later, SetsCaching r = false) → l'.caching = b) := by
  intro l'
  have e : l' = (((l.after L scriptOf before).call L scriptOf (.defaults tag fallback caching)).2).after L scriptOf later := by
    simp [l', Localiser.after, List.foldl_append]
  obtain ⟨h1, h2, h3⟩ := after_keeps L scriptOf later ((l.after L scriptOf before).call L scriptOf (.defaults tag fallback caching)).2
  rw [← e] at h1 h2 h3
  refine ⟨?_, ?_, ?_⟩
  · rintro t rfl h
    obtain ⟨a, b⟩ := h1 h
    rw [a, b]
    cases fallback <;> cases caching <;> exact ⟨rfl, rfl⟩
  · rintro b rfl h
    rw [h2 h]
    cases tag <;> cases caching <;> rfl
  · rintro b rfl h
    rw [h3 h]
    cases tag <;> cases fallback <;> rfl

/-- **C49, never set.** -/
theorem C49_defaults_never_set (L : LocEnv D F P) (scriptOf : Str → S) (l : Localiser S) (calls : List (Request D F)) :
    let l' := l.after L scriptOf calls
    ((∀ r ∈ calls, SetsTag r = false) → l'.tag = l.tag ∧ l'.script = l.script) ∧
    ((∀ r ∈ calls, SetsFallback r = false) → l'.fallback = l.fallback) ∧
    ((∀ r ∈ calls, SetsCaching r = false) → l'.caching = l.caching) := after_keeps L scriptOf calls l

/-- The second change of the language counts; fallback is as set in the first. -/
example : ∀ r ∈ [(.defaults none none (some false) : Request Nat Unit), Demo.lit "c" "hi"], SetsTag r = false := by
  decide +kernel

example :
    let l := demoShared.after (Demo.loc demoRows) id [.defaults (some "de".toList) (some false) none,
      Demo.lit "c" "bye", .defaults (some "fr".toList) none none, Demo.lit "c" "bye"]
    (l.tag, l.script, l.fallback, l.caching) = ("fr".toList, "fr".toList, false, true) := by decide +kernel

/-! ### C50: threads are answered as without cache -/

/-- The answers of a thread, as in `Demo.answers`. -/
def demoAnswers (p : Act (Shared Unit) (List (Option (LocM Unit (Str × Str))))) : List (Option (Option Str)) :=
  (p.result.getD []).map fun
    | some (.ok (s, _)) => some (some s)
    | some (.err _) => some none
    | some .panic => none
    | none => some none

/-- Two patterns. -/
def demoPair : Demo.Rows := Demo.rows [("c", "hi", "en", "hello {x}"), ("c", "so", "en", "so {x}")]

/-- **C50 is violated**: two threads format different patterns of one language that is not yet cached. Both find that the
language has no entry; the second to write drops the entry of the first, which the first then looks for in vain. One after
the other both calls are answered. -/
theorem C50_violated :
    let calls := [[Demo.fmt "c" "hi" [("x", .inl "you")]], [Demo.fmt "c" "so" [("x", .inl "what")]]]
    let threads := threadsOf (Demo.loc demoPair) (fun _ => ()) calls
    (runThreads (Demo.start true).share threads [0, 0, 0, 0, 1, 1, 1, 1, 0, 1, 0, 1]).2.map demoAnswers =
      [[none], [Demo.say "so what"]] ∧
    (runThreads (Demo.start true).share threads [0, 0, 0, 0, 0, 0, 1, 1, 1, 1, 1, 1]).2.map demoAnswers =
      [[Demo.say "hello you"], [Demo.say "so what"]] := by decide +kernel

/-- The strings needed before and by the threads. -/
def sharedUses (L : LocEnv D F P) (scriptOf : Str → S) (l : Localiser S) (before : List (Request D F))
    (threads : List (List (Request D F))) : List Use :=
  callsUses l.tag l.fallback before ++ threads.flatMap fun calls => calls.flatMap fun r =>
    requestUses (l.after L scriptOf before).tag (l.after L scriptOf before).fallback r

theorem callsUses_last (calls : List (Request D F)) : ∀ tag fb,
    callsUses tag fb (calls ++ [.defaults none none none]) = callsUses tag fb calls := by
  induction calls with
  | nil => intro tag fb; rfl
  | cons r rest ih =>
    intro tag fb
    cases r <;> simp only [List.cons_append, callsUses, ih]

theorem threads_ok (L : LocEnv D F P) (hco : Coherent L.provider) (scriptOf : Str → S) (l : Localiser S)
    (hl : l.cache = []) (before : List (Request D F)) (hp : NoPanic L scriptOf l before)
    (threads : List (List (Request D F))) (hst : ∀ calls ∈ threads, ∀ r ∈ calls, Steady r)
    (ht : Tame L (sharedUses L scriptOf l before threads)) (W : Prop)
    (hexact : W → Exact L (sharedUses L scriptOf l before threads))
    (hwarm : W → ∀ u ∈ sharedUses L scriptOf l before threads, (AMap.get (l.after L scriptOf before).cache u.tag).isSome = true)
    (hx : W → ∀ calls ∈ threads, ∀ r ∈ calls, plainAnswer L scriptOf (l.after L scriptOf before) r ≠ some .panic)
    (schedule : List Nat) (i : Nat) (calls : List (Request D F)) (hi : threads[i]? = some calls)
    (answers : List (Option (LocM P (Str × Str))))
    (ha : ∃ p, (runThreads (l.after L scriptOf before).share (threadsOf L scriptOf threads) schedule).2[i]? = some p ∧
      p.result = some answers) :
    Answers W (calls.map (plainAnswer L scriptOf (l.after L scriptOf before))) answers := by
  obtain ⟨hcache, _⟩ := history_ok hco ht scriptOf (.defaults none none none) before l (by rw [hl]; exact CacheOk.nil _ _)
    (fun u h => List.mem_append_left _ (by rwa [callsUses_last] at h)) hp
  have hrun := Act.ok_run (I := Inv L (sharedUses L scriptOf l before threads) (l.after L scriptOf before).tag
      (l.after L scriptOf before).fallback W) (R := Keeps W) (keeps_trans W) (keeps_refl W) schedule
    (l.after L scriptOf before).share (threadsOf L scriptOf threads)
    (fun i as => ∀ calls, threads[i]? = some calls →
      Answers W (calls.map (plainAnswer L scriptOf (l.after L scriptOf before))) as)
    ⟨fun tag m hm key e he => .inl (hcache tag m hm key e he), rfl, rfl, fun _ => rfl, fun _ _ _ => rfl, hwarm⟩
    (by
      intro j p hj
      simp only [threadsOf, List.getElem?_map, Option.map_eq_some_iff] at hj
      obtain ⟨calls', hj, rfl⟩ := hj
      have hm : calls' ∈ threads := List.mem_of_getElem? hj
      refine Act.Ok.weaken (thread_good hco ht hexact scriptOf (l.after L scriptOf before) calls' (hst calls' hm) ?_
        (fun w => hx w calls' hm) [] _) ?_
      · intro r hr u hu
        exact List.mem_append_right _ (List.mem_flatMap.2 ⟨calls', hm, List.mem_flatMap.2 ⟨r, hr, hu⟩⟩)
      · rintro as ⟨as', rfl, h⟩ calls'' hc
        rw [hj] at hc
        cases hc
        exact h)
  obtain ⟨p, hp1, hp2⟩ := ha
  have := hrun.2 i p hp1
  cases p with
  | step _ _ _ => cases hp2
  | done a => cases hp2; exact this calls hi

/-- **C50, what holds.** Threads share a localiser after some history. Under the conditions of C29, if no thread changes
the default language or the default of fallback, then under every schedule each thread that has ended got the answers
without cache, or got a panic after some of them. Missing: that there is no panic, and threads that change these
defaults. -/
theorem C50_answers_as_without_cache_partial (L : LocEnv D F P) (hco : Coherent L.provider) (scriptOf : Str → S)
    (l : Localiser S) (hl : l.cache = []) (before : List (Request D F)) (hp : NoPanic L scriptOf l before)
    (threads : List (List (Request D F))) (hst : ∀ calls ∈ threads, ∀ r ∈ calls, Steady r)
    (ht : Tame L (sharedUses L scriptOf l before threads)) (schedule : List Nat) (i : Nat) (calls : List (Request D F))
    (hi : threads[i]? = some calls) (p : Act (Shared S) (List (Option (LocM P (Str × Str)))))
    (hr : (runThreads (l.after L scriptOf before).share (threadsOf L scriptOf threads) schedule).2[i]? = some p)
    (answers : List (Option (LocM P (Str × Str)))) (ha : p.result = some answers) :
    let expected := calls.map (plainAnswer L scriptOf (l.after L scriptOf before))
    answers = expected ∨ ∃ n, n < expected.length ∧ answers = expected.take n ++ [some .panic] := by
  rcases threads_ok L hco scriptOf l hl before hp threads hst ht False (fun h => h.elim) (fun h => h.elim) (fun h => h.elim)
    schedule i calls hi answers ⟨p, hr, ha⟩ with h | ⟨_, h⟩
  · exact .inl h
  · exact .inr h

/-- **C50, a warm cache.** If moreover strings are found under exactly the requested tags, every language used has an
entry before the threads start, and no call panics without cache, then each thread gets exactly the answers without
cache. -/
theorem C50_warm_cache_partial (L : LocEnv D F P) (hco : Coherent L.provider) (scriptOf : Str → S)
    (l : Localiser S) (hl : l.cache = []) (before : List (Request D F)) (hp : NoPanic L scriptOf l before)
    (threads : List (List (Request D F))) (hst : ∀ calls ∈ threads, ∀ r ∈ calls, Steady r)
    (ht : Tame L (sharedUses L scriptOf l before threads)) (hexact : Exact L (sharedUses L scriptOf l before threads))
    (hwarm : ∀ u ∈ sharedUses L scriptOf l before threads, (AMap.get (l.after L scriptOf before).cache u.tag).isSome = true)
    (hx : ∀ calls ∈ threads, ∀ r ∈ calls, plainAnswer L scriptOf (l.after L scriptOf before) r ≠ some .panic)
    (schedule : List Nat) (i : Nat) (calls : List (Request D F)) (hi : threads[i]? = some calls)
    (p : Act (Shared S) (List (Option (LocM P (Str × Str)))))
    (hr : (runThreads (l.after L scriptOf before).share (threadsOf L scriptOf threads) schedule).2[i]? = some p)
    (answers : List (Option (LocM P (Str × Str)))) (ha : p.result = some answers) :
    answers = calls.map (plainAnswer L scriptOf (l.after L scriptOf before)) := by
  rcases threads_ok L hco scriptOf l hl before hp threads hst ht True (fun _ => hexact) (fun _ => hwarm) (fun _ => hx)
    schedule i calls hi answers ⟨p, hr, ha⟩ with h | ⟨h, _⟩
  · exact h
  · exact absurd trivial h

/-! An example of the conditions: a pattern and a text, both cached before, used by two threads. -/

def demoBefore : List (Request Nat Unit) := [Demo.fmt "c" "hi" [("x", .inl "all")]]

def demoThreads : List (List (Request Nat Unit)) :=
  [[Demo.fmt "c" "hi" [("x", .inl "you")], Demo.lit "c" "bye"],
    [Demo.lit "c" "bye", .defaults none none (some false), Demo.fmt "c" "hi" [("x", .inl "me")]]]

def demoUses : List Use := sharedUses (Demo.loc demoFew) (fun _ => ()) (Demo.start true) demoBefore demoThreads

theorem demoUses_tame : Tame (Demo.loc demoFew) demoUses where
  slash := by decide +kernel
  fallback := by decide +kernel
  kinds := by
    intro u hu v hv h1 h2 h3 h4
    exact absurd ⟨h1, h2, h3, h4⟩ ((by decide +kernel : ∀ u ∈ demoUses, ∀ v ∈ demoUses,
      ¬ (u.component = v.component ∧ u.identifier = v.identifier ∧ u.formatted = true ∧ v.formatted = false)) u hu v hv)
  numbers := fun _ _ _ tag s t h => demoFew_numbers tag s t h

theorem demoFew_exact {uses : List Use} (hen : ∀ u ∈ uses, u.tag = "en".toList) : Exact (Demo.loc demoFew) uses := by
  intro u hu s t h
  have hen := hen u hu
  have key : ∀ {c i : Str} {r : Str × Str}, (Demo.provider demoFew).string c i "en".toList = .ok (some r) → r.2 = "en".toList := by
    intro c i r h
    rcases (demo_string (s := r.1) (t := r.2) h).2 with h | h
    · exact h
    · rw [h]; decide
  rw [hen] at h ⊢
  generalize u.fallback = fb at h
  cases h with
  | requested h => exact key h
  | default h1 h2 h3 =>
    cases h2
    exact key h3

theorem demoUses_exact : Exact (Demo.loc demoFew) demoUses := demoFew_exact (by decide +kernel)

example : (∀ calls ∈ demoThreads, ∀ r ∈ calls, Steady r) ∧
    NoPanic (Demo.loc demoFew) (fun _ => ()) (Demo.start true) demoBefore ∧
    Tame (Demo.loc demoFew) demoUses ∧ Exact (Demo.loc demoFew) demoUses ∧
    (∀ u ∈ demoUses,
      (AMap.get ((Demo.start true).after (Demo.loc demoFew) (fun _ => ()) demoBefore).cache u.tag).isSome = true) ∧
    (runThreads ((Demo.start true).after (Demo.loc demoFew) (fun _ => ()) demoBefore).share
      (threadsOf (Demo.loc demoFew) (fun _ => ()) demoThreads) [1, 0, 1, 0, 0, 0, 1, 1, 1, 1, 1, 0, 1, 0, 0, 0, 0, 1, 1, 1, 1]).2.map demoAnswers =
      [[Demo.say "hello you", Demo.say "bye"], [Demo.say "bye", some none, Demo.say "hello me"]] := by
  refine ⟨?_, noPanic_of_answers _ _ _ (by decide +kernel), demoUses_tame, demoUses_exact, by decide +kernel, by decide +kernel⟩
  simp [demoThreads, Steady, Demo.fmt, Demo.lit]

/-! ### C51: one thread alone -/

/-- **C51.** A localiser with locks that is used by one thread gives the answers of the localiser without locks and is
then in the same state, as long as no call panics. -/
theorem C51_one_thread_as_without_locks (L : LocEnv D F P) (scriptOf : Str → S) (l : Localiser S)
    (calls : List (Request D F)) (hp : NoPanic L scriptOf l calls) :
    ∃ n, runThreads l.share (threadsOf L scriptOf [calls]) (List.replicate n 0) =
      ((l.after L scriptOf calls).share, [.done (answersOf L scriptOf l calls)]) :=
  Act.alone_run _ _ _ _ (by simpa using alone_thread L scriptOf calls l [] hp)

example : NoPanic (Demo.loc demoFew) (fun _ => ()) (Demo.start true) demoCalls ∧ demoCalls.length = 4 :=
  ⟨noPanic_of_answers _ _ _ (by decide +kernel), rfl⟩

end Verif.Props
