import Verif.Lemmas.Settings
import Verif.Props.LockSync
import Verif.Props.Contagion
/-
Property theorems C98: panics of threads that share a localiser never reach its settings,
/repo/crates/localiser/src/localiser.rs.
-/
namespace Verif.Props
open Verif Verif.Spec Verif.LockLemmas

variable {D F P S : Type}

theorem calm_start (L : TalkLocEnv D F P) (scriptOf : Str → S) (depth : Nat) (requests : List (List (Request D F))) :
    ∀ (i : Nat) (t : LockThread (LkState S) (List (Run (Answer P)))),
      (requests.map fun rs => LockThread.start (lkThread L scriptOf depth rs []))[i]? = some t →
      Calm (fun _ : List (Run (Answer P)) => True) [] t.held t.prog := by
  intro i t h
  rw [List.getElem?_map] at h
  obtain ⟨rs, -, rfl⟩ := Option.map_eq_some_iff.1 h
  exact lkThread_calm L scriptOf depth rs []

/-! ### C98: the settings are always usable -/

/-- **C98, never poisoned.** Whatever any number of threads ask, whatever their commands ask, whichever of them panic, in whatever
order they get their turns and whether readers wait for waiting writers or not: the locks of the language tag, of the script data
and of the defaults for fallback and caching are never poisoned. -/
theorem C98_settings_never_poisoned (L : TalkLocEnv D F P) (scriptOf : Str → S) (depth : Nat) (s : LkState S)
    (hs : SettingsUsable s) (requests : List (List (Request D F)))
    (policy : List (LockThread (LkState S) (List (Run (Answer P)))) → Cell → Bool) (schedule : List Nat) :
    SettingsUsable (lockRun policy s (requests.map fun rs => .start (lkThread L scriptOf depth rs [])) schedule).1 :=
  (lockRun_calm policy (Q := fun _ _ => True) schedule hs (calm_start L scriptOf depth requests)).1

/-- **C98, who poisons.** A lock that becomes poisoned in a turn of a thread is held for writing by that thread: no thread poisons a
lock that it only reads or does not hold. -/
theorem C98_only_its_writer_poisons (L : TalkLocEnv D F P) (scriptOf : Str → S) (depth : Nat) (s : LkState S)
    (hs : SettingsUsable s) (requests : List (List (Request D F)))
    (policy : List (LockThread (LkState S) (List (Run (Answer P)))) → Cell → Bool) (schedule : List Nat) (i : Nat) (c : Cell) :
    let now := lockRun policy s (requests.map fun rs => .start (lkThread L scriptOf depth rs [])) schedule
    now.1.poisoned c = false → (lockStep policy now.1 now.2 i).1.poisoned c = true →
      ∃ t, now.2[i]? = some t ∧ (c, true) ∈ t.held := by
  intro now h h'
  obtain ⟨h1, h2⟩ := lockRun_calm policy (Q := fun _ _ => True) schedule hs (calm_start L scriptOf depth requests)
  rcases (lockStep_calm policy h1 h2 i).2.1 c h' with h3 | h3
  · rw [show now.1.poisoned c = true from h3] at h
    cases h
  · exact h3

/-- **C98, the defaults can be set.** A thread that only sets defaults gets its answers, whatever the other threads do and
however often they panic: when it ends, no request of it has panicked. -/
theorem C98_defaults_never_panic (L : TalkLocEnv D F P) (scriptOf : Str → S) (depth : Nat) (s : LkState S)
    (hs : SettingsUsable s) (requests : List (List (Request D F)))
    (policy : List (LockThread (LkState S) (List (Run (Answer P)))) → Cell → Bool) (schedule : List Nat) (i : Nat)
    (rs : List (Request D F)) (hi : requests[i]? = some rs) (hr : ∀ r ∈ rs, OnlyDefaults r)
    (answers : List (Run (Answer P))) (held : List (Cell × Bool)) (waiting : Bool)
    (h : (lockRun policy s (requests.map fun rs => .start (lkThread L scriptOf (depth + 1) rs [])) schedule).2[i]? =
      some ⟨.done answers, held, waiting⟩) : answers = List.replicate rs.length (.value none) ∧ held = [] := by
  have h1 := (lockRun_calm policy
    (Q := fun j as => j = i → as = List.replicate rs.length (.value none)) schedule hs
    (threads := requests.map fun rs => .start (lkThread L scriptOf (depth + 1) rs [])) (fun j t hj => by
      by_cases hji : j = i
      · subst hji
        rw [List.getElem?_map, hi] at hj
        cases hj
        exact Calm.weaken (fun as h _ => by simpa using h) (lkThread_defaults L scriptOf depth rs hr [])
      · exact Calm.weaken (fun _ _ h => (hji h).elim) (calm_start L scriptOf (depth + 1) requests j t hj))).2 i _ h
  exact ⟨h1.2 rfl, h1.1⟩

/-! A thread panics in a formatter: the lock of the formatter is poisoned, and the thread that sets the defaults goes on. -/

/-- State after a schedule of two threads: the first formats, the second sets the defaults. -/
def panicsBeside (schedule : List Nat) : LkState Unit × List (LockThread (LkState Unit) (List (Run (Answer Unit)))) :=
  lockRun (fun _ _ => true) ⟨Demo.start true, fun _ => false⟩
    ([[Demo.fmt "c" "an" [("w", .inl "")]], [setsDefaults, setsDefaults]].map fun rs =>
      LockThread.start (lkThread (talkLoc anLoc) (fun _ => ()) 4 rs [])) schedule

/-- How the requests of the threads ended: `true` is a panic. -/
def endings (threads : List (LockThread (LkState Unit) (List (Run (Answer Unit))))) : List (List Bool) :=
  threads.map fun t => match t.prog with
    | .done answers => answers.map fun
      | .panic => true
      | _ => false
    | _ => []

example :
    let now := panicsBeside (List.replicate 60 0 ++ List.replicate 60 1)
    (now.1.poisoned (.formatter "en".toList "c/an".toList), now.1.poisoned .cache, now.1.poisoned .tag, endings now.2) =
      (true, false, false, [[true], [false, false]]) := by decide +kernel

/-- In the step before, the thread holds the lock that it will poison for writing; it also holds the lock of the cache, but only for
reading. -/
example : SettingsUsable (⟨Demo.start true, fun _ => false⟩ : LkState Unit) ∧
    (panicsBeside (List.replicate 30 0)).1.poisoned (.formatter "en".toList "c/an".toList) = false ∧
    (panicsBeside (List.replicate 31 0)).1.poisoned (.formatter "en".toList "c/an".toList) = true ∧
    (panicsBeside (List.replicate 30 0)).2.map (·.held) =
      [[(.formatter "en".toList "c/an".toList, true), (.cache, false)], []] :=
  ⟨fun _ _ => rfl, by decide +kernel, by decide +kernel, by decide +kernel⟩

end Verif.Props
