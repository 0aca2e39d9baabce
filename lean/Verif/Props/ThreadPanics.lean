import Verif.Lemmas.ThreadPanics
import Verif.Props.Contagion
/-
Property theorems C50, panics: exactly which requests can panic because of what other threads do,
/repo/crates/localiser/src/localiser.rs with the feature `sync`.
-/
namespace Verif.Props
open Verif Verif.Spec Verif.LocaliserLemmas Verif.SyncLemmas

variable {D F P S : Type}

/-- The request `r` of a new localiser can panic: there are threads and an order of the steps of all threads with which it
does. -/
def ThreadPanics (L : LocEnv D F P) (scriptOf : Str → S) (l : Localiser S) (r : Request D F) : Prop :=
  ∃ others schedule, (runThreads l.share (threadsOf L scriptOf ([r] :: others)) schedule).2[0]? = some (.done [some .panic])

/-- What the answer of the first thread satisfies in all runs. -/
theorem answer_ok (L : LocEnv D F P) (scriptOf : Str → S) (l : Localiser S) (hl : l.cache = []) (r : Request D F) {X : Prop}
    (h : ∀ s, (syncCall (S := S) L scriptOf r).Ok (Sound L) Stay (fun a => a = some .panic → X) s)
    (hp : ThreadPanics L scriptOf l r) : X := by
  obtain ⟨others, schedule, hr⟩ := hp
  have := Act.ok_run stay_trans stay_refl schedule l.share (threadsOf L scriptOf ([r] :: others))
    (fun i as => i = 0 → as = [some .panic] → X) (sound_start L l hl) (by
      intro i p hp
      cases i with
      | succ i =>
        simp only [threadsOf, List.map_cons, List.getElem?_cons_succ, List.getElem?_map, Option.map_eq_some_iff] at hp
        obtain ⟨calls, -, rfl⟩ := hp
        exact Act.Ok.weaken (sound_thread scriptOf calls _) fun _ _ h => absurd h (by omega)
      | zero =>
        cases hp
        refine Act.Ok.weaken (Q := fun as => as = [some .panic] → X) ?_ fun _ h _ => h
        refine Act.Ok.bind stay_trans stay_refl (h l.share) fun a s' _ ha => ?_
        match a, ha with
        | some .panic, ha => exact fun _ => ha rfl
        | some (.ok _), _ => exact fun h => by simp at h
        | some (.err _), _ => exact fun h => by simp at h
        | none, _ => exact fun h => by simp at h)
  exact this.2 0 _ hr rfl rfl

/-- **C50, strings.** A request for a string as it is can panic exactly if some string is found under another language than the one asked
for, and that language can get an entry for another string; whatever string the request asks for. -/
theorem C50_literal_panics_iff (L : LocEnv D F P) (scriptOf : Str → S) (l : Localiser S) (hl : l.cache = []) (c i tag : Str)
    (fallback caching : Bool) :
    ThreadPanics L scriptOf l (.literal c i (some tag) (some fallback) (some caching)) ↔ Trap L := by
  constructor
  · refine answer_ok L scriptOf l hl _ fun s => ?_
    refine options_ok sound_blind _ _ _ (fun t f c' s => ?_) s
    refine Act.Ok.bind stay_trans stay_refl (sound_literal t f c' c i id s) fun a s' _ ha => ?_
    intro h
    cases h
    exact ha rfl
  · intro h
    obtain ⟨r1, r2, schedule, h⟩ := trap_reached scriptOf l hl h
    obtain ⟨schedule, h⟩ := reach_after (schedule := schedule) 4 (walk_poisoned (L := L) scriptOf h c i tag fallback caching []).1
    exact ⟨[[r1], [r2]], schedule, h⟩

/-- **C50, patterns.** A request to format a pattern can panic in exactly the ways of `FormatPanics`, whatever its values are. -/
theorem C50_format_panics_iff (L : LocEnv D F P) (scriptOf : Str → S) (l : Localiser S) (hl : l.cache = []) (c i tag : Str)
    (values : AMap Str (PValue D F)) (fallback caching : Bool) :
    ThreadPanics L scriptOf l (.format c i values (some tag) (some fallback) (some caching)) ↔
      FormatPanics L c i tag fallback caching := by
  constructor
  · refine answer_ok L scriptOf l hl _ fun s => ?_
    have hx : Perils L tag (cacheKey c i) c i fallback caching → FormatPanics L c i tag fallback caching := by
      rintro (h | h | h)
      · exact .inl h
      · exact .inr (.inl ((breaks_iff L tag _).1 h))
      · exact .inr (.inr h)
    refine options_given sound_blind tag fallback caching (fun s => ?_) s
    refine Act.Ok.bind stay_trans stay_refl (sound_format tag fallback caching c i values hx s) fun a s' _ ha => ?_
    intro h
    cases h
    exact ha rfl
  · rintro (h | h | ⟨s, t, hf, hs, h⟩)
    · obtain ⟨r1, r2, schedule, h⟩ := trap_reached scriptOf l hl h
      obtain ⟨schedule, h⟩ := reach_after (schedule := schedule) 4 (walk_poisoned (L := L) scriptOf h c i tag fallback caching values).2
      exact ⟨[[r1], [r2]], schedule, h⟩
    · obtain ⟨r1, calls, schedule, hb, hp, m, f, hm, hk⟩ := break_reached scriptOf l hl ((breaks_iff L tag _).2 h)
      obtain ⟨schedule, h⟩ := reach_after (schedule := schedule) 4
        (walk_broken (L := L) scriptOf hp hm hk hb fallback caching values)
      exact ⟨[[r1], calls], schedule, h⟩
    · rcases h with h | ⟨rfl, hd, f, hn⟩
      · obtain ⟨schedule, h⟩ := reach_after (s := l.share) (ts := []) (schedule := []) 4
          (walk_unprepared (L := L) scriptOf (s := l.share) rfl hl hf hs h caching values)
        exact ⟨[], schedule, h⟩
      · obtain ⟨r, schedule, h⟩ := drop_reached scriptOf l hl hf hs hn hd values
        exact ⟨[[r]], schedule, h⟩

/-- **C50, when nothing can panic.** A request for a string as it is never panics, whatever the other threads do, if strings are found only under the languages
asked for. -/
theorem C50_literal_never_panics_partial (L : LocEnv D F P) (scriptOf : Str → S) (l : Localiser S) (hl : l.cache = []) (c i tag : Str)
    (fallback caching : Bool) (hexact : ∀ c i tag fallback s t, fetch L c i tag fallback = .ok (s, t) → t = tag) :
    ¬ ThreadPanics L scriptOf l (.literal c i (some tag) (some fallback) (some caching)) := by
  rw [C50_literal_panics_iff L scriptOf l hl]
  rintro ⟨c, i, tag, fb, x, t, key, hf, ht, -⟩
  exact ht (hexact _ _ _ _ _ _ hf)

/-! Examples: a request that can panic as in `C50_violated`; and one that cannot, as nothing else can be cached. -/

theorem ok_of_isOk {x : Outcome ε α} (h : (match x with | .ok _ => true | _ => false) = true) : ∃ a, x = .ok a := by
  cases x with
  | ok a => exact ⟨a, rfl⟩
  | err e => cases h
  | panic => cases h

example : FormatPanics (Demo.loc demoPair) "c".toList "hi".toList "en".toList true true :=
  .inr (.inr ⟨"hello {x}".toList, "en".toList, rfl, by decide, .inr ⟨rfl, ⟨"c/so".toList, by decide,
    "c".toList, "so".toList, "en".toList, true, "so {x}".toList, "en".toList, by decide, rfl, .inl rfl⟩,
    ok_of_isOk (by decide +kernel)⟩⟩)

example : ¬ FormatPanics dogsLoc "c".toList "dogs".toList "en".toList true true := by
  rintro (⟨c, i, tag, fb, s, t, key, hf, ht, -⟩ | h | ⟨s, t, hf, -, h⟩)
  · exact ht (dogsLoc_fetch hf).2.1
  · obtain ⟨threads, schedule, h⟩ := (C97_broken_iff dogsLoc (fun _ => ()) (Demo.start true) rfl _ _).2 h
    have := (C97_no_lock_poisoned_partial dogsLoc (fun _ => ()) (Demo.start true) rfl dogsLoc_fits.1 dogsLoc_fits.2.1
      dogsLoc_fits.2.2.1 threads schedule).2 "en".toList (cacheKey "c".toList "dogs".toList)
    rw [h] at this
    cases this
  · obtain ⟨rfl, rfl, -⟩ := dogsLoc_fetch hf
    rcases h with h | ⟨-, ⟨other, hne, c, i, tag, fb, s, t, rfl, hf, -⟩, -⟩
    · obtain ⟨f, hf⟩ := ok_of_isOk (x := Formatter.tryNew dogsLoc.fmt Demo.dogs "en".toList (dogsLoc.icuLanguage "en".toList))
        (by decide +kernel)
      rw [h] at hf
      cases hf
    · obtain ⟨-, -, -, rfl, rfl⟩ := dogsLoc_fetch hf
      exact hne rfl

end Verif.Props
