import Verif.Lemmas.ThreadAnswers
import Verif.Props.ThreadPanics
import Verif.Props.Transparent
/-
Property theorems C50 and C87, answers: exactly which answers a request can get when other threads share the localiser,
/repo/crates/localiser/src/localiser.rs with the feature `sync`.
-/
namespace Verif.Props
open Verif Verif.Spec Verif.LocaliserLemmas Verif.SyncLemmas

variable {D F P S : Type}

/-- The request `r` of a new localiser can get the answer `x`: there are threads and an order of the steps of all threads with
which it does. -/
def ThreadAnswers (L : LocEnv D F P) (scriptOf : Str → S) (l : Localiser S) (r : Request D F) (x : LocM P (Str × Str)) : Prop :=
  ∃ others schedule, (runThreads l.share (threadsOf L scriptOf ([r] :: others)) schedule).2[0]? = some (.done [some x])

theorem kept_start (L : LocEnv D F P) (l : Localiser S) (hl : l.cache = []) : Kept L l.share :=
  ⟨sound_start L l hl, fun tag m h => by
    have : l.share.cache = [] := hl
    rw [this] at h
    cases h⟩

theorem perils_panics {L : LocEnv D F P} {c i tag : Str} {fallback caching : Bool}
    (h : Perils L tag (cacheKey c i) c i fallback caching) : FormatPanics L c i tag fallback caching := by
  rcases h with h | h | h
  · exact .inl h
  · exact .inr (.inl ((breaks_iff L tag _).1 h))
  · exact .inr (.inr h)

/-- What the answer of the first thread satisfies in all runs. -/
theorem answer_kept (L : LocEnv D F P) (scriptOf : Str → S) (l : Localiser S) (hl : l.cache = []) (r : Request D F)
    {Q : LocM P (Str × Str) → Prop} (h : ∀ s, (syncCall (S := S) L scriptOf r).Ok (Kept L) Stay (fun a => ∀ x, a = some x → Q x) s)
    {x : LocM P (Str × Str)} (hp : ThreadAnswers L scriptOf l r x) : Q x := by
  obtain ⟨others, schedule, hr⟩ := hp
  have := Act.ok_run stay_trans stay_refl schedule l.share (threadsOf L scriptOf ([r] :: others))
    (fun i as => i = 0 → ∀ x, as = [some x] → Q x) (kept_start L l hl) (by
      intro i p hp
      cases i with
      | succ i =>
        simp only [threadsOf, List.map_cons, List.getElem?_cons_succ, List.getElem?_map, Option.map_eq_some_iff] at hp
        obtain ⟨calls, -, rfl⟩ := hp
        refine Act.Ok.weaken (thread_ok (Q := fun _ => True) kept_blind scriptOf (fun tag fb ca c i s => ?_)
          (fun tag fb ca c i vs s => ?_) calls [] _) fun _ _ h => absurd h (by omega)
        · exact Act.Ok.weaken (kept_literal tag fb ca c i s) fun _ _ => trivial
        · exact Act.Ok.weaken (kept_format tag fb ca c i vs perils_panics s) fun _ _ => trivial
      | zero =>
        cases hp
        refine Act.Ok.weaken (Q := fun as => ∀ x, as = [some x] → Q x) ?_ fun _ h _ => h
        refine Act.Ok.bind stay_trans stay_refl (h l.share) fun a s' _ ha => ?_
        match a, ha with
        | some .panic, ha => intro x hx; cases hx; exact ha _ rfl
        | some (.ok _), ha => intro x hx; cases hx; exact ha _ rfl
        | some (.err _), ha => intro x hx; cases hx; exact ha _ rfl
        | none, _ => exact fun x h => by simp at h)
  exact this.2 0 _ hr rfl _ rfl

/-- **C50, strings.** The answers that a request for a string as it is can get, whatever other threads do, are exactly those of
`LiteralAnswer`. -/
theorem C50_literal_answers_iff (L : LocEnv D F P) (scriptOf : Str → S) (l : Localiser S) (hl : l.cache = []) (c i tag : Str)
    (fallback caching : Bool) (x : LocM P (Str × Str)) :
    ThreadAnswers L scriptOf l (.literal c i (some tag) (some fallback) (some caching)) x ↔ LiteralAnswer L c i tag fallback x := by
  constructor
  · refine answer_kept L scriptOf l hl _ fun s => ?_
    refine options_given kept_blind tag fallback caching (fun s => ?_) s
    refine Act.Ok.bind stay_trans stay_refl (kept_literal tag fallback caching c i s) fun a s' _ ha => ?_
    intro x h
    cases h
    exact ha
  · rintro (h | ⟨y, h, rfl⟩ | ⟨rfl, f, h⟩ | ⟨rfl, h⟩)
    · rw [← found_fetch h]
      obtain ⟨schedule, h⟩ := reach_after (s := l.share) (ts := []) (schedule := []) 5
        (walk_alone_literal (L := L) scriptOf (s := l.share) rfl hl c i tag fallback caching)
      exact ⟨[], schedule, h⟩
    · obtain ⟨r, schedule, h1, m, h2, h3⟩ := string_reached scriptOf l hl h
      obtain ⟨schedule, h⟩ := reach_after (schedule := schedule) 4 (walk_string (L := L) scriptOf h1 h2 h3 fallback caching []).1
      exact ⟨[[r]], schedule, h⟩
    · obtain ⟨r1, calls, schedule, h1, h2, m, h3, h4⟩ := formatter_reached scriptOf l hl h
      obtain ⟨schedule, h⟩ := reach_after (schedule := schedule) 4
        (walk_formatter (L := L) scriptOf h2 h3 h4 h1 fallback caching []).1
      exact ⟨[[r1], calls], schedule, h⟩
    · exact (C50_literal_panics_iff L scriptOf l hl c i tag fallback caching).2 h

/-- **C50, patterns.** The answers that a request to format a pattern can get, whatever other threads do, are exactly those of
`FormatAnswer`. -/
theorem C50_format_answers_iff (L : LocEnv D F P) (scriptOf : Str → S) (l : Localiser S) (hl : l.cache = []) (c i tag : Str)
    (values : AMap Str (PValue D F)) (fallback caching : Bool) (x : LocM P (Str × Str)) :
    ThreadAnswers L scriptOf l (.format c i values (some tag) (some fallback) (some caching)) x ↔
      FormatAnswer L c i tag values fallback caching (actualFormat L [] c i values tag fallback false).1 x := by
  rw [actualFormat_nil]
  constructor
  · refine answer_kept L scriptOf l hl _ fun s => ?_
    refine options_given kept_blind tag fallback caching (fun s => ?_) s
    refine Act.Ok.bind stay_trans stay_refl (kept_format tag fallback caching c i values perils_panics s) fun a s' _ ha => ?_
    intro x h
    cases h
    exact ha
  · rintro (rfl | ⟨y, h, rfl⟩ | ⟨f, h, rfl⟩ | ⟨rfl, rfl, ⟨y, h⟩, s, t, f, hf, hs, hn⟩ | ⟨rfl, h⟩)
    · obtain ⟨schedule, h⟩ := reach_after (s := l.share) (ts := []) (schedule := []) 6
        (walk_alone_format (L := L) scriptOf (s := l.share) rfl hl c i tag fallback caching values)
      exact ⟨[], schedule, h⟩
    · obtain ⟨r, schedule, h1, m, h2, h3⟩ := string_reached scriptOf l hl h
      obtain ⟨schedule, h⟩ := reach_after (schedule := schedule) 4 (walk_string (L := L) scriptOf h1 h2 h3 fallback caching values).2
      exact ⟨[[r]], schedule, h⟩
    · obtain ⟨r1, calls, schedule, h1, h2, m, h3, h4⟩ := formatter_reached scriptOf l hl h
      obtain ⟨schedule, h⟩ := reach_after (schedule := schedule) 4
        (walk_formatter (L := L) scriptOf h2 h3 h4 h1 fallback caching values).2
      exact ⟨[[r1], calls], schedule, h⟩
    · obtain ⟨r, schedule, h⟩ := never_reached scriptOf l hl hf hs hn h values
      exact ⟨[[r]], schedule, h⟩
    · exact (C50_format_panics_iff L scriptOf l hl c i tag values fallback caching).2 h

/-- **C87, with threads.** The error that the code says is never reached is a possible answer to every request to format a pattern
that is found under the language asked for and that is cached. -/
theorem C87_never_reached_with_threads (L : LocEnv D F P) (scriptOf : Str → S) (l : Localiser S) (hl : l.cache = []) (c i tag s : Str)
    (values : AMap Str (PValue D F)) (fallback : Bool) {f : Formatter} (hf : Found L.provider c i tag fallback (.ok (s, tag)))
    (hs : s ≠ []) (hn : Formatter.tryNew L.fmt s tag (L.icuLanguage tag) = .ok f) :
    ThreadAnswers L scriptOf l (.format c i values (some tag) (some fallback) (some true)) (.err .neverReached) :=
  have hf := found_fetch hf
  (C50_format_answers_iff L scriptOf l hl c i tag values fallback true _).2
    (.inr (.inr (.inr (.inl ⟨rfl, rfl, ⟨s, c, i, tag, fallback, rfl, hf⟩, s, tag, f, hf, hs, hn⟩))))

/-- The answer is the error that is said never to be reached. -/
def saidNever : Option (Act (Shared Unit) (List (Option (LocM Unit (Str × Str))))) → Bool
  | some (.done [some (.err .neverReached)]) => true
  | _ => false

/-- **C87, violated with threads.** A run: the second thread looks for the string, the first stores its formatter, the second
stores the string as it is, and the first gets the error. -/
theorem C87_never_violated :
    saidNever (runThreads (Demo.start true).share (threadsOf dogsLoc (fun _ => ())
      [[.format "c".toList "dogs".toList [] (some "en".toList) (some true) (some true)],
       [.literal "c".toList "dogs".toList (some "en".toList) (some true) (some true)]])
      [1, 1, 1, 1, 0, 0, 0, 0, 0, 1, 0]).2[0]? = true := by
  decide +kernel

/-! Examples: a request to format can be answered with the pattern as it is; with the cache off it never gets the error above. -/

example : FormatAnswer dogsLoc "c".toList "dogs".toList "en".toList [] true true
    (actualFormat dogsLoc [] "c".toList "dogs".toList [] "en".toList true false).1 (.ok (Demo.dogs, "en".toList)) :=
  .inr (.inl ⟨Demo.dogs, ⟨"c".toList, "dogs".toList, "en".toList, true, rfl, rfl⟩, rfl⟩)

example : ¬ LiteralAnswer dogsLoc "c".toList "dogs".toList "en".toList true .panic := by
  rintro (h | ⟨s, -, h⟩ | ⟨h, -⟩ | ⟨-, c, i, tag, fb, s, t, key, hf, ht, -⟩)
  · exact fetch_no_panic _ _ _ _ _ (found_fetch h)
  · cases h
  · cases h
  · exact ht (dogsLoc_fetch hf).2.1

end Verif.Props
