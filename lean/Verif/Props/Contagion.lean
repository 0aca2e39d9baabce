import Verif.Lemmas.Contagion
import Verif.Props.LocaliserSync
import Verif.Props.Crash
/-
Property theorems C97: the panic of one thread and the calls of others, /repo/crates/localiser/src/localiser.rs with the
feature `sync`.

A write lock whose holder panics is poisoned, and `unwrap` on the lock panics from then on. (A call that never ends counts
as a panic in the model of the formatter; it ends the whole program with a stack overflow.)
-/
namespace Verif.Props
open Verif Verif.Spec Verif.LocaliserLemmas Verif.SyncLemmas Verif.FormatLemmas

variable {D F P S : Type}

/-- A pattern with a command of this repository. -/
def anLoc : LocEnv Nat Unit Unit :=
  { Demo.loc (Demo.rows [("c", "an", "en", "{#english_a_or_an# w} {w}")]) with fmt := DemoCrash.env }

/-- **C97 is violated** in two ways.
1. A thread formats a pattern for `en-ZA` and then asks for a text that is found under `en`, and panics as in C30. Another
thread then asks only for what is in the cache, and panics too; without the first thread it gets its answer.
2. The command `english_a_or_an` panics for the empty text of one thread. Another thread then asks for the same pattern with another value, and panics;
without the first thread it gets its answer. -/
theorem C97_violated :
    ((runThreads (Demo.start true).share (threadsOf (Demo.loc demoRows) (fun _ => ())
        [[Demo.fmt "c" "hi" [("x", .inl "you")] "en-ZA", Demo.lit "c" "bye" "en-ZA"], [Demo.fmt "c" "hi" [("x", .inl "me")] "en-ZA"]])
        [0, 0, 0, 0, 0, 0, 0, 0, 0, 0, 0, 1, 1, 1, 1]).2.map demoAnswers = [[Demo.say "hello you", none], [none]] ∧
      (runThreads (Demo.start true).share (threadsOf (Demo.loc demoRows) (fun _ => ())
        [[Demo.fmt "c" "hi" [("x", .inl "me")] "en-ZA"]]) [0, 0, 0, 0, 0, 0]).2.map demoAnswers = [[Demo.say "hello me"]]) ∧
    ((runThreads (Demo.start true).share (threadsOf anLoc (fun _ => ())
        [[Demo.fmt "c" "an" [("w", .inl "")]], [Demo.fmt "c" "an" [("w", .inl "owl")]]])
        [0, 0, 0, 0, 0, 0, 1, 1, 1, 1]).2.map demoAnswers = [[none], [none]] ∧
      (runThreads (Demo.start true).share (threadsOf anLoc (fun _ => ()) [[Demo.fmt "c" "an" [("w", .inl "owl")]]])
        [0, 0, 0, 0, 0, 0]).2.map demoAnswers = [[Demo.say "an owl"]]) := by
  refine ⟨⟨?_, ?_⟩, ?_, ?_⟩ <;> decide +kernel

/-- The start, before anything is cached. -/
theorem sound_start (L : LocEnv D F P) (l : Localiser S) (hl : l.cache = []) : Sound L l.share where
  entries := by
    intro tag m h
    have h : AMap.get l.cache tag = some m := h
    rw [hl] at h
    cases h
  broken := by intro t k h; cases h
  poisoned := by intro h; cases h

theorem sound_run (L : LocEnv D F P) (scriptOf : Str → S) (l : Localiser S) (hl : l.cache = [])
    (threads : List (List (Request D F))) (schedule : List Nat) :
    let r := runThreads l.share (threadsOf L scriptOf threads) schedule
    Sound L r.1 ∧ ∀ (i : Nat) (p : Act (Shared S) (List (Option (LocM P (Str × Str))))), r.2[i]? = some p → p.Ok (Sound L) Stay (fun _ => True) r.1 := by
  refine Act.ok_run stay_trans stay_refl schedule l.share (threadsOf L scriptOf threads) (fun _ _ => True)
    (sound_start L l hl) ?_
  intro i p hp
  simp only [threadsOf, List.getElem?_map, Option.map_eq_some_iff] at hp
  obtain ⟨calls, -, rfl⟩ := hp
  exact sound_thread scriptOf calls _

/-- **C97, never again.** Whatever the threads did: once the lock of the cache is poisoned, every later request of every
new thread panics, whatever it asks for and with all schedules; only changes of defaults succeed. -/
theorem C97_never_again (L : LocEnv D F P) (scriptOf : Str → S) (l : Localiser S) (hl : l.cache = [])
    (threads : List (List (Request D F))) (schedule : List Nat) :
    let r := runThreads l.share (threadsOf L scriptOf threads) schedule
    r.1.poisoned = true → ∀ (more : List (List (Request D F))) (later : List Nat) (i : Nat)
      (p : Act (Shared S) (List (Option (LocM P (Str × Str))))) (answers : List (Option (LocM P (Str × Str)))),
      (runThreads r.1 (r.2 ++ threadsOf L scriptOf more) later).2[threads.length + i]? = some p →
      p.result = some answers → ∀ x, some x ∈ answers → x = .panic := by
  intro r hp more later i p answers hi hres x hx
  obtain ⟨hs, hold⟩ := sound_run L scriptOf l hl threads schedule
  have hlen : r.2.length = threads.length := by
    have : ∀ (schedule : List Nat) (s : Shared S) (ts : List (Act (Shared S) (List (Option (LocM P (Str × Str)))))),
        (runThreads s ts schedule).2.length = ts.length := by
      intro schedule
      induction schedule with
      | nil => intro s ts; rfl
      | cons i rest ih =>
        intro s ts
        rw [runThreads, ih]
        unfold stepThread
        cases ts[i]? <;> simp
    rw [this]
    simp [threadsOf]
  have hrun := Act.ok_run (I := Poisoned L) (R := Stay) stay_trans stay_refl later r.1 (r.2 ++ threadsOf L scriptOf more)
    (fun j as => threads.length ≤ j → ∀ x, some x ∈ as → x = .panic) ⟨hs, hp⟩ (by
      intro j q hq
      by_cases hj : j < threads.length
      · rw [List.getElem?_append_left (by omega)] at hq
        exact Act.Ok.weaken (poisoned_old (hold j q hq)) fun as _ h => absurd h (by omega)
      · rw [List.getElem?_append_right (by omega)] at hq
        simp only [threadsOf, List.getElem?_map, Option.map_eq_some_iff] at hq
        obtain ⟨calls, -, rfl⟩ := hq
        exact Act.Ok.weaken (poisoned_thread scriptOf calls _) fun as h _ => h)
  have := hrun.2 _ p hi
  cases p with
  | step _ _ _ => cases hres
  | done a => cases hres; exact this (by omega) x hx

/-- **C97, the cache.** Threads can poison the lock of the cache of a new localiser exactly if some string is found under
another language than the one asked for, and that language can get an entry in the cache for another string. -/
theorem C97_poisoned_iff (L : LocEnv D F P) (scriptOf : Str → S) (l : Localiser S) (hl : l.cache = []) :
    (∃ threads schedule, (runThreads l.share (threadsOf L scriptOf threads) schedule).1.poisoned = true) ↔ Trap L := by
  constructor
  · rintro ⟨threads, schedule, h⟩
    exact (sound_run L scriptOf l hl threads schedule).1.poisoned h
  · intro h
    obtain ⟨r1, r2, schedule, h⟩ := trap_reached scriptOf l hl h
    exact ⟨[[r1], [r2]], schedule, h⟩

theorem breaks_iff (L : LocEnv D F P) (tag key : Str) : Breaks L tag key ↔ CanBreak L tag key := by
  constructor
  · rintro ⟨c, i, fb, s, t, f, history, values, rfl, hf, hs, hn, hp⟩
    cases hl : L.icuLanguage t with
    | none => rw [hl] at hn; exact absurd hn tryNew_none
    | some lang =>
      rw [hl] at hn
      obtain ⟨d, hr⟩ := tryNew_reads hn
      have hok := accepted_ok hr hn
      by_cases hh : ∀ v ∈ history, ¬ Endless L.fmt lang v d.named.reverse mainName d.main
      · exact ⟨c, i, fb, s, t, lang, d, values, rfl, hf, hl, hr, hok, (C96_formatting L.fmt hr hn history hh values).1 hp⟩
      · obtain ⟨v, hv⟩ := Classical.not_forall.1 hh
        obtain ⟨-, hv⟩ := Classical.not_imp.1 hv
        exact ⟨c, i, fb, s, t, lang, d, v, rfl, hf, hl, hr, hok, .inr (Classical.not_not.1 hv)⟩
  · rintro ⟨c, i, fb, s, t, lang, d, values, rfl, hf, hl, hr, hok, h⟩
    obtain ⟨f, hn⟩ := (C48_accepted_exactly L.fmt s t lang).2 ⟨d, hr, hok⟩
    refine ⟨c, i, fb, s, t, f, [], values, rfl, hf, ?_, by rw [hl]; exact hn,
      (C96_formatting L.fmt hr hn [] (by simp) values).2 h⟩
    rintro rfl
    obtain ⟨ts, hx, -⟩ := hr
    unfold lex LexerIterator.tryNew at hx
    by_cases hg : L.fmt.grammar.isEmpty = true
    · simp [hg] at hx
    · simp [hg, charIndices] at hx

/-- **C97, formatters.** Threads can poison the lock of the formatter with this language and key exactly if a pattern string
is accepted for them, and with some values a command panics while it is shown, or showing it never ends. -/
theorem C97_broken_iff (L : LocEnv D F P) (scriptOf : Str → S) (l : Localiser S) (hl : l.cache = []) (tag key : Str) :
    (∃ threads schedule, (runThreads l.share (threadsOf L scriptOf threads) schedule).1.broken tag key = true) ↔
      CanBreak L tag key := by
  rw [← breaks_iff]
  constructor
  · rintro ⟨threads, schedule, h⟩
    exact (sound_run L scriptOf l hl threads schedule).1.broken tag key h
  · intro h
    obtain ⟨r1, calls, schedule, h, -⟩ := break_reached scriptOf l hl h
    exact ⟨[[r1], calls], schedule, h⟩

theorem no_main_ends {E : FmtEnv D F} {lang : Str} {values : AMap Str (PValue D F)} {before : List Named} {self : Str}
    {items : List Item} (h : Endless E lang values before self items) :
    ¬ ∀ it ∈ items ++ before.flatMap Named.items, ∀ id k sels, it = .pat id (some (k, sels)) →
      mainName ∉ sels.map fun s => s.1.str := by
  induction h with
  | here before self front it back _ hp =>
    intro hall
    have := hall it (by simp)
    generalize hm : mainName = m at hp
    cases hp with
    | count id k sels v r n f _ _ _ _ _ hin => exact this id k sels rfl (hm ▸ hin)
    | choice id k sels v s _ _ _ hin => exact this id k sels rfl (hm ▸ hin)
  | inside before self front it back n later earlier _ _ hb _ ih =>
    intro hall
    refine ih fun x hx => hall x ?_
    subst hb
    simp only [List.mem_append, List.mem_flatMap] at hx ⊢
    rcases hx with hx | ⟨m, hm, hx⟩
    · exact .inr ⟨n, by simp, hx⟩
    · exact .inr ⟨m, by simp [hm], hx⟩

theorem crashes_command {E : FmtEnv D F} {lang : Str} {values : AMap Str (PValue D F)} {before : List Named} {self : Str}
    {items : List Item} (h : Crashes E lang values before self items) : CmdPanics E := by
  induction h with
  | here _ _ _ _ _ _ hb =>
    cases hb with
    | command n h ps f h1 h2 => exact ⟨_, f, _, h1, h2⟩
  | inside _ _ _ _ _ _ _ _ _ _ _ _ ih => exact ih

/-- **C97, what holds.** If strings are found only under the languages asked for, no registered command panics, and no
selector of a pattern shows the main string, then no panic (because another thread dropped an entry, see C50, or while a
string is read, see C11) leaves a poisoned lock. Missing: other strings and commands. -/
theorem C97_no_lock_poisoned_partial (L : LocEnv D F P) (scriptOf : Str → S) (l : Localiser S) (hl : l.cache = [])
    (hexact : ∀ c i tag fallback s t, fetch L c i tag fallback = .ok (s, t) → t = tag) (hcmd : ¬ CmdPanics L.fmt)
    (hmain : ∀ c i tag fallback s t d, fetch L c i tag fallback = .ok (s, t) → Reads L.fmt s d →
      ∀ id k sels, Item.pat id (some (k, sels)) ∈ d.items → mainName ∉ sels.map fun s => s.1.str)
    (threads : List (List (Request D F))) (schedule : List Nat) :
    let s := (runThreads l.share (threadsOf L scriptOf threads) schedule).1
    s.poisoned = false ∧ ∀ t k, s.broken t k = false := by
  intro s
  refine ⟨Bool.eq_false_iff.2 fun h => ?_, fun t k => Bool.eq_false_iff.2 fun h => ?_⟩
  · obtain ⟨c, i, tag, fb, x, t, key, hf, ht, -⟩ := (C97_poisoned_iff L scriptOf l hl).1 ⟨threads, schedule, h⟩
    exact ht (hexact _ _ _ _ _ _ hf)
  · obtain ⟨c, i, fb, x, t, lang, d, values, -, hf, -, hr, -, h⟩ := (C97_broken_iff L scriptOf l hl t k).1 ⟨threads, schedule, h⟩
    rcases h with h | h
    · exact hcmd (crashes_command h)
    · refine no_main_ends h fun it hit id k sels e => hmain _ _ _ _ _ _ d hf hr id k sels ?_
      subst e
      simp only [List.mem_append, List.mem_flatMap, List.mem_reverse, Doc.items] at hit ⊢
      rcases hit with h | h
      · exact .inl h
      · exact .inr h

/-- The strings of the witness are such strings. -/
example : Trap (Demo.loc demoRows) ∧ CanBreak anLoc "en".toList "c/an".toList :=
  ⟨(C97_poisoned_iff _ (fun _ => ()) (Demo.start true) rfl).1 ⟨[[Demo.fmt "c" "hi" [("x", .inl "you")] "en-ZA",
    Demo.lit "c" "bye" "en-ZA"]], [0, 0, 0, 0, 0, 0, 0, 0, 0, 0, 0], by decide +kernel⟩,
    (C97_broken_iff _ (fun _ => ()) (Demo.start true) rfl _ _).1 ⟨[[Demo.fmt "c" "an" [("w", .inl "")]]], [0, 0, 0, 0, 0, 0],
      by decide +kernel⟩⟩

/-! An example of the conditions: one pattern, found only under its language. -/

/-- The pattern `dogs` under `en`; a provider that knows no default language. -/
def dogsLoc : LocEnv Nat Unit Unit where
  fmt := Demo.env
  provider :=
    { string := fun c i tag => if c = "c".toList ∧ i = "dogs".toList ∧ tag = "en".toList then .ok (some (Demo.dogs, tag)) else .ok none
      default := fun _ => .error () }
  icuLanguage := some

theorem dogsLoc_fetch {c i tag s t : Str} {fb : Bool} (h : fetch dogsLoc c i tag fb = .ok (s, t)) :
    s = Demo.dogs ∧ t = tag ∧ tag = "en".toList ∧ c = "c".toList ∧ i = "dogs".toList := by
  have hf := fetch_found dogsLoc c i tag fb
  rw [h] at hf
  have key : ∀ {c i tag : Str} {r : Str × Str}, dogsLoc.provider.string c i tag = .ok (some r) →
      r = (Demo.dogs, tag) ∧ tag = "en".toList ∧ c = "c".toList ∧ i = "dogs".toList := by
    intro c i tag r h
    simp only [dogsLoc] at h
    split at h
    · rename_i hc
      cases h
      exact ⟨rfl, hc.2.2, hc.1, hc.2.1⟩
    · cases h
  cases hf with
  | requested h => obtain ⟨h1, h2⟩ := key h; cases h1; exact ⟨rfl, rfl, h2⟩
  | default h1 h2 h3 => cases h2

theorem dogsLoc_fits : (∀ c i tag fallback s t, fetch dogsLoc c i tag fallback = .ok (s, t) → t = tag) ∧ ¬ CmdPanics dogsLoc.fmt ∧
    (∀ c i tag fallback s t d, fetch dogsLoc c i tag fallback = .ok (s, t) → Reads dogsLoc.fmt s d →
      ∀ id k sels, Item.pat id (some (k, sels)) ∈ d.items → mainName ∉ sels.map fun s => s.1.str) ∧
    fetch dogsLoc "c".toList "dogs".toList "en".toList true = .ok (Demo.dogs, "en".toList) := by
  refine ⟨fun c i tag fb s t h => (dogsLoc_fetch h).2.1, ?_, ?_, rfl⟩
  · rintro ⟨n, f, args, h1, h2⟩
    have h1 : AMap.get [("join".toList, Demo.join)] n = some f := h1
    simp only [AMap.get_cons] at h1
    split at h1
    · rw [← Option.some.inj h1] at h2
      cases h2
    · cases h1
  · intro c i tag fb s t d h hr id k sels hit
    obtain ⟨rfl, -⟩ := dogsLoc_fetch h
    obtain rfl := C85_string_one_reading Demo.dogs_reads hr
    obtain ⟨rfl, rfl, rfl⟩ := dogs_item hit
    decide +kernel

end Verif.Props
