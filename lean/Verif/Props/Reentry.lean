import Verif.Lemmas.ReentrySafe
import Verif.Props.Localiser
/-
Property theorems C77: commands that call the localiser, /repo/crates/localiser/src/localiser.rs and formatter.rs.
-/
namespace Verif.Props
open Verif Verif.Spec Verif.ReentryLemmas

variable {D F P S : Type}

/-! ### C77: no call meets a cell that is borrowed -/

/-- **C77, commands that call nothing.** Then the borrows of the cells never conflict: every request has the result, and
leaves the localiser, of the model without cells. -/
theorem C77_as_without_cells (L : LocEnv D F P) (scriptOf : Str → S) (depth : Nat) (r : Request D F) (l : Localiser S) :
    reRequest (talkLoc L) scriptOf (depth + 1) r (ReState.idle l) =
      (asRun (l.call L scriptOf r).1, ReState.idle (l.call L scriptOf r).2) :=
  reCall_plain L scriptOf _ r l

theorem history_after {L : TalkLocEnv D F P} {scriptOf : Str → S} {depth : Nat} {p : Request D F → Prop}
    {J : Localiser S → Prop}
    (h : ∀ r l, p r → J l → Tri none' off (reRequest L scriptOf depth r) l (fun _ => J) J J) (requests : List (Request D F))
    (hr : ∀ r ∈ requests, p r) : ∀ l, J l → ∃ l', reAfter L scriptOf depth (ReState.idle l) requests = ReState.idle l' ∧ J l' := by
  induction requests with
  | nil => intro l hl; exact ⟨l, rfl, hl⟩
  | cons r rest ih =>
    intro l hl
    obtain ⟨l', h1, h2⟩ := (h r l (hr r (List.mem_cons_self ..)) hl).after.2
    obtain ⟨l'', h3⟩ := ih (fun r hr' => hr r (List.mem_cons_of_mem _ hr')) l' h2
    refine ⟨l'', ?_⟩
    unfold reAfter at h3 ⊢
    rw [List.foldl_cons, h1]
    exact h3

theorem tame_empty {L : TalkLocEnv D F P} {l : Localiser S} (hl : l.cache = []) : Tame L l := by
  intro _ _ _ _ h
  rw [hl] at h
  cases h

/-- **C77, harmless commands.** If commands ask only for strings as they are, without caching, or set the defaults, then after
any history no request meets a borrowed cell, and no cell stays borrowed. Missing: other commands, see `C77_violated`. -/
theorem C77_harmless_commands_partial (L : TalkLocEnv D F P) (hL : CommandsAsk L.fmt Harmless) (scriptOf : Str → S)
    (depth : Nat) (l : Localiser S) (hl : l.cache = []) (requests : List (Request D F)) (r : Request D F) :
    ∃ l', reAfter L scriptOf depth (ReState.idle l) requests = ReState.idle l' ∧
      (reRequest L scriptOf depth r (ReState.idle l')).1 ≠ .conflict ∧
      ∃ l'', (reRequest L scriptOf depth r (ReState.idle l')).2 = ReState.idle l'' := by
  have h := reRequest_tri (L := L) (scriptOf := scriptOf)
    (fun c i tag s t _ => Converses.weaken (any_requests _) (fun _ h => h) fun _ _ _ _ => .inr hL) depth
  obtain ⟨l', h1, h2⟩ := history_after (p := fun _ => True) (fun r l _ => h r l) requests (fun _ _ => trivial) l (tame_empty hl)
  exact ⟨l', h1, (h r l' h2).idle⟩

/-- **C77, immediate commands.** If no string of the provider has a delayed command (`{#name# …}`), then commands may ask for
everything, the string itself included: after any history no request meets a borrowed cell. (Calls without end are not
excluded; `depth` bounds the calls within calls.) Missing: delayed commands, see `C77_violated`. -/
theorem C77_immediate_commands_partial (L : TalkLocEnv D F P) (hL : NothingDelayed L) (scriptOf : Str → S)
    (depth : Nat) (l : Localiser S) (hl : l.cache = []) (requests : List (Request D F)) (r : Request D F) :
    ∃ l', reAfter L scriptOf depth (ReState.idle l) requests = ReState.idle l' ∧
      (reRequest L scriptOf depth r (ReState.idle l')).1 ≠ .conflict ∧
      ∃ l'', (reRequest L scriptOf depth r (ReState.idle l')).2 = ReState.idle l'' := by
  have h := reRequest_tri (L := L) (scriptOf := scriptOf)
    (fun c i tag s t hs => Converses.weaken (talkNew_not L.fmt (hL c i tag s t hs) t _) (fun _ h => h)
      fun _ h f hf => .inl (h f hf)) depth
  obtain ⟨l', h1, h2⟩ := history_after (p := fun _ => True) (fun r l _ => h r l) requests (fun _ _ => trivial) l (tame_empty hl)
  exact ⟨l', h1, (h r l' h2).idle⟩

/-- **C77, without caching.** If neither the program nor a command asks for caching, commands may ask for everything else:
no request meets a borrowed cell. Missing: caching, see `C77_violated`. -/
theorem C77_uncached_partial (L : TalkLocEnv D F P) (hL : CommandsAsk L.fmt Uncached) (scriptOf : Str → S) (depth : Nat)
    (l : Localiser S) (hl : l.cache = []) (requests : List (Request D F)) (hr : ∀ r ∈ requests, Uncached r) (r : Request D F)
    (hu : Uncached r) :
    ∃ l', reAfter L scriptOf depth (ReState.idle l) requests = ReState.idle l' ∧
      (reRequest L scriptOf depth r (ReState.idle l')).1 ≠ .conflict ∧
      ∃ l'', (reRequest L scriptOf depth r (ReState.idle l')).2 = ReState.idle l'' := by
  have h := reRequest_empty (L := L) (scriptOf := scriptOf) hL depth
  obtain ⟨l', h1, h2⟩ := history_after (p := Uncached) h requests hr l hl
  exact ⟨l', h1, (h r l' hu h2).idle⟩

/-! ### Commands that call the localiser -/

namespace DemoReentry

/-- Strings with a delayed command, with an immediate command, and without commands. -/
def rows : Demo.Rows :=
  Demo.rows [("c", "late", "en", "late: {#say# it}"), ("c", "now", "en", "now: {#say it}"), ("c", "bye", "en", "bye"),
    ("c", "hi", "en", "hello {x}")]

/-- The command `say` asks one thing and gives the text, or else an error. -/
def say (r : Request Nat Unit) : TalkCommand Nat Unit Unit := fun _ => .ask r fun
  | some (.ok (s, _)) => .done (.ok s)
  | _ => .done (.err (.custom 0))

/-- A localiser with such a command. -/
def loc (r : Request Nat Unit) (rows : Demo.Rows := rows) : TalkLocEnv Nat Unit Unit where
  fmt := ⟨Demo.env.icu, Demo.env.grammar, Demo.env.icu4x, fun name => if name = "say".toList then some (say r) else none⟩
  provider := Demo.provider rows
  icuLanguage := some

/-- Results of calls: the text; `0` for an error, `1` for a panic, `2` for a borrowed cell, `3` for too many calls. -/
def results (L : TalkLocEnv Nat Unit Unit) (s : ReState Unit) : List (Request Nat Unit) → List (Str ⊕ Nat)
  | [] => []
  | r :: rest =>
    (match (reRequest L (fun _ => ()) 4 r s).1 with
      | .value (some (.ok (t, _))) => .inl t
      | .value _ => .inr 0
      | .panic => .inr 1
      | .conflict => .inr 2
      | .deep => .inr 3) :: results L (reRequest L (fun _ => ()) 4 r s).2 rest

/-- A string as it is, not cached. -/
def plain : Request Nat Unit := .literal "c".toList "bye".toList (some "en".toList) none (some false)

/-- A pattern, formatted but not cached. -/
def uncachedHi : Request Nat Unit := .format "c".toList "hi".toList (Demo.vals [("x", .inl "you")]) none none (some false)

end DemoReentry
open DemoReentry

/-- **C77 is violated.** A delayed command that asks for something to be cached meets the borrowed cache, while without
caching all is well: it asks for a string as it is (the first two), or for a pattern (the next two). And a delayed command
that formats its own pattern, even without caching, meets the borrowed formatter (the last). -/
theorem C77_violated :
    results (loc (Demo.lit "c" "bye")) (.idle (Demo.start true)) [Demo.fmt "c" "late" []] = [.inr 2] ∧
    results (loc (Demo.lit "c" "bye")) (.idle (Demo.start false)) [Demo.fmt "c" "late" []] = [.inl "late: bye".toList] ∧
    results (loc (Demo.fmt "c" "hi" [("x", .inl "you")])) (.idle (Demo.start true)) [Demo.fmt "c" "late" []] = [.inr 2] ∧
    results (loc (Demo.fmt "c" "hi" [("x", .inl "you")])) (.idle (Demo.start false)) [Demo.fmt "c" "late" []] =
      [.inl "late: hello you".toList] ∧
    results (loc (.format "c".toList "late".toList [] (some "en".toList) none (some false))) (.idle (Demo.start true))
      [Demo.fmt "c" "late" []] = [.inr 2] := by
  refine ⟨?_, ?_, ?_, ?_, ?_⟩ <;> decide +kernel

/-- Whether a command fails can depend on what was asked before: if the string of the command is cached already, all is
well. -/
example : results (loc (Demo.lit "c" "bye")) (.idle (Demo.start true)) [Demo.lit "c" "bye", Demo.fmt "c" "late" []] =
    [.inl "bye".toList, .inl "late: bye".toList] := by decide +kernel

/-- Immediate commands can ask for anything, also with caching. -/
example : results (loc (Demo.fmt "c" "hi" [("x", .inl "you")])) (.idle (Demo.start true)) [Demo.fmt "c" "now" []] =
    [.inl "now: hello you".toList] := by decide +kernel

/-- No number sign after the name of a command. -/
def noneDelayed (t : Tree) : Bool := t.nodes.all fun n =>
  match n.children with
  | some (_ :: m :: _) => (t.nodes[m]?).map (·.nodeType) ≠ some .numberSign
  | _ => true

theorem not_delayed {t : Tree} (h : noneDelayed t = true) (i : Nat) : ¬ Delayed t i := by
  rintro ⟨c, m, rest, h1, h2⟩
  unfold Tree.children at h1
  unfold Tree.nodeType at h2
  cases hi : t.nodes[i]? with
  | none => rw [hi] at h1; cases h1
  | some n =>
    rw [hi] at h1
    cases hc : n.children with
    | none => simp [hc, Outcome.unwrap] at h1
    | some cs =>
      have h1 : (Outcome.ok cs : FmtM (List Nat)) = .ok (c :: m :: rest) := by simpa [hc, Outcome.unwrap] using h1
      cases h1
      have hn := List.all_eq_true.1 h n (List.mem_of_getElem? hi)
      rw [hc] at hn
      cases hm : t.nodes[m]? with
      | none => rw [hm] at h2; cases h2
      | some k =>
        rw [hm] at h2
        dsimp only at hn
        rw [hm] at hn
        have h2 : k.nodeType = .numberSign := by simpa [Outcome.unwrap] using h2
        simp [h2] at hn

/-- Strings without delayed commands. -/
def demoNow : Demo.Rows := Demo.rows [("c", "now", "en", "now: {#say it}"), ("c", "hi", "en", "hello {x}")]

/-- The conditions of `C77_immediate_commands_partial` are met by a command that has a pattern formatted and cached. -/
example : NothingDelayed (loc (Demo.fmt "c" "hi" [("x", .inl "you")]) demoNow) := by
  intro c i tag s t h tree ht
  have hm := (demo_string h).1
  have hs : s = "now: {#say it}".toList ∨ s = "hello {x}".toList := by
    simp only [demoNow, Demo.rows, List.map_cons, List.map_nil, List.mem_cons, List.not_mem_nil, or_false] at hm
    rcases hm with h | h
    · exact .inl (congrArg (·.2.2.2) h)
    · exact .inr (congrArg (·.2.2.2) h)
  have hx : ∀ s, (match Tree.tryNew Demo.env.icu Demo.env.grammar s with
      | .ok t => noneDelayed t
      | _ => false) = true → Tree.tryNew Demo.env.icu Demo.env.grammar s = .ok tree → noneDelayed tree = true := by
    intro s h h'
    rw [h'] at h
    exact h
  rcases hs with rfl | rfl <;> exact not_delayed (hx _ (by decide +kernel) ht)

/-- The condition of `C77_harmless_commands_partial` is met by a command that asks. -/
theorem plain_harmless : CommandsAsk (loc plain).fmt Harmless := by
  intro name c h ps
  dsimp only [loc] at h
  split at h
  · cases h
    refine ⟨rfl, fun a => ?_⟩
    dsimp only
    split <;> trivial
  · cases h

example : CommandsAsk (loc plain).fmt Harmless ∧
    results (loc plain) (.idle (Demo.start true)) [Demo.fmt "c" "late" [], Demo.fmt "c" "late" []] =
      [.inl "late: bye".toList, .inl "late: bye".toList] := ⟨plain_harmless, by decide +kernel⟩

/-- The condition of `C77_uncached_partial` is met by a command that has a pattern formatted. -/
example : CommandsAsk (loc uncachedHi).fmt Uncached ∧ results (loc uncachedHi) (.idle (Demo.start false))
    [.format "c".toList "late".toList [] none none (some false)] = [.inl "late: hello you".toList] := by
  refine ⟨?_, by decide +kernel⟩
  intro name c h ps
  dsimp only [loc] at h
  split at h
  · cases h
    refine ⟨rfl, fun a => ?_⟩
    dsimp only
    split <;> trivial
  · cases h

end Verif.Props
