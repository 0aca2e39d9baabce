import Verif.Spec.ProviderLocaliser
import Verif.Lemmas.ProviderCoherent
import Verif.Props.Provider
import Verif.Props.LocaliserSync
/-
The tag reported with a string, and the localiser on top of the SQLite provider.
-/
namespace Verif.Props
open Verif Verif.Spec Verif.ProviderLemmas

variable {E D F S : Type}

/-! ### C55 -/

/-- **C55, what holds.** Whatever string a request returns with a tag, the request with that tag returns the same string and
tag, if the registry keeps the text of the tags in the store up to case. What is missing: tags in the store that the
registry replaces by others (`C55_violated`). -/
theorem C55_reported_tag_returns_it_partial {canon : Str → Except E Str} {p : Sqlite} (hc : Connected p) {st : Verif.Store}
    {c : Str} {files : Bool × Bool} (h : p.components.get c = some files) {rows : Str → List PatternRow}
    (hr : Holds canon st (places files c) rows) (hf : ∀ name ∈ places files c, Faithful canon (rows name))
    (i tag : Str) (hw : NoWildcards tag) (s t : Str) (hs : p.string canon st c i tag = .ok (some (s, t))) :
    p.string canon st c i t = .ok (some (s, t)) := by
  obtain ⟨found, xs, h1, h2, h3⟩ := oneString_decides hc (i := i) (tag := tag) h false hr fun _ => hw
  have he : xs.head? = some (s, t) := by
    rw [Sqlite.string, h3] at hs
    exact Outcome.ok.inj hs
  cases hfd : found with
  | nil =>
    rw [hfd] at h2
    rw [(allGive_nil h2).2 (by simp [limit])] at he
    cases he
  | cons r rest =>
    rw [hfd] at h2
    have h2 : AllGive canon [r] xs := by simpa [limit] using h2
    cases h2 with
    | @cons _ x _ _ hg h2 =>
      cases h2
      have hx : x = (s, t) := Option.some.inj he
      subst hx
      obtain ⟨name, hn, hmem, v, hv, hb⟩ := decides_truncation h1 r (by rw [hfd]; simp)
      obtain ⟨hl, hnw⟩ := hf name hn r hmem t hg.2
      have hne : t ≠ [] := by
        rintro rfl
        have : lower r.tag = [] := hl.symm
        unfold Begins at hb
        rw [this, List.prefix_nil] at hb
        exact hv.1 (List.map_eq_nil_iff.1 hb)
      obtain ⟨rest', hd⟩ := decides_again hl hne h1 hfd ⟨v, hv, hb⟩
      obtain ⟨found', xs', g1, g2, g3⟩ := oneString_decides hc (i := i) (tag := t) h false hr fun _ => hnw
      have := g1.unique hd
      subst this
      have g2 : AllGive canon [r] xs' := by simpa [limit] using g2
      rw [Sqlite.string, g3]
      cases g2 with
      | @cons _ y _ _ hg' g2 =>
        cases g2
        obtain ⟨y1, y2⟩ := y
        have e1 : y1 = s := hg'.1.trans hg.1.symm
        have e2 : y2 = t := Except.ok.inj (hg'.2.symm.trans hg.2)
        subst e1 e2
        rfl

/-- A string is returned exactly if it is that of the row found. -/
theorem string_iff {canon : Str → Except E Str} {p : Sqlite} (hc : Connected p) {st : Verif.Store} {c : Str} {files : Bool × Bool}
    (h : p.components.get c = some files) {rows : Str → List PatternRow} (hr : Holds canon st (places files c) rows) {i tag : Str}
    (hw : NoWildcards tag) {x : Str × Str} : p.string canon st c i tag = .ok (some x) ↔
      ∃ r, FoundUnder rows c i (places files c) tag r ∧ Gives canon r x := by
  obtain ⟨found, xs, h1, h2, h3⟩ := oneString_decides hc (i := i) (tag := tag) h false hr fun _ => hw
  rw [Sqlite.string, h3]
  constructor
  · intro he
    have he : xs.head? = some x := Outcome.ok.inj he
    cases hfd : found with
    | nil =>
      rw [hfd] at h2
      rw [(allGive_nil h2).2 (by simp [limit])] at he
      cases he
    | cons r rest =>
      subst hfd
      have h2 : AllGive canon [r] xs := by simpa [limit] using h2
      cases h2 with
      | @cons _ y _ _ hg h2 =>
        cases h2
        cases Option.some.inj he
        exact ⟨r, ⟨rest, h1⟩, hg⟩
  · rintro ⟨r, ⟨rest, hd⟩, hg⟩
    have := h1.unique hd
    subst this
    have h2 : AllGive canon [r] xs := by simpa [limit] using h2
    cases h2 with
    | @cons _ y _ _ hg' h2 =>
      cases h2
      obtain ⟨y1, y2⟩ := y
      obtain ⟨x1, x2⟩ := x
      have e1 : y1 = x1 := hg'.1.trans hg.1.symm
      have e2 : y2 = x2 := Except.ok.inj (hg'.2.symm.trans hg.2)
      subst e1 e2
      rfl

/-- **C55, exactly when.** The tag reported with a string returns the same string and tag, for all requested tags, exactly if that
is so for every row that is found under a beginning of its own tag: for each store finitely many (but for letter case). -/
theorem C55_exactly_partial {canon : Str → Except E Str} (hcanon : ∀ q t, canon q = .ok t → NoWildcards t) {p : Sqlite}
    (hc : Connected p) {st : Verif.Store} {c : Str} {files : Bool × Bool} (h : p.components.get c = some files)
    {rows : Str → List PatternRow} (hr : Holds canon st (places files c) rows) (i : Str) :
    (∀ tag s t, NoWildcards tag → p.string canon st c i tag = .ok (some (s, t)) → p.string canon st c i t = .ok (some (s, t))) ↔
      ∀ v r, NoWildcards v → Begins v r.tag → FoundUnder rows c i (places files c) v r →
        FoundAgain canon rows c i (places files c) r := by
  constructor
  · intro hall v r hv _ hf t ht
    exact (string_iff hc h hr (hcanon _ _ ht)).1
      (hall v r.string t hv ((string_iff hc h hr hv).2 ⟨r, hf, rfl, ht⟩))
  · intro hall tag s t hw hs
    obtain ⟨r, ⟨rest, hd⟩, rfl, ht⟩ := (string_iff hc h hr hw).1 hs
    obtain ⟨v, hv, hb, hd'⟩ := decides_beginning hd rfl
    have hvw : NoWildcards v := by
      rcases hv.2 with rfl | ⟨x, rfl⟩
      · exact hw
      · exact ⟨fun hm => hw.1 (List.mem_append_left _ hm), fun hm => hw.2 (List.mem_append_left _ hm)⟩
    exact (string_iff hc h hr (hcanon _ _ ht)).2 (hall v r hvw hb ⟨rest, hd'⟩ t ht)

open DemoStore

namespace DemoAlias

def de : Str := "de".toList
def deDD : Str := "de-DD".toList
def deDE : Str := "de-DE".toList
def servus : Str := "Servus".toList
def tag : Str := "Guten Tag".toList

/-- A registry that knows that a country is now part of another. -/
def renamed : Str → Except Unit Str := fun t => .ok (if t = deDD then deDE else t)

/-- Two strings of which the registry does not tell the tags apart. -/
def old : Verif.Store := DemoStore.store [] [row deDD servus, row deDE tag]

end DemoAlias

open DemoAlias in
/-- **C55 is violated**: the registry replaces the tag of a row by that of another row, so the tag reported with one string
returns another. -/
theorem C55_violated :
    (provider (false, true)).string renamed old app greeting de = .ok (some (servus, deDE)) ∧
    (provider (false, true)).string renamed old app greeting deDE = .ok (some (tag, deDE)) := by
  constructor <;> decide +kernel

open DemoAlias in
/-- In this store a row is not found again. -/
example : ¬ ∀ v r, NoWildcards v → Begins v r.tag →
    FoundUnder (rowsOf [] [row deDD servus, row deDE tag]) app greeting (places (false, true) app) v r →
      FoundAgain renamed (rowsOf [] [row deDD servus, row deDE tag]) app greeting (places (false, true) app) r := by
  intro h
  have h1 := C55_violated
  have hH : Holds renamed old (places (false, true) app) (rowsOf [] [row deDD servus, row deDE tag]) :=
    fun name hn => ⟨(holds _ _ _ name hn).1, fun r _ => ⟨_, rfl⟩⟩
  obtain ⟨r, hf, hg⟩ := (string_iff (c := app) (files := (false, true)) (i := greeting) (connected _) rfl hH (tag := de) (by decide)).1 h1.1
  obtain ⟨rest, hd⟩ := hf
  obtain ⟨v, hv, hb, hd'⟩ := decides_beginning hd rfl
  have hvw : NoWildcards v := by
    rcases hv.2 with rfl | ⟨x, hx⟩
    · decide
    · have hw : NoWildcards de := by decide
      rw [hx] at hw
      exact ⟨fun hm => hw.1 (List.mem_append_left _ hm), fun hm => hw.2 (List.mem_append_left _ hm)⟩
  have h2 := h v r hvw hb ⟨rest, hd'⟩ deDE hg.2
  rw [← hg.1] at h2
  have h3 := (string_iff (c := app) (files := (false, true)) (i := greeting) (connected _) rfl hH (tag := deDE) (by decide)).2 h2
  exact absurd (h3.symm.trans h1.2) (by decide)

open DemoAlias in
/-- The registry may replace tags, if only the row is found again. -/
example : let st := DemoStore.store [] [row deDD servus]
    (provider (false, true)).string renamed st app greeting de = .ok (some (servus, deDE)) ∧
    (provider (false, true)).string renamed st app greeting deDE = .ok (some (servus, deDE)) ∧
    ¬ Faithful renamed (rowsOf [] [row deDD servus] app) :=
  ⟨by decide +kernel, by decide +kernel, fun h => absurd (h (row deDD servus) (List.mem_cons_self ..) deDE rfl).1 (by decide)⟩

/-- C55 at work: the row is for another region in another place and in other letters; asking again finds the same. -/
example : let st := DemoStore.store [row "fr".toList hello] [row "EN-za".toList howzit, row en hello]
    let canon : Str → Except Unit Str := fun t => .ok (if t = "EN-za".toList then enZA else t)
    (provider (true, true)).string canon st app greeting "en-GB".toList = .ok (some (howzit, enZA)) ∧
    (provider (true, true)).string canon st app greeting enZA = .ok (some (howzit, enZA)) ∧
    Faithful canon (rowsOf [row "fr".toList hello] [row "EN-za".toList howzit, row en hello] app) := by
  refine ⟨by decide +kernel, by decide +kernel, ?_⟩
  intro r hr t ht
  have : r ∈ [row "EN-za".toList howzit, row en hello] := hr
  simp only [List.mem_cons, List.not_mem_nil, or_false] at this
  rcases this with rfl | rfl
  · cases ht; decide
  · cases ht; decide

/-! ### The localiser on top -/

/-- A localiser over the SQLite provider has what C29 and C50 ask of a provider. -/
theorem sqlite_coherent {canon : Str → Except E Str} {p : Sqlite} (hc : Connected p) {st : Verif.Store}
    {rows : Str → List PatternRow} (hr : ∀ c files, p.components.get c = some files → Holds canon st (places files c) rows)
    (hf : ∀ name, Faithful canon (rows name)) : Coherent (asProvider canon p st) := by
  intro c i tag s t h
  simp only [asProvider] at h ⊢
  split at h
  · next hw =>
    cases hs : p.string canon st c i tag with
    | panic => rw [hs] at h; cases h
    | err e => rw [hs] at h; cases h
    | ok x =>
      rw [hs] at h
      have hx : x = some (s, t) := Except.ok.inj h
      subst hx
      cases hg : p.components.get c with
      | none =>
        unfold Sqlite.string Sqlite.oneString at hs
        rw [hg] at hs
        cases hs
      | some files =>
        have hagain := C55_reported_tag_returns_it_partial hc hg (hr c files hg) (fun name _ => hf name) i tag hw s t hs
        obtain ⟨found, xs, h1, h2, h3⟩ := oneString_decides hc (i := i) (tag := tag) hg false (hr c files hg) fun _ => hw
        have hnw : NoWildcards t := by
          have he : xs.head? = some (s, t) := by
            rw [Sqlite.string, h3] at hs
            exact Outcome.ok.inj hs
          cases h2' : found with
          | nil =>
            rw [h2'] at h2
            rw [(allGive_nil h2).2 (by simp [limit])] at he
            cases he
          | cons r rest =>
            rw [h2'] at h2
            have h2 : AllGive canon [r] xs := by simpa [limit] using h2
            cases h2 with
            | @cons _ x _ _ hgv h2 =>
              cases h2
              have hx : x = (s, t) := Option.some.inj he
              subst hx
              obtain ⟨name, _, hmem, _⟩ := decides_truncation h1 r (by rw [h2']; simp)
              exact (hf name r hmem t hgv.2).2
        rw [if_pos hnw, hagain]
  · cases h

/-- **C55 in the localiser.** A localiser over the SQLite provider answers, after any history without panics, as without
caching, or panics: the conditions that C29 puts on the provider are met by the store alone. What is missing is what
C29 and C55 leave out. -/
theorem C55_localiser_partial {canon : Str → Except E Str} {p : Sqlite} (hc : Connected p) {st : Verif.Store}
    {rows : Str → List PatternRow} (hr : ∀ c files, p.components.get c = some files → Holds canon st (places files c) rows)
    (hf : ∀ name, Faithful canon (rows name)) (L : LocEnv D F (Option (ProvErr E)))
    (hL : L.provider = asProvider canon p st) (scriptOf : Str → S)
    (l : Localiser S) (hl : l.cache = []) (calls : List (Request D F)) (r : Request D F)
    (ht : Tame L (callsUses l.tag l.fallback (calls ++ [r]))) (hp : NoPanic L scriptOf l calls) :
    let l' := l.after L scriptOf calls
    let answer := (({ l' with cache := [] } : Localiser S).call L scriptOf (uncached r)).1
    (l'.call L scriptOf r).1 = answer ∨ (l'.call L scriptOf r).1 = some .panic :=
  (C29_answers_as_without_cache_partial L (by rw [hL]; exact sqlite_coherent hc hr hf) scriptOf l hl calls r ht hp).1

/-- The conditions on the store are met. -/
example : Coherent (asProvider canon (provider (true, true)) (DemoStore.store [row en hello] [row enZA howzit])) := by
  refine sqlite_coherent (connected _) (rows := rowsOf [row en hello] [row enZA howzit])
    (fun c files _ => holds _ _ _) fun name r hr t ht => ?_
  have hm : r ∈ [row en hello, row enZA howzit] := by
    unfold rowsOf at hr
    split at hr
    · simp at hr; simp [hr]
    · split at hr
      · simp at hr; simp [hr]
      · cases hr
  cases ht
  refine ⟨rfl, ?_⟩
  simp only [List.mem_cons, List.not_mem_nil, or_false] at hm
  rcases hm with rfl | rfl <;> decide

end Verif.Props
