import Verif.Spec.ScriptData
import Verif.Props.LanguageTag
/-
Property theorems C67–C69: data of scripts, /repo/crates/localiser/src/script.rs and `get_script_data` of
/repo/crates/localiser/src/localiser.rs.
-/
namespace Verif.Props
open Verif Verif.Tag Verif.TagLemmas Verif.Scripts
open Verif.Spec hiding lower

/-! ### C67 -/

theorem entry_iff (insertions : List (Str × ScriptData)) (code : Str) (d : ScriptData) : ∀ m : AMap Str ScriptData,
    (insertions.foldl (fun m e => m.insert e.1 e.2) m).get code = some d ↔
      (Entry insertions code d ∨ (m.get code = some d ∧ ∀ e ∈ insertions, e.1 ≠ code)) := by
  induction insertions with
  | nil =>
    intro m
    simp [Entry]
  | cons e rest ih =>
    intro m
    rw [List.foldl_cons, ih, AMap.get_insert]
    have hcons : Entry (e :: rest) code d ↔ Entry rest code d ∨ (e = (code, d) ∧ ∀ x ∈ rest, x.1 ≠ code) := by
      constructor
      · rintro ⟨before, later, h, hl⟩
        cases before with
        | nil =>
          simp only [List.nil_append, List.cons.injEq] at h
          exact .inr ⟨h.1, h.2 ▸ hl⟩
        | cons b before =>
          simp only [List.cons_append, List.cons.injEq] at h
          exact .inl ⟨before, later, h.2, hl⟩
      · rintro (⟨before, later, h, hl⟩ | ⟨rfl, h⟩)
        · exact ⟨e :: before, later, by rw [h]; rfl, hl⟩
        · exact ⟨[], rest, rfl, h⟩
    rw [hcons]
    obtain ⟨k, v⟩ := e
    constructor
    · rintro (h | ⟨h, h'⟩)
      · exact .inl (.inl h)
      · split at h
        · next hk =>
          cases h
          exact .inl (.inr ⟨by rw [← hk], h'⟩)
        · next hk => exact .inr ⟨h, List.forall_mem_cons.2 ⟨hk, h'⟩⟩
    · rintro ((h | ⟨h, h'⟩) | ⟨h, h'⟩)
      · exact .inl h
      · cases h
        exact .inr ⟨by simp, h'⟩
      · obtain ⟨hk, h'⟩ := List.forall_mem_cons.1 h'
        exact .inr ⟨by rw [if_neg hk, h], h'⟩

theorem provider_iff (code : Str) (d : ScriptData) : provider.get code = some d ↔ Entry insertions code d := by
  unfold provider
  rw [entry_iff]
  simp

/-- **C67.** For every tag that the registry gave, in every history: the request for the data of its script does not panic,
and gives exactly the data in the table for the script that the tag names, or for the likely script if it names none.
`parse` is the parser used by the localiser; it reads canonical tags as that of the registry does. -/
theorem C67_data_of_the_script {parse : Str → Option Identifier}
    (hparse : ∀ t x, CanonicalTag t → Tag.parse t = .ok x → parse t = some x) {expander : Expander}
    {likely : Identifier → Option Str} (hl : KnowsLikely expander likely) (history : List Str) {q : Str} {t : TagRef}
    (h : (q, .ok t) ∈ (Registry.new.run canonicalize history).1) :
    ∃ x r, Tag.parse t.text = .ok x ∧ getScriptData parse expander provider t.text = .ok r ∧
      ∀ d, r = some d ↔ ∃ s, HasScript likely x s ∧ Entry insertions s d := by
  have hc : CanonicalTag t.text := by
    cases hcq : canonicalize q with
    | error e =>
      have := (C06_canonical_in_every_history canonicalize C63_idempotent history q _ h).2 e hcq
      cases this
    | ok c =>
      obtain ⟨t', e, ht'⟩ := (C06_canonical_in_every_history canonicalize C63_idempotent history q _ h).1 c hcq
      cases e
      rw [ht']
      exact canonicalize_canonical hcq
  obtain ⟨x, hx, _⟩ := canonical_fixed hc
  have hp := hparse _ _ hc hx
  have key : ∀ s d, HasScript likely x s → (provider.get s = some d ↔ ∃ s, HasScript likely x s ∧ Entry insertions s d) := by
    intro s d hs
    rw [provider_iff]
    constructor
    · exact fun h => ⟨s, hs, h⟩
    · rintro ⟨s', hs', h⟩
      have : s = s' := by
        cases hs with
        | named a =>
          cases hs' with
          | named b => rw [a] at b; exact Option.some.inj b
          | likely b _ => rw [a] at b; cases b
        | likely a b =>
          cases hs' with
          | named c => rw [a] at c; cases c
          | likely _ d => rw [b] at d; exact Option.some.inj d
      rw [this]; exact h
  unfold getScriptData
  rw [hp]
  cases hs : x.script with
  | some s => exact ⟨x, _, hx, by simp [hs], fun d => key s d (.named hs)⟩
  | none =>
    have hlk := hl x hs
    cases hlx : likely x with
    | some s =>
      rw [hlx] at hlk
      obtain ⟨h1, h2⟩ := hlk
      rcases he : expander x with ⟨b, y⟩
      rw [he] at h1 h2
      simp only at h1 h2
      subst h1
      exact ⟨x, _, hx, by simp [hs, he, h2], fun d => key s d (.likely hs hlx)⟩
    | none =>
      rw [hlx] at hlk
      rcases he : expander x with ⟨b, y⟩
      simp only [he] at hlk
      subst hlk
      refine ⟨x, none, hx, by simp [hs, he], fun d => ⟨(nomatch ·), ?_⟩⟩
      rintro ⟨s, hh, _⟩
      cases hh with
      | named a => rw [hs] at a; cases a
      | likely _ b => rw [hlx] at b; cases b

/-- What the localiser keeps for a language, `none` in place of a panic. -/
def scriptOf (parse : Str → Option Identifier) (expander : Expander) (tag : Str) : Option ScriptData :=
  match getScriptData parse expander provider tag with
  | .ok r => r
  | _ => none

/-- **C67 in the localiser.** After any calls of a localiser, its script data are those of its default language, if they
were at its creation (`try_new`, crates/localiser/src/localiser.rs:139-157, computes them). -/
theorem C67_in_the_localiser {D F P S : Type} (L : LocEnv D F P) (scriptOf : Str → S) (l : Localiser S)
    (h : l.script = scriptOf l.tag) (calls : List (Request D F)) :
    (l.after L scriptOf calls).script = scriptOf (l.after L scriptOf calls).tag := by
  induction calls generalizing l with
  | nil => exact h
  | cons r calls ih =>
    apply ih
    cases r with
    | format => exact h
    | literal => exact h
    | data => exact h
    | defaults tag fallback caching =>
      cases tag <;> cases fallback <;> cases caching <;> simp_all [Localiser.call, Localiser.setDefaults]

/-- Likely scripts for examples, as CLDR has them. -/
def demoLikely (x : Identifier) : Option Str :=
  if x.language = "en".toList then some "Latn".toList
  else if x.language = "kn".toList then some "Knda".toList
  else if x.language = "hy".toList then some "Armn".toList
  else if x.language = "ii".toList then some "Yiii".toList
  else if x.language = "zh".toList ∧ x.region = some "TW".toList then some "Hant".toList
  else if x.language = "zh".toList then some "Hans".toList
  else none

/-- The expander for them. -/
def demoExpander : Expander := fun x =>
  match x.script, demoLikely x with
  | none, some s => (true, { x with script := some s })
  | _, _ => (false, x)

theorem demoExpander_knows : KnowsLikely demoExpander demoLikely := by
  intro x hx
  unfold demoExpander
  rw [hx]
  cases demoLikely x <;> simp

def demoTagParse (t : Str) : Option Identifier := (Tag.parse t).toOption

theorem demoTagParse_reads (t : Str) (x : Identifier) (_ : CanonicalTag t) (h : Tag.parse t = .ok x) : demoTagParse t = some x := by
  unfold demoTagParse; rw [h]; rfl

/-- The data follow the region, the script named and the language. -/
example : (["zh-TW", "zh-CN", "zh-Latn-TW", "en", "sr"].map fun t =>
    (scriptOf demoTagParse demoExpander t.toList).map ScriptData.category) =
    [some .logographic, some .logographic, some .alphabetic, some .alphabetic, none] := by decide +kernel

/-! ### C68 -/

/-- **C68 is violated**: the table has three codes that are not registered (so the scripts meant, `Hrkt`, `Gukh` and `Zanb`,
have no data), and two codes twice; for one of them the second insertion, meant for another script (Yi, `Yiii`, has no
data), replaces the data by others. -/
theorem C68_violated :
    (insertions.map Prod.fst).filter (fun c => !registered.contains c) =
      ["Gukn".toList, "Hikt".toList, "Zand".toList] ∧
    ["Hrkt", "Gukh", "Zanb", "Yiii"].all (fun c => provider.get c.toList = none) ∧
    (provider.get "Yezi".toList).map ScriptData.category = some .syllabic ∧
    insertions.contains ("Yezi".toList, ⟨.abjad, [.topToBottomRightToLeft], false⟩) ∧
    scriptOf demoTagParse demoExpander "ii-CN".toList = none := by
  decide +kernel

/-- **C68, what holds.** All other codes are registered, and no other code but `Shrd` is inserted twice. -/
theorem C68_codes_partial : (∀ e ∈ insertions, e.1 ∈ registered ∨ e.1 = "Gukn".toList ∨ e.1 = "Hikt".toList ∨ e.1 = "Zand".toList) ∧
    (∀ code, (insertions.filter fun e => e.1 = code).length ≤ 1 ∨ code = "Yezi".toList ∨ code = "Shrd".toList) := by
  refine ⟨by decide +kernel, ?_⟩
  intro code
  by_cases hm : code ∈ insertions.map Prod.fst
  · have : ∀ c ∈ insertions.map Prod.fst, (insertions.filter fun e => e.1 = c).length ≤ 1 ∨ c = "Yezi".toList ∨ c = "Shrd".toList := by
      decide +kernel
    exact this code hm
  · left
    rw [List.filter_eq_nil_iff.2]
    · simp
    · intro e he
      simp only [decide_eq_true_eq]
      rintro rfl
      exact hm (List.mem_map.2 ⟨e, he, rfl⟩)

/-! ### C69 -/

/-- **C69.** Every script in the table has a direction and none twice. -/
theorem C69_directions_listed {code : Str} {d : ScriptData} (h : provider.get code = some d) :
    d.directions ≠ [] ∧ d.directions.Nodup := by
  have hall : ∀ e ∈ insertions, e.2.directions ≠ [] ∧ e.2.directions.Nodup := by decide +kernel
  obtain ⟨before, later, e, _⟩ := (provider_iff code d).1 h
  exact hall (code, d) (by rw [e]; simp)

/-- **C69, what holds.** A script written from right to left has that direction (lines from top to bottom); and a script of
which this is the only direction is written from right to left, except five. -/
theorem C69_right_to_left_partial {code : Str} {d : ScriptData} (h : provider.get code = some d) :
    (code ∈ rightToLeft → .topToBottomRightToLeft ∈ d.directions) ∧
    (d.directions = [.topToBottomRightToLeft] → code ∉ ["Armn".toList, "Khoj".toList, "Knda".toList, "Kthi".toList, "Todr".toList] →
      code ∈ rightToLeft) := by
  have hall : ∀ e ∈ insertions, (e.1 ∈ rightToLeft → .topToBottomRightToLeft ∈ e.2.directions) ∧
      (e.2.directions = [.topToBottomRightToLeft] →
        e.1 ∉ ["Armn".toList, "Khoj".toList, "Knda".toList, "Kthi".toList, "Todr".toList] → e.1 ∈ rightToLeft) := by
    decide +kernel
  obtain ⟨before, later, e, _⟩ := (provider_iff code d).1 h
  exact hall (code, d) (by rw [e]; simp)

/-- **C69 is violated**: Armenian, Khojki, Kannada, Kaithi and Todhri are said to be written from right to left only; so a
localiser for Kannada reports that its text runs from right to left, and that the script is historic. -/
theorem C69_violated :
    (∀ code ∈ ["Armn".toList, "Khoj".toList, "Knda".toList, "Kthi".toList, "Todr".toList],
      code ∉ rightToLeft ∧ (provider.get code).map ScriptData.directions = some [.topToBottomRightToLeft]) ∧
    scriptOf demoTagParse demoExpander "kn".toList = some ⟨.abugida, [.topToBottomRightToLeft], true⟩ ∧
    (scriptOf demoTagParse demoExpander "hy-AM".toList).map (fun d => d.directions.map ScriptDirection.grapheme) =
      some [.rightToLeft] := by
  decide +kernel

end Verif.Props
