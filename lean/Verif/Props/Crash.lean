import Verif.Props.Written
import Verif.Props.Endless
import Verif.Props.Localiser
import Verif.Props.Command
import Verif.Props.Tree
import Verif.Lemmas.Crash
/-
Property theorem C96: exactly when a request for a formatted string panics, /repo/crates/localiser/src/formatter.rs and
/repo/crates/localiser/src/localiser.rs.
-/
namespace Verif.Spec
open Verif

variable {D F : Type}

/-- Formatting the string panics: its tokens make the parser panic, or it is read and the language tag is not read by ICU, a
command panics while it is read, or it is accepted and a command panics while it is shown, or showing it never ends. -/
def Fatal (E : FmtEnv D F) (s : Str) (lang : Option Str) (values : AMap Str (PValue D F)) : Prop :=
  (∃ ts, lex E.icu E.grammar s = .ok ts ∧ Panics ts) ∨
  ∃ d, Reads E s d ∧ ∀ l, lang = some l → DocCrash E d ∨
    DocOk E d ∧ (Crashes E l values d.named.reverse mainName d.main ∨ Endless E l values d.named.reverse mainName d.main)

end Verif.Spec

namespace Verif.Props
open Verif Verif.Spec Verif.FormatLemmas Verif.CrashLemmas Verif.LocaliserLemmas

variable {D F P : Type}

/-! ### The formatter -/

/-- **C96, reading.** Preparing a pattern string panics exactly if its tokens make the parser panic (C11), or it is read, and
the first item that cannot be accepted is a command that panics. -/
theorem C96_reading (E : FmtEnv D F) (s tag lang : Str) :
    Formatter.tryNew E s tag (some lang) = .panic ↔
      (∃ ts, lex E.icu E.grammar s = .ok ts ∧ Panics ts) ∨ ∃ d, Reads E s d ∧ DocCrash E d := by
  rw [← C11_panics_exactly_partial]
  constructor
  · intro h
    unfold Formatter.tryNew at h
    cases ht : Tree.tryNew E.icu E.grammar s with
    | panic => exact .inl rfl
    | err te => rw [ht] at h; cases h
    | ok t =>
      rw [ht] at h
      simp only [Outcome.mapErr, Outcome.bind_ok] at h
      obtain ⟨d, hs, hn, hr⟩ := tree_reads ht
      obtain ⟨hg, hc⟩ := ofTree_panic E tag lang hs hn h
      exact .inr ⟨d, hr hg, hc⟩
  · rintro (h | ⟨d, hr, hc⟩)
    · unfold Formatter.tryNew
      rw [h]
      rfl
    · cases hf : Formatter.tryNew E s tag (some lang) with
      | panic => rfl
      | ok f => exact absurd (accepted_ok hr hf) (DocCrash.notOk hc)
      | err e =>
        exfalso
        rcases C81_rejection_tells_the_cause E s tag lang e hf with ⟨te, h, _⟩ | ⟨_, ts, h1, h2⟩ | ⟨d', hr', h⟩
        · exact (C81_causes_exclude E s).1 te d h hr
        · exact (C81_causes_exclude E s).2 ts d h1 h2 hr
        · obtain rfl := C85_string_one_reading hr hr'
          exact DocCrash.noError hc h

/-- **C96, three ways to go on.** A string that is read is accepted, is rejected with an error, or makes a command panic:
exactly one of the three, and the formatter gives that one. -/
theorem C96_three_ways (E : FmtEnv D F) {s : Str} {d : Doc} (hr : Reads E s d) (tag lang : Str) :
    ((∃ f, Formatter.tryNew E s tag (some lang) = .ok f) ↔ DocOk E d) ∧
    ((∃ e, Formatter.tryNew E s tag (some lang) = .err e) ↔ ∃ e, DocError E d e) ∧
    (Formatter.tryNew E s tag (some lang) = .panic ↔ DocCrash E d) ∧
    (DocOk E d ∨ (∃ e, DocError E d e) ∨ DocCrash E d) ∧
    (∀ e, DocError E d e → ¬ DocOk E d ∧ ¬ DocCrash E d) ∧ (DocCrash E d → ¬ DocOk E d) := by
  have h1 : (∃ f, Formatter.tryNew E s tag (some lang) = .ok f) ↔ DocOk E d :=
    ⟨fun ⟨f, h⟩ => accepted_ok hr h, fun h => (C48_accepted_exactly E s tag lang).2 ⟨d, hr, h⟩⟩
  have h2 : ∀ e, Formatter.tryNew E s tag (some lang) = .err e → DocError E d e := by
    intro e hf
    rcases C81_rejection_tells_the_cause E s tag lang e hf with ⟨te, h, _⟩ | ⟨_, ts, h1, h2⟩ | ⟨d', hr', h⟩
    · exact absurd hr ((C81_causes_exclude E s).1 te d h)
    · exact absurd hr ((C81_causes_exclude E s).2 ts d h1 h2)
    · obtain rfl := C85_string_one_reading hr hr'
      exact h
  have h3 : Formatter.tryNew E s tag (some lang) = .panic ↔ DocCrash E d := by
    rw [C96_reading]
    constructor
    · rintro (h | ⟨d', hr', h⟩)
      · rw [← C11_panics_exactly_partial] at h
        obtain ⟨t, ht, _⟩ := Reads.tree hr
        rw [ht] at h
        cases h
      · obtain rfl := C85_string_one_reading hr hr'
        exact h
    · exact fun h => .inr ⟨d, hr, h⟩
  have h5 : ∀ e, DocError E d e → ¬ DocOk E d ∧ ¬ DocCrash E d :=
    fun e h => ⟨DocError.notOk h, fun hc => DocCrash.noError hc h⟩
  refine ⟨h1, ⟨fun ⟨e, h⟩ => ⟨e, h2 e h⟩, fun ⟨e, h⟩ => ?_⟩, h3, ?_, h5, DocCrash.notOk⟩
  · cases hf : Formatter.tryNew E s tag (some lang) with
    | ok f => exact absurd (h1.1 ⟨f, hf⟩) (h5 e h).1
    | err e => exact ⟨e, rfl⟩
    | panic => exact absurd (h3.1 hf) (h5 e h).2
  · cases hf : Formatter.tryNew E s tag (some lang) with
    | ok f => exact .inl (h1.1 ⟨f, hf⟩)
    | err e => exact .inr (.inl ⟨e, h2 e hf⟩)
    | panic => exact .inr (.inr (h3.1 hf))

/-- **C96, formatting.** Whatever was formatted before, a call for an accepted string panics exactly if, after items that have
texts, it comes to a command that panics, or never ends. -/
theorem C96_formatting (E : FmtEnv D F) {s tag lang : Str} {d : Doc} {f : Formatter} (hd : Reads E s d)
    (hf : Formatter.tryNew E s tag (some lang) = .ok f) (history : List (AMap Str (PValue D F)))
    (hh : ∀ v ∈ history, ¬ Endless E lang v d.named.reverse mainName d.main) (values : AMap Str (PValue D F)) :
    ((after E f history).format E values).1 = .panic ↔
      Crashes E lang values d.named.reverse mainName d.main ∨ Endless E lang values d.named.reverse mainName d.main := by
  have hok := accepted_ok hd hf
  have hended : Ended E lang d history := fun v hv h => hh v hv ((doc_endless_iff hok _).1 h)
  obtain ⟨h1, h2⟩ := C48_format_gives_the_meaning E hd hf history hended values
  rw [← doc_endless_iff hok (d.storeAfter E lang history), ← doc_crashes_iff hok (d.storeAfter E lang history)]
  cases hy : (d.eval E lang values (d.storeAfter E lang history)).1 with
  | none => simp [(h2 hy).1]
  | some o =>
    have := h1 o hy
    generalize ((after E f history).format E values).1 = x at this ⊢
    cases o <;> cases x <;> simp_all [tagged, forget, Outcome.mapErr]

/-- **C96, a tag that ICU does not read.** Preparing a string panics then exactly if the parser panics or the string is read. -/
theorem C96_unread_tag (E : FmtEnv D F) (s tag : Str) :
    Formatter.tryNew E s tag none = .panic ↔
      (∃ ts, lex E.icu E.grammar s = .ok ts ∧ Panics ts) ∨ ∃ d, Reads E s d := by
  rw [← C11_panics_exactly_partial]
  unfold Formatter.tryNew
  cases ht : Tree.tryNew E.icu E.grammar s with
  | panic => simp [Outcome.mapErr]
  | err te =>
    simp only [Outcome.mapErr, Outcome.bind_err, reduceCtorEq, false_or, false_iff]
    rintro ⟨d, hr⟩
    exact (C81_causes_exclude E s).1 te d ht hr
  | ok t =>
    simp only [Outcome.mapErr, Outcome.bind_ok, reduceCtorEq, false_or]
    obtain ⟨d, hs, hn, hr⟩ := tree_reads ht
    unfold Formatter.ofTree
    by_cases hg : t.hasGrammar = true
    · rw [if_neg (fun h => h hg)]
      exact ⟨fun _ => ⟨d, hr hg⟩, fun _ => rfl⟩
    · rw [if_pos hg]
      refine ⟨fun h => (nomatch h), ?_⟩
      rintro ⟨d', hr'⟩
      obtain ⟨t', ht', _, _, hg'⟩ := Reads.tree hr'
      rw [ht] at ht'
      cases ht'
      exact absurd hg' hg

/-- **C96, a string and its values.** -/
theorem C96_string (E : FmtEnv D F) (s tag : Str) (lang : Option Str) (values : AMap Str (PValue D F)) :
    formatString E s tag lang values = .panic ↔ Fatal E s lang values := by
  unfold formatString
  by_cases hs : s = []
  · rw [if_pos hs]
    refine ⟨fun h => (nomatch h), fun h => ?_⟩
    subst hs
    have hl : ∀ ts, lex E.icu E.grammar [] ≠ .ok ts := by
      intro ts hl
      unfold lex LexerIterator.tryNew at hl
      by_cases hg : E.grammar.isEmpty = true
      · simp [hg] at hl
      · simp [hg, charIndices] at hl
    rcases h with ⟨ts, h, _⟩ | ⟨d, ⟨ts, h, _⟩, _⟩ <;> exact absurd h (hl ts)
  · rw [if_neg hs]
    cases lang with
    | none =>
      have h := C96_unread_tag E s tag
      unfold Fatal
      simp only [reduceCtorEq, false_implies, implies_true, and_true]
      rw [← h]
      have hno : ∀ f, Formatter.tryNew E s tag none ≠ .ok f := by
        intro f hf
        unfold Formatter.tryNew at hf
        cases ht : Tree.tryNew E.icu E.grammar s with
        | panic => rw [ht] at hf; cases hf
        | err te => rw [ht] at hf; cases hf
        | ok t =>
          rw [ht] at hf
          simp only [Outcome.mapErr, Outcome.bind_ok, Formatter.ofTree] at hf
          by_cases hg : t.hasGrammar = true
          · rw [if_neg (fun h => h hg)] at hf; cases hf
          · rw [if_pos hg] at hf; cases hf
      cases hf : Formatter.tryNew E s tag none with
      | ok f => exact absurd hf (hno f)
      | panic => simp
      | err e => cases e <;> simp
    | some l =>
      have hread := C96_reading E s tag l
      cases hf : Formatter.tryNew E s tag (some l) with
      | panic =>
        simp only [true_iff]
        rcases hread.1 hf with h | ⟨d, hr, hc⟩
        · exact .inl h
        · exact .inr ⟨d, hr, fun _ _ => .inl hc⟩
      | err e =>
        have hnot : ¬ Fatal E s (some l) values := by
          rintro (h | ⟨d, hr, h⟩)
          · rw [hread.2 (.inl h)] at hf; cases hf
          · rcases h l rfl with h | ⟨h, _⟩
            · rw [hread.2 (.inr ⟨d, hr, h⟩)] at hf; cases hf
            · obtain ⟨f, hf'⟩ := (C48_accepted_exactly E s tag l).2 ⟨d, hr, h⟩
              rw [hf] at hf'; cases hf'
        simp only [hnot, iff_false]
        cases e <;> simp
      | ok f =>
        obtain ⟨d, hr⟩ := tryNew_reads hf
        have h := C96_formatting E hr hf [] (by simp) values
        refine Iff.trans h ?_
        constructor
        · exact fun h => .inr ⟨d, hr, fun l' e => by cases e; exact .inr ⟨accepted_ok hr hf, h⟩⟩
        · rintro (h | ⟨d', hr', h⟩)
          · rw [hread.2 (.inl h)] at hf; cases hf
          · obtain rfl := C85_string_one_reading hr hr'
            rcases h l rfl with h | ⟨_, h⟩
            · exact absurd (accepted_ok hr hf) (DocCrash.notOk h)
            · exact h

/-! ### The commands of this repository -/

/-- Only the two commands of this repository are registered, under whatever names. -/
def ShippedOnly (E : FmtEnv D F) : Prop := ∀ name f, E.commands.get name = some f → f = filePath ∨ f = englishAOrAn

/-- **C96, commands of this repository, shown.** They panic exactly for `english_a_or_an` of an empty text. -/
theorem C96_shipped_bursts {E : FmtEnv D F} (hE : ShippedOnly E) (values : AMap Str (PValue D F)) (it : Item) :
    Bursts E values it ↔ ∃ n h p ps, it = .cmd (.ident n :: .hash h :: p :: ps) ∧
      E.commands.get n.str = some englishAOrAn ∧ argument values p.str = .string [] := by
  constructor
  · intro hb
    cases hb with
    | command n h ps f h1 h2 =>
      rcases hE _ _ h1 with rfl | rfl
      · have := (C28_panics_exactly_partial _).1.1 h2
        cases this
      · rcases (C28_panics_exactly_partial _).2.1 h2 with h | ⟨name, rest, h⟩
        · cases h
        · match ps, h with
          | p :: ps, h =>
            simp only [List.map_cons, List.cons.injEq] at h
            exact ⟨n, _, p, ps, rfl, h1, h.2.1⟩
  · rintro ⟨n, h, p, ps, rfl, h1, h2⟩
    refine .command n h _ _ h1 ((C28_panics_exactly_partial _).2.2 (.inr ⟨n.str, ps.map fun p => argument values p.str, ?_⟩))
    rw [List.map_cons, h2]

/-- **C96, commands of this repository, read.** They never panic while a string is read. -/
theorem C96_shipped_reading {E : FmtEnv D F} (hE : ShippedOnly E) {s : Str} {d : Doc} (hr : Reads E s d) :
    ¬ DocCrash E d := by
  obtain ⟨ts, hl, hs, _⟩ := hr
  have hne : ∀ t ∈ ts, t.string ≠ [] := by
    have hg : E.grammar ≠ [] := by
      intro h
      unfold lex LexerIterator.tryNew at hl
      simp [h] at hl
    have hse : s ≠ [] := by
      intro h
      unfold lex LexerIterator.tryNew at hl
      simp [h, charIndices, hg] at hl
    exact (toks_of_lex hg hse hl).1.nonempty
  obtain ⟨hr1, hr2⟩ := sentence_resolved hs
  have hi : ∀ it, Resolved ts it → ¬ ItemCrash E it := by
    intro it hit hc
    cases hc with
    | command n ps f hps h1 h2 =>
      rcases hE _ _ h1 with rfl | rfl
      · have := (C28_panics_exactly_partial _).1.1 h2
        cases this
      · rcases (C28_panics_exactly_partial _).2.1 h2 with h | ⟨name, rest, h⟩
        · cases h
        · match ps, h, hit with
          | p :: ps, h, hit =>
            simp only [List.map_cons, List.cons.injEq, PValue.string.injEq] at h
            have hp : Has ts (partLeaf p) := hit _ (by simp [leaves])
            have hm := List.mem_of_getElem? hp
            refine hne _ hm ?_
            have : p.str = (partLeaf p).tok.string := by cases p <;> rfl
            rw [← this]
            exact h.2.1
  have his : ∀ {known items}, (∀ it ∈ items, Resolved ts it) → ¬ ItemsCrash E known items := by
    rintro known items h ⟨f, it, b, rfl, _, hc⟩
    exact hi it (h it (by simp)) hc
  have hgr : ∀ {known ns}, GroupCrash E known ns → ¬ ∀ m ∈ ns, ∀ it ∈ m.items, Resolved ts it := by
    intro known ns h
    induction h with
    | items known n rest _ h => exact fun hh => his (hh n (by simp)) h
    | later known n rest _ _ _ ih => exact fun hh => ih fun m hm => hh m (by simp [hm])
  rintro (h | ⟨_, h⟩)
  · exact hgr h fun m hm => (hr2 m hm).2
  · exact his hr1 h

/-! ### The localiser -/

/-- **C96, requests.** In whatever state the cache is, a formatting request panics exactly if
* a formatter is cached for it and panics on the values, or
* nothing is cached for it, and the string that the provider finds is `Fatal`, or
* nothing is cached for it, the string found has no pattern and is to be cached, something else is cached under the tag
  requested, and nothing under the tag reported (C30). -/
theorem C96_request (L : LocEnv D F P) (cache : Cache) (c i tag : Str) (values : AMap Str (PValue D F)) (fb caching : Bool) :
    (actualFormat L cache c i values tag fb caching).1 = .panic ↔
      (∃ m f, AMap.get cache tag = some m ∧ m.get (cacheKey c i) = some (.formatter f) ∧
        (f.format L.fmt values).1 = .panic) ∨
      (∀ m, AMap.get cache tag = some m → m.get (cacheKey c i) = none) ∧
      ∃ s t, Found L.provider c i tag fb (.ok (s, t)) ∧
        (Fatal L.fmt s (L.icuLanguage t) values ∨
         (s = [] ∨ Formatter.tryNew L.fmt s t (L.icuLanguage t) = .err .noGrammar) ∧ caching = true ∧
           AMap.get cache tag ≠ none ∧ AMap.get cache t = none) := by
  have hmiss : (AMap.get cache tag).bind (fun m => (m.get (cacheKey c i)).map fun d => (m, d)) = none →
      ((actualFormat L cache c i values tag fb caching).1 = .panic ↔
      ∃ s t, Found L.provider c i tag fb (.ok (s, t)) ∧
        (Fatal L.fmt s (L.icuLanguage t) values ∨
         (s = [] ∨ Formatter.tryNew L.fmt s t (L.icuLanguage t) = .err .noGrammar) ∧ caching = true ∧
           AMap.get cache tag ≠ none ∧ AMap.get cache t = none)) := by
    intro hn
    unfold actualFormat
    simp only [hn]
    have hf := fetch_found L c i tag fb
    cases hx : fetch L c i tag fb with
    | panic => rw [hx] at hf; cases hf
    | err e =>
      simp only [reduceCtorEq, false_iff]
      rintro ⟨s, t, h, _⟩
      rw [found_fetch h] at hx
      cases hx
    | ok r =>
      obtain ⟨s, t⟩ := r
      rw [hx] at hf
      have hone : ∀ {Q : Str → Str → Prop}, (∃ s t, Found L.provider c i tag fb (.ok (s, t)) ∧ Q s t) ↔ Q s t := by
        intro Q
        constructor
        · rintro ⟨s', t', h, hq⟩
          have := found_fetch h
          rw [hx] at this
          cases this
          exact hq
        · exact fun h => ⟨s, t, hf, h⟩
      rw [hone, ← C96_string L.fmt s t]
      have hret : (returnString (P := P) cache caching (AMap.get cache tag).isSome (cacheKey c i) s t).1 = .panic ↔
          caching = true ∧ AMap.get cache tag ≠ none ∧ AMap.get cache t = none := by
        unfold returnString addStringToCache
        cases caching with
        | false => simp
        | true =>
          cases hg : AMap.get cache tag with
          | none => simp
          | some m =>
            cases hgt : AMap.get cache t <;> simp
      unfold formatString
      by_cases hs : s = []
      · simp only [hs, if_true, reduceCtorEq, true_or, true_and, false_or]
        rw [hs] at hret
        exact hret
      · simp only [hs, if_false, false_or]
        cases hy : Formatter.tryNew L.fmt s t (L.icuLanguage t) with
        | panic => simp
        | err e =>
          cases e with
          | noGrammar => simpa using hret
          | _ => simp
        | ok f =>
          simp only [reduceCtorEq, false_and, or_false]
          cases caching with
          | false =>
            simp only [Bool.false_eq_true, not_false_eq_true, if_true]
            exact mapErr_panic _ _
          | true =>
            simp only [not_true, if_false]
            unfold cacheFormatter
            cases hg : AMap.get cache tag with
            | none =>
              simp only [Option.isSome_none, Bool.false_eq_true, not_false_eq_true, if_true, AMap.get_insert_self,
                AMap.get_cons, formatCached]
              exact mapErr_panic _ _
            | some m =>
              simp only [Option.isSome_some, not_true, if_false, AMap.get_insert_self, formatCached]
              exact mapErr_panic _ _
  cases hg : AMap.get cache tag with
  | none =>
    rw [hg] at hmiss
    rw [hmiss rfl]
    simp
  | some m =>
    cases hk : m.get (cacheKey c i) with
    | none =>
      rw [hg] at hmiss
      rw [hmiss (by simp [hk])]
      simp [hk]
    | some e =>
      unfold actualFormat
      simp only [hg, Option.bind_some, hk, Option.map_some]
      cases e with
      | localised s t => simp [hk]
      | formatter f => simp [hk, formatCached, mapErr_panic]

end Verif.Props

namespace Verif.DemoCrash
open Verif Verif.Spec Verif.Props

/-- The commands of this repository are registered. -/
def env : FmtEnv Nat Unit :=
  { Demo.env with commands := [("file_path".toList, filePath), ("english_a_or_an".toList, englishAOrAn)] }

theorem one_of_two {α : Type} {a b name : Str} {x y f : α} (h : AMap.get [(a, x), (b, y)] name = some f) : f = x ∨ f = y := by
  simp only [AMap.get_cons] at h
  split at h
  · exact .inl (Option.some.inj h).symm
  · split at h
    · exact .inr (Option.some.inj h).symm
    · cases h

theorem env_shipped : ShippedOnly env := fun _ _ h => one_of_two h

/-- What comes of a string with a value for `w`: `none` for a panic. -/
def came (s : String) (w : String) : Option (Option Str) :=
  match formatString env s.toList "en".toList (some "en".toList) [("w".toList, .string w.toList)] with
  | .ok r => some (some r.1)
  | .err _ => some none
  | .panic => none

theorem came_none {s w : String} (h : came s w = none) :
    formatString env s.toList "en".toList (some "en".toList) [("w".toList, .string w.toList)] = .panic := by
  unfold came at h
  split at h
  · cases h
  · cases h
  · assumption

/-- An empty word crashes a string that is fine for other words, unless an item before it fails. -/
example : came "{#english_a_or_an# w} {w}" "owl" = some (some "an owl".toList) ∧ came "{#english_a_or_an# w} {w}" "" = none ∧
    came "{x}{#english_a_or_an# w} {w}" "" = some none ∧ came "{#english_a_or_an owl}" "" = some (some "an".toList) := by
  decide +kernel

/-- Hence the string is read and accepted, and showing it comes to a command that panics. -/
example : Fatal env "{#english_a_or_an# w} {w}".toList (some "en".toList) [("w".toList, .string "".toList)] :=
  (C96_string env _ "en".toList _ _).1 (came_none (by decide +kernel))

/-- The same for a request to a localiser, which caches nothing then. -/
example : (actualFormat { Demo.loc (Demo.rows [("c", "an", "en", "{#english_a_or_an# w} {w}")]) with fmt := env } []
    "c".toList "an".toList [("w".toList, .string "".toList)] "en-ZA".toList true true).1 = .panic := by
  refine (C96_request _ _ _ _ _ _ _ _).2 (.inr ⟨fun _ h => (nomatch h), "{#english_a_or_an# w} {w}".toList, "en".toList, ?_,
    .inl ((C96_string env _ "en".toList _ _).1 (came_none (by decide +kernel)))⟩)
  exact .requested (by decide +kernel)

end Verif.DemoCrash
