import Verif.Spec.LocaliserNew
import Verif.Props.ScriptData
import Verif.Spec.DemoLocaliser
/-
Property theorems C92: a localiser from its creation on, /repo/crates/localiser/src/localiser.rs.
-/
namespace Verif.Props
open Verif Verif.Tag Verif.TagLemmas Verif.Scripts Verif.RegistryLemmas
open Verif.Spec hiding lower

variable {D F P : Type}

/-! ### Helpers -/

theorem data_of_canonical {parse : Str → Option Identifier}
    (hparse : ∀ t x, CanonicalTag t → Tag.parse t = .ok x → parse t = some x) {expander : Expander}
    {likely : Identifier → Option Str} (hl : KnowsLikely expander likely) {q c : Str} (hc : canonicalize q = .ok c) :
    ∃ r, getScriptData parse expander provider c = .ok r ∧ DataOfTag likely c r := by
  have hs := run_spec canonicalize C63_idempotent [q] [] Registry.new (inv_new _)
  obtain ⟨a, ha⟩ : ∃ a, (q, a) ∈ (Registry.new.run canonicalize [q]).1 := by
    have := hs.2.2.1
    have hm : q ∈ (Registry.new.run canonicalize [q]).1.map Prod.fst := by rw [this]; simp
    obtain ⟨⟨q', a⟩, h1, rfl⟩ := List.mem_map.1 hm
    exact ⟨a, h1⟩
  have h4 := hs.2.2.2 q a ha
  simp only [hc] at h4
  obtain ⟨t, rfl, ht, _⟩ := h4
  obtain ⟨x, r, h1, h2, h3⟩ := C67_data_of_the_script hparse hl [q] ha
  rw [ht] at h1 h2
  exact ⟨r, h2, x, h1, h3⟩

/-- What is always so: the registry is sound, the handle is the one it gives for the language, and the data are right. -/
structure HeldOk (parse : Str → Option Identifier) (expander : Expander) (likely : Identifier → Option Str) (asked : List Str)
    (s : Str) (p : Held) (r : Registry) : Prop where
  sound : Inv canonicalize asked r
  set : canonicalize s = .ok p.handle.text
  known : r.tags.get p.handle.text = some p.handle
  tag : p.loc.tag = p.handle.text
  data : getScriptData parse expander provider p.handle.text = .ok p.loc.script
  right : DataOfTag likely p.handle.text p.loc.script

theorem call_text_keeps {S : Type} (L : LocEnv D F P) (scriptOf : Str → S) (l : Localiser S) {r : Request D F}
    (h : r.isText = true) : (l.call L scriptOf r).2.tag = l.tag ∧ (l.call L scriptOf r).2.script = l.script := by
  cases r <;> first | exact ⟨rfl, rfl⟩ | cases h

theorem call_text_same {S : Type} (L : LocEnv D F P) (f g : Str → S) (l : Localiser S) {r : Request D F}
    (h : r.isText = true) : l.call L f r = l.call L g r := by
  cases r <;> first | rfl | cases h

theorem setDefaults_tag {S : Type} (f : Str → S) (l : Localiser S) (t : Str) (fb ca : Option Bool) :
    (l.setDefaults f (some t) fb ca).tag = t ∧ (l.setDefaults f (some t) fb ca).script = f t := by
  cases fb <;> cases ca <;> exact ⟨rfl, rfl⟩

theorem setDefaults_none {S : Type} (f : Str → S) (l : Localiser S) (fb ca : Option Bool) :
    (l.setDefaults f none fb ca).tag = l.tag ∧ (l.setDefaults f none fb ca).script = l.script := by
  cases fb <;> cases ca <;> exact ⟨rfl, rfl⟩

theorem setDefaults_none_same {S : Type} (f g : Str → S) (l : Localiser S) (fb ca : Option Bool) :
    l.setDefaults f none fb ca = l.setDefaults g none fb ca := rfl

theorem setDefaults_congr {S : Type} {f g : Str → S} (l : Localiser S) {t : Str} (h : f t = g t) (fb ca : Option Bool) :
    l.setDefaults f (some t) fb ca = l.setDefaults g (some t) fb ca := by
  unfold Localiser.setDefaults; simp only [h]

/-- The spelling set last, after one more step. -/
def nextSet {E : Type} (canon : Str → Except E Str) (s : Str) : Use D F → Str
  | .language q _ _ =>
    match canon q with
    | .ok _ => q
    | .error _ => s
  | _ => s

/-- One step. -/
theorem use_ok {parse : Str → Option Identifier}
    (hparse : ∀ t x, CanonicalTag t → Tag.parse t = .ok x → parse t = some x) {expander : Expander}
    {likely : Identifier → Option Str} (hl : KnowsLikely expander likely) (L : LocEnv D F P) {asked : List Str} {s : Str}
    {p : Held} {r : Registry} (h : HeldOk parse expander likely asked s p r) (u : Use D F) :
    ∃ asked' p' r', Held.use L canonicalize (getScriptData parse expander provider) (p, r) u = some (p', r') ∧
      HeldOk parse expander likely asked' (nextSet canonicalize s u) p' r' ∧
      p'.loc = p.loc.after L (scriptOf parse expander) (callsOf canonicalize [u]) := by
  cases u with
  | ask q =>
    obtain ⟨h1, _, _, h4⟩ := tag_spec canonicalize C63_idempotent asked r q h.sound
    exact ⟨_, _, _, rfl, ⟨h1, h.set, h4 _ _ h.known, h.tag, h.data, h.right⟩, rfl⟩
  | text req hr =>
    refine ⟨asked, _, _, rfl, ⟨h.sound, h.set, h.known, ?_, ?_, ?_⟩, ?_⟩
    · rw [(call_text_keeps L _ p.loc hr).1]; exact h.tag
    · rw [(call_text_keeps L _ p.loc hr).2]; exact h.data
    · rw [(call_text_keeps L _ p.loc hr).2]; exact h.right
    · simp only [callsOf, Localiser.after, List.foldl_cons, List.foldl_nil]
      rw [call_text_same L _ (scriptOf parse expander) p.loc hr]
  | flags fb ca =>
    refine ⟨asked, _, _, rfl, ⟨h.sound, h.set, h.known, ?_, ?_, ?_⟩, ?_⟩
    · rw [(setDefaults_none _ p.loc fb ca).1]; exact h.tag
    · rw [(setDefaults_none _ p.loc fb ca).2]; exact h.data
    · rw [(setDefaults_none _ p.loc fb ca).2]; exact h.right
    · rfl
  | language q fb ca =>
    obtain ⟨h1, h2, h3, h4⟩ := tag_spec canonicalize C63_idempotent asked r q h.sound
    cases hc : canonicalize q with
    | error e =>
      have e2 := h2 e hc
      refine ⟨asked, p, r, by simp [Held.use, e2], by simpa [nextSet, hc] using h, by simp [callsOf, hc, Localiser.after]⟩
    | ok c =>
      obtain ⟨t, ht, htc, htg⟩ := h3 c hc
      rcases hr : r.tag canonicalize q with ⟨a, r'⟩
      rw [hr] at h1 ht htg h4
      dsimp only at h1 ht htg h4
      subst ht
      obtain ⟨d, hd, hd'⟩ := data_of_canonical hparse hl hc
      subst htc
      refine ⟨asked ++ [q], ⟨t, p.loc.setDefaults (fun _ => d) (some t.text) fb ca⟩, r', by simp [Held.use, hr, Held.defaults, hd], ?_, ?_⟩
      · obtain ⟨e1, e2⟩ := setDefaults_tag (fun _ => d) p.loc t.text fb ca
        exact ⟨h1, by simpa [nextSet, hc] using hc, htg, e1, by rw [e2]; exact hd, by rw [e2]; exact hd'⟩
      · simp only [callsOf, hc, Localiser.after, List.foldl_cons, List.foldl_nil, Localiser.call]
        refine setDefaults_congr _ ?_ fb ca
        simp [scriptOf, hd]

theorem callsOf_cons (canon : Str → Except E Str) (u : Use D F) (rest : List (Use D F)) :
    callsOf canon (u :: rest) = callsOf canon [u] ++ callsOf canon rest := by
  cases u with
  | language q f c => simp only [callsOf]; cases canon q <;> rfl
  | _ => rfl

theorem SetLast.cons {canon : Str → Except E Str} {first s : Str} {u : Use D F} {rest : List (Use D F)}
    (h : SetLast canon (nextSet canon first u) rest s) : SetLast canon first (u :: rest) s := by
  cases h with
  | last hq hl => exact SetLast.last (before := u :: _) hq hl
  | never hn =>
    cases u with
    | language q f c =>
      cases hq : canon q with
      | ok x => simp only [nextSet, hq]; exact SetLast.last (before := []) hq hn
      | error e =>
        simp only [nextSet, hq]
        refine .never (List.forall_mem_cons.2 ⟨?_, hn⟩)
        rintro q' f' c' h
        cases h
        exact ⟨e, hq⟩
    | ask q => exact .never (List.forall_mem_cons.2 ⟨(fun _ _ _ h => nomatch h), hn⟩)
    | flags f c => exact .never (List.forall_mem_cons.2 ⟨(fun _ _ _ h => nomatch h), hn⟩)
    | text r hr => exact .never (List.forall_mem_cons.2 ⟨(fun _ _ _ h => nomatch h), hn⟩)

theorem uses_ok {parse : Str → Option Identifier}
    (hparse : ∀ t x, CanonicalTag t → Tag.parse t = .ok x → parse t = some x) {expander : Expander}
    {likely : Identifier → Option Str} (hl : KnowsLikely expander likely) (L : LocEnv D F P) :
    ∀ (uses : List (Use D F)) {asked : List Str} {s : Str} {p : Held} {r : Registry}, HeldOk parse expander likely asked s p r →
    ∃ asked' s' p' r', Held.uses L canonicalize (getScriptData parse expander provider) (p, r) uses = some (p', r') ∧
      HeldOk parse expander likely asked' s' p' r' ∧ SetLast canonicalize s uses s' ∧
      p'.loc = p.loc.after L (scriptOf parse expander) (callsOf canonicalize uses)
  | [], asked, s, p, r, h => ⟨asked, s, p, r, rfl, h, .never (fun _ h => nomatch h), rfl⟩
  | u :: rest, asked, s, p, r, h => by
    obtain ⟨a1, p1, r1, e1, h1, l1⟩ := use_ok hparse hl L h u
    obtain ⟨a2, s2, p2, r2, e2, h2, hs, l2⟩ := uses_ok hparse hl L rest h1
    refine ⟨a2, s2, p2, r2, by simp only [Held.uses, e1, Option.bind_some, e2], h2, SetLast.cons hs, ?_⟩
    rw [l2, l1, callsOf_cons canonicalize u rest]
    simp only [Localiser.after, List.foldl_append]

theorem setLast_cases {canon : Str → Except E Str} {first s : Str} {uses : List (Use D F)} (h : SetLast canon first uses s) :
    (s = first ∧ ∀ u ∈ uses, ∀ q f c, u = .language q f c → ∃ e, canon q = .error e) ∨
    ∃ b l c f g, uses = b ++ Use.language s f g :: l ∧ canon s = .ok c ∧
      ∀ u ∈ l, ∀ q f c, u = .language q f c → ∃ e, canon q = .error e := by
  cases h with
  | never hn => exact .inl ⟨rfl, hn⟩
  | last hq hl => exact .inr ⟨_, _, _, _, _, rfl, hq, hl⟩

theorem setLast_unique {canon : Str → Except E Str} {first s s' : Str} {uses : List (Use D F)} (h : SetLast canon first uses s)
    (h' : SetLast canon first uses s') :
    s = s' := by
  have key : ∀ {b l : List (Use D F)} {q c f g}, canon q = .ok c → uses = b ++ .language q f g :: l →
      ¬ (∀ u ∈ uses, ∀ q f c, u = .language q f c → ∃ e, canon q = .error e) := by
    intro b l q c f g hq he hn
    obtain ⟨e, h⟩ := hn (.language q f g) (by rw [he]; simp) q f g rfl
    rw [hq] at h; cases h
  have one : ∀ {b l b' l' : List (Use D F)} {q c f g q' c' f' g'}, canon q = .ok c → canon q' = .ok c' →
      (∀ u ∈ l, ∀ q f c, u = .language q f c → ∃ e, canon q = .error e) →
      (∀ u ∈ l', ∀ q f c, u = .language q f c → ∃ e, canon q = .error e) →
      b ++ Use.language q f g :: l = b' ++ Use.language q' f' g' :: l' → q = q' := by
    intro b l b' l' q c f g q' c' f' g' hq hq' hl hl' he
    rcases List.append_eq_append_iff.1 he with ⟨m, hb, hm⟩ | ⟨m, hb, hm⟩
    · cases m with
      | nil => simp at hm; exact hm.1.1
      | cons x m =>
        have : Use.language q' f' g' ∈ l := by
          have := (List.cons.inj hm).2; rw [this]; simp
        obtain ⟨e, h⟩ := hl _ this q' f' g' rfl
        rw [hq'] at h; cases h
    · cases m with
      | nil => simp at hm; exact hm.1.1.symm
      | cons x m =>
        have : Use.language q f g ∈ l' := by
          have := (List.cons.inj hm).2; rw [this]; simp
        obtain ⟨e, h⟩ := hl' _ this q f g rfl
        rw [hq] at h; cases h
  rcases setLast_cases h with ⟨rfl, hn⟩ | ⟨b, l, c, f, g, he, hq, hl⟩
  · rcases setLast_cases h' with ⟨rfl, _⟩ | ⟨b, l, c, f, g, he, hq, hl⟩
    · rfl
    · exact absurd hn (key hq he)
  · rcases setLast_cases h' with ⟨rfl, hn⟩ | ⟨b', l', c', f', g', he', hq', hl'⟩
    · exact absurd hn (key hq he)
    · exact one hq hq' hl hl' (he.symm.trans he')

/-! ### C92: a localiser begins and stays as it was asked to be -/

/-- **C92, creation.** With a registry after any requests: a spelling that is no language tag is refused with the error of the
registry, which is unchanged. Otherwise there is a localiser, nothing is cached, the flags are those given, the default
language is the canonical form of the spelling, and the script data are those of its script. There is never a panic. -/
theorem C92_creation {parse : Str → Option Identifier}
    (hparse : ∀ t x, CanonicalTag t → Tag.parse t = .ok x → parse t = some x) {expander : Expander}
    {likely : Identifier → Option Str} (hl : KnowsLikely expander likely) (history : List Str) (fallback caching : Bool)
    (q : Str) :
    let r := (Registry.new.run canonicalize history).2
    let new := Held.tryNew canonicalize (getScriptData parse expander provider) fallback caching q r
    (∀ e, canonicalize q = .error e → new = (.err e, r)) ∧
    (∀ c, canonicalize q = .ok c → ∃ p, new.1 = .ok p ∧ p.loc.cache = [] ∧ p.loc.fallback = fallback ∧
      p.loc.caching = caching ∧ p.loc.tag = c ∧ p.defaultLanguage.text = c ∧ DataOfTag likely c p.scriptData) := by
  intro r new
  have hi := (run_spec canonicalize C63_idempotent history [] Registry.new (inv_new _)).1
  obtain ⟨_, h2, h3, _⟩ := tag_spec canonicalize C63_idempotent _ r q hi
  constructor
  · intro e he
    simp only [new, Held.tryNew, h2 e he]
  · intro c hc
    obtain ⟨t, ht, htc, _⟩ := h3 c hc
    obtain ⟨d, hd, hd'⟩ := data_of_canonical hparse hl hc
    rcases hr : r.tag canonicalize q with ⟨a, r'⟩
    rw [hr] at ht
    dsimp only at ht
    subst ht; subst htc
    refine ⟨⟨t, { cache := [], fallback, caching, tag := t.text, script := d }⟩, ?_, rfl, rfl, rfl, rfl, rfl, hd'⟩
    simp [new, Held.tryNew, hr, hd]

/-- **C92, later.** Whatever a program does with the localiser and its registry, setting a language never panics; the default
language is always that whose spelling was accepted last; the registry gives the very same tag (the same allocation) for
exactly the spellings of this language; and the script data are those that the localiser gives for this tag, which are those
of its script. -/
theorem C92_default_language {parse : Str → Option Identifier}
    (hparse : ∀ t x, CanonicalTag t → Tag.parse t = .ok x → parse t = some x) {expander : Expander}
    {likely : Identifier → Option Str} (hl : KnowsLikely expander likely) (history : List Str) {fallback caching : Bool}
    {q : Str} {p : Held} {r : Registry} (hnew : Held.tryNew canonicalize (getScriptData parse expander provider) fallback caching q
      (Registry.new.run canonicalize history).2 = (.ok p, r)) (L : LocEnv D F P) (uses : List (Use D F)) :
    ∃ p' r', Held.uses L canonicalize (getScriptData parse expander provider) (p, r) uses = some (p', r') ∧
      (∀ s, SetLast canonicalize q uses s → canonicalize s = .ok p'.defaultLanguage.text ∧
        p'.loc.tag = p'.defaultLanguage.text ∧
        ∀ s' t, (r'.tag canonicalize s').1 = .ok t →
          (t.addr = p'.defaultLanguage.addr ↔ canonicalize s' = canonicalize s) ∧
          (t.addr = p'.defaultLanguage.addr → t = p'.defaultLanguage)) ∧
      scriptDataFor (getScriptData parse expander provider) p'.defaultLanguage = .ok p'.scriptData ∧
      DataOfTag likely p'.defaultLanguage.text p'.scriptData := by
  have hi := (run_spec canonicalize C63_idempotent history [] Registry.new (inv_new _)).1
  obtain ⟨h1, h2, h3, _⟩ := tag_spec canonicalize C63_idempotent _ _ q hi
  have h0 : HeldOk parse expander likely ([] ++ history ++ [q]) q p r := by
    cases hc : canonicalize q with
    | error e => simp [Held.tryNew, h2 e hc] at hnew
    | ok c =>
      obtain ⟨t, ht, htc, htg⟩ := h3 c hc
      obtain ⟨d, hd, hd'⟩ := data_of_canonical hparse hl hc
      rcases hr : (Registry.new.run canonicalize history).2.tag canonicalize q with ⟨a, r'⟩
      rw [hr] at ht htg h1
      dsimp only at ht htg h1
      subst ht; subst htc
      simp only [Held.tryNew, hr, hd, Prod.mk.injEq, Outcome.ok.injEq] at hnew
      obtain ⟨rfl, rfl⟩ := hnew
      exact ⟨h1, hc, htg, rfl, hd, hd'⟩
  obtain ⟨a, s, p', r', e, hk, hs, _⟩ := uses_ok hparse hl L uses h0
  refine ⟨p', r', e, ?_, hk.data, hk.right⟩
  intro s' hs'
  obtain rfl := setLast_unique hs hs'
  refine ⟨hk.set, hk.tag, ?_⟩
  intro s2 t ht
  obtain ⟨i2, g2, g3, g4⟩ := tag_spec canonicalize C63_idempotent a r' s2 hk.sound
  cases hc : canonicalize s2 with
  | error e => rw [g2 e hc] at ht; cases ht
  | ok c =>
    obtain ⟨t', ht', htc, htg⟩ := g3 c hc
    rw [ht] at ht'
    cases ht'
    have hold := g4 _ _ hk.known
    rw [hk.set]
    refine ⟨⟨fun e => ?_, fun e => ?_⟩, fun e => ?_⟩
    · exact congrArg _ (i2.tagsInj _ _ _ _ htg hold e)
    · cases e; rw [htg] at hold; cases hold; rfl
    · have := i2.tagsInj _ _ _ _ htg hold e
      subst this
      rw [htg] at hold; cases hold; rfl

/-- **C92, as calls.** The localiser of a program is one with an empty cache after the calls of the program. So what is proved
about such localisers holds in every program. -/
theorem C92_as_calls {parse : Str → Option Identifier}
    (hparse : ∀ t x, CanonicalTag t → Tag.parse t = .ok x → parse t = some x) {expander : Expander}
    {likely : Identifier → Option Str} (hl : KnowsLikely expander likely) (history : List Str) {fallback caching : Bool}
    {q : Str} {p : Held} {r : Registry} (hnew : Held.tryNew canonicalize (getScriptData parse expander provider) fallback caching q
      (Registry.new.run canonicalize history).2 = (.ok p, r)) (L : LocEnv D F P) (uses : List (Use D F)) {p' : Held}
    {r' : Registry} (h : Held.uses L canonicalize (getScriptData parse expander provider) (p, r) uses = some (p', r')) :
    p.loc.cache = [] ∧ p'.loc = p.loc.after L (scriptOf parse expander) (callsOf canonicalize uses) := by
  have hi := (run_spec canonicalize C63_idempotent history [] Registry.new (inv_new _)).1
  obtain ⟨h1, h2, h3, _⟩ := tag_spec canonicalize C63_idempotent _ _ q hi
  cases hc : canonicalize q with
  | error e => simp [Held.tryNew, h2 e hc] at hnew
  | ok c =>
    obtain ⟨t, ht, htc, htg⟩ := h3 c hc
    obtain ⟨d, hd, hd'⟩ := data_of_canonical hparse hl hc
    rcases hr : (Registry.new.run canonicalize history).2.tag canonicalize q with ⟨a, r1⟩
    rw [hr] at ht htg h1
    dsimp only at ht htg h1
    subst ht; subst htc
    simp only [Held.tryNew, hr, hd, Prod.mk.injEq, Outcome.ok.injEq] at hnew
    obtain ⟨rfl, rfl⟩ := hnew
    have h0 : HeldOk parse expander likely ([] ++ history ++ [q]) q
        ⟨t, { cache := [], fallback, caching, tag := t.text, script := d }⟩ r1 := ⟨h1, hc, htg, rfl, hd, hd'⟩
    obtain ⟨_, _, p2, r2, e, _, _, hl2⟩ := uses_ok hparse hl L uses h0
    rw [e] at h
    cases h
    exact ⟨rfl, hl2⟩

/-! ### A program -/

namespace DemoNew

def scripts : Str → Outcome Unit (Option ScriptData) := getScriptData demoTagParse demoExpander provider

/-- English at first, then a tag that is rejected, Chinese as in Taiwan, and a text. -/
def uses : List (Use Nat Unit) := [.ask "EN".toList, .language "no tag".toList none none, .text (Demo.lit "c" "bye") rfl,
  .language "ZH_tw".toList (some true) none, .language "x".toList none none, .flags none (some false)]

/-- What the program sees at the end: the language (which allocation and which text), the kind of script, the flags, and the
allocation that the registry gives for another spelling of the language. -/
def seen (first : Str) (uses : List (Use Nat Unit)) : Option ((Nat × Str × Option Category) × Bool × Bool × Option Nat) :=
  match Held.tryNew canonicalize scripts false true first (Registry.new.run canonicalize ["de".toList]).2 with
  | (.ok p, r) => (Held.uses (Demo.loc (Demo.rows [("c", "bye", "en", "bye")])) canonicalize scripts (p, r) uses).map fun (p, r) =>
      ((p.defaultLanguage.addr, p.defaultLanguage.text, p.scriptData.map ScriptData.category), p.loc.fallback, p.loc.caching,
        (r.tag canonicalize "zh_TW".toList).1.toOption.map TagRef.addr)
  | _ => none

end DemoNew
open DemoNew

example : seen "En".toList [] = some ((1, "en".toList, some .alphabetic), false, true, some 2) := by decide +kernel
example : seen "En".toList DemoNew.uses = some ((2, "zh-TW".toList, some .logographic), true, false, some 2) := by decide +kernel
example : seen "no tag".toList [] = none := by decide +kernel

/-- The tag set last is the one that was accepted last. -/
example : SetLast canonicalize "En".toList DemoNew.uses "ZH_tw".toList := by
  refine SetLast.last (before := [.ask "EN".toList, .language "no tag".toList none none, .text (Demo.lit "c" "bye") rfl])
    (c := "zh-TW".toList) (by decide +kernel) ?_
  intro u hu q f c h
  subst h
  simp only [List.mem_cons, List.not_mem_nil, or_false, Use.language.injEq, reduceCtorEq] at hu
  obtain ⟨rfl, _⟩ := hu
  exact ⟨.invalidLanguage, by decide +kernel⟩

end Verif.Props
