import Verif.Spec.Errors
import Verif.Lemmas.Templates
import Verif.Props.Provider
import Verif.Props.ProviderDetails
import Verif.Lemmas.LocaliserCache
/-
What a localiser with the shipped databases gives for localisation data.
-/
namespace Verif.ErrorLemmas
open Verif Verif.Spec Verif.Errors Verif.ProviderLemmas Verif.FormatLemmas Verif.LocaliserLemmas

variable {D F P E : Type}

/-! ### The strings that are found -/

/-- The components that are shipped and their strings. -/
def tables : List (Str × List PatternRow) :=
  [(localiserName, Shipped.localiserRows), (providerName, Shipped.providerRows), (sqlite3Name, Shipped.sqlite3Rows)]

/-- The localiser finds the strings, and no strings for the components that are not shipped. -/
structure Serves (L : LocEnv D F P) (tag : Str) : Prop where
  found : ∀ c rows, (c, rows) ∈ tables → ∀ i, (∃ r ∈ rows, For c i r ∧ r.tag = english) →
    ∃ r ∈ rows, For c i r ∧ (tag = english → r.tag = english) ∧ fetch L c i tag true = .ok (r.string, r.tag)
  absent : ∀ c ∈ ["i18n_pattern".toList, "i18n_icu".toList, lexerName], ∀ i x, fetch L c i tag true ≠ .ok x

/-- The languages of the shipped strings. -/
theorem shipped_tags : ∀ t ∈ tables, ∀ r ∈ t.2, r.tag = english ∨ r.tag = italian := by
  decide +kernel

/-- One component. -/
theorem serves_one {canon : Str → Except E Str} {p : Sqlite} {st : Verif.Store} (h : HasShipped canon p st)
    {L : LocEnv D F (Option (ProvErr E))} (hL : L.provider = asProvider canon p st) {tag : Str} (hw : NoWildcards tag)
    {c : Str} {rows : List PatternRow} (ht : (c, rows) ∈ tables) (hc : p.components.get c = some (false, true))
    (hp : (st c).pattern = .ok rows) (hd : (st c).component = .ok [⟨c, english⟩]) (i : Str)
    (hi : ∃ r ∈ rows, For c i r ∧ r.tag = english) :
    ∃ r ∈ rows, For c i r ∧ (tag = english → r.tag = english) ∧ fetch L c i tag true = .ok (r.string, r.tag) := by
  have hpl : places (false, true) c = [c] := by simp [places]
  have htags := shipped_tags _ ht
  simp only at htags
  have hcan : ∀ r ∈ rows, canon r.tag = .ok r.tag := by
    intro r hr
    rcases htags r hr with e | e <;> rw [e]
    · exact h.english
    · exact h.italian
  have hh : Holds canon st (places (false, true) c) (fun _ => rows) := by
    intro name hn
    rw [hpl, List.mem_singleton] at hn
    subst hn
    exact ⟨hp, fun r hr => ⟨_, hcan r hr⟩⟩
  have main : ∀ tag, NoWildcards tag →
      (p.string canon st c i tag = .ok none ∧ tag ≠ english) ∨
      ∃ r ∈ rows, For c i r ∧ (tag = english → r.tag = english) ∧
        p.string canon st c i tag = .ok (some (r.string, r.tag)) := by
    intro tag hw
    rcases Props.C35_found_unless_none_matches h.connected hc hh i tag hw with ⟨h1, h2⟩ |
      ⟨x, name, r, t, h1, h2, h3, h4, h5, h6, h7⟩
    · refine .inl ⟨h1, ?_⟩
      rintro rfl
      obtain ⟨r, hr, hf, hr'⟩ := hi
      refine h2 c (by simp [hpl]) english ⟨by decide, .inl rfl⟩ r hr hf ?_
      rw [hr']
      exact List.prefix_refl _
    · refine .inr ⟨r, h3, h4, ?_, ?_⟩
      · rintro rfl
        rcases htags r h3 with e | e
        · exact e
        · rw [e] at h6
          obtain ⟨hne, h5⟩ := h5
          have : t = english ∨ t = "en".toList := by
            rcases h5 with e | ⟨rest, e⟩
            · exact .inl e
            · match t, e, hne with
              | [a], e, _ => simp [english] at e
              | [a, b], e, _ => simp [english] at e; obtain ⟨rfl, rfl, _⟩ := e; exact .inr rfl
              | [a, b, d], e, _ => simp [english] at e
              | [a, b, d, f], e, _ => simp [english] at e
              | a :: b :: d :: f :: g :: t, e, _ =>
                simp [english] at e
          rcases this with e | e <;> rw [e] at h6 <;> exact absurd h6 (by decide)
      · obtain ⟨g1, g2⟩ := h7
        rw [h1, ← g1]
        rw [hcan r h3] at g2
        rw [Except.ok.inj g2]
  have hdef : L.provider.default c = .ok english := by
    obtain ⟨⟨details, repo⟩, hb⟩ := h.details
    obtain ⟨_, hk, _⟩ := buildCache_ok h.keys hb
    have : c ∈ details.keys := by rw [hk]; exact List.mem_map_of_mem (AMap.mem_of_get hc)
    obtain ⟨d, hget⟩ : ∃ d, details.get c = some d := by
      cases hg : details.get c with
      | none => exact absurd this (by rwa [← AMap.get_eq_none_iff])
      | some d => exact ⟨d, rfl⟩
    obtain ⟨before, name, after, r, e1, _, e3, e4⟩ := Props.C52_default_language h.connected h.keys hb hc hget
      (component := fun _ => [⟨c, english⟩]) (by
        intro name hn
        rw [hpl, List.mem_singleton] at hn
        rw [hn]; exact hd)
    have : r = ⟨c, english⟩ := by simpa using e3.symm
    subst this
    rw [hL]
    simp only [asProvider, hb, hget]
    rw [h.english] at e4
    rw [Except.ok.inj e4]
  have hstr : ∀ tag, NoWildcards tag → ∀ x, p.string canon st c i tag = .ok x →
      L.provider.string c i tag = .ok x := by
    intro tag hw x hx
    rw [hL]
    simp [asProvider, hw, hx]
  unfold fetch
  rcases main tag hw with ⟨h1, h2⟩ | ⟨r, h1, h2, h3, h4⟩
  · rw [hstr _ hw _ h1]
    simp only [hdef, not_true_eq_false, if_false]
    have hwe : NoWildcards english := by decide
    rcases main english hwe with ⟨_, h4⟩ | ⟨r, h4, h5, h6, h7⟩
    · exact absurd rfl h4
    · rw [hstr _ hwe _ h7]
      exact ⟨r, h4, h5, fun e => absurd e h2, rfl⟩
  · rw [hstr _ hw _ h4]
    exact ⟨r, h1, h2, h3, rfl⟩

theorem serves {canon : Str → Except E Str} {p : Sqlite} {st : Verif.Store} (h : HasShipped canon p st)
    {L : LocEnv D F (Option (ProvErr E))} (hL : L.provider = asProvider canon p st) {tag : Str} (hw : NoWildcards tag) :
    Serves L tag where
  found c rows ht := by
    have ht' := ht
    simp only [tables, List.mem_cons, Prod.mk.injEq, List.not_mem_nil, or_false] at ht'
    rcases ht' with ⟨rfl, rfl⟩ | ⟨rfl, rfl⟩ | ⟨rfl, rfl⟩
    · exact serves_one h hL hw ht h.localiser.1 (by rw [h.localiser.2]; rfl) (by rw [h.localiser.2]; rfl)
    · exact serves_one h hL hw ht h.provider.1 (by rw [h.provider.2]; rfl) (by rw [h.provider.2]; rfl)
    · exact serves_one h hL hw ht h.sqlite3.1 (by rw [h.sqlite3.2]; rfl) (by rw [h.sqlite3.2]; rfl)
  absent c hc i x hx := by
    unfold fetch at hx
    rw [hL] at hx
    simp only [asProvider, hw, if_true, Sqlite.string, Sqlite.oneString, h.absent c hc] at hx
    cases hx

/-! ### Values -/

/-- The text a map of values gives for a name, if any. -/
def given (vs : List (Str × PValue D F)) (n : Str) : Option Str := ((vs.find? fun x => x.1 = n).map Prod.snd).bind textOf

/-- The values inserted one after the other. -/
def inserted (vs : List (Str × PValue D F)) (acc : AMap Str (PValue D F)) : AMap Str (PValue D F) :=
  vs.foldl (fun a x => a.insert x.1 x.2) acc

theorem get_inserted : ∀ (vs : List (Str × PValue D F)) (acc : AMap Str (PValue D F)), (vs.map Prod.fst).Nodup →
    ∀ n, (inserted vs acc).get n =
      ((vs.find? fun x => x.1 = n).map Prod.snd).or (acc.get n)
  | [], acc, _, n => by simp [inserted]
  | x :: vs, acc, hn, n => by
    rw [List.map_cons, List.nodup_cons] at hn
    rw [inserted, List.foldl_cons, ← inserted, get_inserted vs _ hn.2, AMap.get_insert, List.find?_cons]
    by_cases h : x.1 = n
    · subst h
      have : vs.find? (fun y => y.1 = x.1) = none := by
        rw [List.find?_eq_none]
        intro y hy hyx
        exact hn.1 (by rw [← of_decide_eq_true hyx]; exact List.mem_map_of_mem hy)
      simp [this]
    · simp [h]

/-- Values that are not localisation data. -/
def Simple (v : PValue D F) : Prop := ∀ c i vs, v ≠ .localisationData c i vs

theorem resolve_simple (L : LocEnv D F P) (tag : Str) (fb : Bool) : ∀ (vs : List (Str × PValue D F))
    (acc : AMap Str (PValue D F)), (∀ x ∈ vs, Simple x.2) →
    resolveValues L tag fb false vs acc [] = (.ok (inserted vs acc), [])
  | [], acc, _ => by simp [resolveValues, inserted]
  | (n, v) :: vs, acc, h => by
    have ih := resolve_simple L tag fb vs (acc.insert n v) (fun x hx => h x (by simp [hx]))
    have h1 := h (n, v) (by simp)
    cases v with
    | localisationData c i w => exact absurd rfl (h1 c i w)
    | _ => simpa [resolveValues, inserted] using ih

/-- Data with values that are not localisation data themselves. -/
theorem formatError_simple (L : LocEnv D F P) (tag : Str) (fb : Bool) (c i : Str) (vs : List (Str × PValue D F))
    (h : ∀ x ∈ vs, Simple x.2) : (formatError L tag fb false ⟨c, i, some vs⟩ []).1 =
      (fetch L c i tag fb >>= shown L (inserted vs [])) := by
  simp only [formatError, actualData, resolve_simple L tag fb vs [] h, actualFormat_nil]

/-- Data without values. -/
theorem formatError_bare (L : LocEnv D F P) (tag : Str) (fb : Bool) (c i : Str) :
    (formatError L tag fb false ⟨c, i, none⟩ []).1 = fetch L c i tag fb := by
  simp [formatError, actualData, actualLiteral_nil]

/-- Data of which the last value is localisation data. -/
theorem formatError_nested (L : LocEnv D F P) (tag : Str) (fb : Bool) (c i n : Str) (vs : List (Str × PValue D F))
    (h : ∀ x ∈ vs, Simple x.2) (d : LData D F) : (formatError L tag fb false ⟨c, i, some (vs ++ [(n, d.value)])⟩ []).1 =
      ((formatError L tag fb false d []).1 >>= fun x => fetch L c i tag fb >>=
        shown L (inserted (vs ++ [(n, .localised x.1 x.2)]) [])) := by
  have key : ∀ (vs : List (Str × PValue D F)) (acc : AMap Str (PValue D F)), (∀ x ∈ vs, Simple x.2) →
      resolveValues L tag fb false (vs ++ [(n, d.value)]) acc [] =
      ((formatError L tag fb false d []).1 >>= fun x => .ok (inserted (vs ++ [(n, .localised x.1 x.2)]) acc), []) := by
    intro vs
    induction vs with
    | nil =>
      intro acc _
      have hn := actualData_nil L tag fb d.component d.identifier d.values
      simp only [List.nil_append, LData.value, resolveValues, formatError]
      generalize actualData L tag fb false d.component d.identifier d.values [] = y at hn ⊢
      obtain ⟨y, _⟩ := y
      simp only at hn
      subst hn
      cases y <;> rfl
    | cons x vs ih =>
      intro acc h
      obtain ⟨m, v⟩ := x
      have ih := ih (acc.insert m v) (fun x hx => h x (by simp [hx]))
      have h1 := h (m, v) (by simp)
      cases v with
      | localisationData c i w => exact absurd rfl (h1 c i w)
      | _ => simpa [resolveValues, inserted] using ih
  simp only [formatError, actualData, key vs [] h]
  cases (actualData L tag fb false d.component d.identifier d.values []).1 <;> simp [actualFormat_nil, Outcome.bind_ok] <;> rfl

/-! ### Strings that can be formatted and strings that cannot -/

def letters : Str := "abcdefghijklmnopqrstuvwxyzABCDEFGHIJKLMNOPQRSTUVWXYZ_".toList

/-- A template with placeholders among the names. -/
def Good (names : List Str) (segs : List Seg) : Prop :=
  (holes segs).Nodup ∧ ∀ id ∈ holes segs, id ∈ names ∧ id ≠ [] ∧ ∀ c ∈ id, c ∈ letters

instance (names : List Str) (segs : List Seg) : Decidable (Good names segs) := inferInstanceAs (Decidable (_ ∧ _))

/-- Strings that cannot be formatted when the texts have these names: an unknown placeholder, a repeated one, or a
literal text. -/
inductive Bad (names : List Str) : Str → Prop
  | unknown (segs : List Seg) : (∃ id ∈ holes segs, id ∉ names) →
      (∀ id ∈ holes segs, id ≠ [] ∧ ∀ c ∈ id, c ∈ letters) → Bad names (source segs)
  | twice (segs : List Seg) : ¬ (holes segs).Nodup →
      (∀ id ∈ holes segs, id ≠ [] ∧ ∀ c ∈ id, c ∈ letters) → Bad names (source segs)
  | literal (segs : List Seg) (rest : Str) : (holes segs).Nodup →
      (∀ id ∈ holes segs, id ≠ [] ∧ ∀ c ∈ id, c ∈ letters) → Bad names (source segs ++ '{' :: '`' :: rest)

theorem good_ok {E : FmtEnv D F} (hE : Standard E) (hL : Letters E.icu) {names : List Str} {segs : List Seg}
    (hg : Good names segs) (tag lang : Str) (values : AMap Str (PValue D F)) (val : Str → Str)
    (hv : ∀ n ∈ names, (values.get n).bind textOf = some (val n)) :
    formatString E (source segs) tag (some lang) values = .ok (fill val segs, tag) := by
  refine Props.C14_placeholders_are_substituted E hE segs tag lang values val hg.1 fun id hid => ?_
  obtain ⟨h1, h2⟩ := hg.2 id hid
  refine ⟨hL.word h2, ?_⟩
  obtain ⟨v, e1, e2⟩ := Option.bind_eq_some_iff.1 (hv id h1)
  refine ⟨v, e1, ?_⟩
  cases v <;> simp [textOf] at e2 <;> subst e2 <;> constructor

theorem bad_fails {E : FmtEnv D F} (hE : Standard E) (hL : Letters E.icu) {names : List Str} {s : Str}
    (hb : Bad names s) (tag lang : Str) (values : AMap Str (PValue D F))
    (hv : ∀ n, n ∉ names → (values.get n).bind textOf = none) :
    ∀ x, formatString E s tag (some lang) values ≠ .ok x := by
  cases hb with
  | unknown segs h1 h2 =>
    obtain ⟨id, h3, h4⟩ := h1
    exact missing_fails hE segs (fun id hid => hL.word (h2 id hid)) h3 tag lang values (hv id h4)
  | twice segs h1 h2 => exact twice_fails hE segs (fun id hid => hL.word (h2 id hid)) h1 tag _ values
  | literal segs rest h1 h2 => exact literal_fails hE segs (fun id hid => hL.word (h2 id hid)) h1 rest tag _ values

/-! ### The tables -/

/-- Texts and placeholders of a string without backticks. -/
def segsOf (fuel : Nat) (s : Str) : List Seg :=
  match fuel, s with
  | 0, _ | _, [] => []
  | fuel + 1, s =>
    let t := s.takeWhile (· ≠ '{')
    match s.drop t.length with
    | [] => [.text t]
    | _ :: rest =>
      let id := rest.takeWhile (· ≠ '}')
      .text t :: .hole id :: segsOf fuel (rest.drop (id.length + 1))

/-- What is before the first literal text, and what is after its opening. -/
def atLiteral : Str → Option (Str × Str)
  | '{' :: '`' :: rest => some ([], rest)
  | [] => none
  | c :: rest => (atLiteral rest).map fun x => (c :: x.1, x.2)

def Words (segs : List Seg) : Prop := ∀ id ∈ holes segs, id ≠ [] ∧ ∀ c ∈ id, c ∈ letters

instance (segs : List Seg) : Decidable (Words segs) := inferInstanceAs (Decidable (∀ id ∈ holes segs, _))

/-- The string can be formatted with texts for the names. -/
def GoodText (names : List Str) (s : Str) : Prop := source (segsOf 9 s) = s ∧ Good names (segsOf 9 s)

instance (names : List Str) (s : Str) : Decidable (GoodText names s) := inferInstanceAs (Decidable (_ ∧ _))

/-- The string cannot be formatted with texts for the names only. -/
def BadText (names : List Str) (s : Str) : Prop :=
  (source (segsOf 9 s) = s ∧ Words (segsOf 9 s) ∧
    ((∃ id ∈ holes (segsOf 9 s), id ∉ names) ∨ ¬ (holes (segsOf 9 s)).Nodup)) ∨
  match atLiteral s with
  | some (a, b) => source (segsOf 9 a) ++ '{' :: '`' :: b = s ∧ (holes (segsOf 9 a)).Nodup ∧ Words (segsOf 9 a)
  | none => False

instance (names : List Str) (s : Str) : Decidable (BadText names s) := by
  unfold BadText
  cases atLiteral s <;> infer_instance

theorem BadText.bad {names : List Str} {s : Str} (h : BadText names s) : Bad names s := by
  rcases h with ⟨h1, h2, h3 | h3⟩ | h
  · rw [← h1]; exact .unknown _ h3 h2
  · rw [← h1]; exact .twice _ h3 h2
  · split at h
    · obtain ⟨h1, h2, h3⟩ := h
      rw [← h1]; exact .literal _ _ h2 h3
    · exact h.elim

/-- There is an English string, and all strings for the identifier are like this. -/
def Every (rows : List PatternRow) (c i : String) (p : Str → Prop) : Prop :=
  (∃ r ∈ rows, For c.toList i.toList r ∧ r.tag = english) ∧ ∀ r ∈ rows, For c.toList i.toList r → p r.string

instance (rows : List PatternRow) (c i : String) (p : Str → Prop) [DecidablePred p] : Decidable (Every rows c i p) :=
  inferInstanceAs (Decidable (_ ∧ _))

/-- The English strings for the identifier are this one. -/
def EnglishIs (rows : List PatternRow) (c i : String) (s : Str) : Prop :=
  (∃ r ∈ rows, For c.toList i.toList r ∧ r.tag = english) ∧
    ∀ r ∈ rows, For c.toList i.toList r → r.tag = english → r.string = s

instance (rows : List PatternRow) (c i : String) (s : Str) : Decidable (EnglishIs rows c i s) :=
  inferInstanceAs (Decidable (_ ∧ _))

theorem tag_read {L : LocEnv D F P} (hR : Reader L) {c : Str} {rows : List PatternRow} (ht : (c, rows) ∈ tables)
    {r : PatternRow} (hr : r ∈ rows) : ∃ lang, L.icuLanguage r.tag = some lang := by
  rcases shipped_tags _ ht r hr with e | e <;> rw [e]
  · exact hR.english
  · exact hR.italian

def keyed (vals : List (String × PValue D F)) : List (Str × PValue D F) := vals.map fun x => (x.1.toList, x.2)

theorem message_eq {L : LocEnv D F P} {tag : Str} {c i : String} {vals : List (String × PValue D F)}
    (hsm : ∀ x ∈ vals, Simple x.2) : (formatError L tag true false (message c i vals) []).1 =
      (fetch L c.toList i.toList tag true >>= shown L (inserted (keyed vals) [])) :=
  formatError_simple L tag true _ _ _ (by
    intro x hx
    obtain ⟨y, hy, rfl⟩ := List.mem_map.1 hx
    exact hsm y hy)

theorem get_keyed {vals : List (String × PValue D F)} (hk : (vals.map fun x => x.1.toList).Nodup) (n : Str) :
    ((inserted (keyed vals) []).get n).bind textOf = given (keyed vals) n := by
  rw [get_inserted _ _ (by simpa [keyed, Function.comp_def] using hk)]
  simp [given]

theorem message_localised {L : LocEnv D F P} {tag : Str} (hs : Serves L tag) (hR : Reader L) {c i : String}
    {rows : List PatternRow} (ht : (c.toList, rows) ∈ tables) {vals : List (String × PValue D F)}
    (hk : (vals.map fun x => x.1.toList).Nodup) (hsm : ∀ x ∈ vals, Simple x.2) {names : List Str}
    (hg : Every rows c i (GoodText names)) (hv : ∀ n ∈ names, ∃ t, given (keyed vals) n = some t) :
    Localised L tag (message c i vals) := by
  obtain ⟨r, h1, h2, _, h3⟩ := hs.found _ _ ht _ hg.1
  obtain ⟨lang, hl⟩ := tag_read hR ht h1
  obtain ⟨g1, g2⟩ := hg.2 r h1 h2
  have := good_ok hR.standard hR.letters g2 r.tag lang (inserted (keyed vals) [])
    (fun n => (given (keyed vals) n).getD []) (by
      intro n hn
      rw [get_keyed hk]
      obtain ⟨t, e⟩ := hv n hn
      simp [e])
  rw [g1] at this
  refine ⟨(fill (fun n => (given (keyed vals) n).getD []) (segsOf 9 r.string), r.tag), ?_⟩
  rw [message_eq hsm, h3, Outcome.bind_ok, shown, hl]
  simp only [this]
  rfl

theorem message_fails {L : LocEnv D F P} {tag : Str} (hs : Serves L tag) (hR : Reader L) {c i : String}
    {rows : List PatternRow} (ht : (c.toList, rows) ∈ tables) {vals : List (String × PValue D F)}
    (hk : (vals.map fun x => x.1.toList).Nodup) (hsm : ∀ x ∈ vals, Simple x.2) {names : List Str}
    (hg : Every rows c i (BadText names)) (hv : ∀ n, n ∉ names → given (keyed vals) n = none) :
    ¬ Localised L tag (message c i vals) := by
  obtain ⟨r, h1, h2, _, h3⟩ := hs.found _ _ ht _ hg.1
  obtain ⟨lang, hl⟩ := tag_read hR ht h1
  rintro ⟨x, hx⟩
  rw [message_eq hsm, h3, Outcome.bind_ok, shown, hl] at hx
  have := bad_fails hR.standard hR.letters (hg.2 r h1 h2).bad r.tag lang (inserted (keyed vals) [])
    (by intro n hn; rw [get_keyed hk]; exact hv n hn)
  simp only at hx
  cases hf : formatString L.fmt r.string r.tag (some lang) (inserted (keyed vals) []) with
  | ok y => exact this y hf
  | err e => rw [hf] at hx; cases hx
  | panic => rw [hf] at hx; cases hx

theorem message_text {L : LocEnv D F P} (hs : Serves L english) (hR : Reader L) {c i : String}
    {rows : List PatternRow} (ht : (c.toList, rows) ∈ tables) {vals : List (String × PValue D F)}
    (hk : (vals.map fun x => x.1.toList).Nodup) (hsm : ∀ x ∈ vals, Simple x.2) {names : List Str} (segs : List Seg)
    (hr : EnglishIs rows c i (source segs)) (hg : Good names segs) (val : Str → Str)
    (hv : ∀ n ∈ names, given (keyed vals) n = some (val n)) :
    (formatError L english true false (message c i vals) []).1 = .ok (fill val segs, english) := by
  obtain ⟨r, h1, h2, h4, h3⟩ := hs.found _ _ ht _ hr.1
  obtain ⟨lang, hl⟩ := tag_read hR ht h1
  rw [message_eq hsm, h3, Outcome.bind_ok, shown, hl]
  simp only
  rw [hr.2 r h1 h2 (h4 rfl), h4 rfl, good_ok hR.standard hR.letters hg english lang _ val (by
    intro n hn
    rw [get_keyed hk]
    exact hv n hn)]
  rfl

/-- A message without values. -/
theorem bare_localised {L : LocEnv D F P} {tag : Str} (hs : Serves L tag) {c i : String}
    {rows : List PatternRow} (ht : (c.toList, rows) ∈ tables) (hg : Every rows c i fun _ => True) :
    Localised L tag (bare c i) := by
  obtain ⟨r, _, _, _, h3⟩ := hs.found _ _ ht _ hg.1
  exact ⟨_, (formatError_bare ..).trans h3⟩

theorem bare_text {L : LocEnv D F P} (hs : Serves L english) {c i : String} {rows : List PatternRow}
    (ht : (c.toList, rows) ∈ tables) {s : Str} (hr : EnglishIs rows c i s) :
    (formatError L english true false (bare c i : LData D F) []).1 = .ok (s, english) := by
  obtain ⟨r, h1, h2, h4, h3⟩ := hs.found _ _ ht _ hr.1
  refine (formatError_bare ..).trans ?_
  rw [h3, hr.2 r h1 h2 (h4 rfl), h4 rfl]

/-- Data of a component that is not shipped. -/
theorem absent_fails {L : LocEnv D F P} {tag : Str} (hs : Serves L tag) {d : LData D F}
    (hc : d.component ∈ ["i18n_pattern".toList, "i18n_icu".toList, lexerName])
    (hv : ∀ vs, d.values = some vs → ∀ x ∈ vs, Simple x.2) : ¬ Localised L tag d := by
  rintro ⟨x, hx⟩
  obtain ⟨c, i, vs⟩ := d
  cases vs with
  | none => rw [formatError_bare] at hx; exact hs.absent c hc i x hx
  | some vs =>
    rw [formatError_simple L tag true c i vs (hv vs rfl)] at hx
    cases hf : fetch L c i tag true with
    | ok y => exact hs.absent c hc i y hf
    | err e => rw [hf] at hx; cases hx
    | panic => rw [hf] at hx; cases hx

/-! ### Type and variant around a message or an error -/

theorem wrapped {L : LocEnv D F P} {tag : Str} (hs : Serves L tag) (hR : Reader L) (i : String) (n1 n2 n3 o c : Str)
    (h12 : n1 ≠ n2) (h13 : n1 ≠ n3) (h23 : n2 ≠ n3) (hw : ∀ n ∈ [n1, n2, n3], n ≠ [] ∧ ∀ x ∈ n, x ∈ letters)
    (hrows : Every Shipped.localiserRows "i18n_localiser" i (· = source [.hole n1, .text "::".toList, .hole n2, .text o,
      .hole n3, .text c]) ∧ ∀ r ∈ Shipped.localiserRows, For localiserName i.toList r → r.tag = english)
    (v1 v2 v3 : PValue D F) (t1 t2 t3 : Str) (e1 : textOf v1 = some t1) (e2 : textOf v2 = some t2)
    (e3 : textOf v3 = some t3) :
    (fetch L localiserName i.toList tag true >>= shown L (inserted [(n1, v1), (n2, v2), (n3, v3)] [])) =
      .ok (t1 ++ "::".toList ++ t2 ++ o ++ t3 ++ c, english) := by
  obtain ⟨r, h1, h2, _, h3⟩ := hs.found localiserName Shipped.localiserRows (by simp [tables]) i.toList hrows.1.1
  have h4 := hrows.2 r h1 h2
  obtain ⟨lang, hl⟩ := hR.english
  rw [h3, Outcome.bind_ok, shown, h4, hl]
  simp only
  rw [hrows.1.2 r h1 h2, good_ok hR.standard hR.letters (names := [n1, n2, n3])
    (val := fun n => if n = n1 then t1 else if n = n2 then t2 else t3) ?_ english lang _ ?_]
  · simp [fill, Seg.fill, Outcome.mapErr, h12.symm, h13.symm, h23.symm]
  · refine ⟨?_, ?_⟩
    · simp [holes, h12, h13, h23]
    · intro id hid
      have hid : id ∈ [n1, n2, n3] := by simpa [holes] using hid
      exact ⟨hid, hw id hid⟩
  · intro n hm
    rw [get_inserted _ _ (by simp [h12, h13, h23])]
    simp only [List.mem_cons, List.not_mem_nil, or_false] at hm
    rcases hm with rfl | rfl | rfl
    · simp [e1]
    · simp [h12, h12.symm, e2]
    · simp [h13, h23, h13.symm, h23.symm, e3]

theorem enum_rows : Every Shipped.localiserRows "i18n_localiser" "error_format_enum" (· = source [.hole "type".toList,
    .text "::".toList, .hole "variant".toList, .text ": ‘".toList, .hole "message".toList, .text "’.".toList]) ∧
    ∀ r ∈ Shipped.localiserRows, For localiserName "error_format_enum".toList r → r.tag = english := by
  decide +kernel

theorem embedded_rows : Every Shipped.localiserRows "i18n_localiser" "error_format_enum_embedded" (· = source [
    .hole "type".toList, .text "::".toList, .hole "variant".toList, .text ": [".toList, .hole "error".toList,
    .text "].".toList]) ∧
    ∀ r ∈ Shipped.localiserRows, For localiserName "error_format_enum_embedded".toList r → r.tag = english := by
  decide +kernel

/-- The message in quotation marks after type and variant; no text without a text for the message. -/
theorem enum_eq {L : LocEnv D F P} {tag : Str} (hs : Serves L tag) (hR : Reader L) (type variant : String)
    (m : LData D F) : (formatError L tag true false (enumFormat type variant m) []).1 =
      ((formatError L tag true false m []).1 >>= fun x =>
        .ok (type.toList ++ "::".toList ++ variant.toList ++ ": ‘".toList ++ x.1 ++ "’.".toList, english)) := by
  refine (formatError_nested L tag true localiserName "error_format_enum".toList "message".toList
    [("type".toList, .string type.toList), ("variant".toList, .string variant.toList)]
    (by simp [Simple]) m).trans ?_
  cases (formatError L tag true false m []).1 with
  | ok x =>
    exact wrapped hs hR "error_format_enum" "type".toList "variant".toList "message".toList ": ‘".toList "’.".toList
      (by decide) (by decide) (by decide) (by decide) enum_rows _ _ _ _ _ x.1 rfl rfl rfl
  | err e => rfl
  | panic => rfl

theorem embedded_eq {L : LocEnv D F P} {tag : Str} (hs : Serves L tag) (hR : Reader L) (type variant : String)
    (d : LData D F) : (formatError L tag true false (embedded type variant d.value) []).1 =
      ((formatError L tag true false d []).1 >>= fun x =>
        .ok (type.toList ++ "::".toList ++ variant.toList ++ ": [".toList ++ x.1 ++ "].".toList, english)) := by
  refine (formatError_nested L tag true localiserName "error_format_enum_embedded".toList "error".toList
    [("type".toList, .string type.toList), ("variant".toList, .string variant.toList)]
    (by simp [Simple]) d).trans ?_
  cases (formatError L tag true false d []).1 with
  | ok x =>
    exact wrapped hs hR "error_format_enum_embedded" "type".toList "variant".toList "error".toList ": [".toList "].".toList
      (by decide) (by decide) (by decide) (by decide) embedded_rows _ _ _ _ _ x.1 rfl rfl rfl
  | err e => rfl
  | panic => rfl

/-- The text of a foreign error in brackets. -/
theorem foreign_eq {L : LocEnv D F P} {tag : Str} (hs : Serves L tag) (hR : Reader L) (type variant : String) (s : Str) :
    (formatError L tag true false (embedded type variant (.string s) : LData D F) []).1 =
      .ok (type.toList ++ "::".toList ++ variant.toList ++ ": [".toList ++ s ++ "].".toList, english) := by
  refine (formatError_simple L tag true localiserName "error_format_enum_embedded".toList
    [("type".toList, .string type.toList), ("variant".toList, .string variant.toList), ("error".toList, .string s)]
    (by simp [Simple])).trans ?_
  exact wrapped hs hR "error_format_enum_embedded" "type".toList "variant".toList "error".toList ": [".toList "].".toList
    (by decide) (by decide) (by decide) (by decide) embedded_rows _ _ _ _ _ s rfl rfl rfl

theorem bind_ok_iff {ε α β : Type} {x : Outcome ε α} {f : α → β} :
    (∃ y, (x >>= fun a => Outcome.ok (f a)) = .ok y) ↔ ∃ a, x = .ok a := by
  cases x with
  | ok a => exact ⟨fun _ => ⟨a, rfl⟩, fun _ => ⟨_, rfl⟩⟩
  | err e => exact ⟨fun ⟨_, h⟩ => (nomatch h), fun ⟨_, h⟩ => (nomatch h)⟩
  | panic => exact ⟨fun ⟨_, h⟩ => (nomatch h), fun ⟨_, h⟩ => (nomatch h)⟩

theorem enum_iff {L : LocEnv D F P} {tag : Str} (hs : Serves L tag) (hR : Reader L) {type variant : String}
    {m : LData D F} : Localised L tag (enumFormat type variant m) ↔ Localised L tag m := by
  unfold Localised
  rw [enum_eq hs hR]
  exact bind_ok_iff

theorem embedded_iff {L : LocEnv D F P} {tag : Str} (hs : Serves L tag) (hR : Reader L) {type variant : String}
    {d : LData D F} : Localised L tag (embedded type variant d.value) ↔ Localised L tag d := by
  unfold Localised
  rw [embedded_eq hs hR]
  exact bind_ok_iff

theorem foreign_ok {L : LocEnv D F P} {tag : Str} (hs : Serves L tag) (hR : Reader L) {type variant : String} {s : Str} :
    Localised L tag (embedded type variant (.string s) : LData D F) := ⟨_, foreign_eq hs hR type variant s⟩

/-! ### Messages with texts only -/

/-- Texts with their names. -/
def texts (names : List String) (ts : List Str) : List (String × PValue D F) := List.zipWith (fun n t => (n, .string t)) names ts

theorem texts_simple {names : List String} {ts : List Str} : ∀ x ∈ (texts names ts : List (String × PValue D F)),
    Simple x.2 := by
  intro x hx
  unfold texts at hx
  rw [List.mem_iff_getElem] at hx
  obtain ⟨n, hn, rfl⟩ := hx
  simp [Simple]

theorem texts_names : ∀ {names : List String} {ts : List Str}, names.length = ts.length →
    (texts names ts : List (String × PValue D F)).map (fun x => x.1.toList) = names.map String.toList
  | [], [], _ => rfl
  | n :: names, t :: ts, h => by
    have := texts_names (names := names) (ts := ts) (by simpa using h)
    simpa [texts] using this

theorem given_texts : ∀ {names : List String} {ts : List Str}, names.length = ts.length → ∀ n,
    (n ∈ names.map String.toList → ∃ t, given (keyed (texts names ts : List (String × PValue D F))) n = some t) ∧
    (n ∉ names.map String.toList → given (keyed (texts names ts : List (String × PValue D F))) n = none)
  | [], [], _, n => by simp [texts, keyed, given]
  | m :: names, t :: ts, h, n => by
    have := given_texts (names := names) (ts := ts) (by simpa using h) n
    simp only [texts, List.zipWith_cons_cons, keyed, List.map_cons, given, List.find?_cons] at this ⊢
    by_cases hm : m.toList = n
    · simp [hm, textOf]
    · have hm' : ¬ n = m.toList := fun e => hm e.symm
      simpa [hm, hm'] using this

variable {L : LocEnv D F P} {tag : Str}

theorem texts_localised (hs : Serves L tag) (hR : Reader L) {c i : String} {rows : List PatternRow}
    (ht : (c.toList, rows) ∈ tables) {names : List String} {ts : List Str} (hlen : names.length = ts.length)
    (hc : (names.map String.toList).Nodup ∧ Every rows c i (GoodText (names.map String.toList))) :
    Localised L tag (message c i (texts names ts)) :=
  message_localised hs hR ht (by rw [texts_names hlen]; exact hc.1) texts_simple hc.2 fun n hn => (given_texts hlen n).1 hn

theorem texts_fail (hs : Serves L tag) (hR : Reader L) {c i : String} {rows : List PatternRow}
    (ht : (c.toList, rows) ∈ tables) {names : List String} {ts : List Str} (hlen : names.length = ts.length)
    (hc : (names.map String.toList).Nodup ∧ Every rows c i (BadText (names.map String.toList))) :
    ¬ Localised L tag (message c i (texts names ts)) :=
  message_fails hs hR ht (by rw [texts_names hlen]; exact hc.1) texts_simple hc.2 fun n hn => (given_texts hlen n).2 hn

theorem texts_text (hs : Serves L english) (hR : Reader L) {c i : String} {rows : List PatternRow}
    (ht : (c.toList, rows) ∈ tables) {names : List String} {ts : List Str} (hlen : names.length = ts.length)
    (segs : List Seg) (hc : (names.map String.toList).Nodup ∧ EnglishIs rows c i (source segs) ∧
      Good (names.map String.toList) segs) :
    (formatError L english true false (message c i (texts names ts)) []).1 =
      .ok (fill (fun n => (given (keyed (texts names ts : List (String × PValue D F))) n).getD []) segs, english) :=
  message_text hs hR ht (by rw [texts_names hlen]; exact hc.1) texts_simple segs hc.2.1 hc.2.2 _ fun n hn => by
    obtain ⟨t, e⟩ := (given_texts (D := D) (F := F) hlen n).1 hn
    simp [e]

theorem inLocaliser : ("i18n_localiser".toList, Shipped.localiserRows) ∈ tables := List.mem_cons_self
theorem inProvider : ("i18n_provider".toList, Shipped.providerRows) ∈ tables := List.mem_cons_of_mem _ List.mem_cons_self
theorem inSqlite3 : ("i18n_provider_sqlite3".toList, Shipped.sqlite3Rows) ∈ tables :=
  List.mem_cons_of_mem _ (List.mem_cons_of_mem _ List.mem_cons_self)

/-! ### The two strings of another form -/

/-- The string with needless backticks. -/
def mismatch (a b c d : String) : Str := source [.text a.toList] ++ '`' :: (source (.text ('v' :: "erify_schema()".toList) :: []) ++ '`' ::
    source (.text (' ' :: b.toList) :: [.hole "column".toList, .text c.toList, .hole "table".toList, .text d.toList]))

theorem mismatch_rows : Every Shipped.sqlite3Rows "i18n_provider_sqlite3" "column_mismatch" (fun s =>
    s = mismatch "Check the " "function as default value type does not match column type for the column ‘" "’ of table ‘" "’." ∨
    s = mismatch "Controllare la funzione "
      "poiché il tipo di valore predefinito non corrisponde al tipo di colonna per la colonna \"" "\" della tabella \""
      "\".") ∧ EnglishIs Shipped.sqlite3Rows "i18n_provider_sqlite3" "column_mismatch"
    (mismatch "Check the " "function as default value type does not match column type for the column ‘" "’ of table ‘" "’.") := by
  decide +kernel

theorem mismatch_ok {E : FmtEnv D F} (hE : Standard E) (hL : Letters E.icu) (a b c d : String) (tag lang : Str)
    (table column : Str) : formatString E (mismatch a b c d) tag (some lang) (inserted (keyed
      [("table", .string table), ("column", .string column)]) []) =
      .ok (a.toList ++ "verify_schema() ".toList ++ b.toList ++ column ++ c.toList ++ table ++ d.toList, tag) := by
  have hne : "table".toList ≠ "column".toList := by decide
  have hne' := hne.symm
  unfold mismatch
  rw [marked_text hE [.text a.toList] [] [.hole "column".toList, .text c.toList, .hole "table".toList, .text d.toList]
    'v' ' ' "erify_schema()".toList b.toList (by decide) (by decide) tag lang _
    (fun n => if n = "column".toList then column else table)]
  · simp [-String.reduceToList, fill, Seg.fill, hne]
    rfl
  · simp [-String.reduceToList, holes, hne']
  · intro id hid
    have hid : id = "column".toList ∨ id = "table".toList := by simpa [-String.reduceToList, holes] using hid
    rcases hid with rfl | rfl
    · refine ⟨hL.word (by decide), ?_⟩
      rw [get_keyed (by simp [-String.reduceToList, hne])]
      simp [-String.reduceToList, given, keyed, textOf, hne]
    · refine ⟨hL.word (by decide), ?_⟩
      rw [get_keyed (by simp [-String.reduceToList, hne])]
      simp [-String.reduceToList, given, keyed, textOf, hne]

/-- The string with a select pattern. -/
def notFound (a b c d yes no : String) : Str := choice [.text a.toList, .hole "component".toList, .text b.toList,
  .hole "identifier".toList, .text c.toList, .hole "language_tag".toList, .text d.toList] yes.toList no.toList

theorem notFound_rows : Every Shipped.localiserRows "i18n_localiser" "string_not_found" (fun s =>
    s = notFound "No string was found for the component ‘" "’ with identifier ‘" "’ for the language tag ‘"
      "’. Fallback was used: " "True" "False" ∨
    s = notFound "Non è stata trovata alcuna stringa per il componente “" "” con l'identificatore “"
      "” e il tag della lingua “" "”. È stato utilizzato il fallback: " "Vero" "Falso") ∧
    EnglishIs Shipped.localiserRows "i18n_localiser" "string_not_found" (notFound "No string was found for the component ‘"
      "’ with identifier ‘" "’ for the language tag ‘" "’. Fallback was used: " "True" "False") := by
  decide +kernel

theorem notFound_ok {E : FmtEnv D F} (hE : Standard E) (hL : Letters E.icu) (a b c d yes no : String)
    (hy : yes.toList ≠ [] ∧ ∀ c ∈ yes.toList, c ∈ letters) (hno : no.toList ≠ [] ∧ ∀ c ∈ no.toList, c ∈ letters)
    (tag lang : Str) (component identifier languageTag : Str) (fallback : Bool) :
    formatString E (notFound a b c d yes no) tag (some lang) (inserted (keyed
      [("component", .string component), ("identifier", .string identifier), ("language_tag", .string languageTag),
        ("fallback", .string (flag fallback))]) []) =
      .ok (a.toList ++ component ++ b.toList ++ identifier ++ c.toList ++ languageTag ++ d.toList ++
        (if fallback then yes.toList else no.toList) ++ ['.'], tag) := by
  have h12 : "component".toList ≠ "identifier".toList := by decide
  have h13 : "component".toList ≠ "language_tag".toList := by decide
  have h14 : "component".toList ≠ "fallback".toList := by decide
  have h23 : "identifier".toList ≠ "language_tag".toList := by decide
  have h24 : "identifier".toList ≠ "fallback".toList := by decide
  have h34 : "language_tag".toList ≠ "fallback".toList := by decide
  have hk : ([("component", .string component), ("identifier", .string identifier),
      ("language_tag", .string languageTag), ("fallback", .string (flag fallback))].map
      (fun x : String × PValue D F => x.1.toList)).Nodup := by
    simp [-String.reduceToList, h12, h13, h14, h23, h24, h34]
  unfold notFound
  rw [choice_ok hE hL _ yes.toList no.toList (hL.word hy) (hL.word hno) tag lang _
    (fun n => if n = "component".toList then component else if n = "identifier".toList then identifier else languageTag)
    ?_ ?_ fallback ?_]
  · simp [-String.reduceToList, fill, Seg.fill, h12.symm, h13.symm, h23.symm]
  · simp [-String.reduceToList, holes, h12, h13, h14, h23, h24, h34]
  · intro id hid
    have hid : id = "component".toList ∨ id = "identifier".toList ∨ id = "language_tag".toList := by
      simpa [-String.reduceToList, holes] using hid
    rcases hid with rfl | rfl | rfl
    · refine ⟨hL.word (by decide), ?_⟩
      rw [get_keyed hk]
      simp [-String.reduceToList, given, keyed, textOf]
    · refine ⟨hL.word (by decide), ?_⟩
      rw [get_keyed hk]
      simp [-String.reduceToList, given, keyed, textOf, h12, h12.symm]
    · refine ⟨hL.word (by decide), ?_⟩
      rw [get_keyed hk]
      simp [-String.reduceToList, given, keyed, textOf, h13, h23, h13.symm, h23.symm]
  · rw [get_keyed hk]
    simp [-String.reduceToList, given, keyed, textOf, flag, h14, h24, h34]

end Verif.ErrorLemmas
