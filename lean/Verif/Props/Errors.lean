import Verif.Lemmas.ErrorAgree
import Verif.Props.Format
/-
C57-C59: what the localiser tells a user about an error, when it has the databases that the crates ship.
-/
namespace Verif.Props
open Verif Verif.Spec Verif.Errors ErrorLemmas LocaliserLemmas ProviderLemmas

variable {D F E : Type}

/-! ### A provider with the shipped databases, for examples -/

namespace DemoShipped

def canon : Str → Except Unit Str := fun t => .ok t

/-- A provider of a directory with these files. -/
def provider (names : List Str) : Sqlite where
  components := names.map fun n => (n, (false, true))
  connections := names.map fun n => (n, n)

def store : Verif.Store := fun n =>
  if n = localiserName then Shipped.localiser
  else if n = providerName then Shipped.provider
  else if n = sqlite3Name then Shipped.sqlite3
  else Shipped.lexer

/-- Without the database of the lexer. -/
def three : Sqlite := provider [localiserName, providerName, sqlite3Name]

/-- All. -/
def four : Sqlite := provider [localiserName, providerName, sqlite3Name, lexerName]

/-- A localiser for a provider. -/
def loc (p : Sqlite) : LocEnv Nat Unit (Option (ProvErr Unit)) where
  fmt := Demo.env
  provider := asProvider canon p store
  icuLanguage := some

end DemoShipped

open DemoShipped

theorem connected_provider {names : List Str} : Connected (DemoShipped.provider names) where
  shared c v h hv := by
    have := AMap.mem_of_get h
    simp only [DemoShipped.provider, List.mem_map, Prod.mk.injEq] at this
    obtain ⟨_, _, _, rfl⟩ := this
    cases hv
  own c v h _ := by
    have := AMap.mem_of_get h
    simp only [DemoShipped.provider, List.mem_map, Prod.mk.injEq] at this
    obtain ⟨n, hn, rfl, _⟩ := this
    cases hg : (DemoShipped.provider names).connections.get n with
    | some x => rfl
    | none => exact absurd (by simp [DemoShipped.provider, AMap.keys, hn]) ((AMap.get_eq_none_iff _ _).1 hg)

/-- The three databases without that of the lexer: everything that the theorems ask for. -/
theorem has_shipped : HasShipped DemoShipped.canon three store where
  connected := connected_provider
  keys := by decide +kernel
  localiser := ⟨by decide +kernel, rfl⟩
  provider := ⟨by decide +kernel, rfl⟩
  sqlite3 := ⟨by decide +kernel, rfl⟩
  absent := by decide +kernel
  details := by
    have : (match three.buildCache DemoShipped.canon store with | .ok _ => true | _ => false) = true := by decide +kernel
    split at this
    · exact ⟨_, by assumption⟩
    · cases this
  english := rfl
  italian := rfl

theorem demo_letters : Letters Demo.env.icu := ⟨by decide +kernel, by decide +kernel⟩

theorem demo_reader (p : Sqlite) : Reader (loc p) where
  standard := demo_standard
  letters := demo_letters
  english := ⟨_, rfl⟩
  italian := ⟨_, rfl⟩

/-! ### C57: every error has a text -/

/-- Exactly these errors have a text, whatever the language that is asked for: `HasText` (Spec/Errors.lean) lists them. Of
the property the rest is missing: `C57_violated` has the errors without. -/
theorem C57_errors_with_a_text_partial {canon : Str → Except E Str} {p : Sqlite} {st : Verif.Store}
    (h : HasShipped canon p st) {L : LocEnv D F (Option (ProvErr E))} (hL : L.provider = asProvider canon p st)
    (hR : Reader L) {tag : Str} (hw : NoWildcards tag) (e : AnyError D F) :
    Localised L tag e.localisation ↔ e.HasText (Localised L tag) :=
  anyError_iff (serves h hL hw) hR e

/-- For a user of Spanish, an error within an error; in the databases there is no Spanish. -/
example (component : Str) : Localised (loc three) "es".toList
    (AnyError.localisation (.localiser (.provider (.defaultLanguage component)))) :=
  (C57_errors_with_a_text_partial has_shipped rfl (demo_reader _) (by decide) _).2 trivial

/-- No text for: the errors of the lexer and of the parser, those of commands but `Custom`, missing data of ICU, and nine
errors of the formatter, among them the wrong keyword and the wrong option that a translator makes, and the wrong version
of a database. In every language and for all values. -/
theorem C57_violated {canon : Str → Except E Str} {p : Sqlite} {st : Verif.Store}
    (h : HasShipped canon p st) {L : LocEnv D F (Option (ProvErr E))} (hL : L.provider = asProvider canon p st)
    (hR : Reader L) {tag : Str} (hw : NoWildcards tag) (a b c : Str) (n : Nat) :
    (∀ e, ¬ Localised L tag (AnyError.localisation (.lexer e))) ∧
    (∀ e, ¬ Localised L tag (AnyError.localisation (.tree e))) ∧
    (∀ e ∈ ([.alreadyExists a, .notFound a, .parameterMissing a n, .invalidType a n] : List (Errors.CommandError D F)),
      ¬ Localised L tag (AnyError.localisation (.localiser (.formatter (.command e))))) ∧
    (∀ e ∈ ([.patternPart a n, .invalidKeyword a b, .selectorOther a b, .invalidOption a b c, .invalidSelector a b c,
      .numberSignString n, .selectorsIndex n, .selectorsIndexNamed a n, .namedStringIdentifier a] :
        List (Errors.FormatterError D F)), ¬ Localised L tag (AnyError.localisation (.localiser (.formatter e)))) ∧
    (∀ e ∈ [.grapheme, .syntax, .whiteSpace], ¬ Localised L tag (AnyError.localisation (.icu e))) ∧
    (∀ e ∈ [.version a b, .missingVersion a], ¬ Localised L tag (AnyError.localisation (.sqlite3 (.schemaInvalid e)))) ∧
    ¬ Localised L tag (AnyError.localisation (.sqlite3 (.noSqlite3Files a))) := by
  have key := fun e => (C57_errors_with_a_text_partial h hL hR hw e).1
  have hf : ∀ e : Errors.FormatterError D F, ¬ e.HasText (Localised L tag) →
      ¬ Localised L tag (AnyError.localisation (.localiser (.formatter e))) := fun e he h' => he (key _ h')
  refine ⟨fun _ => key _, fun _ => key _, ?_, ?_, ?_, ?_, key _⟩
  · intro e he
    simp only [List.mem_cons, List.not_mem_nil, or_false] at he
    rcases he with rfl | rfl | rfl | rfl <;> exact hf _ id
  · intro e he
    simp only [List.mem_cons, List.not_mem_nil, or_false] at he
    rcases he with rfl | rfl | rfl | rfl | rfl | rfl | rfl | rfl | rfl <;> exact hf _ id
  · intro e he
    simp only [List.mem_cons, List.not_mem_nil, or_false] at he
    rcases he with rfl | rfl | rfl <;> exact key _
  · intro e he
    simp only [List.mem_cons, List.not_mem_nil, or_false] at he
    rcases he with rfl | rfl <;> exact key _

example : ¬ Localised (loc three) "en-ZA".toList
    (AnyError.localisation (.localiser (.formatter (.invalidKeyword "numbr".toList "pages".toList)))) :=
  (C57_violated has_shipped rfl (demo_reader _) (by decide) "numbr".toList "pages".toList [] 0).2.2.2.1 _
    (List.mem_cons_of_mem _ List.mem_cons_self)

/-! ### Italian without fallback -/

/-- The errors are told by their type and variant, but for some of the schema. -/
theorem shape (e : AnyError D F) (he : ∀ s, e ≠ .schema s) : Shaped e.localisation := by
  cases e with
  | schema s => exact absurd rfl (he s)
  | registry e => exact registryError_shaped e
  | lexer e => exact lexerError_shaped e
  | icu e => exact icuError_shaped e
  | tree e => exact treeError_shaped e
  | command e => exact commandError_shaped e
  | provider e => exact providerError_shaped e
  | sqlite3 e => exact providerSqlite3Error_shaped e
  | formatter e => exact formatterError_shaped e
  | localiser e => exact localiserError_shaped e

/-- No error has a text if the strings for type and variant are not found. -/
theorem none_shown {P : Type} {L : LocEnv D F P} {tag : Str} {fallback : Bool}
    (h1 : ∀ x, fetch L localiserName "error_format_enum".toList tag fallback ≠ .ok x)
    (h2 : ∀ x, fetch L localiserName "error_format_enum_embedded".toList tag fallback ≠ .ok x)
    (e : AnyError D F) (he : ∀ s, e ≠ .schema s) (x : Str × Str) :
    (formatError L tag fallback false e.localisation []).1 ≠ .ok x := by
  have simple : ∀ {i vs}, (∀ x, fetch L localiserName i tag fallback ≠ .ok x) →
      (fetch L localiserName i tag fallback >>= shown L vs) ≠ .ok x := by
    intro i vs h hx
    obtain ⟨y, hy, _⟩ := bind_eq_ok hx
    exact h y hy
  intro hx
  rcases shape e he with ⟨t, v, m, hm⟩ | ⟨t, v, s, hm⟩ | ⟨t, v, d, hm⟩
  · rw [hm] at hx
    have := (formatError_nested L tag fallback localiserName "error_format_enum".toList "message".toList
      [("type".toList, .string t.toList), ("variant".toList, .string v.toList)] (by simp [Simple]) m).symm.trans hx
    obtain ⟨y, _, hy⟩ := bind_eq_ok this
    exact simple h1 hy
  · rw [hm] at hx
    exact simple h2 ((formatError_simple L tag fallback localiserName "error_format_enum_embedded".toList
      [("type".toList, .string t.toList), ("variant".toList, .string v.toList), ("error".toList, .string s)]
      (by simp [Simple])).symm.trans hx)
  · rw [hm] at hx
    have := (formatError_nested L tag fallback localiserName "error_format_enum_embedded".toList "error".toList
      [("type".toList, .string t.toList), ("variant".toList, .string v.toList)] (by simp [Simple]) d).symm.trans hx
    obtain ⟨y, _, hy⟩ := bind_eq_ok this
    exact simple h2 hy

/-- The Italian strings for type and variant are missing. -/
theorem no_italian {canon : Str → Except E Str} {p : Sqlite} {st : Verif.Store} (hc : Connected p)
    (hg : p.components.get localiserName = some (false, true)) (hst : st localiserName = Shipped.localiser)
    (he : canon english = .ok english) (hi : canon italian = .ok italian) {i : Str}
    (hid : ∀ r ∈ Shipped.localiserRows, r.identifier = i → r.tag = english) :
    p.string canon st localiserName i italian = .ok none := by
  have hpl : places (false, true) localiserName = [localiserName] := by simp [places]
  have hh : Holds canon st (places (false, true) localiserName) (fun _ => Shipped.localiserRows) := by
    intro name hn
    rw [hpl, List.mem_singleton] at hn
    subst hn
    refine ⟨by rw [hst]; rfl, fun r hr => ?_⟩
    rcases shipped_tags _ inLocaliser r hr with e | e
    · exact ⟨_, by rw [e]; exact he⟩
    · exact ⟨_, by rw [e]; exact hi⟩
  rcases C35_found_unless_none_matches hc hg hh i italian (by decide) with h | ⟨x, name, r, t, _, _, h3, h4, h5, h6, _⟩
  · exact h.1
  · rw [hid r h3 h4.2] at h6
    obtain ⟨hne, h5⟩ := h5
    exfalso
    rcases h5 with e | ⟨rest, e⟩
    · rw [e] at h6; exact absurd h6 (by decide)
    · match t, e, hne with
      | [a], e, _ => simp [italian] at e
      | a :: b :: t, e, _ => simp [italian] at e

/-- Without fallback a user of Italian is told about no error, though there are Italian strings for most messages: the
strings for type and variant are only English. (The errors of the schema have messages without type and variant, and are
told as long as they are not wrapped.) -/
theorem C57_violated_italian {canon : Str → Except E Str} {p : Sqlite} {st : Verif.Store}
    (h : HasShipped canon p st) {L : LocEnv D F (Option (ProvErr E))} (hL : L.provider = asProvider canon p st)
    (e : AnyError D F) (he : ∀ s, e ≠ .schema s) (x : Str × Str) :
    (formatError L italian false false e.localisation []).1 ≠ .ok x := by
  have key : ∀ {i : Str}, (∀ r ∈ Shipped.localiserRows, r.identifier = i → r.tag = english) →
      ∀ x, fetch L localiserName i italian false ≠ .ok x := by
    intro i hid x hx
    have hs := no_italian h.connected h.localiser.1 h.localiser.2 h.english h.italian hid
    have hwi : NoWildcards italian := by decide
    unfold fetch at hx
    rw [hL] at hx
    simp [asProvider, hwi, hs] at hx
  exact none_shown (key (by decide +kernel)) (key (by decide +kernel)) e he x

example (component : Str) (x : Str × Str) : (formatError (loc three) italian false false
    (AnyError.localisation (.provider (.componentNotFound component))) []).1 ≠ .ok x :=
  C57_violated_italian has_shipped rfl (.provider (.componentNotFound component)) (fun _ h => nomatch h) x

/-! ### C58: the shipped databases together -/

/-- The database that the lexer ships names its component `i18b_lexer` instead of `i18n_lexer`. A provider that has it, under
the name of its file, can give no details, not even of other components: there is no default language. -/
theorem C58_lexer_database_breaks_details {canon : Str → Except E Str} {p : Sqlite} {st : Verif.Store} (hc : Connected p)
    (hk : p.components.keys.Nodup) (hg : p.components.get lexerName = some (false, true))
    (hst : st lexerName = Shipped.lexer) (x : AMap Str ComponentDetails × RepositoryDetails) :
    p.buildCache canon st ≠ .ok x := by
  obtain ⟨details, repo⟩ := x
  intro hb
  obtain ⟨_, hkeys, _⟩ := ProviderLemmas.buildCache_ok hk hb
  obtain ⟨d, hget⟩ : ∃ d, details.get lexerName = some d := by
    cases hd : details.get lexerName with
    | some d => exact ⟨d, rfl⟩
    | none =>
      refine absurd ?_ ((AMap.get_eq_none_iff _ _).1 hd)
      rw [hkeys]
      exact List.mem_map_of_mem (AMap.mem_of_get hg)
  obtain ⟨before, name, after, r, e1, _, e3, _⟩ := C52_default_language hc hk hb hg hget
    (component := fun _ => [⟨"i18b_lexer".toList, english⟩]) (by
      intro name hn
      simp only [places, Bool.false_eq_true, if_false, if_true, List.nil_append, List.mem_singleton] at hn
      rw [hn, hst]
      decide +kernel)
  have : ([⟨"i18b_lexer".toList, english⟩] : List ComponentRow).filter (fun r => r.identifier = lexerName) = [] := by
    decide +kernel
  rw [this] at e3
  cases e3

/-- All shipped databases in one directory. -/
example : (∀ x, four.buildCache DemoShipped.canon store ≠ .ok x) ∧
    (∃ x, three.buildCache DemoShipped.canon store = .ok x) :=
  ⟨C58_lexer_database_breaks_details connected_provider (by decide +kernel) (by decide +kernel) rfl, has_shipped.details⟩

/-- Therefore, with all shipped databases, nothing falls back to the default language, -/
theorem C58_no_fallback {canon : Str → Except E Str} {p : Sqlite} {st : Verif.Store} (hc : Connected p)
    (hk : p.components.keys.Nodup) (hg : p.components.get lexerName = some (false, true))
    (hst : st lexerName = Shipped.lexer) {L : LocEnv D F (Option (ProvErr E))} (hL : L.provider = asProvider canon p st)
    {c i tag : Str} (hw : NoWildcards tag) {x : Str × Str} (hx : fetch L c i tag true = .ok x) :
    p.string canon st c i tag = .ok (some x) := by
  have hd : ∀ c d, L.provider.default c ≠ .ok d := by
    intro c d
    rw [hL]
    simp only [asProvider]
    cases hb : p.buildCache canon st with
    | ok y => exact absurd hb (C58_lexer_database_breaks_details hc hk hg hst y)
    | err e => simp
    | panic => simp
  unfold fetch at hx
  cases hs : L.provider.string c i tag with
  | error e => rw [hs] at hx; cases hx
  | ok y =>
    rw [hs] at hx
    cases y with
    | none =>
      simp only [not_true_eq_false, if_false] at hx
      cases hdc : L.provider.default c with
      | error e => rw [hdc] at hx; cases hx
      | ok d => exact absurd hdc (hd c d)
    | some y =>
      simp only [Outcome.ok.injEq] at hx
      subst hx
      rw [hL] at hs
      simp only [asProvider, hw, if_true] at hs
      cases hp : p.string canon st c i tag with
      | ok z => rw [hp] at hs; simp only [Except.ok.injEq] at hs; rw [hs]
      | err e => rw [hp] at hs; cases hs
      | panic => rw [hp] at hs; cases hs

/-- and a user of Italian is told about no error, with fallback or without. -/
theorem C58_no_error_in_italian {canon : Str → Except E Str} {p : Sqlite} {st : Verif.Store} (hc : Connected p)
    (hk : p.components.keys.Nodup) (hg : p.components.get lexerName = some (false, true))
    (hst : st lexerName = Shipped.lexer) (hl : p.components.get localiserName = some (false, true))
    (hsl : st localiserName = Shipped.localiser) (he : canon english = .ok english)
    (hi : canon italian = .ok italian) {L : LocEnv D F (Option (ProvErr E))} (hL : L.provider = asProvider canon p st)
    (e : AnyError D F) (hn : ∀ s, e ≠ .schema s) : ¬ Localised L italian e.localisation := by
  have key : ∀ {i : Str}, (∀ r ∈ Shipped.localiserRows, r.identifier = i → r.tag = english) →
      ∀ x, fetch L localiserName i italian true ≠ .ok x := by
    intro i hid x hx
    have := C58_no_fallback hc hk hg hst hL (by decide) hx
    rw [no_italian hc hl hsl he hi hid] at this
    cases this
  rintro ⟨x, hx⟩
  exact none_shown (key (by decide +kernel)) (key (by decide +kernel)) e hn x hx

/-- The same error with the three databases and with all. -/
example : Localised (loc three) italian (AnyError.localisation (.provider (.componentNotFound "shop".toList))) ∧
    ¬ Localised (loc four) italian (AnyError.localisation (.provider (.componentNotFound "shop".toList))) :=
  ⟨(C57_errors_with_a_text_partial has_shipped rfl (demo_reader _) (by decide) _).2 trivial,
    C58_no_error_in_italian connected_provider (by decide +kernel) (by decide +kernel) rfl (by decide +kernel) rfl rfl rfl rfl _
      (fun _ h => nomatch h)⟩

/-- To show an error is to show its localisation data: the answer and the cache afterwards are those of the request for the data,
with the same language and flags, in every state of the localiser. So what is proved of requests holds for errors. -/
theorem C57_as_localisation_data {P S : Type} (L : LocEnv D F P) (scriptOf : Str → S) (l : Localiser S) (e : AnyError D F) (tag : Str)
    (fallback caching : Bool) :
    l.call L scriptOf (.data e.localisation.component e.localisation.identifier e.localisation.values (some tag) (some fallback)
        (some caching)) =
      (some (formatError L tag fallback caching e.localisation l.cache).1,
        { l with cache := (formatError L tag fallback caching e.localisation l.cache).2 }) := rfl

/-- With caching, the strings of an error are in the cache afterwards. -/
example : ((formatError (loc three) "en".toList true true
    (AnyError.localisation (D := Nat) (F := Unit) (.localiser (.provider (.defaultLanguage "c".toList)))) []).2.map (·.1)) =
      ["en".toList] := by decide +kernel

/-! ### C59: the localised text agrees with `Display` -/

/-- Exactly these errors have, in the language of the messages of `Display`, a text that agrees with `Display`: `Faithful`
(Spec/Errors.lean) lists them. Of the property the rest is missing: `C59_violated` has errors that disagree. -/
theorem C59_agrees_with_display_partial {canon : Str → Except E Str} {p : Sqlite} {st : Verif.Store}
    (h : HasShipped canon p st) {L : LocEnv D F (Option (ProvErr E))} (hL : L.provider = asProvider canon p st)
    (hR : Reader L) (e : AnyError D F) :
    Speaks L e.localisation e.display ↔ e.Faithful fun c => Speaks L c.localisation c.display :=
  anyError_speaks (serves h hL (by decide)) hR e

example (component : Str) :
    Speaks (loc three) (AnyError.localisation (.localiser (.provider (.defaultLanguage component))))
      (AnyError.display (D := Nat) (F := Unit) (.localiser (.provider (.defaultLanguage component)))) :=
  (C59_agrees_with_display_partial has_shipped rfl (demo_reader _) (.localiser (.provider (.defaultLanguage component)))).2
    trivial

/-- The errors that have a text, but not that of `Display`: the errors of the registry have the name of another type,
custom errors of commands the name of another variant; the others have another message. In English and for all values. -/
theorem C59_violated {canon : Str → Except E Str} {p : Sqlite} {st : Verif.Store}
    (h : HasShipped canon p st) {L : LocEnv D F (Option (ProvErr E))} (hL : L.provider = asProvider canon p st)
    (hR : Reader L) (a b c : Str) (r : Errors.RegistryError) (x : Custom D F) (hx : Localised L english x.localisation)
    (s : Errors.SchemaError) (hs : s.HasText) :
    ∀ e ∈ ([.registry r, .provider (.languageTagRegistry r), .localiser (.registry r), .command (.custom x),
        .formatter (.command (.custom x)), .formatter .invalidRoot, .formatter .noIcuProvider, .localiser (.cacheEntry a b),
        .schema (.missingTable a), .schema (.columnProperty a b c), .schema (.columnDefault a b c),
        .schema (.columnMismatch a b), .sqlite3 .pathConversion, .sqlite3 (.schemaInvalid s)] : List (AnyError D F)),
      Localised L english e.localisation ∧ ¬ Speaks L e.localisation e.display := by
  have k1 := fun e => (C57_errors_with_a_text_partial (D := D) (F := F) h hL hR (tag := english) (by decide) e).2
  have k2 := fun e => (C59_agrees_with_display_partial (D := D) (F := F) h hL hR e).1
  intro e he
  simp only [List.mem_cons, List.not_mem_nil, or_false] at he
  rcases he with rfl | rfl | rfl | rfl | rfl | rfl | rfl | rfl | rfl | rfl | rfl | rfl | rfl | rfl
  · exact ⟨k1 _ trivial, k2 _⟩
  · exact ⟨k1 _ trivial, k2 _⟩
  · exact ⟨k1 _ trivial, k2 _⟩
  · exact ⟨k1 _ hx, k2 _⟩
  · exact ⟨k1 _ hx, k2 _⟩
  · exact ⟨k1 _ trivial, k2 _⟩
  · exact ⟨k1 _ trivial, k2 _⟩
  · exact ⟨k1 _ trivial, k2 _⟩
  · exact ⟨k1 _ trivial, k2 _⟩
  · exact ⟨k1 _ trivial, k2 _⟩
  · exact ⟨k1 _ trivial, k2 _⟩
  · exact ⟨k1 _ trivial, k2 _⟩
  · exact ⟨k1 _ trivial, k2 _⟩
  · exact ⟨k1 _ hs, k2 _⟩

/-- What is shown for one of them. -/
example : (match (formatError (loc three) english true false (AnyError.localisation (.formatter .invalidRoot)) []).1 with
    | .ok x => x.1 | _ => []) = "FormatterError::InvalidRoot: ‘The tree root must be a ‘{`Root`}’ node.’.".toList := by
  decide +kernel

end Verif.Props
