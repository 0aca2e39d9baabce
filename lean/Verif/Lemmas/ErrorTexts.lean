import Verif.Lemmas.Errors
/-
Which errors of each type have a text.
-/
namespace Verif.ErrorLemmas
open Verif Verif.Spec Verif.Errors LocaliserLemmas

variable {D F P : Type} {L : LocEnv D F P} {tag : Str}

theorem columnMismatch_localised (hs : Serves L tag) (hR : Reader L) (table column : Str) :
    Localised L tag (message "i18n_provider_sqlite3" "column_mismatch"
      [("table", .string table), ("column", .string column)]) := by
  obtain ⟨r, h1, h2, _, h3⟩ := hs.found _ _ inSqlite3 _ mismatch_rows.1.1
  obtain ⟨lang, hl⟩ := tag_read hR inSqlite3 h1
  unfold Localised
  rw [message_eq (by simp [Simple]), h3, Outcome.bind_ok, shown, hl]
  simp only
  rcases mismatch_rows.1.2 r h1 h2 with e | e <;> rw [e, mismatch_ok hR.standard hR.letters] <;> exact ⟨_, rfl⟩

theorem columnMismatch_text (hs : Serves L english) (hR : Reader L) (table column : Str) :
    (formatError L english true false (message "i18n_provider_sqlite3" "column_mismatch"
      [("table", .string table), ("column", .string column)]) []).1 =
    .ok ("Check the ".toList ++ "verify_schema() ".toList ++
      "function as default value type does not match column type for the column ‘".toList ++ column ++
      "’ of table ‘".toList ++ table ++ "’.".toList, english) := by
  obtain ⟨r, h1, h2, h4, h3⟩ := hs.found _ _ inSqlite3 _ mismatch_rows.1.1
  obtain ⟨lang, hl⟩ := tag_read hR inSqlite3 h1
  rw [message_eq (by simp [Simple]), h3, Outcome.bind_ok, shown, hl]
  simp only
  rw [mismatch_rows.2.2 r h1 h2 (h4 rfl), mismatch_ok hR.standard hR.letters, h4 rfl]
  rfl

theorem stringNotFound_localised (hs : Serves L tag) (hR : Reader L) (component identifier languageTag : Str)
    (fallback : Bool) : Localised L tag (message "i18n_localiser" "string_not_found"
      [("component", .string component), ("identifier", .string identifier), ("language_tag", .string languageTag),
      ("fallback", .string (flag fallback))]) := by
  obtain ⟨r, h1, h2, _, h3⟩ := hs.found _ _ inLocaliser _ notFound_rows.1.1
  obtain ⟨lang, hl⟩ := tag_read hR inLocaliser h1
  unfold Localised
  rw [message_eq (by simp [Simple]), h3, Outcome.bind_ok, shown, hl]
  simp only
  rcases notFound_rows.1.2 r h1 h2 with e | e
  · rw [e, notFound_ok hR.standard hR.letters _ _ _ _ _ _ (by decide) (by decide)]; exact ⟨_, rfl⟩
  · rw [e, notFound_ok hR.standard hR.letters _ _ _ _ _ _ (by decide) (by decide)]; exact ⟨_, rfl⟩

theorem stringNotFound_text (hs : Serves L english) (hR : Reader L) (component identifier languageTag : Str)
    (fallback : Bool) : (formatError L english true false (message "i18n_localiser" "string_not_found"
      [("component", .string component), ("identifier", .string identifier), ("language_tag", .string languageTag),
      ("fallback", .string (flag fallback))]) []).1 =
    .ok ("No string was found for the component ‘".toList ++ component ++ "’ with identifier ‘".toList ++ identifier ++
      "’ for the language tag ‘".toList ++ languageTag ++ "’. Fallback was used: ".toList ++
      (if fallback then "True".toList else "False".toList) ++ ['.'], english) := by
  obtain ⟨r, h1, h2, h4, h3⟩ := hs.found _ _ inLocaliser _ notFound_rows.1.1
  obtain ⟨lang, hl⟩ := tag_read hR inLocaliser h1
  rw [message_eq (by simp [Simple]), h3, Outcome.bind_ok, shown, hl]
  simp only
  rw [notFound_rows.2.2 r h1 h2 (h4 rfl), notFound_ok hR.standard hR.letters _ _ _ _ _ _ (by decide) (by decide), h4 rfl]
  rfl

/-- The components of errors that have no database. -/
def missingName (c : String) : Bool := c == "i18n_pattern" || c == "i18n_icu" || c == "i18n_lexer"

theorem missingName_mem {c : String} (h : missingName c = true) :
    c.toList ∈ ["i18n_pattern".toList, "i18n_icu".toList, lexerName] := by
  unfold missingName at h
  rw [Bool.or_eq_true, Bool.or_eq_true, beq_iff_eq, beq_iff_eq, beq_iff_eq] at h
  rcases h with (rfl | rfl) | rfl
  · exact List.mem_cons_self
  · exact List.mem_cons_of_mem _ List.mem_cons_self
  · exact List.mem_cons_of_mem _ (List.mem_cons_of_mem _ List.mem_cons_self)

theorem absent_bare (hs : Serves L tag) {c i : String} (h : missingName c = true) :
    ¬ Localised L tag (bare c i) :=
  absent_fails hs (missingName_mem h) (by intro vs h; cases h)

theorem absent_message (hs : Serves L tag) {c i : String} {vals : List (String × PValue D F)}
    (h : missingName c = true) (hv : ∀ x ∈ vals, Simple x.2) : ¬ Localised L tag (message c i vals) := by
  refine absent_fails hs (missingName_mem h) ?_
  intro vs h x hx
  cases h
  obtain ⟨y, hy, rfl⟩ := List.mem_map.1 hx
  exact hv y hy

theorem not_given {vals : List (String × PValue D F)} {names : List Str}
    (h : ∀ x ∈ vals, x.1.toList ∈ names ∨ textOf x.2 = none) (n : Str) (hn : n ∉ names) :
    given (keyed vals) n = none := by
  unfold given keyed
  cases hf : (vals.map fun x => (x.1.toList, x.2)).find? fun x => x.1 = n with
  | none => rfl
  | some y =>
    obtain ⟨x, hx, rfl⟩ := List.mem_map.1 (List.mem_of_find?_eq_some hf)
    have he := List.find?_some hf
    simp only [decide_eq_true_eq] at he
    rcases h x hx with h | h
    · exact absurd (he ▸ h) hn
    · exact h

theorem iff_true {p : Prop} (h : p) : p ↔ True := ⟨fun _ => trivial, fun _ => h⟩
theorem iff_false {p : Prop} (h : ¬ p) : p ↔ False := ⟨h, False.elim⟩

theorem registryError_iff (hs : Serves L tag) (hR : Reader L) (e : Errors.RegistryError) :
    Localised L tag (e.localisation : LData D F) ↔ True := by
  cases e with
  | languageIdentifier error =>
    exact iff_true (foreign_ok hs hR)
  | locale error =>
    exact iff_true (foreign_ok hs hR)

theorem lexerError_iff (hs : Serves L tag) (hR : Reader L) (e : Errors.LexerError) :
    Localised L tag (e.localisation : LData D F) ↔ False := by
  cases e with
  | noGrammar =>
    exact (enum_iff hs hR).trans (iff_false (absent_bare hs rfl))
  | emptyString =>
    exact (enum_iff hs hR).trans (iff_false (absent_bare hs rfl))

theorem icuError_iff (hs : Serves L tag) (hR : Reader L) (e : Errors.IcuError) :
    Localised L tag (e.localisation : LData D F) ↔ e.HasText := by
  cases e with
  | properties error =>
    exact iff_true (foreign_ok hs hR)
  | segmenter error =>
    exact iff_true (foreign_ok hs hR)
  | data error =>
    exact iff_true (foreign_ok hs hR)
  | grapheme =>
    exact (enum_iff hs hR).trans (iff_false (absent_bare hs rfl))
  | «syntax» =>
    exact (enum_iff hs hR).trans (iff_false (absent_bare hs rfl))
  | whiteSpace =>
    exact (enum_iff hs hR).trans (iff_false (absent_bare hs rfl))

theorem treeError_iff (hs : Serves L tag) (hR : Reader L) (e : Errors.TreeError) :
    Localised L tag (e.localisation : LData D F) ↔ False := by
  cases e with
  | lexer error =>
    exact (embedded_iff hs hR).trans (lexerError_iff hs hR error)
  | endedAbruptly =>
    exact (enum_iff hs hR).trans (iff_false (absent_bare hs rfl))
  | invalidToken state position token =>
    exact (enum_iff hs hR).trans (iff_false (absent_message hs rfl (by simp [Simple])))
  | uniquePattern identifier =>
    exact (enum_iff hs hR).trans (iff_false (absent_message hs rfl (by simp [Simple])))
  | multiNumberSign position =>
    exact (enum_iff hs hR).trans (iff_false (absent_message hs rfl (by simp [Simple])))
  | uniqueNamed identifier =>
    exact (enum_iff hs hR).trans (iff_false (absent_message hs rfl (by simp [Simple])))

theorem commandError_iff (hs : Serves L tag) (hR : Reader L) (e : Errors.CommandError D F) :
    Localised L tag (e.localisation : LData D F) ↔ e.HasText (Localised L tag) := by
  cases e with
  | custom error =>
    exact embedded_iff hs hR
  | alreadyExists command =>
    exact (enum_iff hs hR).trans (iff_false (absent_message hs rfl (by simp [Simple])))
  | notFound command =>
    exact (enum_iff hs hR).trans (iff_false (absent_message hs rfl (by simp [Simple])))
  | parameterMissing command index =>
    exact (enum_iff hs hR).trans (iff_false (absent_message hs rfl (by simp [Simple])))
  | invalidType command index =>
    exact (enum_iff hs hR).trans (iff_false (absent_message hs rfl (by simp [Simple])))

theorem providerError_iff (hs : Serves L tag) (hR : Reader L) (e : Errors.ProviderError D F) :
    Localised L tag (e.localisation : LData D F) ↔ e.HasText (Localised L tag) := by
  cases e with
  | componentNotFound component =>
    exact (enum_iff hs hR).trans (iff_true (texts_localised hs hR inProvider (names := ["component"]) (ts := [component])
      rfl (by decide +kernel)))
  | languageTagRegistry error =>
    exact (embedded_iff hs hR).trans (registryError_iff hs hR error)
  | defaultLanguage component =>
    exact (enum_iff hs hR).trans (iff_true (texts_localised hs hR inProvider (names := ["component"]) (ts := [component])
      rfl (by decide +kernel)))
  | invalidDefaultLanguage component =>
    exact (enum_iff hs hR).trans (iff_true (texts_localised hs hR inProvider (names := ["component"]) (ts := [component])
      rfl (by decide +kernel)))
  | defaultLanguageCount component language =>
    exact (enum_iff hs hR).trans (iff_true (texts_localised hs hR inProvider (names := ["component", "language"]) (ts := [component, language])
      rfl (by decide +kernel)))
  | custom error =>
    exact embedded_iff hs hR

theorem schemaError_iff (hs : Serves L tag) (hR : Reader L) (e : Errors.SchemaError) :
    Localised L tag (e.localisation : LData D F) ↔ e.HasText := by
  cases e with
  | sqlite3 error =>
    exact iff_true (foreign_ok hs hR)
  | missingTable name =>
    exact iff_true (texts_localised hs hR inSqlite3 (names := ["name"]) (ts := [name])
      rfl (by decide +kernel))
  | version path required =>
    exact (enum_iff hs hR).trans (iff_false (texts_fail hs hR inSqlite3 (names := ["path", "version"]) (ts := [path, required])
      rfl (by decide +kernel)))
  | missingVersion path =>
    exact (enum_iff hs hR).trans (iff_false (texts_fail hs hR inSqlite3 (names := ["path"]) (ts := [path])
      rfl (by decide +kernel)))
  | missingColumn table column =>
    exact iff_true (texts_localised hs hR inSqlite3 (names := ["table", "column"]) (ts := [table, column])
      rfl (by decide +kernel))
  | columnProperty table column property =>
    exact iff_true (texts_localised hs hR inSqlite3 (names := ["table", "column", "property"]) (ts := [table, column, property])
      rfl (by decide +kernel))
  | columnDefault table column default =>
    exact iff_true (texts_localised hs hR inSqlite3 (names := ["table", "column", "default"]) (ts := [table, column, default])
      rfl (by decide +kernel))
  | columnMismatch table column =>
    exact iff_true (columnMismatch_localised hs hR _ _)

theorem providerSqlite3Error_iff (hs : Serves L tag) (hR : Reader L) (e : Errors.ProviderSqlite3Error) :
    Localised L tag (e.localisation : LData D F) ↔ e.HasText := by
  cases e with
  | io error =>
    exact iff_true (foreign_ok hs hR)
  | sqlite3 error =>
    exact iff_true (foreign_ok hs hR)
  | notDirectory path =>
    exact (enum_iff hs hR).trans (iff_true (texts_localised hs hR inSqlite3 (names := ["path"]) (ts := [path])
      rfl (by decide +kernel)))
  | noSqlite3Files path =>
    exact (enum_iff hs hR).trans (iff_false (texts_fail hs hR inSqlite3 (names := ["path"]) (ts := [path])
      rfl (by decide +kernel)))
  | pathConversion =>
    exact (enum_iff hs hR).trans (iff_true (bare_localised hs inSqlite3 (by decide +kernel)))
  | notExists path =>
    exact (enum_iff hs hR).trans (iff_true (texts_localised hs hR inSqlite3 (names := ["path"]) (ts := [path])
      rfl (by decide +kernel)))
  | schemaInvalid error =>
    exact (enum_iff hs hR).trans (schemaError_iff hs hR error)

theorem formatterError_iff (hs : Serves L tag) (hR : Reader L) (e : Errors.FormatterError D F) :
    Localised L tag (e.localisation : LData D F) ↔ e.HasText (Localised L tag) := by
  cases e with
  | localiser error =>
    exact iff_true (foreign_ok hs hR)
  | tree error =>
    exact iff_true (foreign_ok hs hR)
  | locale error =>
    exact iff_true (foreign_ok hs hR)
  | calendar error =>
    exact iff_true (foreign_ok hs hR)
  | parseInt error =>
    exact iff_true (foreign_ok hs hR)
  | decimal error =>
    exact iff_true (foreign_ok hs hR)
  | dateTime error =>
    exact iff_true (foreign_ok hs hR)
  | pluralRules error =>
    exact iff_true (foreign_ok hs hR)
  | fixedDecimal error =>
    exact iff_true (foreign_ok hs hR)
  | command error =>
    exact (embedded_iff hs hR).trans (commandError_iff hs hR error)
  | invalidRoot =>
    exact (enum_iff hs hR).trans (iff_true (bare_localised hs inLocaliser (by decide +kernel)))
  | noGrammar =>
    exact (enum_iff hs hR).trans (iff_true (bare_localised hs inLocaliser (by decide +kernel)))
  | retrieveChildren nodeType =>
    exact (enum_iff hs hR).trans (iff_true (texts_localised hs hR inLocaliser (names := ["node_type"]) (ts := [nodeType])
      rfl (by decide +kernel)))
  | nodeNotFound nodeType =>
    exact (enum_iff hs hR).trans (iff_true (texts_localised hs hR inLocaliser (names := ["node_type"]) (ts := [nodeType])
      rfl (by decide +kernel)))
  | firstChild nodeType =>
    exact (enum_iff hs hR).trans (iff_true (texts_localised hs hR inLocaliser (names := ["node_type"]) (ts := [nodeType])
      rfl (by decide +kernel)))
  | retrieveNodeData nodeType =>
    exact (enum_iff hs hR).trans (iff_true (texts_localised hs hR inLocaliser (names := ["node_type"]) (ts := [nodeType])
      rfl (by decide +kernel)))
  | retrieveNodeToken nodeType =>
    exact (enum_iff hs hR).trans (iff_true (texts_localised hs hR inLocaliser (names := ["node_type"]) (ts := [nodeType])
      rfl (by decide +kernel)))
  | lastChild nodeType =>
    exact (enum_iff hs hR).trans (iff_true (texts_localised hs hR inLocaliser (names := ["node_type"]) (ts := [nodeType])
      rfl (by decide +kernel)))
  | invalidNode nodeType =>
    exact (enum_iff hs hR).trans (iff_true (texts_localised hs hR inLocaliser (names := ["node_type"]) (ts := [nodeType])
      rfl (by decide +kernel)))
  | patternNamed identifier =>
    exact (enum_iff hs hR).trans (iff_true (texts_localised hs hR inLocaliser (names := ["identifier"]) (ts := [identifier])
      rfl (by decide +kernel)))
  | patternPart identifier index =>
    exact (enum_iff hs hR).trans (iff_false (message_fails hs hR inLocaliser (names := ["identifier".toList])
      (by simp) (by simp [Simple])
      (by decide +kernel) (not_given (by simp [textOf]))))
  | invalidOptionValue value option keyword =>
    exact (enum_iff hs hR).trans (iff_true (texts_localised hs hR inLocaliser (names := ["value", "option", "keyword"]) (ts := [value, option, keyword])
      rfl (by decide +kernel)))
  | invalidKeyword keyword placeholder =>
    exact (enum_iff hs hR).trans (iff_false (texts_fail hs hR inLocaliser (names := ["keyword", "placeholder"]) (ts := [keyword, placeholder])
      rfl (by decide +kernel)))
  | selectorNamed named selector identifier =>
    exact (enum_iff hs hR).trans (iff_true (texts_localised hs hR inLocaliser (names := ["named", "selector", "identifier"]) (ts := [named, selector, identifier])
      rfl (by decide +kernel)))
  | selectorOther keyword placeholder =>
    exact (enum_iff hs hR).trans (iff_false (texts_fail hs hR inLocaliser (names := ["keyword", "placeholder"]) (ts := [keyword, placeholder])
      rfl (by decide +kernel)))
  | noChildren nodeType =>
    exact (enum_iff hs hR).trans (iff_true (texts_localised hs hR inLocaliser (names := ["node_type"]) (ts := [nodeType])
      rfl (by decide +kernel)))
  | invalidOption option keyword placeholder =>
    exact (enum_iff hs hR).trans (iff_false (texts_fail hs hR inLocaliser (names := ["option", "keyword", "placeholder"]) (ts := [option, keyword, placeholder])
      rfl (by decide +kernel)))
  | invalidSelector option keyword placeholder =>
    exact (enum_iff hs hR).trans (iff_false (texts_fail hs hR inLocaliser (names := ["option", "keyword", "placeholder"]) (ts := [option, keyword, placeholder])
      rfl (by decide +kernel)))
  | numberSignString index =>
    exact (enum_iff hs hR).trans (iff_false (message_fails hs hR inLocaliser (names := [])
      (by simp) (by simp [Simple])
      (by decide +kernel) (not_given (by simp [textOf]))))
  | selectorsIndex index =>
    exact (enum_iff hs hR).trans (iff_false (message_fails hs hR inLocaliser (names := [])
      (by simp) (by simp [Simple])
      (by decide +kernel) (not_given (by simp [textOf]))))
  | selectorsIndexNamed identifier index =>
    exact (enum_iff hs hR).trans (iff_false (message_fails hs hR inLocaliser (names := ["identifier".toList])
      (by simp) (by simp [Simple])
      (by decide +kernel) (not_given (by simp [textOf]))))
  | placeholderValue part placeholder =>
    exact (enum_iff hs hR).trans (iff_true (texts_localised hs hR inLocaliser (names := ["part", "placeholder"]) (ts := [part, placeholder])
      rfl (by decide +kernel)))
  | invalidValue part =>
    exact (enum_iff hs hR).trans (iff_true (texts_localised hs hR inLocaliser (names := ["part"]) (ts := [part])
      rfl (by decide +kernel)))
  | namedStringIdentifier identifier =>
    exact (enum_iff hs hR).trans (iff_false (texts_fail hs hR inLocaliser (names := ["identifier"]) (ts := [identifier])
      rfl (by decide +kernel)))
  | noIcuProvider =>
    exact (enum_iff hs hR).trans (iff_true (bare_localised hs inLocaliser (by decide +kernel)))
  | neverReached =>
    exact (enum_iff hs hR).trans (iff_true (bare_localised hs inLocaliser (by decide +kernel)))

theorem localiserError_iff (hs : Serves L tag) (hR : Reader L) (e : Errors.LocaliserError D F) :
    Localised L tag (e.localisation : LData D F) ↔ e.HasText (Localised L tag) := by
  cases e with
  | registry error =>
    exact (embedded_iff hs hR).trans (registryError_iff hs hR error)
  | formatter error =>
    exact (embedded_iff hs hR).trans (formatterError_iff hs hR error)
  | provider error =>
    exact (embedded_iff hs hR).trans (providerError_iff hs hR error)
  | stringNotFound component identifier languageTag fallback =>
    exact (enum_iff hs hR).trans (iff_true (stringNotFound_localised hs hR _ _ _ _))
  | cacheEntry component identifier =>
    exact (enum_iff hs hR).trans (iff_true (texts_localised hs hR inLocaliser (names := ["component", "identifier"]) (ts := [component, identifier])
      rfl (by decide +kernel)))
  | neverReached =>
    exact (enum_iff hs hR).trans (iff_true (bare_localised hs inLocaliser (by decide +kernel)))

theorem anyError_iff (hs : Serves L tag) (hR : Reader L) (e : AnyError D F) :
    Localised L tag e.localisation ↔ e.HasText (Localised L tag) := by
  cases e with
  | registry e => exact registryError_iff hs hR e
  | lexer e => exact lexerError_iff hs hR e
  | icu e => exact icuError_iff hs hR e
  | tree e => exact treeError_iff hs hR e
  | command e => exact commandError_iff hs hR e
  | provider e => exact providerError_iff hs hR e
  | schema e => exact schemaError_iff hs hR e
  | sqlite3 e => exact providerSqlite3Error_iff hs hR e
  | formatter e => exact formatterError_iff hs hR e
  | localiser e => exact localiserError_iff hs hR e

end Verif.ErrorLemmas
