import Verif.Lemmas.ErrorTexts
/-
Which errors have a text that agrees with `Display`.
-/
namespace Verif.ErrorLemmas
open Verif Verif.Spec Verif.Errors LocaliserLemmas

variable {D F P : Type} {L : LocEnv D F P}

/-- The texts of a template with values. -/
macro "filled" : tactic => `(tactic| simp only [fill, List.flatMap_cons, List.flatMap_nil, Seg.fill, given, keyed, texts,
  List.zipWith_cons_cons, List.zipWith_nil_left, List.map_cons, List.map_nil, List.find?_cons, String.toList_inj,
  String.reduceEq, decide_true, decide_false, Option.map_some, Option.bind_some, textOf, Option.getD_some,
  List.append_assoc, List.append_nil])

/-- Texts that are the same but for the way that they are put together. -/
macro "same_text" : tactic => `(tactic| (simp only [String.reduceToList]; rfl))

/-! ### Taking texts apart -/

theorem split_space {a b r s : Str} (ha : ' ' ∉ a) (hb : ' ' ∉ b) (h : a ++ ' ' :: r = b ++ ' ' :: s) :
    a = b ∧ r = s := by
  induction a generalizing b with
  | nil =>
    cases b with
    | nil => exact ⟨rfl, by simpa using h⟩
    | cons c b => simp only [List.nil_append, List.cons_append, List.cons.injEq] at h; simp [← h.1] at hb
  | cons c a ih =>
    cases b with
    | nil => simp only [List.nil_append, List.cons_append, List.cons.injEq] at h; simp [h.1] at ha
    | cons e b =>
      simp only [List.cons_append, List.cons.injEq] at h
      obtain ⟨rfl, h⟩ := h
      have := ih (fun x => ha (List.mem_cons_of_mem _ x)) (fun x => hb (List.mem_cons_of_mem _ x)) h
      exact ⟨by rw [this.1], this.2⟩

/-- The type and the variant before a text. -/
def headed (type variant : Str) (r : Str) : Str := type ++ "::".toList ++ variant ++ ": ".toList ++ r

theorem headed_eq (type variant r : Str) : headed type variant r = (type ++ "::".toList ++ variant ++ [':']) ++ ' ' :: r := by
  simp [headed]

theorem no_space {type variant : Str} (ht : ' ' ∉ type) (hv : ' ' ∉ variant) :
    ' ' ∉ type ++ "::".toList ++ variant ++ [':'] := by simp [ht, hv]

theorem agrees_cases {d l : Str} (h : Agrees d l) : d = l ∨ ∃ type variant r s, ' ' ∉ type ∧ ' ' ∉ variant ∧
    d = headed type variant r ∧ l = headed type variant s ∧ (s = '‘' :: r ++ "’.".toList ∨
      ∃ d' l', Agrees d' l' ∧ r = '[' :: d' ++ "].".toList ∧ s = '[' :: l' ++ "].".toList) := by
  cases h with
  | same => exact .inl rfl
  | message type variant m ht hv =>
    exact .inr ⟨type, variant, m, _, ht, hv, rfl, by simp [headed], .inl rfl⟩
  | embedded type variant d l ht hv h =>
    exact .inr ⟨type, variant, _, _, ht, hv, by simp [headed], by simp [headed], .inr ⟨d, l, h, rfl, rfl⟩⟩

/-- What agreement says when type and variant of both texts are known. -/
theorem agrees_headed {t v t' v' r s : Str} (ht : ' ' ∉ t) (hv : ' ' ∉ v) (ht' : ' ' ∉ t') (hv' : ' ' ∉ v')
    (h : Agrees (headed t v r) (headed t' v' s)) : t ++ "::".toList ++ v = t' ++ "::".toList ++ v' ∧
      (r = s ∨ s = '‘' :: r ++ "’.".toList ∨
        ∃ d' l', Agrees d' l' ∧ r = '[' :: d' ++ "].".toList ∧ s = '[' :: l' ++ "].".toList) := by
  rcases agrees_cases h with e | ⟨type, variant, r', s', h1, h2, e1, e2, h3⟩
  · rw [headed_eq, headed_eq] at e
    obtain ⟨e3, e4⟩ := split_space (no_space ht hv) (no_space ht' hv') e
    exact ⟨List.append_cancel_right e3, .inl e4⟩
  · rw [headed_eq, headed_eq] at e1 e2
    obtain ⟨e3, rfl⟩ := split_space (no_space ht hv) (no_space h1 h2) e1
    obtain ⟨e4, rfl⟩ := split_space (no_space ht' hv') (no_space h1 h2) e2
    exact ⟨(List.append_cancel_right e3).trans (List.append_cancel_right e4).symm, .inr h3⟩

/-- A text whose first word does not end in a colon agrees with itself only. -/
theorem agrees_plain {w r l : Str} {c : Char} (hw : ' ' ∉ w ++ [c]) (hc : c ≠ ':') (h : Agrees (w ++ [c] ++ ' ' :: r) l) :
    l = w ++ [c] ++ ' ' :: r := by
  rcases agrees_cases h with e | ⟨type, variant, r', s', h1, h2, e1, -⟩
  · exact e.symm
  · rw [headed_eq] at e1
    obtain ⟨e3, -⟩ := split_space hw (no_space h1 h2) e1
    exact absurd (List.cons.inj (List.append_inj' e3 rfl).2).1 hc

/-! ### The forms of errors -/

theorem spaceless {s : String} (h : s.toList.contains ' ' = false) : ' ' ∉ s.toList := by simpa using h

theorem speaks_message (hs : Serves L english) (hR : Reader L) {type variant : String} {m : LData D F} {r : Str}
    (ht : type.toList.contains ' ' = false) (hv : variant.toList.contains ' ' = false)
    (hm : (formatError L english true false m []).1 = .ok (r, english)) {display : Str}
    (hd : display = headed type.toList variant.toList r) : Speaks L (enumFormat type variant m) display := by
  refine ⟨_, by rw [enum_eq hs hR, hm]; rfl, ?_⟩
  rw [hd]
  exact .message _ _ r (spaceless ht) (spaceless hv)

/-- Another message. -/
theorem not_speaks_message (hs : Serves L english) (hR : Reader L) {type variant : String} {m : LData D F} {r : Str}
    {c : Char} (ht : type.toList.contains ' ' = false) (hv : variant.toList.contains ' ' = false)
    {display : Str} (hd : display = headed type.toList variant.toList (c :: r)) (hc : c ≠ '‘')
    (hr : ∀ x, (formatError L english true false m []).1 = .ok x → c :: r ≠ x.1) :
    ¬ Speaks L (enumFormat type variant m) display := by
  rintro ⟨x, hx, ha⟩
  rw [enum_eq hs hR] at hx
  obtain ⟨y, hy⟩ : ∃ y, (formatError L english true false m []).1 = .ok y :=
    bind_ok_iff.1 ⟨x, hx⟩
  obtain ⟨r', t⟩ := y
  rw [hy] at hx
  cases hx
  replace hr := hr _ hy
  rw [hd] at ha
  have e : type.toList ++ "::".toList ++ variant.toList ++ ": ‘".toList ++ r' ++ "’.".toList =
      headed type.toList variant.toList ('‘' :: r' ++ "’.".toList) := by simp [headed]
  rw [e] at ha
  rcases (agrees_headed (spaceless ht) (spaceless hv) (spaceless ht) (spaceless hv) ha).2 with h | h | ⟨d', l', _, _, h⟩
  · exact hc (List.cons.inj h).1
  · have := List.append_cancel_right (List.cons.inj h).2
    exact hr this.symm
  · exact absurd (List.cons.inj h).1 (by decide)

theorem speaks_embedded (hs : Serves L english) (hR : Reader L) {type variant : String} {d : LData D F} {text : Str}
    (ht : type.toList.contains ' ' = false) (hv : variant.toList.contains ' ' = false) {display : Str}
    (hd : display = headed type.toList variant.toList ('[' :: text ++ "].".toList)) :
    Speaks L (embedded type variant d.value) display ↔ Speaks L d text := by
  have e : ∀ l : Str, type.toList ++ "::".toList ++ variant.toList ++ ": [".toList ++ l ++ "].".toList =
      headed type.toList variant.toList ('[' :: l ++ "].".toList) := by intro l; simp [headed]
  unfold Speaks
  rw [embedded_eq hs hR, hd]
  constructor
  · rintro ⟨x, hx, ha⟩
    cases hf : (formatError L english true false d []).1 with
    | ok y =>
      refine ⟨y, rfl, ?_⟩
      rw [hf] at hx
      cases hx
      rw [e] at ha
      rcases (agrees_headed (spaceless ht) (spaceless hv) (spaceless ht) (spaceless hv) ha).2 with h | h | ⟨d', l', h', h1, h2⟩
      · rw [List.append_cancel_right (List.cons.inj h).2]; exact .same _
      · exact absurd (List.cons.inj h).1 (by decide)
      · rw [List.append_cancel_right (List.cons.inj h1).2, List.append_cancel_right (List.cons.inj h2).2]; exact h'
    | err z => rw [hf] at hx; cases hx
    | panic => rw [hf] at hx; cases hx
  · rintro ⟨y, hy, ha⟩
    refine ⟨_, by rw [hy]; rfl, ?_⟩
    rw [← e]
    exact .embedded _ _ _ _ (spaceless ht) (spaceless hv) ha

theorem speaks_foreign (hs : Serves L english) (hR : Reader L) {type variant : String} {text : Str} {display : Str}
    (hd : display = headed type.toList variant.toList ('[' :: text ++ "].".toList)) :
    Speaks L (embedded type variant (.string text) : LData D F) display := by
  refine ⟨_, foreign_eq hs hR _ _ _, ?_⟩
  rw [hd]
  have : headed type.toList variant.toList ('[' :: text ++ "].".toList) =
    type.toList ++ "::".toList ++ variant.toList ++ ": [".toList ++ text ++ "].".toList := by simp [headed]
  rw [this]
  exact .same _

/-- Another type or variant. -/
theorem not_speaks_embedded (hs : Serves L english) (hR : Reader L) {type variant t v : String} {error : PValue D F}
    (he : (∃ s, error = .string s) ∨ ∃ d : LData D F, error = d.value) {r : Str}
    (h1 : type.toList.contains ' ' = false) (h2 : variant.toList.contains ' ' = false)
    (h3 : t.toList.contains ' ' = false) (h4 : v.toList.contains ' ' = false)
    (hne : t.toList ++ "::".toList ++ v.toList ≠ type.toList ++ "::".toList ++ variant.toList) {display : Str}
    (hd : display = headed t.toList v.toList r) : ¬ Speaks L (embedded type variant error) display := by
  rintro ⟨x, hx, ha⟩
  have : ∃ l, x.1 = headed type.toList variant.toList ('[' :: l ++ "].".toList) := by
    rcases he with ⟨s, rfl⟩ | ⟨d, rfl⟩
    · rw [foreign_eq hs hR] at hx
      cases hx
      exact ⟨s, by simp [headed]⟩
    · rw [embedded_eq hs hR] at hx
      cases hf : (formatError L english true false d []).1 with
      | ok y => rw [hf] at hx; cases hx; exact ⟨y.1, by simp [headed]⟩
      | err z => rw [hf] at hx; cases hx
      | panic => rw [hf] at hx; cases hx
  obtain ⟨l, e⟩ := this
  rw [e, hd] at ha
  exact hne (agrees_headed (spaceless h3) (spaceless h4) (spaceless h1) (spaceless h2) ha).1

/-- Another text without a type. -/
theorem not_speaks_plain {d : LData D F} {w r l : Str} {c : Char}
    (hm : (formatError L english true false d []).1 = .ok (l, english)) {display : Str}
    (hd : display = w ++ [c] ++ ' ' :: r) (hw : ' ' ∉ w ++ [c]) (hc : c ≠ ':') (hne : l ≠ display) :
    ¬ Speaks L d display := by
  rintro ⟨x, hx, ha⟩
  rw [hm] at hx
  cases hx
  rw [hd] at ha hne
  exact hne (agrees_plain hw hc ha)

theorem not_speaks {d : LData D F} {display : Str} (h : ¬ Localised L english d) : ¬ Speaks L d display :=
  fun ⟨x, hx, _⟩ => h ⟨x, hx⟩


/-- The errors of unknown type with a text that agrees. -/
def OK (L : LocEnv D F P) (c : Custom D F) : Prop := Speaks L c.localisation c.display

/-! ### Texts of messages -/

theorem text_component_not_found (hs : Serves L english) (hR : Reader L) (component : Str) :
    (formatError L english true false (message "i18n_provider" "component_not_found"
      [("component", .string component)]) []).1 =
      .ok ("The component ‘".toList ++
        component ++
        "’ could not found.".toList, english) := by
  refine (texts_text hs hR inProvider (names := ["component"]) (ts := [component]) rfl
    [.text "The component ‘".toList,
      .hole "component".toList,
      .text "’ could not found.".toList]
    (by decide +kernel)).trans ?_
  filled

theorem text_default_language (hs : Serves L english) (hR : Reader L) (component : Str) :
    (formatError L english true false (message "i18n_provider" "default_language"
      [("component", .string component)]) []).1 =
      .ok ("The default language tag is missing for the component ‘".toList ++
        component ++
        "’.".toList, english) := by
  refine (texts_text hs hR inProvider (names := ["component"]) (ts := [component]) rfl
    [.text "The default language tag is missing for the component ‘".toList,
      .hole "component".toList,
      .text "’.".toList]
    (by decide +kernel)).trans ?_
  filled

theorem text_invalid_default_language (hs : Serves L english) (hR : Reader L) (component : Str) :
    (formatError L english true false (message "i18n_provider" "invalid_default_language"
      [("component", .string component)]) []).1 =
      .ok ("The default language tag is invalid for the component ‘".toList ++
        component ++
        "’.".toList, english) := by
  refine (texts_text hs hR inProvider (names := ["component"]) (ts := [component]) rfl
    [.text "The default language tag is invalid for the component ‘".toList,
      .hole "component".toList,
      .text "’.".toList]
    (by decide +kernel)).trans ?_
  filled

theorem text_default_language_count (hs : Serves L english) (hR : Reader L) (component language : Str) :
    (formatError L english true false (message "i18n_provider" "default_language_count"
      [("component", .string component), ("language", .string language)]) []).1 =
      .ok ("There are no localisation strings in the component ‘".toList ++
        component ++
        "’ for the default language tag ‘".toList ++
        language ++
        "’.".toList, english) := by
  refine (texts_text hs hR inProvider (names := ["component", "language"]) (ts := [component, language]) rfl
    [.text "There are no localisation strings in the component ‘".toList,
      .hole "component".toList,
      .text "’ for the default language tag ‘".toList,
      .hole "language".toList,
      .text "’.".toList]
    (by decide +kernel)).trans ?_
  filled

theorem text_missing_table (hs : Serves L english) (hR : Reader L) (name : Str) :
    (formatError L english true false (message "i18n_provider_sqlite3" "missing_table"
      [("name", .string name)]) []).1 =
      .ok ("The database is missing the table ‘".toList ++
        name ++
        "’.".toList, english) := by
  refine (texts_text hs hR inSqlite3 (names := ["name"]) (ts := [name]) rfl
    [.text "The database is missing the table ‘".toList,
      .hole "name".toList,
      .text "’.".toList]
    (by decide +kernel)).trans ?_
  filled

theorem text_missing_column (hs : Serves L english) (hR : Reader L) (table column : Str) :
    (formatError L english true false (message "i18n_provider_sqlite3" "missing_column"
      [("table", .string table), ("column", .string column)]) []).1 =
      .ok ("The table ‘".toList ++
        table ++
        "’ is missing column ‘".toList ++
        column ++
        "’.".toList, english) := by
  refine (texts_text hs hR inSqlite3 (names := ["table", "column"]) (ts := [table, column]) rfl
    [.text "The table ‘".toList,
      .hole "table".toList,
      .text "’ is missing column ‘".toList,
      .hole "column".toList,
      .text "’.".toList]
    (by decide +kernel)).trans ?_
  filled

theorem text_column_property (hs : Serves L english) (hR : Reader L) (table column property : Str) :
    (formatError L english true false (message "i18n_provider_sqlite3" "column_property"
      [("table", .string table), ("column", .string column), ("property", .string property)]) []).1 =
      .ok ("The column ‘".toList ++
        column ++
        "’ of the table ‘".toList ++
        table ++
        "’ is missing property ‘".toList ++
        property ++
        "’.".toList, english) := by
  refine (texts_text hs hR inSqlite3 (names := ["table", "column", "property"]) (ts := [table, column, property]) rfl
    [.text "The column ‘".toList,
      .hole "column".toList,
      .text "’ of the table ‘".toList,
      .hole "table".toList,
      .text "’ is missing property ‘".toList,
      .hole "property".toList,
      .text "’.".toList]
    (by decide +kernel)).trans ?_
  filled

theorem text_column_default (hs : Serves L english) (hR : Reader L) (table column default : Str) :
    (formatError L english true false (message "i18n_provider_sqlite3" "column_default"
      [("table", .string table), ("column", .string column), ("default", .string default)]) []).1 =
      .ok ("The column ‘".toList ++
        column ++
        "’ of the table ‘".toList ++
        table ++
        "’ must have a default value of ‘".toList ++
        default ++
        "’.".toList, english) := by
  refine (texts_text hs hR inSqlite3 (names := ["table", "column", "default"]) (ts := [table, column, default]) rfl
    [.text "The column ‘".toList,
      .hole "column".toList,
      .text "’ of the table ‘".toList,
      .hole "table".toList,
      .text "’ must have a default value of ‘".toList,
      .hole "default".toList,
      .text "’.".toList]
    (by decide +kernel)).trans ?_
  filled

theorem text_path_not_directory (hs : Serves L english) (hR : Reader L) (path : Str) :
    (formatError L english true false (message "i18n_provider_sqlite3" "path_not_directory"
      [("path", .string path)]) []).1 =
      .ok ("Provided path ‘".toList ++
        path ++
        "’ is not a directory.".toList, english) := by
  refine (texts_text hs hR inSqlite3 (names := ["path"]) (ts := [path]) rfl
    [.text "Provided path ‘".toList,
      .hole "path".toList,
      .text "’ is not a directory.".toList]
    (by decide +kernel)).trans ?_
  filled

theorem text_path_conversion (hs : Serves L english) :
    (formatError L english true false (bare "i18n_provider_sqlite3" "path_conversion" : LData D F) []).1 = .ok ("Conversion to {`PathBuf`} error.".toList, english) := by
  rw [bare_text hs inSqlite3 (s := chars! "Conversion to {`PathBuf`} error.") (by decide +kernel)]
  simp only [String.reduceToList]

theorem text_path_not_exist (hs : Serves L english) (hR : Reader L) (path : Str) :
    (formatError L english true false (message "i18n_provider_sqlite3" "path_not_exist"
      [("path", .string path)]) []).1 =
      .ok ("Provided path ‘".toList ++
        path ++
        "’ does not exist.".toList, english) := by
  refine (texts_text hs hR inSqlite3 (names := ["path"]) (ts := [path]) rfl
    [.text "Provided path ‘".toList,
      .hole "path".toList,
      .text "’ does not exist.".toList]
    (by decide +kernel)).trans ?_
  filled

theorem text_invalid_root (hs : Serves L english) :
    (formatError L english true false (bare "i18n_localiser" "invalid_root" : LData D F) []).1 = .ok ("The tree root must be a ‘{`Root`}’ node.".toList, english) := by
  rw [bare_text hs inLocaliser (s := chars! "The tree root must be a ‘{`Root`}’ node.") (by decide +kernel)]
  simp only [String.reduceToList]

theorem text_no_grammar (hs : Serves L english) :
    (formatError L english true false (bare "i18n_localiser" "no_grammar" : LData D F) []).1 = .ok ("No grammar syntax characters was found in the provided localisation string.".toList, english) := by
  rw [bare_text hs inLocaliser (s := chars! "No grammar syntax characters was found in the provided localisation string.") (by decide +kernel)]
  simp only [String.reduceToList]

theorem text_retrieve_children (hs : Serves L english) (hR : Reader L) (nodeType : Str) :
    (formatError L english true false (message "i18n_localiser" "retrieve_children"
      [("node_type", .string nodeType)]) []).1 =
      .ok ("Failed to retrieve the children for the ‘".toList ++
        nodeType ++
        "’ node.".toList, english) := by
  refine (texts_text hs hR inLocaliser (names := ["node_type"]) (ts := [nodeType]) rfl
    [.text "Failed to retrieve the children for the ‘".toList,
      .hole "node_type".toList,
      .text "’ node.".toList]
    (by decide +kernel)).trans ?_
  filled

theorem text_node_not_found (hs : Serves L english) (hR : Reader L) (nodeType : Str) :
    (formatError L english true false (message "i18n_localiser" "node_not_found"
      [("node_type", .string nodeType)]) []).1 =
      .ok ("The expected node ‘".toList ++
        nodeType ++
        "’ was not found.".toList, english) := by
  refine (texts_text hs hR inLocaliser (names := ["node_type"]) (ts := [nodeType]) rfl
    [.text "The expected node ‘".toList,
      .hole "node_type".toList,
      .text "’ was not found.".toList]
    (by decide +kernel)).trans ?_
  filled

theorem text_first_child (hs : Serves L english) (hR : Reader L) (nodeType : Str) :
    (formatError L english true false (message "i18n_localiser" "first_child"
      [("node_type", .string nodeType)]) []).1 =
      .ok ("The first child of the ‘".toList ++
        nodeType ++
        "’ node was not found.".toList, english) := by
  refine (texts_text hs hR inLocaliser (names := ["node_type"]) (ts := [nodeType]) rfl
    [.text "The first child of the ‘".toList,
      .hole "node_type".toList,
      .text "’ node was not found.".toList]
    (by decide +kernel)).trans ?_
  filled

theorem text_retrieve_node_data (hs : Serves L english) (hR : Reader L) (nodeType : Str) :
    (formatError L english true false (message "i18n_localiser" "retrieve_node_data"
      [("node_type", .string nodeType)]) []).1 =
      .ok ("Failed to retrieve the data for the ‘".toList ++
        nodeType ++
        "’ node.".toList, english) := by
  refine (texts_text hs hR inLocaliser (names := ["node_type"]) (ts := [nodeType]) rfl
    [.text "Failed to retrieve the data for the ‘".toList,
      .hole "node_type".toList,
      .text "’ node.".toList]
    (by decide +kernel)).trans ?_
  filled

theorem text_retrieve_node_token (hs : Serves L english) (hR : Reader L) (nodeType : Str) :
    (formatError L english true false (message "i18n_localiser" "retrieve_node_token"
      [("node_type", .string nodeType)]) []).1 =
      .ok ("Failed to retrieve the token for the ‘".toList ++
        nodeType ++
        "’ node.".toList, english) := by
  refine (texts_text hs hR inLocaliser (names := ["node_type"]) (ts := [nodeType]) rfl
    [.text "Failed to retrieve the token for the ‘".toList,
      .hole "node_type".toList,
      .text "’ node.".toList]
    (by decide +kernel)).trans ?_
  filled

theorem text_last_child (hs : Serves L english) (hR : Reader L) (nodeType : Str) :
    (formatError L english true false (message "i18n_localiser" "last_child"
      [("node_type", .string nodeType)]) []).1 =
      .ok ("The last child of the ‘".toList ++
        nodeType ++
        "’ node was not found.".toList, english) := by
  refine (texts_text hs hR inLocaliser (names := ["node_type"]) (ts := [nodeType]) rfl
    [.text "The last child of the ‘".toList,
      .hole "node_type".toList,
      .text "’ node was not found.".toList]
    (by decide +kernel)).trans ?_
  filled

theorem text_invalid_node (hs : Serves L english) (hR : Reader L) (nodeType : Str) :
    (formatError L english true false (message "i18n_localiser" "invalid_node"
      [("node_type", .string nodeType)]) []).1 =
      .ok ("Invalid child node found in the ‘".toList ++
        nodeType ++
        "’ node.".toList, english) := by
  refine (texts_text hs hR inLocaliser (names := ["node_type"]) (ts := [nodeType]) rfl
    [.text "Invalid child node found in the ‘".toList,
      .hole "node_type".toList,
      .text "’ node.".toList]
    (by decide +kernel)).trans ?_
  filled

theorem text_pattern_named (hs : Serves L english) (hR : Reader L) (identifier : Str) :
    (formatError L english true false (message "i18n_localiser" "pattern_named"
      [("identifier", .string identifier)]) []).1 =
      .ok ("Failed to retrieve the pattern for the named string ‘".toList ++
        identifier ++
        "’.".toList, english) := by
  refine (texts_text hs hR inLocaliser (names := ["identifier"]) (ts := [identifier]) rfl
    [.text "Failed to retrieve the pattern for the named string ‘".toList,
      .hole "identifier".toList,
      .text "’.".toList]
    (by decide +kernel)).trans ?_
  filled

theorem text_invalid_option_value (hs : Serves L english) (hR : Reader L) (value option keyword : Str) :
    (formatError L english true false (message "i18n_localiser" "invalid_option_value"
      [("value", .string value), ("option", .string option), ("keyword", .string keyword)]) []).1 =
      .ok ("The value ‘".toList ++
        value ++
        "’ is invalid for the option ‘".toList ++
        option ++
        "’ for the keyword ‘".toList ++
        keyword ++
        "’.".toList, english) := by
  refine (texts_text hs hR inLocaliser (names := ["value", "option", "keyword"]) (ts := [value, option, keyword]) rfl
    [.text "The value ‘".toList,
      .hole "value".toList,
      .text "’ is invalid for the option ‘".toList,
      .hole "option".toList,
      .text "’ for the keyword ‘".toList,
      .hole "keyword".toList,
      .text "’.".toList]
    (by decide +kernel)).trans ?_
  filled

theorem text_selector_named (hs : Serves L english) (hR : Reader L) (named selector identifier : Str) :
    (formatError L english true false (message "i18n_localiser" "selector_named"
      [("named", .string named), ("selector", .string selector), ("identifier", .string identifier)]) []).1 =
      .ok ("The named string identifier ‘".toList ++
        named ++
        "’ was not found for the selector ‘".toList ++
        selector ++
        "’ of the placeholder ‘".toList ++
        identifier ++
        "’.".toList, english) := by
  refine (texts_text hs hR inLocaliser (names := ["named", "selector", "identifier"]) (ts := [named, selector, identifier]) rfl
    [.text "The named string identifier ‘".toList,
      .hole "named".toList,
      .text "’ was not found for the selector ‘".toList,
      .hole "selector".toList,
      .text "’ of the placeholder ‘".toList,
      .hole "identifier".toList,
      .text "’.".toList]
    (by decide +kernel)).trans ?_
  filled

theorem text_no_children (hs : Serves L english) (hR : Reader L) (nodeType : Str) :
    (formatError L english true false (message "i18n_localiser" "no_children"
      [("node_type", .string nodeType)]) []).1 =
      .ok ("No children nodes was found for ‘".toList ++
        nodeType ++
        "’ node.".toList, english) := by
  refine (texts_text hs hR inLocaliser (names := ["node_type"]) (ts := [nodeType]) rfl
    [.text "No children nodes was found for ‘".toList,
      .hole "node_type".toList,
      .text "’ node.".toList]
    (by decide +kernel)).trans ?_
  filled

theorem text_placeholder_value (hs : Serves L english) (hR : Reader L) (part placeholder : Str) :
    (formatError L english true false (message "i18n_localiser" "placeholder_value"
      [("part", .string part), ("placeholder", .string placeholder)]) []).1 =
      .ok ("The placeholder value was not found for the pattern part ‘".toList ++
        part ++
        "’ of the placeholder ‘".toList ++
        placeholder ++
        "’.".toList, english) := by
  refine (texts_text hs hR inLocaliser (names := ["part", "placeholder"]) (ts := [part, placeholder]) rfl
    [.text "The placeholder value was not found for the pattern part ‘".toList,
      .hole "part".toList,
      .text "’ of the placeholder ‘".toList,
      .hole "placeholder".toList,
      .text "’.".toList]
    (by decide +kernel)).trans ?_
  filled

theorem text_invalid_value (hs : Serves L english) (hR : Reader L) (part : Str) :
    (formatError L english true false (message "i18n_localiser" "invalid_value"
      [("part", .string part)]) []).1 =
      .ok ("Invalid value type was provided for the pattern part ‘".toList ++
        part ++
        "’.".toList, english) := by
  refine (texts_text hs hR inLocaliser (names := ["part"]) (ts := [part]) rfl
    [.text "Invalid value type was provided for the pattern part ‘".toList,
      .hole "part".toList,
      .text "’.".toList]
    (by decide +kernel)).trans ?_
  filled

theorem text_no_icu_provider (hs : Serves L english) :
    (formatError L english true false (bare "i18n_localiser" "no_icu_provider" : LData D F) []).1 = .ok ("Build error: At least one {`ICU4X`} data provider must be specified for the crate ‘{`i18n_icu`}’ using the crate's features.".toList, english) := by
  rw [bare_text hs inLocaliser (s := chars! "Build error: At least one {`ICU4X`} data provider must be specified for the crate ‘{`i18n_icu`}’ using the crate's features.") (by decide +kernel)]
  simp only [String.reduceToList]

theorem text_never_reach (hs : Serves L english) :
    (formatError L english true false (bare "i18n_localiser" "never_reach" : LData D F) []).1 = .ok ("Build error: Should never have reached this match branch.".toList, english) := by
  rw [bare_text hs inLocaliser (s := chars! "Build error: Should never have reached this match branch.") (by decide +kernel)]
  simp only [String.reduceToList]

theorem text_cache_entry (hs : Serves L english) (hR : Reader L) (component identifier : Str) :
    (formatError L english true false (message "i18n_localiser" "cache_entry"
      [("component", .string component), ("identifier", .string identifier)]) []).1 =
      .ok ("Unable to get the string for the component ‘".toList ++
        component ++
        "’ with the identifier ‘".toList ++
        identifier ++
        "’ as the cache entry requires values for formatting.".toList, english) := by
  refine (texts_text hs hR inLocaliser (names := ["component", "identifier"]) (ts := [component, identifier]) rfl
    [.text "Unable to get the string for the component ‘".toList,
      .hole "component".toList,
      .text "’ with the identifier ‘".toList,
      .hole "identifier".toList,
      .text "’ as the cache entry requires values for formatting.".toList]
    (by decide +kernel)).trans ?_
  filled

/-! ### The errors -/

theorem registryError_speaks (hs : Serves L english) (hR : Reader L) (e : Errors.RegistryError) :
    Speaks L (e.localisation : LData D F) e.display ↔ False := by
  cases e with
  | languageIdentifier error =>
    refine iff_false (not_speaks_embedded (t := "RegistryError") (v := "LanguageIdentifier") hs hR (.inl ⟨_, rfl⟩)
      (r := '[' :: error ++ "].".toList) (by decide +kernel) (by decide +kernel) (by decide +kernel)
      (by decide +kernel) (by decide +kernel) ?_)
    unfold RegistryError.display headed
    same_text
  | locale error =>
    refine iff_false (not_speaks_embedded (t := "RegistryError") (v := "Locale") hs hR (.inl ⟨_, rfl⟩)
      (r := '[' :: error ++ "].".toList) (by decide +kernel) (by decide +kernel) (by decide +kernel)
      (by decide +kernel) (by decide +kernel) ?_)
    unfold RegistryError.display headed
    same_text

theorem lexerError_speaks (hs : Serves L english) (hR : Reader L) (e : Errors.LexerError) :
    Speaks L (e.localisation : LData D F) e.display ↔ False :=
  iff_false (not_speaks (lexerError_iff hs hR e).1)

theorem icuError_speaks (hs : Serves L english) (hR : Reader L) (e : Errors.IcuError) :
    Speaks L (e.localisation : LData D F) e.display ↔ e.HasText := by
  cases e with
  | properties error =>
    refine iff_true (speaks_foreign hs hR ?_)
    unfold IcuError.display headed
    same_text
  | segmenter error =>
    refine iff_true (speaks_foreign hs hR ?_)
    unfold IcuError.display headed
    same_text
  | data error =>
    refine iff_true (speaks_foreign hs hR ?_)
    unfold IcuError.display headed
    same_text
  | grapheme =>
    exact iff_false (not_speaks (icuError_iff hs hR (.grapheme )).1)
  | «syntax» =>
    exact iff_false (not_speaks (icuError_iff hs hR (.syntax )).1)
  | whiteSpace =>
    exact iff_false (not_speaks (icuError_iff hs hR (.whiteSpace )).1)

theorem treeError_speaks (hs : Serves L english) (hR : Reader L) (e : Errors.TreeError) :
    Speaks L (e.localisation : LData D F) e.display ↔ False :=
  iff_false (not_speaks (treeError_iff hs hR e).1)

theorem commandError_speaks (hs : Serves L english) (hR : Reader L) (e : Errors.CommandError D F) :
    Speaks L (e.localisation : LData D F) e.display ↔ False := by
  cases e with
  | custom error =>
    refine iff_false (not_speaks_embedded (t := "CommandError") (v := "Custom") hs hR (.inr ⟨_, rfl⟩)
      (r := '[' :: error.display ++ "].".toList) (by decide +kernel) (by decide +kernel) (by decide +kernel)
      (by decide +kernel) (by decide +kernel) ?_)
    unfold CommandError.display headed
    same_text
  | alreadyExists command =>
    exact iff_false (not_speaks (commandError_iff hs hR (.alreadyExists command)).1)
  | notFound command =>
    exact iff_false (not_speaks (commandError_iff hs hR (.notFound command)).1)
  | parameterMissing command index =>
    exact iff_false (not_speaks (commandError_iff hs hR (.parameterMissing command index)).1)
  | invalidType command index =>
    exact iff_false (not_speaks (commandError_iff hs hR (.invalidType command index)).1)

theorem providerError_speaks (hs : Serves L english) (hR : Reader L) (e : Errors.ProviderError D F) :
    Speaks L (e.localisation : LData D F) e.display ↔ e.Faithful (OK L) := by
  cases e with
  | componentNotFound component =>
    refine iff_true (speaks_message hs hR (by decide +kernel) (by decide +kernel) (text_component_not_found hs hR component) ?_)
    unfold ProviderError.display headed
    same_text
  | languageTagRegistry error =>
    refine (speaks_embedded hs hR (text := error.display) (by decide +kernel) (by decide +kernel) ?_).trans (registryError_speaks hs hR error)
    unfold ProviderError.display headed
    same_text
  | defaultLanguage component =>
    refine iff_true (speaks_message hs hR (by decide +kernel) (by decide +kernel) (text_default_language hs hR component) ?_)
    unfold ProviderError.display headed
    same_text
  | invalidDefaultLanguage component =>
    refine iff_true (speaks_message hs hR (by decide +kernel) (by decide +kernel) (text_invalid_default_language hs hR component) ?_)
    unfold ProviderError.display headed
    same_text
  | defaultLanguageCount component language =>
    refine iff_true (speaks_message hs hR (by decide +kernel) (by decide +kernel) (text_default_language_count hs hR component language) ?_)
    unfold ProviderError.display headed
    same_text
  | custom error =>
    refine (speaks_embedded hs hR (text := error.display) (by decide +kernel) (by decide +kernel) ?_).trans (Iff.rfl)
    unfold ProviderError.display headed
    same_text

theorem schemaError_speaks (hs : Serves L english) (hR : Reader L) (e : Errors.SchemaError) :
    Speaks L (e.localisation : LData D F) e.display ↔ e.Faithful := by
  cases e with
  | sqlite3 error =>
    refine iff_true (speaks_foreign hs hR ?_)
    unfold SchemaError.display headed
    same_text
  | missingTable name =>
    refine iff_false (not_speaks_plain (text_missing_table hs hR name) (w := "Th".toList) (c := 'e')
      (r := "database is missing table ‘".toList ++ name ++ "’.".toList) ?_ (by decide +kernel) (by decide) ?_)
    · unfold SchemaError.display
      same_text
    · intro h
      unfold SchemaError.display at h
      replace h := congrArg (fun l : Str => l.length) h
      simp only [List.length_append, String.reduceToList, List.length_cons, List.length_nil] at h
      omega
  | version path required =>
    exact iff_false (not_speaks (schemaError_iff hs hR (.version path required)).1)
  | missingVersion path =>
    exact iff_false (not_speaks (schemaError_iff hs hR (.missingVersion path)).1)
  | missingColumn table column =>
    refine iff_true ⟨_, (text_missing_column hs hR table column), ?_⟩
    unfold SchemaError.display
    simp only [List.append_assoc]
    exact .same _
  | columnProperty table column property =>
    refine iff_false (not_speaks_plain (text_column_property hs hR table column property) (w := "Th".toList) (c := 'e')
      (r := "column ‘".toList ++ column ++ "’ of table ‘".toList ++ table ++ "’ is missing property ‘".toList ++ property ++ "’.".toList) ?_ (by decide +kernel) (by decide) ?_)
    · unfold SchemaError.display
      same_text
    · intro h
      unfold SchemaError.display at h
      replace h := congrArg (fun l : Str => l.length) h
      simp only [List.length_append, String.reduceToList, List.length_cons, List.length_nil] at h
      omega
  | columnDefault table column default =>
    refine iff_false (not_speaks_plain (text_column_default hs hR table column default) (w := "Th".toList) (c := 'e')
      (r := "column ‘".toList ++ column ++ "’ of table ‘".toList ++ table ++ "’ must have a default value of ‘".toList ++ default ++ "’.".toList) ?_ (by decide +kernel) (by decide) ?_)
    · unfold SchemaError.display
      same_text
    · intro h
      unfold SchemaError.display at h
      replace h := congrArg (fun l : Str => l.length) h
      simp only [List.length_append, String.reduceToList, List.length_cons, List.length_nil] at h
      omega
  | columnMismatch table column =>
    refine iff_false (not_speaks_plain (columnMismatch_text hs hR table column) (w := "Chec".toList) (c := 'k')
      (r := "`verify_schema()` as default value type does not match column type for the column ‘".toList ++ table ++
      "’ of table ‘".toList ++ column ++ "’.".toList) ?_ (by decide +kernel) (by decide) ?_)
    · unfold SchemaError.display
      same_text
    · intro h
      unfold SchemaError.display at h
      replace h := congrArg (fun l : Str => l.length) h
      simp only [List.length_append, String.reduceToList, List.length_cons, List.length_nil] at h
      omega

/-- The text of a schema error is not in brackets. -/
theorem schema_first (hs : Serves L english) (hR : Reader L) (e : SchemaError) {x : Str × Str} {r : Str}
    (hx : (formatError L english true false (e.localisation : LData D F) []).1 = .ok x) : x.1 ≠ '[' :: r := by
  intro h
  have key : ∀ {s : String} {t : Str}, x.1 = s.toList ++ t → ¬ (s.toList.headD '[' ≠ '[' ∧ s.toList ≠ []) := by
    intro s t e ⟨h1, h2⟩
    rw [e] at h
    cases hs' : s.toList with
    | nil => exact h2 hs'
    | cons c u => rw [hs'] at h h1; exact h1 (List.cons.inj h).1
  cases e with
  | sqlite3 error =>
    have e := (foreign_eq hs hR "SchemaError" "Sqlite3" error).symm.trans hx
    cases e
    exact key (s := "SchemaError") (by simp only [List.append_assoc]; rfl) (by decide +kernel)
  | version path required => exact (schemaError_iff hs hR (.version path required)).1 ⟨x, hx⟩
  | missingVersion path => exact (schemaError_iff hs hR (.missingVersion path)).1 ⟨x, hx⟩
  | missingTable name =>
    cases (text_missing_table hs hR name).symm.trans hx
    exact key (s := "The database is missing the table ‘") (by simp only [List.append_assoc]; rfl) (by decide +kernel)
  | missingColumn table column =>
    cases (text_missing_column hs hR table column).symm.trans hx
    exact key (s := "The table ‘") (by simp only [List.append_assoc]; rfl) (by decide +kernel)
  | columnProperty table column property =>
    cases (text_column_property hs hR table column property).symm.trans hx
    exact key (s := "The column ‘") (by simp only [List.append_assoc]; rfl) (by decide +kernel)
  | columnDefault table column default =>
    cases (text_column_default hs hR table column default).symm.trans hx
    exact key (s := "The column ‘") (by simp only [List.append_assoc]; rfl) (by decide +kernel)
  | columnMismatch table column =>
    cases (columnMismatch_text hs hR table column).symm.trans hx
    exact key (s := "Check the ") (by simp only [List.append_assoc]; rfl) (by decide +kernel)

theorem providerSqlite3Error_speaks (hs : Serves L english) (hR : Reader L) (e : Errors.ProviderSqlite3Error) :
    Speaks L (e.localisation : LData D F) e.display ↔ e.Faithful := by
  cases e with
  | io error =>
    refine iff_true (speaks_foreign hs hR ?_)
    unfold ProviderSqlite3Error.display headed
    same_text
  | sqlite3 error =>
    refine iff_true (speaks_foreign hs hR ?_)
    unfold ProviderSqlite3Error.display headed
    same_text
  | notDirectory path =>
    refine iff_true (speaks_message hs hR (by decide +kernel) (by decide +kernel) (text_path_not_directory hs hR path) ?_)
    unfold ProviderSqlite3Error.display headed
    same_text
  | noSqlite3Files path =>
    exact iff_false (not_speaks (providerSqlite3Error_iff hs hR (.noSqlite3Files path)).1)
  | pathConversion =>
    refine iff_false (not_speaks_message hs hR (c := 'C') (r := "onversion to PathBuf error.".toList)
      (by decide +kernel) (by decide +kernel) ?_ (by decide) (by
        intro x hx h
        rw [(text_path_conversion hs)] at hx
        rw [← Outcome.ok.inj hx] at h
        replace h := congrArg (fun l : Str => l.length) h
        simp only [String.reduceToList, List.length_cons, List.length_nil] at h
        omega))
    unfold ProviderSqlite3Error.display headed
    same_text
  | notExists path =>
    refine iff_true (speaks_message hs hR (by decide +kernel) (by decide +kernel) (text_path_not_exist hs hR path) ?_)
    unfold ProviderSqlite3Error.display headed
    same_text
  | schemaInvalid error =>
    refine iff_false (not_speaks_message hs hR (c := '[') (r := error.display ++ "].".toList) (by decide +kernel)
      (by decide +kernel) ?_ (by decide) fun x hx h => schema_first hs hR error hx h.symm)
    unfold ProviderSqlite3Error.display headed
    same_text

theorem formatterError_speaks (hs : Serves L english) (hR : Reader L) (e : Errors.FormatterError D F) :
    Speaks L (e.localisation : LData D F) e.display ↔ e.Faithful := by
  cases e with
  | localiser error =>
    refine iff_true (speaks_foreign hs hR ?_)
    unfold FormatterError.display headed
    same_text
  | tree error =>
    refine iff_true (speaks_foreign hs hR ?_)
    unfold FormatterError.display headed
    same_text
  | locale error =>
    refine iff_true (speaks_foreign hs hR ?_)
    unfold FormatterError.display headed
    same_text
  | calendar error =>
    refine iff_true (speaks_foreign hs hR ?_)
    unfold FormatterError.display headed
    same_text
  | parseInt error =>
    refine iff_true (speaks_foreign hs hR ?_)
    unfold FormatterError.display headed
    same_text
  | decimal error =>
    refine iff_true (speaks_foreign hs hR ?_)
    unfold FormatterError.display headed
    same_text
  | dateTime error =>
    refine iff_true (speaks_foreign hs hR ?_)
    unfold FormatterError.display headed
    same_text
  | pluralRules error =>
    refine iff_true (speaks_foreign hs hR ?_)
    unfold FormatterError.display headed
    same_text
  | fixedDecimal error =>
    refine iff_true (speaks_foreign hs hR ?_)
    unfold FormatterError.display headed
    same_text
  | command error =>
    refine (speaks_embedded hs hR (text := error.display) (by decide +kernel) (by decide +kernel) ?_).trans (commandError_speaks hs hR error)
    unfold FormatterError.display headed
    same_text
  | invalidRoot =>
    refine iff_false (not_speaks_message hs hR (c := 'T') (r := "he tree root must be a ‘Root’ node.".toList)
      (by decide +kernel) (by decide +kernel) ?_ (by decide) (by
        intro x hx h
        rw [(text_invalid_root hs)] at hx
        rw [← Outcome.ok.inj hx] at h
        replace h := congrArg (fun l : Str => l.length) h
        simp only [String.reduceToList, List.length_cons, List.length_nil] at h
        omega))
    unfold FormatterError.display headed
    same_text
  | noGrammar =>
    refine iff_true (speaks_message hs hR (by decide +kernel) (by decide +kernel) (text_no_grammar hs) ?_)
    unfold FormatterError.display headed
    same_text
  | retrieveChildren nodeType =>
    refine iff_true (speaks_message hs hR (by decide +kernel) (by decide +kernel) (text_retrieve_children hs hR nodeType) ?_)
    unfold FormatterError.display headed
    same_text
  | nodeNotFound nodeType =>
    refine iff_true (speaks_message hs hR (by decide +kernel) (by decide +kernel) (text_node_not_found hs hR nodeType) ?_)
    unfold FormatterError.display headed
    same_text
  | firstChild nodeType =>
    refine iff_true (speaks_message hs hR (by decide +kernel) (by decide +kernel) (text_first_child hs hR nodeType) ?_)
    unfold FormatterError.display headed
    same_text
  | retrieveNodeData nodeType =>
    refine iff_true (speaks_message hs hR (by decide +kernel) (by decide +kernel) (text_retrieve_node_data hs hR nodeType) ?_)
    unfold FormatterError.display headed
    same_text
  | retrieveNodeToken nodeType =>
    refine iff_true (speaks_message hs hR (by decide +kernel) (by decide +kernel) (text_retrieve_node_token hs hR nodeType) ?_)
    unfold FormatterError.display headed
    same_text
  | lastChild nodeType =>
    refine iff_true (speaks_message hs hR (by decide +kernel) (by decide +kernel) (text_last_child hs hR nodeType) ?_)
    unfold FormatterError.display headed
    same_text
  | invalidNode nodeType =>
    refine iff_true (speaks_message hs hR (by decide +kernel) (by decide +kernel) (text_invalid_node hs hR nodeType) ?_)
    unfold FormatterError.display headed
    same_text
  | patternNamed identifier =>
    refine iff_true (speaks_message hs hR (by decide +kernel) (by decide +kernel) (text_pattern_named hs hR identifier) ?_)
    unfold FormatterError.display headed
    same_text
  | patternPart identifier index =>
    exact iff_false (not_speaks (formatterError_iff hs hR (.patternPart identifier index)).1)
  | invalidOptionValue value option keyword =>
    refine iff_true (speaks_message hs hR (by decide +kernel) (by decide +kernel) (text_invalid_option_value hs hR value option keyword) ?_)
    unfold FormatterError.display headed
    same_text
  | invalidKeyword keyword placeholder =>
    exact iff_false (not_speaks (formatterError_iff hs hR (.invalidKeyword keyword placeholder)).1)
  | selectorNamed named selector identifier =>
    refine iff_true (speaks_message hs hR (by decide +kernel) (by decide +kernel) (text_selector_named hs hR named selector identifier) ?_)
    unfold FormatterError.display headed
    same_text
  | selectorOther keyword placeholder =>
    exact iff_false (not_speaks (formatterError_iff hs hR (.selectorOther keyword placeholder)).1)
  | noChildren nodeType =>
    refine iff_true (speaks_message hs hR (by decide +kernel) (by decide +kernel) (text_no_children hs hR nodeType) ?_)
    unfold FormatterError.display headed
    same_text
  | invalidOption option keyword placeholder =>
    exact iff_false (not_speaks (formatterError_iff hs hR (.invalidOption option keyword placeholder)).1)
  | invalidSelector option keyword placeholder =>
    exact iff_false (not_speaks (formatterError_iff hs hR (.invalidSelector option keyword placeholder)).1)
  | numberSignString index =>
    exact iff_false (not_speaks (formatterError_iff hs hR (.numberSignString index)).1)
  | selectorsIndex index =>
    exact iff_false (not_speaks (formatterError_iff hs hR (.selectorsIndex index)).1)
  | selectorsIndexNamed identifier index =>
    exact iff_false (not_speaks (formatterError_iff hs hR (.selectorsIndexNamed identifier index)).1)
  | placeholderValue part placeholder =>
    refine iff_true (speaks_message hs hR (by decide +kernel) (by decide +kernel) (text_placeholder_value hs hR part placeholder) ?_)
    unfold FormatterError.display headed
    same_text
  | invalidValue part =>
    refine iff_true (speaks_message hs hR (by decide +kernel) (by decide +kernel) (text_invalid_value hs hR part) ?_)
    unfold FormatterError.display headed
    same_text
  | namedStringIdentifier identifier =>
    exact iff_false (not_speaks (formatterError_iff hs hR (.namedStringIdentifier identifier)).1)
  | noIcuProvider =>
    refine iff_false (not_speaks_message hs hR (c := 'B') (r := "uild error: At least one ICU4X data provider must be specified for the crate ‘i18n_icu’ using the crate's features.".toList)
      (by decide +kernel) (by decide +kernel) ?_ (by decide) (by
        intro x hx h
        rw [(text_no_icu_provider hs)] at hx
        rw [← Outcome.ok.inj hx] at h
        replace h := congrArg (fun l : Str => l.length) h
        simp only [String.reduceToList, List.length_cons, List.length_nil] at h
        omega))
    unfold FormatterError.display headed
    same_text
  | neverReached =>
    refine iff_true (speaks_message hs hR (by decide +kernel) (by decide +kernel) (text_never_reach hs) ?_)
    unfold FormatterError.display headed
    same_text

theorem localiserError_speaks (hs : Serves L english) (hR : Reader L) (e : Errors.LocaliserError D F) :
    Speaks L (e.localisation : LData D F) e.display ↔ e.Faithful (OK L) := by
  cases e with
  | registry error =>
    refine (speaks_embedded hs hR (text := error.display) (by decide +kernel) (by decide +kernel) ?_).trans (registryError_speaks hs hR error)
    unfold LocaliserError.display headed
    same_text
  | formatter error =>
    refine (speaks_embedded hs hR (text := error.display) (by decide +kernel) (by decide +kernel) ?_).trans (formatterError_speaks hs hR error)
    unfold LocaliserError.display headed
    same_text
  | provider error =>
    refine (speaks_embedded hs hR (text := error.display) (by decide +kernel) (by decide +kernel) ?_).trans (providerError_speaks hs hR error)
    unfold LocaliserError.display headed
    same_text
  | stringNotFound component identifier languageTag fallback =>
    refine iff_true (speaks_message hs hR (by decide +kernel) (by decide +kernel)
      (stringNotFound_text hs hR component identifier languageTag fallback) ?_)
    unfold LocaliserError.display headed flagDisplay
    same_text
  | cacheEntry component identifier =>
    refine iff_false (not_speaks_message hs hR (c := 'U') (r := "nable to get the string for the component ‘".toList ++ component ++ "’ with the identifier\n                ‘".toList ++ identifier ++ "’ as the cache entry requires values for formatting.".toList)
      (by decide +kernel) (by decide +kernel) ?_ (by decide) (by
        intro x hx h
        rw [(text_cache_entry hs hR component identifier)] at hx
        rw [← Outcome.ok.inj hx] at h
        replace h := congrArg (fun l : Str => l.length) h
        simp only [List.length_append, String.reduceToList, List.length_cons, List.length_nil] at h
        omega))
    unfold LocaliserError.display headed
    same_text
  | neverReached =>
    refine iff_true (speaks_message hs hR (by decide +kernel) (by decide +kernel) (text_never_reach hs) ?_)
    unfold LocaliserError.display headed
    same_text

/-! ### Type and variant -/

/-- Data with type and variant. -/
def Shaped (d : LData D F) : Prop := (∃ t v m, d = enumFormat t v m) ∨ (∃ t v s, d = embedded t v (.string s)) ∨
    ∃ t v, ∃ e : LData D F, d = embedded t v e.value

theorem registryError_shaped (e : Errors.RegistryError) : Shaped (e.localisation : LData D F) := by
  cases e with
  | languageIdentifier error => exact .inr (.inl ⟨_, _, _, rfl⟩)
  | locale error => exact .inr (.inl ⟨_, _, _, rfl⟩)

theorem lexerError_shaped (e : Errors.LexerError) : Shaped (e.localisation : LData D F) := by
  cases e with
  | noGrammar => exact .inl ⟨_, _, _, rfl⟩
  | emptyString => exact .inl ⟨_, _, _, rfl⟩

theorem icuError_shaped (e : Errors.IcuError) : Shaped (e.localisation : LData D F) := by
  cases e with
  | properties error => exact .inr (.inl ⟨_, _, _, rfl⟩)
  | segmenter error => exact .inr (.inl ⟨_, _, _, rfl⟩)
  | data error => exact .inr (.inl ⟨_, _, _, rfl⟩)
  | grapheme => exact .inl ⟨_, _, _, rfl⟩
  | «syntax» => exact .inl ⟨_, _, _, rfl⟩
  | whiteSpace => exact .inl ⟨_, _, _, rfl⟩

theorem treeError_shaped (e : Errors.TreeError) : Shaped (e.localisation : LData D F) := by
  cases e with
  | lexer error => exact .inr (.inr ⟨_, _, _, rfl⟩)
  | endedAbruptly => exact .inl ⟨_, _, _, rfl⟩
  | invalidToken state position token => exact .inl ⟨_, _, _, rfl⟩
  | uniquePattern identifier => exact .inl ⟨_, _, _, rfl⟩
  | multiNumberSign position => exact .inl ⟨_, _, _, rfl⟩
  | uniqueNamed identifier => exact .inl ⟨_, _, _, rfl⟩

theorem commandError_shaped (e : Errors.CommandError D F) : Shaped (e.localisation : LData D F) := by
  cases e with
  | custom error => exact .inr (.inr ⟨_, _, _, rfl⟩)
  | alreadyExists command => exact .inl ⟨_, _, _, rfl⟩
  | notFound command => exact .inl ⟨_, _, _, rfl⟩
  | parameterMissing command index => exact .inl ⟨_, _, _, rfl⟩
  | invalidType command index => exact .inl ⟨_, _, _, rfl⟩

theorem providerError_shaped (e : Errors.ProviderError D F) : Shaped (e.localisation : LData D F) := by
  cases e with
  | componentNotFound component => exact .inl ⟨_, _, _, rfl⟩
  | languageTagRegistry error => exact .inr (.inr ⟨_, _, _, rfl⟩)
  | defaultLanguage component => exact .inl ⟨_, _, _, rfl⟩
  | invalidDefaultLanguage component => exact .inl ⟨_, _, _, rfl⟩
  | defaultLanguageCount component language => exact .inl ⟨_, _, _, rfl⟩
  | custom error => exact .inr (.inr ⟨_, _, _, rfl⟩)

theorem providerSqlite3Error_shaped (e : Errors.ProviderSqlite3Error) : Shaped (e.localisation : LData D F) := by
  cases e with
  | io error => exact .inr (.inl ⟨_, _, _, rfl⟩)
  | sqlite3 error => exact .inr (.inl ⟨_, _, _, rfl⟩)
  | notDirectory path => exact .inl ⟨_, _, _, rfl⟩
  | noSqlite3Files path => exact .inl ⟨_, _, _, rfl⟩
  | pathConversion => exact .inl ⟨_, _, _, rfl⟩
  | notExists path => exact .inl ⟨_, _, _, rfl⟩
  | schemaInvalid error => exact .inl ⟨_, _, _, rfl⟩

theorem formatterError_shaped (e : Errors.FormatterError D F) : Shaped (e.localisation : LData D F) := by
  cases e with
  | localiser error => exact .inr (.inl ⟨_, _, _, rfl⟩)
  | tree error => exact .inr (.inl ⟨_, _, _, rfl⟩)
  | locale error => exact .inr (.inl ⟨_, _, _, rfl⟩)
  | calendar error => exact .inr (.inl ⟨_, _, _, rfl⟩)
  | parseInt error => exact .inr (.inl ⟨_, _, _, rfl⟩)
  | decimal error => exact .inr (.inl ⟨_, _, _, rfl⟩)
  | dateTime error => exact .inr (.inl ⟨_, _, _, rfl⟩)
  | pluralRules error => exact .inr (.inl ⟨_, _, _, rfl⟩)
  | fixedDecimal error => exact .inr (.inl ⟨_, _, _, rfl⟩)
  | command error => exact .inr (.inr ⟨_, _, _, rfl⟩)
  | invalidRoot => exact .inl ⟨_, _, _, rfl⟩
  | noGrammar => exact .inl ⟨_, _, _, rfl⟩
  | retrieveChildren nodeType => exact .inl ⟨_, _, _, rfl⟩
  | nodeNotFound nodeType => exact .inl ⟨_, _, _, rfl⟩
  | firstChild nodeType => exact .inl ⟨_, _, _, rfl⟩
  | retrieveNodeData nodeType => exact .inl ⟨_, _, _, rfl⟩
  | retrieveNodeToken nodeType => exact .inl ⟨_, _, _, rfl⟩
  | lastChild nodeType => exact .inl ⟨_, _, _, rfl⟩
  | invalidNode nodeType => exact .inl ⟨_, _, _, rfl⟩
  | patternNamed identifier => exact .inl ⟨_, _, _, rfl⟩
  | patternPart identifier index => exact .inl ⟨_, _, _, rfl⟩
  | invalidOptionValue value option keyword => exact .inl ⟨_, _, _, rfl⟩
  | invalidKeyword keyword placeholder => exact .inl ⟨_, _, _, rfl⟩
  | selectorNamed named selector identifier => exact .inl ⟨_, _, _, rfl⟩
  | selectorOther keyword placeholder => exact .inl ⟨_, _, _, rfl⟩
  | noChildren nodeType => exact .inl ⟨_, _, _, rfl⟩
  | invalidOption option keyword placeholder => exact .inl ⟨_, _, _, rfl⟩
  | invalidSelector option keyword placeholder => exact .inl ⟨_, _, _, rfl⟩
  | numberSignString index => exact .inl ⟨_, _, _, rfl⟩
  | selectorsIndex index => exact .inl ⟨_, _, _, rfl⟩
  | selectorsIndexNamed identifier index => exact .inl ⟨_, _, _, rfl⟩
  | placeholderValue part placeholder => exact .inl ⟨_, _, _, rfl⟩
  | invalidValue part => exact .inl ⟨_, _, _, rfl⟩
  | namedStringIdentifier identifier => exact .inl ⟨_, _, _, rfl⟩
  | noIcuProvider => exact .inl ⟨_, _, _, rfl⟩
  | neverReached => exact .inl ⟨_, _, _, rfl⟩

theorem localiserError_shaped (e : Errors.LocaliserError D F) : Shaped (e.localisation : LData D F) := by
  cases e with
  | registry error => exact .inr (.inr ⟨_, _, _, rfl⟩)
  | formatter error => exact .inr (.inr ⟨_, _, _, rfl⟩)
  | provider error => exact .inr (.inr ⟨_, _, _, rfl⟩)
  | stringNotFound component identifier languageTag fallback => exact .inl ⟨_, _, _, rfl⟩
  | cacheEntry component identifier => exact .inl ⟨_, _, _, rfl⟩
  | neverReached => exact .inl ⟨_, _, _, rfl⟩

theorem anyError_speaks (hs : Serves L english) (hR : Reader L) (e : AnyError D F) :
    Speaks L e.localisation e.display ↔ e.Faithful (OK L) := by
  cases e with
  | registry e => exact registryError_speaks hs hR e
  | lexer e => exact lexerError_speaks hs hR e
  | icu e => exact icuError_speaks hs hR e
  | tree e => exact treeError_speaks hs hR e
  | command e => exact commandError_speaks hs hR e
  | provider e => exact providerError_speaks hs hR e
  | schema e => exact schemaError_speaks hs hR e
  | sqlite3 e => exact providerSqlite3Error_speaks hs hR e
  | formatter e => exact formatterError_speaks hs hR e
  | localiser e => exact localiserError_speaks hs hR e

end Verif.ErrorLemmas
