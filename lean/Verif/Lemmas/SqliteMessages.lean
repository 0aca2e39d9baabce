import Verif.Lemmas.Messages
/-
Helper lemmas: reading the messages of the provider for Sqlite3.
-/
namespace Verif.MessageLemmas
open Verif Verif.Spec Verif.Errors

/-- Two messages that begin with texts of a list in which none begins with another. -/
theorem prefix_heads {heads : List Str}
    (hn : (List.range heads.length).all (fun i => (List.range heads.length).all fun j =>
      i == j || !((heads.getD i []).isPrefixOf (heads.getD j []))) = true) {i j : Nat} {s : Str}
    (hi : ∃ h, heads[i]? = some h ∧ h <+: s) (hj : ∃ h, heads[j]? = some h ∧ h <+: s) : i = j := by
  obtain ⟨h, h1, h2⟩ := hi
  obtain ⟨h', h1', h2'⟩ := hj
  have hli := (List.getElem?_eq_some_iff.1 h1).1
  have hlj := (List.getElem?_eq_some_iff.1 h1').1
  have hall : ∀ i j, i < heads.length → j < heads.length → i = j ∨ ¬ (heads.getD i [] <+: heads.getD j []) := by
    intro i j hi hj
    have := List.all_eq_true.1 (List.all_eq_true.1 hn i (List.mem_range.2 hi)) j (List.mem_range.2 hj)
    rcases Bool.or_eq_true_iff.1 this with h | h
    · exact .inl (beq_iff_eq.1 h)
    · refine .inr fun hp => ?_
      rw [List.isPrefixOf_iff_prefix.2 hp] at h
      cases h
  have e1 : heads.getD i [] = h := by rw [List.getD_eq_getElem?_getD, h1]; rfl
  have e2 : heads.getD j [] = h' := by rw [List.getD_eq_getElem?_getD, h1']; rfl
  rcases Nat.le_total h.length h'.length with hl | hl
  · rcases hall i j hli hlj with h | hc
    · exact h
    · rw [e1, e2] at hc
      exact (hc (List.prefix_of_prefix_length_le h2 h2' hl)).elim
  · rcases hall j i hlj hli with h | hc
    · exact h.symm
    · rw [e1, e2] at hc
      exact (hc (List.prefix_of_prefix_length_le h2' h2 hl)).elim

/-- The rest after two texts is not the same. -/
theorem property_default {a p x x' y y' z z' b b' : Str} (hp : p.head? = some '’') (hx : NoQuote x) (hx' : NoQuote x')
    (hy : NoQuote y) (hy' : NoQuote y')
    (h : a ++ x ++ p ++ y ++ "’ is missing property ‘".toList ++ z ++ b =
      a ++ x' ++ p ++ y' ++ "’ must have a default value of ‘".toList ++ z' ++ b') : False := by
  simp only [List.append_assoc, List.append_cancel_left_eq] at h
  obtain ⟨_, h⟩ := part_inj hp hx hx' h
  have e1 : "’ is missing property ‘".toList = "’ ".toList ++ "is missing property ‘".toList := by decide +kernel
  have e2 : "’ must have a default value of ‘".toList = "’ ".toList ++ "must have a default value of ‘".toList := by decide +kernel
  rw [e1, e2, List.append_assoc, List.append_assoc] at h
  obtain ⟨_, h⟩ := part_inj (c := '’') (by decide +kernel) hy hy' h
  have h := congrArg (List.take 1) h
  have h : "i".toList = "m".toList := h
  exact absurd h (by decide +kernel)

/-- The number of the text with which the message begins. -/
def schemaClass : SchemaError → Nat
  | .sqlite3 _ => 0
  | .missingTable _ => 1
  | .version _ _ => 2
  | .missingVersion _ => 3
  | .missingColumn _ _ => 4
  | .columnProperty _ _ _ => 5
  | .columnDefault _ _ _ => 5
  | .columnMismatch _ _ => 6

/-- The same. -/
def sqliteClass : ProviderSqlite3Error → Nat
  | .io _ => 0
  | .sqlite3 _ => 1
  | .notDirectory _ => 2
  | .noSqlite3Files _ => 3
  | .pathConversion => 4
  | .notExists _ => 5
  | .schemaInvalid _ => 6

def schemaHeads : List Str :=
  ["SchemaError::Sqlite3: [".toList,
   "The database is missing table ‘".toList,
   "SchemaError::Version: The Sqlite3 file ‘".toList,
   "SchemaError::MissingVersion: The Sqlite3 file ‘".toList,
   "The table ‘".toList,
   "The column ‘".toList,
   "Check `verify_schema()` as default value type does not match column type for the column ‘".toList]

theorem schema_head (e : SchemaError) : ∃ h, schemaHeads[schemaClass e]? = some h ∧ h <+: e.display := by
  cases e with
  | sqlite3 error =>
    refine ⟨"SchemaError::Sqlite3: [".toList, rfl, ?_⟩
    show _ <+: "SchemaError::Sqlite3: [".toList ++ error ++ "].".toList
    rw [List.append_assoc]
    exact List.prefix_append _ _
  | missingTable name =>
    refine ⟨"The database is missing table ‘".toList, rfl, ?_⟩
    show _ <+: "The database is missing table ‘".toList ++ name ++ "’.".toList
    rw [List.append_assoc]
    exact List.prefix_append _ _
  | version path required =>
    refine ⟨"SchemaError::Version: The Sqlite3 file ‘".toList, rfl, ?_⟩
    show _ <+: "SchemaError::Version: The Sqlite3 file ‘".toList ++ path ++ "’ is using unsupported schema version. The schema version must be ‘".toList ++ required ++ "’.".toList
    rw [List.append_assoc, List.append_assoc, List.append_assoc]
    exact List.prefix_append _ _
  | missingVersion path =>
    refine ⟨"SchemaError::MissingVersion: The Sqlite3 file ‘".toList, rfl, ?_⟩
    show _ <+: "SchemaError::MissingVersion: The Sqlite3 file ‘".toList ++ path ++ "’ is missing the schema version entry in the ‘metadata’ table.".toList
    rw [List.append_assoc]
    exact List.prefix_append _ _
  | missingColumn table column =>
    refine ⟨"The table ‘".toList, rfl, ?_⟩
    show _ <+: "The table ‘".toList ++ table ++ "’ is missing column ‘".toList ++ column ++ "’.".toList
    rw [List.append_assoc, List.append_assoc, List.append_assoc]
    exact List.prefix_append _ _
  | columnProperty table column property =>
    refine ⟨"The column ‘".toList, rfl, ?_⟩
    show _ <+: "The column ‘".toList ++ column ++ "’ of table ‘".toList ++ table ++ "’ is missing property ‘".toList ++ property ++ "’.".toList
    rw [List.append_assoc, List.append_assoc, List.append_assoc, List.append_assoc, List.append_assoc]
    exact List.prefix_append _ _
  | columnDefault table column default =>
    refine ⟨"The column ‘".toList, rfl, ?_⟩
    show _ <+: "The column ‘".toList ++ column ++ "’ of table ‘".toList ++ table ++ "’ must have a default value of ‘".toList ++ default ++ "’.".toList
    rw [List.append_assoc, List.append_assoc, List.append_assoc, List.append_assoc, List.append_assoc]
    exact List.prefix_append _ _
  | columnMismatch table column =>
    refine ⟨"Check `verify_schema()` as default value type does not match column type for the column ‘".toList, rfl, ?_⟩
    show _ <+: "Check `verify_schema()` as default value type does not match column type for the column ‘".toList ++ table ++ "’ of table ‘".toList ++ column ++ "’.".toList
    rw [List.append_assoc, List.append_assoc, List.append_assoc]
    exact List.prefix_append _ _

theorem schema_class {e e' : SchemaError} (h : e.display = e'.display) : schemaClass e = schemaClass e' :=
  prefix_heads (heads := schemaHeads) (by decide +kernel) (schema_head e) (by rw [h]; exact schema_head e')

theorem schema_display {e e' : SchemaError} (he : QuotedSchema e) (he' : QuotedSchema e') (h : e.display = e'.display) :
    e = e' := by
  have hi := schema_class h
  cases e with
  | sqlite3 error => cases e' with
    | sqlite3 error' =>
      have h : "SchemaError::Sqlite3: [".toList ++ error ++ "].".toList =
        "SchemaError::Sqlite3: [".toList ++ error' ++ "].".toList := h
      rw [between h]
    | _ => cases hi
  | missingTable name => cases e' with
    | missingTable name' =>
      have h : "The database is missing table ‘".toList ++ name ++ "’.".toList =
        "The database is missing table ‘".toList ++ name' ++ "’.".toList := h
      rw [between h]
    | _ => cases hi
  | version path required => cases e' with
    | version path' required' =>
      have h : "SchemaError::Version: The Sqlite3 file ‘".toList ++ path ++ "’ is using unsupported schema version. The schema version must be ‘".toList ++ required ++ "’.".toList =
        "SchemaError::Version: The Sqlite3 file ‘".toList ++ path' ++ "’ is using unsupported schema version. The schema version must be ‘".toList ++ required' ++ "’.".toList := h
      obtain ⟨h1, h2⟩ := two_texts (p := "’ is using unsupported schema version. The schema version must be ‘".toList) (by decide +kernel) he he' h
      rw [h1, h2]
    | _ => cases hi
  | missingVersion path => cases e' with
    | missingVersion path' =>
      have h : "SchemaError::MissingVersion: The Sqlite3 file ‘".toList ++ path ++ "’ is missing the schema version entry in the ‘metadata’ table.".toList =
        "SchemaError::MissingVersion: The Sqlite3 file ‘".toList ++ path' ++ "’ is missing the schema version entry in the ‘metadata’ table.".toList := h
      rw [between h]
    | _ => cases hi
  | missingColumn table column => cases e' with
    | missingColumn table' column' =>
      have h : "The table ‘".toList ++ table ++ "’ is missing column ‘".toList ++ column ++ "’.".toList =
        "The table ‘".toList ++ table' ++ "’ is missing column ‘".toList ++ column' ++ "’.".toList := h
      obtain ⟨h1, h2⟩ := two_texts (p := "’ is missing column ‘".toList) (by decide +kernel) he he' h
      rw [h1, h2]
    | _ => cases hi
  | columnProperty table column property => cases e' with
    | columnProperty table' column' property' =>
      have h : "The column ‘".toList ++ column ++ "’ of table ‘".toList ++ table ++ "’ is missing property ‘".toList ++ property ++ "’.".toList =
        "The column ‘".toList ++ column' ++ "’ of table ‘".toList ++ table' ++ "’ is missing property ‘".toList ++ property' ++ "’.".toList := h
      obtain ⟨h1, h2, h3⟩ := three_texts (by decide +kernel) (by decide +kernel) he.2 he'.2 he.1 he'.1 h
      rw [h1, h2, h3]
    | columnDefault table' column' default' =>
      have h : "The column ‘".toList ++ column ++ "’ of table ‘".toList ++ table ++ "’ is missing property ‘".toList ++ property ++ "’.".toList =
        "The column ‘".toList ++ column' ++ "’ of table ‘".toList ++ table' ++ "’ must have a default value of ‘".toList ++ default' ++ "’.".toList := h
      exact (property_default (p := "’ of table ‘".toList) (by decide +kernel) he.2 he'.2 he.1 he'.1 h).elim
    | _ => cases hi
  | columnDefault table column default => cases e' with
    | columnDefault table' column' default' =>
      have h : "The column ‘".toList ++ column ++ "’ of table ‘".toList ++ table ++ "’ must have a default value of ‘".toList ++ default ++ "’.".toList =
        "The column ‘".toList ++ column' ++ "’ of table ‘".toList ++ table' ++ "’ must have a default value of ‘".toList ++ default' ++ "’.".toList := h
      obtain ⟨h1, h2, h3⟩ := three_texts (by decide +kernel) (by decide +kernel) he.2 he'.2 he.1 he'.1 h
      rw [h1, h2, h3]
    | columnProperty table' column' property' =>
      have h : "The column ‘".toList ++ column ++ "’ of table ‘".toList ++ table ++ "’ must have a default value of ‘".toList ++ default ++ "’.".toList =
        "The column ‘".toList ++ column' ++ "’ of table ‘".toList ++ table' ++ "’ is missing property ‘".toList ++ property' ++ "’.".toList := h
      exact (property_default (p := "’ of table ‘".toList) (by decide +kernel) he'.2 he.2 he'.1 he.1 h.symm).elim
    | _ => cases hi
  | columnMismatch table column => cases e' with
    | columnMismatch table' column' =>
      have h : "Check `verify_schema()` as default value type does not match column type for the column ‘".toList ++ table ++ "’ of table ‘".toList ++ column ++ "’.".toList =
        "Check `verify_schema()` as default value type does not match column type for the column ‘".toList ++ table' ++ "’ of table ‘".toList ++ column' ++ "’.".toList := h
      obtain ⟨h1, h2⟩ := two_texts (p := "’ of table ‘".toList) (by decide +kernel) he he' h
      rw [h1, h2]
    | _ => cases hi

def sqliteHeads : List Str :=
  ["ProviderSqlite3Error::Io: [".toList,
   "ProviderSqlite3Error::Sqlite3: [".toList,
   "ProviderSqlite3Error::NotDirectory: Provided path ‘".toList,
   "ProviderSqlite3Error::NoSqlite3Files: No ‘.sqlite3’ files was found in ‘".toList,
   "ProviderSqlite3Error::PathConversion: Conversion to PathBuf error.".toList,
   "ProviderSqlite3Error::NotExists: Provided path ‘".toList,
   "ProviderSqlite3Error::SchemaInvalid: [".toList]

theorem sqlite_head (e : ProviderSqlite3Error) : ∃ h, sqliteHeads[sqliteClass e]? = some h ∧ h <+: e.display := by
  cases e with
  | io error =>
    refine ⟨"ProviderSqlite3Error::Io: [".toList, rfl, ?_⟩
    show _ <+: "ProviderSqlite3Error::Io: [".toList ++ error ++ "].".toList
    rw [List.append_assoc]
    exact List.prefix_append _ _
  | sqlite3 error =>
    refine ⟨"ProviderSqlite3Error::Sqlite3: [".toList, rfl, ?_⟩
    show _ <+: "ProviderSqlite3Error::Sqlite3: [".toList ++ error ++ "].".toList
    rw [List.append_assoc]
    exact List.prefix_append _ _
  | notDirectory path =>
    refine ⟨"ProviderSqlite3Error::NotDirectory: Provided path ‘".toList, rfl, ?_⟩
    show _ <+: "ProviderSqlite3Error::NotDirectory: Provided path ‘".toList ++ path ++ "’ is not a directory.".toList
    rw [List.append_assoc]
    exact List.prefix_append _ _
  | noSqlite3Files path =>
    refine ⟨"ProviderSqlite3Error::NoSqlite3Files: No ‘.sqlite3’ files was found in ‘".toList, rfl, ?_⟩
    show _ <+: "ProviderSqlite3Error::NoSqlite3Files: No ‘.sqlite3’ files was found in ‘".toList ++ path ++ "’.".toList
    rw [List.append_assoc]
    exact List.prefix_append _ _
  | pathConversion => exact ⟨_, rfl, List.prefix_rfl⟩
  | notExists path =>
    refine ⟨"ProviderSqlite3Error::NotExists: Provided path ‘".toList, rfl, ?_⟩
    show _ <+: "ProviderSqlite3Error::NotExists: Provided path ‘".toList ++ path ++ "’ does not exist.".toList
    rw [List.append_assoc]
    exact List.prefix_append _ _
  | schemaInvalid error =>
    refine ⟨"ProviderSqlite3Error::SchemaInvalid: [".toList, rfl, ?_⟩
    show _ <+: "ProviderSqlite3Error::SchemaInvalid: [".toList ++ error.display ++ "].".toList
    rw [List.append_assoc]
    exact List.prefix_append _ _

theorem sqlite_class {e e' : ProviderSqlite3Error} (h : e.display = e'.display) : sqliteClass e = sqliteClass e' :=
  prefix_heads (heads := sqliteHeads) (by decide +kernel) (sqlite_head e) (by rw [h]; exact sqlite_head e')

theorem sqlite_display {e e' : ProviderSqlite3Error} (he : QuotedSqlite e) (he' : QuotedSqlite e') (h : e.display = e'.display) :
    e = e' := by
  have hi := sqlite_class h
  cases e with
  | io error => cases e' with
    | io error' =>
      have h : "ProviderSqlite3Error::Io: [".toList ++ error ++ "].".toList =
        "ProviderSqlite3Error::Io: [".toList ++ error' ++ "].".toList := h
      rw [between h]
    | _ => cases hi
  | sqlite3 error => cases e' with
    | sqlite3 error' =>
      have h : "ProviderSqlite3Error::Sqlite3: [".toList ++ error ++ "].".toList =
        "ProviderSqlite3Error::Sqlite3: [".toList ++ error' ++ "].".toList := h
      rw [between h]
    | _ => cases hi
  | notDirectory path => cases e' with
    | notDirectory path' =>
      have h : "ProviderSqlite3Error::NotDirectory: Provided path ‘".toList ++ path ++ "’ is not a directory.".toList =
        "ProviderSqlite3Error::NotDirectory: Provided path ‘".toList ++ path' ++ "’ is not a directory.".toList := h
      rw [between h]
    | _ => cases hi
  | noSqlite3Files path => cases e' with
    | noSqlite3Files path' =>
      have h : "ProviderSqlite3Error::NoSqlite3Files: No ‘.sqlite3’ files was found in ‘".toList ++ path ++ "’.".toList =
        "ProviderSqlite3Error::NoSqlite3Files: No ‘.sqlite3’ files was found in ‘".toList ++ path' ++ "’.".toList := h
      rw [between h]
    | _ => cases hi
  | pathConversion => cases e' with
    | pathConversion => rfl
    | _ => cases hi
  | notExists path => cases e' with
    | notExists path' =>
      have h : "ProviderSqlite3Error::NotExists: Provided path ‘".toList ++ path ++ "’ does not exist.".toList =
        "ProviderSqlite3Error::NotExists: Provided path ‘".toList ++ path' ++ "’ does not exist.".toList := h
      rw [between h]
    | _ => cases hi
  | schemaInvalid error => cases e' with
    | schemaInvalid error' =>
      have h : "ProviderSqlite3Error::SchemaInvalid: [".toList ++ error.display ++ "].".toList =
        "ProviderSqlite3Error::SchemaInvalid: [".toList ++ error'.display ++ "].".toList := h
      rw [schema_display he he' (between h)]
    | _ => cases hi

end Verif.MessageLemmas
