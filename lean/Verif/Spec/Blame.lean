import Verif.Spec.Format
/-
Which error a pattern string or its values deserve: independent of the formatter, over the syntax (`Doc`) and its meaning.
-/
namespace Verif.Spec
open Verif

variable {D F : Type}

/-! ### Values -/

/-- What is said of an ISO date or time that cannot be read. -/
def isoBlame : IsoError → FormatterError
  | .parseInt => .parseInt
  | .calendar => .calendar

/-- The value is no number: it is a floating point number without decimal, or not of a type of numbers. -/
inductive NumberError (X : Icu4x D F) (what : Str) : PValue D F → FormatterError → Prop
  | float (x : F) (e : FormatterError) : X.ofFloat x = .error e → NumberError X what (.float x) e
  | other (v : PValue D F) : numberOf X v = none → (∀ x, v ≠ .float x) → NumberError X what v (.invalidValue what)

/-- ICU cannot show the date, time or both. -/
inductive ShowError (X : Icu4x D F) (lang : Str) : Option IsoDate → Option IsoTime → FormatterError → Prop
  | noDateTime (d t e) : X.dateTime lang .medium .medium = .error e → ShowError X lang (some d) (some t) e
  | dateTime (d t f e) : X.dateTime lang .medium .medium = .ok f → f d t = .error e → ShowError X lang (some d) (some t) e
  | noDate (d e) : X.date lang .medium = .error e → ShowError X lang (some d) none e
  | date (d f e) : X.date lang .medium = .ok f → f d = .error e → ShowError X lang (some d) none e
  | noTime (t e) : X.time lang .medium = .error e → ShowError X lang none (some t) e

/-- The value is no date or time, or cannot be shown. -/
inductive MomentError (X : Icu4x D F) (lang : Str) : PValue D F → FormatterError → Prop
  | both (d t e) : ShowError X lang (some d) (some t) e → MomentError X lang (.dateTime d t) e
  | date (d e) : ShowError X lang (some d) none e → MomentError X lang (.date d) e
  | time (t e) : ShowError X lang none (some t) e → MomentError X lang (.time t) e
  /-- `T` and a time that cannot be read -/
  | isoTime (s i) : s.count 'T' = 1 → s.takeWhile (· ≠ 'T') = [] → decomposeIsoTime (s.drop 1) = .error i →
      MomentError X lang (.string s) (isoBlame i)
  | isoTimeShow (s t e) : s.count 'T' = 1 → s.takeWhile (· ≠ 'T') = [] → decomposeIsoTime (s.drop 1) = .ok t →
      ShowError X lang none (some t) e → MomentError X lang (.string s) e
  /-- a date that cannot be read -/
  | isoDate (s i) : (s.count 'T' = 1 → s.takeWhile (· ≠ 'T') ≠ []) →
      decomposeIsoDate X.validDate (s.takeWhile (· ≠ 'T')) = .error i → MomentError X lang (.string s) (isoBlame i)
  | isoDateShow (s d e) : s.count 'T' ≠ 1 → decomposeIsoDate X.validDate (s.takeWhile (· ≠ 'T')) = .ok d →
      ShowError X lang (some d) none e → MomentError X lang (.string s) e
  /-- a date, `T` and a time that cannot be read -/
  | isoBoth (s d i) : s.count 'T' = 1 → s.takeWhile (· ≠ 'T') ≠ [] →
      decomposeIsoDate X.validDate (s.takeWhile (· ≠ 'T')) = .ok d →
      decomposeIsoTime (s.drop ((s.takeWhile (· ≠ 'T')).length + 1)) = .error i → MomentError X lang (.string s) (isoBlame i)
  | isoBothShow (s d t e) : s.count 'T' = 1 → s.takeWhile (· ≠ 'T') ≠ [] →
      decomposeIsoDate X.validDate (s.takeWhile (· ≠ 'T')) = .ok d →
      decomposeIsoTime (s.drop ((s.takeWhile (· ≠ 'T')).length + 1)) = .ok t → ShowError X lang (some d) (some t) e →
      MomentError X lang (.string s) e
  | other (v) : (∀ d t, v ≠ .dateTime d t) → (∀ d, v ≠ .date d) → (∀ t, v ≠ .time t) → (∀ s, v ≠ .string s) →
      MomentError X lang v (.invalidValue "PatternDateTime".toList)

/-! ### Formatting -/

/-- What a pattern with this keyword is called in errors about its placeholder. -/
def kindName : Option (Leaf × List (Leaf × Leaf)) → Str
  | none => "PatternString".toList
  | some (k, _) =>
    if k.str = "decimal".toList then "PatternDecimal".toList
    else if k.str = "date_time".toList then "PatternDateTime".toList
    else "PatternComplex".toList

/-- The rules of the plural or ordinal keyword. -/
def rulesOf (X : Icu4x D F) (lang : Str) (k : Leaf) : Except FormatterError (D → PluralCategory) :=
  if k.str = "ordinal".toList then X.ordinal lang else X.cardinal lang

/-- The number that the plural or ordinal keyword uses. -/
def countOf (X : Icu4x D F) (k : Leaf) (v : PValue D F) : Option D :=
  if k.str = "ordinal".toList then ordinalOf X v else numberOf X v

/-- A plural or ordinal keyword. -/
def Counts (k : Leaf) : Prop := k.str = "ordinal".toList ∨ k.str = "plural".toList

/-- The item itself is to blame, with error `e`. -/
inductive Direct (E : FmtEnv D F) (lang : Str) (values : AMap Str (PValue D F)) : Item → FormatterError → Prop
  | missing (id k) : values.get id.str = none → Direct E lang values (.pat id k) (.placeholderValue (kindName k) id.str)
  | noText (id v) : values.get id.str = some v → textOf v = none →
      Direct E lang values (.pat id none) (.invalidValue "PatternString".toList)
  | noDecimals (id k sels v e) : k.str = "decimal".toList → values.get id.str = some v →
      E.icu4x.decimal lang none = .error e → Direct E lang values (.pat id (some (k, sels))) e
  | noNumber (id k sels v f e) : k.str = "decimal".toList → values.get id.str = some v →
      E.icu4x.decimal lang none = .ok f → NumberError E.icu4x "PatternDecimal".toList v e →
      Direct E lang values (.pat id (some (k, sels))) e
  | noMoment (id k sels v e) : k.str = "date_time".toList → values.get id.str = some v → MomentError E.icu4x lang v e →
      Direct E lang values (.pat id (some (k, sels))) e
  | noRules (id k sels v e) : Counts k → values.get id.str = some v → rulesOf E.icu4x lang k = .error e →
      Direct E lang values (.pat id (some (k, sels))) e
  | noCount (id k sels v r e) : k.str = "plural".toList → values.get id.str = some v → rulesOf E.icu4x lang k = .ok r →
      NumberError E.icu4x "PatternPlural".toList v e → Direct E lang values (.pat id (some (k, sels))) e
  | noOrdinal (id k sels v r) : k.str = "ordinal".toList → values.get id.str = some v → rulesOf E.icu4x lang k = .ok r →
      ordinalOf E.icu4x v = none → Direct E lang values (.pat id (some (k, sels))) (.invalidValue "PatternOrdinal".toList)
  | noDigits (id k sels v r n e) : Counts k → values.get id.str = some v → rulesOf E.icu4x lang k = .ok r →
      countOf E.icu4x k v = some n → E.icu4x.decimal lang none = .error e → Direct E lang values (.pat id (some (k, sels))) e
  | category (id k sels v r n f i) : Counts k → values.get id.str = some v → rulesOf E.icu4x lang k = .ok r →
      countOf E.icu4x k v = some n → E.icu4x.decimal lang none = .ok f →
      categoryName (r n) ∉ sels.map (fun s => s.1.str) →
      Direct E lang values (.pat id (some (k, sels))) (.selectorsIndexNamed (categoryName (r n)) i)
  | noChoice (id k sels v) : k.str = "select".toList → values.get id.str = some v → textOf v = none →
      Direct E lang values (.pat id (some (k, sels))) (.invalidValue "PatternSelect".toList)
  | choice (id k sels v s i) : k.str = "select".toList → values.get id.str = some v → textOf v = some s →
      s ∉ sels.map (fun s => s.1.str) → Direct E lang values (.pat id (some (k, sels))) (.selectorsIndexNamed s i)
  | noCommand (n h ps) : E.commands.get n.str = none →
      Direct E lang values (.cmd (.ident n :: .hash h :: ps)) (.command (.notFound n.str))
  | command (n h ps f c) : E.commands.get n.str = some f →
      f (.string n.str :: ps.map fun p => argument values p.str) = .err c →
      Direct E lang values (.cmd (.ident n :: .hash h :: ps)) (.command c)

/-- The item shows the named string called `name`. -/
inductive Picks (E : FmtEnv D F) (lang : Str) (values : AMap Str (PValue D F)) : Item → Str → Prop
  | count (id k sels v r n f) : Counts k → values.get id.str = some v → rulesOf E.icu4x lang k = .ok r →
      countOf E.icu4x k v = some n → E.icu4x.decimal lang none = .ok f →
      categoryName (r n) ∈ sels.map (fun s => s.1.str) → Picks E lang values (.pat id (some (k, sels))) (categoryName (r n))
  | choice (id k sels v s) : k.str = "select".toList → values.get id.str = some v → textOf v = some s →
      s ∈ sels.map (fun s => s.1.str) → Picks E lang values (.pat id (some (k, sels))) s

/-- The item has a text. -/
def HasText (E : FmtEnv D F) (lang : Str) (values : AMap Str (PValue D F)) (before : List Named) (self : Str) (it : Item) : Prop :=
  ∀ st, ∃ s st', evalItem E lang values self (evalNamed E lang values before) it st = (some (.ok s), st')

/-- The error of a string with these items: that of the first item without a text, be it to blame itself or an item of the
string it shows. `before` are the named strings it may use, latest first. -/
inductive Blamed (E : FmtEnv D F) (lang : Str) (values : AMap Str (PValue D F)) :
    List Named → Str → List Item → FormatterError → Prop
  | here (before self front it back e) : (∀ x ∈ front, HasText E lang values before self x) → Direct E lang values it e →
      Blamed E lang values before self (front ++ it :: back) e
  | inside (before self front it back e n later earlier) : (∀ x ∈ front, HasText E lang values before self x) →
      Picks E lang values it n.name → before = later ++ n :: earlier → Blamed E lang values earlier n.name n.items e →
      Blamed E lang values before self (front ++ it :: back) e

/-- Errors that differ at most in the number of a list of selectors. -/
def SameError (e e' : FormatterError) : Prop :=
  e = e' ∨ ∃ s i i', e = .selectorsIndexNamed s i ∧ e' = .selectorsIndexNamed s i'

/-! ### Reading -/

/-- What is said of an option of a decimal pattern. The name of the option is taken for its value too. -/
def decimalBlame (id key : Str) : FormatterError :=
  if key = "sign".toList ∨ key = "group".toList then .invalidOptionValue key key "decimal".toList
  else .invalidOption key "decimal".toList id

/-- What is said of an option of a date_time pattern. -/
def dateTimeBlame (id key : Str) : FormatterError :=
  if key = "date".toList ∨ key = "time".toList then .invalidOptionValue key key "date_time".toList
  else if key = "calendar".toList then .invalidOption key "ordinal".toList id
  else .invalidOption key "date-time".toList id

/-- The item cannot be accepted, with error `e`; `known` are the names that may be selected. -/
inductive ItemError (E : FmtEnv D F) (known : List Str) : Item → FormatterError → Prop
  | decimal (id k sels key) : k.str = "decimal".toList → key ∈ sels.map (fun s => s.1.str) →
      ItemError E known (.pat id (some (k, sels))) (decimalBlame id.str key)
  | dateTime (id k sels key) : k.str = "date_time".toList → key ∈ sels.map (fun s => s.1.str) →
      ItemError E known (.pat id (some (k, sels))) (dateTimeBlame id.str key)
  | category (id k sels key) : Counts k → key ∈ sels.map (fun s => s.1.str) → ¬ IsCategory key →
      ItemError E known (.pat id (some (k, sels))) (.invalidSelector key k.str id.str)
  | unknown (id k sels key) : Counts k ∨ k.str = "select".toList → key ∈ sels.map (fun s => s.1.str) → key ∉ known →
      (Counts k → IsCategory key) → ItemError E known (.pat id (some (k, sels))) (.selectorNamed key key id.str)
  | other (id k sels) : Counts k → (∀ key ∈ sels.map (fun s => s.1.str), IsCategory key ∧ key ∈ known) →
      "other".toList ∉ sels.map (fun s => s.1.str) →
      ItemError E known (.pat id (some (k, sels))) (.selectorOther k.str id.str)
  | keyword (id k sels) : k.str ∉ ["decimal".toList, "date_time".toList, "ordinal".toList, "plural".toList, "select".toList] →
      ItemError E known (.pat id (some (k, sels))) (.invalidKeyword k.str id.str)
  | noCommand (n ps) : (∀ h ps', ps ≠ .hash h :: ps') → E.commands.get n.str = none →
      ItemError E known (.cmd (.ident n :: ps)) (.command (.notFound n.str))
  | command (n ps f c) : (∀ h ps', ps ≠ .hash h :: ps') → E.commands.get n.str = some f →
      f (.string n.str :: ps.map fun p => .string p.str) = .err c → ItemError E known (.cmd (.ident n :: ps)) (.command c)

/-- The first item that cannot be accepted has error `e`. -/
def ItemsError (E : FmtEnv D F) (known : List Str) (items : List Item) (e : FormatterError) : Prop :=
  ∃ front it back, items = front ++ it :: back ∧ (∀ x ∈ front, ItemOk E known x) ∧ ItemError E known it e

/-- The first named string that cannot be accepted has error `e`. -/
inductive GroupError (E : FmtEnv D F) : List Str → List Named → FormatterError → Prop
  | twice (known n rest) : n.name ∈ known → GroupError E known (n :: rest) (.namedStringIdentifier n.name)
  | items (known n rest e) : n.name ∉ known → ItemsError E known n.items e → GroupError E known (n :: rest) e
  | later (known n rest e) : n.name ∉ known → (∀ it ∈ n.items, ItemOk E known it) →
      GroupError E (known ++ [n.name]) rest e → GroupError E known (n :: rest) e

/-- The pattern string cannot be accepted, with error `e`. -/
def DocError (E : FmtEnv D F) (d : Doc) (e : FormatterError) : Prop :=
  GroupError E [mainName] d.named e ∨
  GroupOk E [mainName] d.named ∧ ItemsError E (mainName :: d.named.map Named.name) d.main e

end Verif.Spec
