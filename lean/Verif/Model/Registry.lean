import Verif.Model.Lexer
import Verif.Model.Map
/-
Model of the language tag registry: /repo/crates/utility/src/language.rs.

`IcuLanguage::canonicalize` (icu_locid) and `IcuLanguage::try_from_bytes` are parameters.
-/
namespace Verif

/-- A reference counted `LanguageTag` (crates/utility/src/language.rs:53-72): `addr` identifies the allocation
(two handles are `Rc::ptr_eq` iff their addresses agree), `text` is the tag text it points to. -/
structure TagRef where
  addr : Nat
  text : Str
  deriving DecidableEq, Repr

/-- `LanguageTagRegistry` without the ICU cache, crates/utility/src/language.rs:105-116. `nextAddr` numbers
allocations; it has no counterpart in the struct. -/
structure Registry where
  tags : AMap Str TagRef
  deprecated : AMap Str TagRef
  nextAddr : Nat

/-- `LanguageTagRegistry::new`, crates/utility/src/language.rs:119-126. -/
def Registry.new : Registry := { tags := [], deprecated := [], nextAddr := 0 }

variable {E : Type}

/-- `LanguageTagRegistry::tag` without the `sync` feature, crates/utility/src/language.rs:157-232. -/
def Registry.tag (canon : Str → Except E Str) (r : Registry) (q : Str) : Except E TagRef × Registry :=
  match r.tags.get q with
  | some h => (.ok h, r)
  | none =>
    match r.deprecated.get q with
    | some h => (.ok h, r)
    | none =>
      match canon q with
      | .error e => (.error e, r)
      | .ok c =>
        match r.tags.get c with
        | some h => (.ok h, { r with deprecated := r.deprecated.insert q h })
        | none =>
          let h : TagRef := { addr := r.nextAddr, text := c }
          let r := { r with nextAddr := r.nextAddr + 1 }
          let r := if q ≠ h.text then { r with deprecated := r.deprecated.insert q h } else r
          (.ok h, { r with tags := r.tags.insert h.text h })

/-- `list`, crates/utility/src/language.rs:310-316. -/
def Registry.list (r : Registry) : List TagRef := r.tags.values

/-- `list_deprecated`, crates/utility/src/language.rs:337-349. -/
def Registry.listDeprecated (r : Registry) : List TagRef := r.deprecated.values

/-- `list_all`, crates/utility/src/language.rs:375-396. -/
def Registry.listAll (r : Registry) : List TagRef := r.tags.values ++ r.deprecated.values

/-- Serve a sequence of requests; returns every request with its answer, and the final registry. -/
def Registry.run (canon : Str → Except E Str) : Registry → List Str →
    List (Str × Except E TagRef) × Registry
  | r, [] => ([], r)
  | r, q :: qs =>
    let (a, r') := r.tag canon q
    let (as, r'') := Registry.run canon r' qs
    ((q, a) :: as, r'')

/-! ### The cache of parsed ICU language identifiers -/

/-- The `icu` field, crates/utility/src/language.rs:115: keyed by `RefCount<LanguageTag>`, whose `Eq`/`Hash` are
those of the tag text (derived at line 53); values are reference counted parsed identifiers (allocation number and
contents). -/
structure IcuCache (L : Type) where
  entries : AMap Str (Nat × L)
  nextAddr : Nat

/-- `LanguageTagRegistry::icu_language`, crates/utility/src/language.rs:260-286, with `LanguageTag::icu_language`
(69-71). `parse` is `IcuLanguage::try_from_bytes`; its `unwrap` on an error is the outcome `none` (panic). -/
def IcuCache.icuLanguage {L : Type} (parse : Str → Option L) (m : IcuCache L) (t : TagRef) :
    Option (Nat × L) × IcuCache L :=
  match m.entries.get t.text with
  | some r => (some r, m)
  | none =>
    match parse t.text with
    | none => (none, m)
    | some l =>
      let r := (m.nextAddr, l)
      (some r, { entries := m.entries.insert t.text r, nextAddr := m.nextAddr + 1 })

/-- Serve a sequence of `icu_language` requests. -/
def IcuCache.run {L : Type} (parse : Str → Option L) : IcuCache L → List TagRef →
    List (TagRef × Option (Nat × L)) × IcuCache L
  | m, [] => ([], m)
  | m, t :: ts =>
    let (a, m') := m.icuLanguage parse t
    let (as, m'') := IcuCache.run parse m' ts
    ((t, a) :: as, m'')

end Verif
