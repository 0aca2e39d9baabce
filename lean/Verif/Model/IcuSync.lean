import Verif.Model.Registry
import Verif.Model.Interleave
/-
`LanguageTagRegistry::icu_language` with the `sync` feature, crates/utility/src/language.rs:260-286, as a program of atomic
steps. The lock of the map is taken twice: for the look-up and for the insertion. The parsing and the allocation are between;
the allocation is part of the first step, which does not matter, since no other thread sees the object before the second.
-/
namespace Verif

/-- The `icu` field of a registry that is shared by threads, crates/utility/src/language.rs:115. Objects are numbered in the
order of their allocation; `heap` has for every object the text it was made of, which is not kept in the code, and its
contents. -/
structure IcuShared (L : Type) where
  entries : AMap Str Nat
  heap : List (Str × L)

/-- `icu_language`, crates/utility/src/language.rs:260-286: the number of the object and its contents, `none` for a panic
(`unwrap` in `LanguageTag::icu_language`, 69-71; no lock is held then). -/
def icuShared {L : Type} (parse : Str → Option L) (t : TagRef) : Act (IcuShared L) (Option (Nat × L)) :=
  .atomic fun m =>
    match m.entries.get t.text with
    | some a => (m, .done (m.heap[a]?.map fun x => (a, x.2)))
    | none =>
      match parse t.text with
      | none => (m, .done none)
      | some l =>
        let a := m.heap.length
        ({ m with heap := m.heap ++ [(t.text, l)] },
          .atomic fun m => ({ m with entries := m.entries.insert t.text a }, .done (some (a, l))))

/-- A thread that makes several requests; a panic ends it. -/
def icuThread {L : Type} (parse : Str → Option L) : List TagRef → Act (IcuShared L) (List (TagRef × Option (Nat × L)))
  | [] => .done []
  | t :: ts => (icuShared parse t).bind fun r =>
    match r with
    | none => .done [(t, none)]
    | some x => (icuThread parse ts).bind fun rs => .done ((t, some x) :: rs)

end Verif
