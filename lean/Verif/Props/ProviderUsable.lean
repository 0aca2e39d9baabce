import Verif.Lemmas.ProviderErrors
import Verif.Props.Errors
/-
When the SQLite provider gives details, which error it gives otherwise, and that the order of the hash map of components
does not matter.
-/
namespace Verif.Props
open Verif Verif.Spec Verif.ProviderLemmas DemoStore Verif.Errors

variable {E : Type}

/-! ### C60 -/

/-- There are details exactly if every component is usable. -/
theorem C60_details_iff_usable {canon : Str → Except E Str} {p : Sqlite} (hc : Connected p) (hk : p.components.keys.Nodup)
    {st : Store} : (∃ x, p.buildCache canon st = .ok x) ↔
      ∀ c files, p.components.get c = some files → Usable canon st files c :=
  buildCache_iff hc hk

/-- An error tells of a fault that a component has; that component is not usable. -/
theorem C60_error_tells_fault {canon : Str → Except E Str} {p : Sqlite} (hc : Connected p) (hk : p.components.keys.Nodup)
    {st : Store} {e : ProvErr E} (h : p.buildCache canon st = .err e) :
    ∃ c files, p.components.get c = some files ∧ Fault canon st files c e ∧ ¬ Usable canon st files c := by
  obtain ⟨c, files, h1, h2⟩ := buildCache_err hc hk h
  exact ⟨c, files, h1, h2, fun hu => Usable.no_fault hu h2⟩

/-- If details cannot be given, an error is returned: never a panic. -/
theorem C60_error_otherwise {canon : Str → Except E Str} {p : Sqlite} (hc : Connected p) (hk : p.components.keys.Nodup)
    {st : Store} {c : Str} {files : Bool × Bool} (hcomp : p.components.get c = some files) (hu : ¬ Usable canon st files c) :
    ∃ e, p.buildCache canon st = .err e := by
  cases h : p.buildCache canon st with
  | ok x => exact absurd (((buildCache_iff hc hk).1 ⟨x, h⟩) c files hcomp) hu
  | panic => exact absurd h (buildCache_ne_panic hc hk st)
  | err e => exact ⟨e, rfl⟩

/-- The database of all components names a default language to which nobody contributed there, but someone did in the own
database. -/
example : Usable DemoStore.canon (twoFiles (tables [] [writer enZA "Bob".toList]) (tables [] [writer en "Ann".toList]))
    (true, true) app :=
  ⟨⟨_, rfl⟩, fun name _ => by
      unfold twoFiles
      by_cases h : name = allInOne
      · exact ⟨_, by rw [if_pos h]; rfl, fun r _ _ => ⟨r.tag, rfl⟩⟩
      · exact ⟨_, by rw [if_neg h]; rfl, fun r _ _ => ⟨r.tag, rfl⟩⟩,
    fun _ _ => ⟨[], by unfold twoFiles; split <;> rfl⟩,
    en, .here (rows := [{ identifier := app, tag := en }]) rfl (fun _ _ _ => ⟨_, rfl⟩) rfl rfl,
    app, by simp [places], [writer en "Ann".toList], by decide +kernel, writer en "Ann".toList, by simp, rfl, rfl⟩

/-- Nobody contributed to the default language. -/
example : (match (provider (true, true)).buildCache DemoStore.canon
      (twoFiles (tables [] [writer enZA "Bob".toList]) (tables [] [writer enZA "Ann".toList])) with
    | .err e => some e
    | _ => none) = some (.invalidDefaultLanguage app) ∧
    Fault DemoStore.canon (twoFiles (tables [] [writer enZA "Bob".toList]) (tables [] [writer enZA "Ann".toList]))
      (true, true) app (.invalidDefaultLanguage app) := by
  refine ⟨by decide +kernel, .notContributed (t := en)
    (.here (rows := [{ identifier := app, tag := en }]) rfl (fun _ _ _ => ⟨_, rfl⟩) rfl rfl) ?_⟩
  rintro ⟨name, hn, rows, h1, r, h2, _, h3⟩
  have : rows = [writer enZA "Bob".toList] ∨ rows = [writer enZA "Ann".toList] := by
    unfold twoFiles at h1
    split at h1
    · exact .inl (Except.ok.inj h1).symm
    · exact .inr (Except.ok.inj h1).symm
  rcases this with rfl | rfl <;> (rw [List.mem_singleton.1 h2] at h3; exact absurd h3 (by decide))

/-! ### C58: the other shipped databases -/

/-- The shipped databases other than that of the lexer are usable. -/
theorem C58_others_usable {canon : Str → Except E Str} {st : Store} (hu : ∃ x, canon "und".toList = .ok x)
    (he : canon english = .ok english) (hi : canon italian = .ok italian) :
    (st localiserName = Shipped.localiser → Usable canon st (false, true) localiserName) ∧
    (st providerName = Shipped.provider → Usable canon st (false, true) providerName) ∧
    (st sqlite3Name = Shipped.sqlite3 → Usable canon st (false, true) sqlite3Name) := by
  have key : ∀ {name : Str} {rows : List PatternRow} {a b : Str}, st name = ⟨.ok rows,
      .ok [⟨name, english, a⟩, ⟨name, italian, b⟩], .ok [⟨name, english⟩]⟩ →
      Usable canon st (false, true) name := by
    intro name rows a b h
    have hp : places (false, true) name = [name] := rfl
    refine ⟨hu, fun n hn => ?_, fun n hn => ?_, english, ?_, name, by simp [hp], _, by rw [h], ⟨name, english, a⟩, by simp, rfl, he⟩
    · rw [hp, List.mem_singleton] at hn
      subst hn
      refine ⟨_, by rw [h], fun r hr _ => ?_⟩
      simp only [List.mem_cons, List.not_mem_nil, or_false] at hr
      rcases hr with rfl | rfl
      · exact ⟨_, he⟩
      · exact ⟨_, hi⟩
    · rw [hp, List.mem_singleton] at hn
      subst hn
      exact ⟨rows, by rw [h]⟩
    · rw [hp]
      refine .here (r := ⟨name, english⟩) (by rw [h]) (fun r hr _ => ?_) (by simp) he
      rw [List.mem_singleton.1 hr]
      exact ⟨_, he⟩
  exact ⟨fun h => key h, fun h => key h, fun h => key h⟩

/-- Hence a provider has details if all its other components are usable, whichever of these three it has. -/
theorem C58_others_work {canon : Str → Except E Str} {p : Sqlite} (hc : Connected p) (hk : p.components.keys.Nodup)
    {st : Store} (hu : ∃ x, canon "und".toList = .ok x) (he : canon english = .ok english) (hi : canon italian = .ok italian)
    (h : ∀ c files, p.components.get c = some files → Usable canon st files c ∨
      files = (false, true) ∧ (c = localiserName ∧ st c = Shipped.localiser ∨ c = providerName ∧ st c = Shipped.provider ∨
        c = sqlite3Name ∧ st c = Shipped.sqlite3)) :
    ∃ x, p.buildCache canon st = .ok x := by
  obtain ⟨h1, h2, h3⟩ := C58_others_usable hu he hi
  refine (buildCache_iff hc hk).2 fun c files hcomp => ?_
  rcases h c files hcomp with g | ⟨rfl, ⟨rfl, g⟩ | ⟨rfl, g⟩ | ⟨rfl, g⟩⟩
  · exact g
  · exact h1 g
  · exact h2 g
  · exact h3 g

example : ∃ x, (DemoShipped.provider [localiserName, sqlite3Name]).buildCache DemoShipped.canon DemoShipped.store = .ok x := by
  refine C58_others_work connected_provider (by decide +kernel) ⟨_, rfl⟩ rfl rfl fun c files h => .inr ?_
  have := AMap.mem_of_get h
  simp only [DemoShipped.provider, List.map_cons, List.map_nil, List.mem_cons, Prod.mk.injEq, List.not_mem_nil, or_false]
    at this
  rcases this with ⟨rfl, rfl⟩ | ⟨rfl, rfl⟩
  · exact ⟨rfl, .inl ⟨rfl, rfl⟩⟩
  · exact ⟨rfl, .inr (.inr ⟨rfl, rfl⟩)⟩

/-! ### C61 -/

/-- The order in which the hash map of components is walked decides neither whether there are details, -/
theorem C61_order_of_components {canon : Str → Except E Str} {p p' : Sqlite} (h : SameSqlite p p') (hc : Connected p)
    (hk : p.components.keys.Nodup) (hk' : p.connections.keys.Nodup) {st : Store} {details : AMap Str ComponentDetails}
    {repo : RepositoryDetails} (h1 : p.buildCache canon st = .ok (details, repo)) :
    ∃ details' repo', p'.buildCache canon st = .ok (details', repo') ∧ (∀ c, details.get c = details'.get c) ∧
      SameRepository repo repo' := by
  have hn' : p'.components.keys.Nodup := ((h.components.map Prod.fst).nodup_iff).1 hk
  have hc' : Connected p' := by
    refine ⟨fun c v hg hv => ?_, fun c v hg hv => ?_⟩
    · rw [← get_perm h.connections hk']
      rw [← get_perm h.components hk] at hg
      exact hc.shared c v hg hv
    · rw [← get_perm h.connections hk']
      rw [← get_perm h.components hk] at hg
      exact hc.own c v hg hv
  obtain ⟨⟨details', repo'⟩, h2⟩ := (buildCache_iff hc' hn').2 fun c files hg => by
    rw [← get_perm h.components hk] at hg
    exact (buildCache_iff hc hk).1 ⟨_, h1⟩ c files hg
  obtain ⟨a, b⟩ := buildCache_same hk hk' h h1 h2
  exact ⟨details', repo', h2, a, b⟩

/-- Two orders. -/
example : ∃ details repo details' repo',
    (DemoShipped.provider [localiserName, sqlite3Name]).buildCache DemoShipped.canon DemoShipped.store = .ok (details, repo) ∧
    (DemoShipped.provider [sqlite3Name, localiserName]).buildCache DemoShipped.canon DemoShipped.store =
      .ok (details', repo') ∧ SameRepository repo repo' ∧ repo.components ≠ repo'.components := by
  have conn : ∀ names, (DemoShipped.provider names).connections.keys = names := fun names => by
    simp [DemoShipped.provider, AMap.keys, Function.comp_def]
  have comp : ∀ names, (DemoShipped.provider names).components.keys = names := fun names => by
    simp [DemoShipped.provider, AMap.keys, Function.comp_def]
  obtain ⟨⟨details, repo⟩, h⟩ := C58_others_work (E := Unit) (canon := DemoShipped.canon) (st := DemoShipped.store)
    (p := DemoShipped.provider [localiserName, sqlite3Name]) connected_provider (by decide +kernel) ⟨_, rfl⟩ rfl rfl
    fun c files h => .inr (by
      have := AMap.mem_of_get h
      simp only [DemoShipped.provider, List.map_cons, List.map_nil, List.mem_cons, Prod.mk.injEq, List.not_mem_nil, or_false]
        at this
      rcases this with ⟨rfl, rfl⟩ | ⟨rfl, rfl⟩
      · exact ⟨rfl, .inl ⟨rfl, rfl⟩⟩
      · exact ⟨rfl, .inr (.inr ⟨rfl, rfl⟩)⟩)
  obtain ⟨details', repo', h2, _, hs⟩ := C61_order_of_components
    (p' := DemoShipped.provider [sqlite3Name, localiserName]) ⟨.swap _ _ _, .swap _ _ _⟩ connected_provider
    (by decide +kernel) (by decide +kernel) h
  refine ⟨details, repo, details', repo', h, h2, hs, ?_⟩
  obtain ⟨c1, k1, _⟩ := buildCache_ok (by decide +kernel) h
  obtain ⟨c2, k2, _⟩ := buildCache_ok (by decide +kernel) h2
  rw [c1.components, k1, c2.components, k2, comp, comp]
  decide +kernel

/-- but, if there are none, which error is returned: here the first component in the order has no default language. -/
theorem C61_error_depends_on_order : ∃ (p p' : Sqlite) (st : Store), SameSqlite p p' ∧ Connected p ∧
    (match p.buildCache DemoStore.canon st with | .err e => some e | _ => none) = some (.defaultLanguage "a".toList) ∧
    (match p'.buildCache DemoStore.canon st with | .err e => some e | _ => none) = some (.defaultLanguage "b".toList) :=
  ⟨DemoShipped.provider ["a".toList, "b".toList], DemoShipped.provider ["b".toList, "a".toList], fun _ => database [],
    ⟨.swap _ _ _, .swap _ _ _⟩, connected_provider, by decide +kernel, by decide +kernel⟩

/-- Which errors there may be: over all orders exactly those of the components alone. -/
theorem C61_possible_errors {canon : Str → Except E Str} {p : Sqlite} (hc : Connected p) (hk : p.components.keys.Nodup)
    (hk' : p.connections.keys.Nodup) (st : Store) (e : ProvErr E) :
    (∃ p', SameSqlite p p' ∧ p'.buildCache canon st = .err e) ↔
      ∃ c files, p.components.get c = some files ∧ { p with components := [(c, files)] }.buildCache canon st = .err e :=
  buildCache_possible hc hk hk' e

/-- Two components without a default language: in some order each of the two errors is returned, and no other is. -/
example (e : ProvErr Unit) : (∃ p', SameSqlite (DemoShipped.provider ["a".toList, "b".toList]) p' ∧
      p'.buildCache DemoStore.canon (fun _ => database []) = .err e) ↔
    e = .defaultLanguage "a".toList ∨ e = .defaultLanguage "b".toList := by
  rw [C61_possible_errors connected_provider (by decide +kernel) (by decide +kernel)]
  constructor
  · rintro ⟨c, files, hg, h⟩
    have := AMap.mem_of_get hg
    simp only [DemoShipped.provider, List.map_cons, List.map_nil, List.mem_cons, Prod.mk.injEq, List.not_mem_nil, or_false]
      at this
    rcases this with ⟨rfl, rfl⟩ | ⟨rfl, rfl⟩
    · exact .inl (Outcome.err.inj h).symm
    · exact .inr (Outcome.err.inj h).symm
  · rintro (rfl | rfl)
    · exact ⟨"a".toList, (false, true), rfl, rfl⟩
    · exact ⟨"b".toList, (false, true), rfl, rfl⟩

end Verif.Props
