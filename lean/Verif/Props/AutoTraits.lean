import Verif.Lemmas.AutoTraits
import Verif.Lemmas.Features
/-
C73: which types may be used by several threads.
-/
namespace Verif.Props
open Verif Verif.Features Verif.AutoTraits Verif.Spec Verif.Spec.Features Verif.AutoTraitLemmas

/-- **C73 is violated.** In no build may a localiser be moved to another thread or be used by several, nor may the errors of
providers, commands, formatters and localisers; the registry of commands may be moved but not be used by several threads. -/
theorem C73_violated (b : Build) :
    (¬ Send (atomicData b) (localiser b) ∧ ¬ Sync (atomicData b) (localiser b)) ∧
    (¬ Send (atomicData b) (providerError b) ∧ ¬ Sync (atomicData b) (providerError b)) ∧
    (¬ Send (atomicData b) (commandError b) ∧ ¬ Sync (atomicData b) (commandError b)) ∧
    (¬ Send (atomicData b) (localiserError b) ∧ ¬ Sync (atomicData b) (localiserError b)) ∧
    (Send (atomicData b) commandRegistry ∧ ¬ Sync (atomicData b) commandRegistry) := by
  have hp : ¬ Send (atomicData b) (providerError b) ∧ ¬ Sync (atomicData b) (providerError b) := by
    cases h : b.arc .provider <;> simp [providerError, send_all, sync_all, refCount, h, send_rc, sync_rc, send_arc,
      sync_arc, send_object, sync_object]
  have hc : ¬ Send (atomicData b) (commandError b) ∧ ¬ Sync (atomicData b) (commandError b) := by
    cases h : b.arc .localiser <;> simp [commandError, send_all, sync_all, refCount, h, send_rc, sync_rc, send_arc,
      sync_arc, send_object, sync_object]
  refine ⟨?_, hp, hc, ?_, ?_⟩
  · simp [localiser, localiserFields, send_all, sync_all, send_object, sync_object]
  · simp [localiserError, send_all, sync_all, hp]
  · simp [commandRegistry, send_all, sync_all, send_refCell, sync_refCell, send_plain]

/-- **C73, what holds.** In every build whose crates agree on the pointer type, the other types may be moved to and used by
several threads if and only if the feature `sync` is enabled. Missing: the localiser, the registry of commands and the
errors, for which the claim is false. -/
theorem C73_shareable_iff_sync_partial {b : Build} (hs : SamePointers b) :
    ∀ t ∈ dataTypes b, Shareable b t ↔ b.arc .utility = true := by
  have h1 := hs .lexer (by simp)
  have h2 := hs .localiser (by simp)
  have h3 := hs .provider (by simp)
  have h4 := hs .sqlite3 (by simp)
  cases h : b.arc .utility with
  | false =>
    rw [h] at h1 h2 h3 h4
    have hd : ¬ atomicData b := by simp [atomicData, h1]
    intro t ht
    simp only [Bool.false_eq_true, iff_false]
    rintro ⟨ha, hb⟩
    simp only [dataTypes, List.mem_cons, List.not_mem_nil, or_false] at ht
    rcases ht with rfl | rfl | rfl | rfl | rfl | rfl | rfl | rfl | rfl | rfl | rfl | rfl <;>
      simp [languageTagRegistry, taggedString, placeholderValue, icuDataProvider, lexerIterator, identifierDetails,
        componentDetails, repositoryDetails, sqlite3, sqlite3Error, formatter, cacheData, send_all, refCount, h,
        h1, h2, h3, h4, send_rc, send_refCell, send_icuData, hd] at ha
  | true =>
    rw [h] at h1 h2 h3 h4
    have hd : atomicData b := by simp [atomicData, h1]
    have he := icuProviderEnum_shareable b hd
    rw [eq_true hd] at he
    intro t ht
    simp only [iff_true]
    simp only [dataTypes, List.mem_cons, List.not_mem_nil, or_false] at ht
    rcases ht with rfl | rfl | rfl | rfl | rfl | rfl | rfl | rfl | rfl | rfl | rfl | rfl <;>
      simp [Shareable, languageTagRegistry, languageTag, taggedString, placeholderValue, icuDataProvider, lexerIterator,
        identifierDetails, componentDetails, repositoryDetails, sqlite3, sqlite3Error, formatter, cacheData, send_all,
        sync_all, refCount, h, h1, h2, h3, h4, send_arc, sync_arc, send_mutex, sync_mutex, send_onceLock, sync_onceLock,
        send_rwLock, sync_rwLock, send_plain, sync_plain, send_icuData, sync_icuData, he, hd]

/-- **C73, every build.** Also when the crates do not agree on the pointer type: a type may be moved to and used by several
threads exactly if the crates whose pointers it contains have the feature `sync`. -/
theorem C73_by_crate_partial (b : Build) :
    (Shareable b (languageTagRegistry b) ↔ b.arc .utility = true) ∧
    (Shareable b (taggedString b) ↔ b.arc .utility = true) ∧
    (Shareable b (placeholderValue b) ↔ b.arc .utility = true) ∧
    (Shareable b (icuDataProvider b) ↔ b.arc .lexer = true) ∧
    (Shareable b (lexerIterator b) ↔ b.arc .lexer = true) ∧
    (Shareable b (identifierDetails b) ↔ b.arc .provider = true) ∧
    (Shareable b (componentDetails b) ↔ b.arc .provider = true) ∧
    (Shareable b (repositoryDetails b) ↔ b.arc .provider = true) ∧
    (Shareable b (sqlite3 b) ↔ b.arc .sqlite3 = true ∧ b.arc .utility = true ∧ b.arc .provider = true) ∧
    (Shareable b (sqlite3Error b) ↔ b.arc .sqlite3 = true) ∧
    (Shareable b (formatter b) ↔ b.arc .localiser = true ∧ b.arc .utility = true) ∧
    (Shareable b (cacheData b) ↔ b.arc .localiser = true ∧ b.arc .utility = true) := by
  have he : atomicData b → Send (atomicData b) (icuProviderEnum b) ∧ Sync (atomicData b) (icuProviderEnum b) :=
    icuProviderEnum_shareable b
  cases h : b.arc .utility <;> cases h1 : b.arc .lexer <;> cases h2 : b.arc .localiser <;> cases h3 : b.arc .provider <;>
    cases h4 : b.arc .sqlite3 <;>
    simp_all [Shareable, languageTagRegistry, languageTag, taggedString, placeholderValue, icuDataProvider, lexerIterator,
      identifierDetails, componentDetails, repositoryDetails, sqlite3, sqlite3Error, formatter, cacheData, send_all,
      sync_all, refCount, send_rc, sync_rc, send_arc, sync_arc, send_mutex, sync_mutex, send_refCell, sync_refCell,
      send_onceCell, sync_onceCell, send_onceLock, sync_onceLock, send_rwLock, sync_rwLock, send_plain, sync_plain,
      send_icuData, sync_icuData, atomicData]

/-- What keeps a localiser from being shared: with `sync`, all its fields may be moved to and used by several threads except
the provider and the registry of commands. -/
theorem C73_localiser_fields_partial {b : Build} (hs : SamePointers b) (h : b.arc .utility = true) :
    ∀ i t, (localiserFields b)[i]? = some t → (Shareable b t ↔ i ≠ 3 ∧ i ≠ 4) := by
  have h1 := hs .lexer (by simp)
  have h2 := hs .localiser (by simp)
  rw [h] at h1 h2
  have hd : atomicData b := by simp [atomicData, h1]
  have he := icuProviderEnum_shareable b hd
  have hsh := C73_shareable_iff_sync_partial hs
  have hcache : Shareable b (cacheData b) := (hsh _ (by simp [dataTypes])).2 h
  have hreg : Shareable b (languageTagRegistry b) := (hsh _ (by simp [dataTypes])).2 h
  rw [Shareable, eq_true hd] at hcache hreg
  rw [eq_true hd] at he
  intro i t ht
  match i with
  | 0 | 1 | 2 | 3 | 4 | 5 | 6 | 7 | 8 | 9 | 10 | 11 =>
    simp only [localiserFields, List.getElem?_cons_zero, List.getElem?_cons_succ, Option.some.injEq] at ht
    subst ht
    simp [Shareable, refCount, h2, icuDataProvider, languageTag, send_all, sync_all, send_arc, sync_arc, send_rwLock,
      sync_rwLock, send_plain, sync_plain, send_icuData, sync_icuData, send_object, sync_object, commandRegistry,
      sync_refCell, he, hd, hcache.1, hcache.2, hreg.1, hreg.2]
  | n + 12 => simp [localiserFields] at ht

/-- The same for the fields of a localiser, in every build. -/
theorem C73_localiser_fields_by_crate_partial (b : Build) :
    ∀ i t, (localiserFields b)[i]? = some t → (Shareable b t ↔
      (i ∈ [0, 2, 7, 8, 9, 10, 11] → b.arc .localiser = true) ∧ (i ∈ [0, 6] → b.arc .lexer = true) ∧
      (i ∈ [2, 9] → b.arc .utility = true) ∧ i ≠ 3 ∧ i ≠ 4) := by
  obtain ⟨hreg, _, _, hicu, _, _, _, _, _, _, _, hcache⟩ := C73_by_crate_partial b
  simp only [Shareable] at hreg hicu hcache
  intro i t ht
  match i with
  | 0 | 1 | 2 | 3 | 4 | 5 | 6 | 7 | 8 | 9 | 10 | 11 =>
    simp only [localiserFields, List.getElem?_cons_zero, List.getElem?_cons_succ, Option.some.injEq] at ht
    subst ht
    cases h1 : b.arc .localiser <;>
      simp_all [Shareable, refCount, languageTag, send_all, sync_all, send_rc, sync_rc, send_arc, sync_arc, send_refCell,
        sync_refCell, send_rwLock, sync_rwLock, send_plain, sync_plain, send_icuData, sync_icuData, send_object,
        sync_object, commandRegistry, atomicData] <;>
      exact fun h => (hcache.2 h).1
  | n + 12 => simp [localiserFields] at ht

/-- Which fields of a localiser may be moved to another thread, in every build. Without `sync` these are the plain ones, also
those in cells. -/
theorem C73_localiser_fields_moved (b : Build) :
    ∀ i t, (localiserFields b)[i]? = some t → (Send (atomicData b) t ↔
      (i ∈ [0, 2, 9, 10] → b.arc .localiser = true) ∧ (i ∈ [0, 6] → b.arc .lexer = true) ∧
      (i ∈ [2, 9] → b.arc .utility = true) ∧ i ≠ 3 ∧ i ≠ 4) := by
  obtain ⟨hreg, _, _, hicu, _, _, _, _, _, _, _, hcache⟩ := C73_by_crate_partial b
  simp only [Shareable] at hreg hicu hcache
  have hsend : b.arc .utility = false → ¬ Send (atomicData b) (cacheData b) := by
    intro h
    cases h1 : b.arc .localiser <;>
      simp_all [cacheData, formatter, refCount, languageTag, send_all, send_rc, send_arc, send_refCell, send_rwLock,
        taggedString, placeholderValue]
  intro i t ht
  match i with
  | 0 | 1 | 2 | 3 | 4 | 5 | 6 | 7 | 8 | 9 | 10 | 11 =>
    simp only [localiserFields, List.getElem?_cons_zero, List.getElem?_cons_succ, Option.some.injEq] at ht
    subst ht
    cases h1 : b.arc .localiser <;> cases h2 : b.arc .utility <;>
      simp_all [refCount, languageTag, send_all, sync_all, send_rc, send_arc, send_refCell, sync_refCell, send_rwLock,
        send_plain, sync_plain, send_icuData, send_object, commandRegistry, atomicData]
  | n + 12 => simp [localiserFields] at ht

/-- Such a build, and one without `sync`. -/
example : SamePointers (build [(.i18n, .sync)]) ∧ (build [(.i18n, .sync)]).arc .utility = true ∧
    SamePointers (build [(.i18n, .default)]) ∧ (build [(.i18n, .default)]).arc .utility = false := by
  unfold SamePointers
  decide +kernel

end Verif.Props
