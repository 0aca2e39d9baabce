import Verif.Spec.AutoTraits
/-
The rules for `Send` and `Sync` as equivalences.
-/
namespace Verif.AutoTraitLemmas
open Verif.Features Verif.AutoTraits Verif.Spec

variable {d : Prop} {t : Ty} {ts : List Ty}

theorem send_plain : Send d .plain ↔ True := ⟨fun _ => trivial, fun _ => .plain⟩
theorem send_icuData : Send d .icuData ↔ d := ⟨fun | .icuData h => h, .icuData⟩
theorem send_object : Send d .object ↔ False := ⟨nofun, False.elim⟩
theorem send_connection : Send d .connection ↔ True := ⟨fun _ => trivial, fun _ => .connection⟩
theorem send_all : Send d (.all ts) ↔ ∀ t ∈ ts, Send d t := ⟨fun | .all h => h, .all⟩
theorem send_rc : Send d (.rc t) ↔ False := ⟨nofun, False.elim⟩
theorem send_arc : Send d (.arc t) ↔ Send d t ∧ Sync d t := ⟨fun | .arc h h' => ⟨h, h'⟩, fun h => .arc h.1 h.2⟩
theorem send_refCell : Send d (.refCell t) ↔ Send d t := ⟨fun | .refCell h => h, .refCell⟩
theorem send_mutex : Send d (.mutex t) ↔ Send d t := ⟨fun | .mutex h => h, .mutex⟩
theorem send_rwLock : Send d (.rwLock t) ↔ Send d t := ⟨fun | .rwLock h => h, .rwLock⟩
theorem send_onceCell : Send d (.onceCell t) ↔ Send d t := ⟨fun | .onceCell h => h, .onceCell⟩
theorem send_onceLock : Send d (.onceLock t) ↔ Send d t := ⟨fun | .onceLock h => h, .onceLock⟩

theorem sync_plain : Sync d .plain ↔ True := ⟨fun _ => trivial, fun _ => .plain⟩
theorem sync_icuData : Sync d .icuData ↔ d := ⟨fun | .icuData h => h, .icuData⟩
theorem sync_object : Sync d .object ↔ False := ⟨nofun, False.elim⟩
theorem sync_connection : Sync d .connection ↔ False := ⟨nofun, False.elim⟩
theorem sync_all : Sync d (.all ts) ↔ ∀ t ∈ ts, Sync d t := ⟨fun | .all h => h, .all⟩
theorem sync_rc : Sync d (.rc t) ↔ False := ⟨nofun, False.elim⟩
theorem sync_arc : Sync d (.arc t) ↔ Send d t ∧ Sync d t := ⟨fun | .arc h h' => ⟨h, h'⟩, fun h => .arc h.1 h.2⟩
theorem sync_refCell : Sync d (.refCell t) ↔ False := ⟨nofun, False.elim⟩
theorem sync_mutex : Sync d (.mutex t) ↔ Send d t := ⟨fun | .mutex h => h, .mutex⟩
theorem sync_rwLock : Sync d (.rwLock t) ↔ Send d t ∧ Sync d t := ⟨fun | .rwLock h h' => ⟨h, h'⟩, fun h => .rwLock h.1 h.2⟩
theorem sync_onceCell : Sync d (.onceCell t) ↔ False := ⟨nofun, False.elim⟩
theorem sync_onceLock : Sync d (.onceLock t) ↔ Send d t ∧ Sync d t :=
  ⟨fun | .onceLock h h' => ⟨h, h'⟩, fun h => .onceLock h.1 h.2⟩

/-- The variants of the provider contain nothing but data of ICU4X. -/
theorem icuProviderEnum_shareable (b : Build) (h : d) : Send d (icuProviderEnum b) ∧ Sync d (icuProviderEnum b) := by
  simp only [icuProviderEnum, send_all, sync_all, List.mem_map]
  constructor
  · rintro t ⟨k, _, rfl⟩
    cases k
    · exact .all (by simp)
    · exact .icuData h
    · exact .icuData h
  · rintro t ⟨k, _, rfl⟩
    cases k
    · exact .all (by simp)
    · exact .icuData h
    · exact .icuData h

end Verif.AutoTraitLemmas
