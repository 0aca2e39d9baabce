import Verif.Spec.Features
/-
The feature resolver.
-/
namespace Verif.FeatureLemmas
open Verif Verif.Features Verif.Spec.Features

/-- All features that have a name here, declared or not. -/
def everything : List Feature :=
  [Crate.i18n, .lexer, .localiser, .provider, .sqlite3, .utility].flatMap fun c =>
    [Name.default, .buffer, .icuBlob, .icuCompiledData, .icuExtended, .icuFs, .logging, .sync, .blob, .fs, .extend].map
      fun n => (c, n)

theorem mem_everything (f : Feature) : f ∈ everything := by
  obtain ⟨c, n⟩ := f
  cases c <;> cases n <;> decide

theorem mem_step {s : List Feature} {f : Feature} : f ∈ resolveStep s ↔ f ∈ s ∨ ∃ g ∈ s, f ∈ enables g := by
  simp [resolveStep, List.mem_eraseDups]

theorem mem_rounds {n : Nat} {s : List Feature} {f : Feature} : f ∈ rounds n s ↔ ∃ r ∈ s, f ∈ rounds n [r] := by
  induction n generalizing f with
  | zero => simp [rounds]
  | succ n ih =>
    simp only [rounds, mem_step]
    constructor
    · rintro (h | ⟨g, hg, hf⟩)
      · obtain ⟨r, hr, h⟩ := ih.1 h
        exact ⟨r, hr, .inl h⟩
      · obtain ⟨r, hr, h⟩ := ih.1 hg
        exact ⟨r, hr, .inr ⟨g, h, hf⟩⟩
    · rintro ⟨r, hr, h | ⟨g, hg, hf⟩⟩
      · exact .inl (ih.2 ⟨r, hr, h⟩)
      · exact .inr ⟨g, ih.2 ⟨r, hr, hg⟩, hf⟩

theorem mem_resolve {s : List Feature} {f : Feature} : f ∈ resolve s ↔ ∃ r ∈ s, f ∈ resolve [r] := mem_rounds

theorem rounds_stable {k : Nat} {s : List Feature} (h : ∀ g ∈ rounds k s, ∀ f ∈ enables g, f ∈ rounds k s) :
    ∀ (n : Nat) {f : Feature}, f ∈ rounds (k + n) s ↔ f ∈ rounds k s := by
  intro n
  induction n with
  | zero => intro f; rfl
  | succ n ih =>
    intro f
    show f ∈ resolveStep (rounds (k + n) s) ↔ _
    rw [mem_step, ih]
    constructor
    · rintro (h' | ⟨g, hg, hf⟩)
      · exact h'
      · exact h g (ih.1 hg) f hf
    · exact .inl

/-- Nothing changes after four rounds. -/
theorem closed_four : ∀ r ∈ everything, ∀ g ∈ rounds 4 [r], ∀ f ∈ enables g, f ∈ rounds 4 [r] := by
  decide +kernel

theorem self_four : ∀ r ∈ everything, r ∈ rounds 4 [r] := by
  decide +kernel

theorem mem_resolve_one {r f : Feature} : f ∈ resolve [r] ↔ f ∈ rounds 4 [r] :=
  rounds_stable (closed_four r (mem_everything r)) 23

theorem closed_one (r : Feature) : ∀ g ∈ resolve [r], ∀ f ∈ enables g, f ∈ resolve [r] := by
  intro g hg f hf
  exact mem_resolve_one.2 (closed_four r (mem_everything r) g (mem_resolve_one.1 hg) f hf)

theorem self_one (r : Feature) : r ∈ resolve [r] := mem_resolve_one.2 (self_four r (mem_everything r))

theorem lookup_mem {f : Feature} {l : List Feature} : ∀ {m : List (Feature × List Feature)},
    m.lookup f = some l → (f, l) ∈ m := by
  intro m
  induction m with
  | nil => intro h; cases h
  | cons x m ih =>
    intro h
    obtain ⟨g, k⟩ := x
    simp only [List.lookup] at h
    split at h
    · rename_i he
      cases h
      rw [eq_of_beq he]
      exact List.mem_cons_self
    · exact List.mem_cons_of_mem _ (ih h)

theorem enables_mem {f g : Feature} (h : g ∈ enables f) : ∃ l, (f, l) ∈ manifest ∧ g ∈ l := by
  unfold enables at h
  cases hl : manifest.lookup f with
  | none => rw [hl] at h; cases h
  | some l => rw [hl] at h; exact ⟨l, lookup_mem hl, h⟩

theorem enables_eq : ∀ x ∈ manifest, enables x.1 = x.2 := by decide +kernel

theorem rounds_enabled {request : List Feature} : ∀ {n : Nat} {f : Feature}, f ∈ rounds n request → Enabled request f := by
  intro n
  induction n with
  | zero => intro f h; exact .asked h
  | succ n ih =>
    intro f h
    rcases mem_step.1 h with h | ⟨g, hg, hf⟩
    · exact ih h
    · obtain ⟨l, hl, hf⟩ := enables_mem hf
      exact .implied (ih hg) hl hf

theorem resolve_iff {request : List Feature} {f : Feature} : f ∈ resolve request ↔ Enabled request f := by
  refine ⟨rounds_enabled, fun h => ?_⟩
  induction h with
  | asked h => exact mem_resolve.2 ⟨_, h, self_one _⟩
  | @implied f g l _ hl hg ih =>
    obtain ⟨r, hr, hf⟩ := mem_resolve.1 ih
    refine mem_resolve.2 ⟨r, hr, closed_one r f hf g ?_⟩
    rw [enables_eq _ hl]
    exact hg

theorem build_enabled {request : List Feature} {f : Feature} :
    (build request).enabled f = true ↔ ∃ r ∈ request, f ∈ resolve [r] := by
  simp only [build, List.contains_iff_mem]
  exact mem_resolve

/-- Which single features enable `f`. -/
def causes (f : Feature) : List Feature := everything.filter fun r => (rounds 4 [r]).contains f

theorem mem_causes {f r : Feature} : r ∈ causes f ↔ f ∈ resolve [r] := by
  simp [causes, mem_everything, mem_resolve_one]

theorem build_causes {request : List Feature} {f : Feature} :
    (build request).enabled f = true ↔ ∃ r ∈ request, r ∈ causes f := by
  simp only [build_enabled, mem_causes]

/-- What nothing but itself enables is off if it is not declared. -/
theorem build_undeclared {request : List Feature} (h : Valid request) {f : Feature} (hf : causes f = [f])
    (hd : f ∉ declared) : (build request).enabled f = false := by
  rw [← Bool.not_eq_true, build_causes]
  rintro ⟨r, hr, hc⟩
  rw [hf, List.mem_singleton] at hc
  subst hc
  exact hd (h _ hr)

end Verif.FeatureLemmas
