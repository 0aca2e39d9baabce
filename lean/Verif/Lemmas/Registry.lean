import Verif.Model.Registry
/-
Helper lemmas for the sequential language tag registry.
-/
namespace Verif.RegistryLemmas
open Verif
variable {E : Type}

/-- Canonicalising a canonical form changes nothing. -/
def Idem (canon : Str → Except E Str) : Prop := ∀ q c, canon q = .ok c → canon c = .ok c

/-- Invariant of a registry which served the requests `qs`. -/
structure Inv (canon : Str → Except E Str) (qs : List Str) (r : Registry) : Prop where
  tagsNodup : r.tags.keys.Nodup
  depNodup : r.deprecated.keys.Nodup
  tagsText : ∀ k h, r.tags.get k = some h → h.text = k ∧ h.addr < r.nextAddr
  tagsKeys : ∀ k, k ∈ r.tags.keys ↔ ∃ q ∈ qs, canon q = .ok k
  tagsInj : ∀ k k' h h', r.tags.get k = some h → r.tags.get k' = some h' → h.addr = h'.addr → k = k'
  depKeys : ∀ k, k ∈ r.deprecated.keys ↔ k ∈ qs ∧ ∃ c, canon k = .ok c ∧ c ≠ k
  depVal : ∀ k h, r.deprecated.get k = some h → canon k = .ok h.text ∧ r.tags.get h.text = some h

theorem inv_new (canon : Str → Except E Str) : Inv canon [] Registry.new := by
  constructor <;> simp [Registry.new, AMap.keys]

/-- What one request does. -/
theorem tag_spec (canon : Str → Except E Str) (hid : Idem canon) (qs : List Str) (r : Registry) (q : Str)
    (hi : Inv canon qs r) :
    Inv canon (qs ++ [q]) (r.tag canon q).2 ∧
    (∀ e, canon q = .error e → r.tag canon q = (.error e, r)) ∧
    (∀ c, canon q = .ok c → ∃ h, (r.tag canon q).1 = .ok h ∧ h.text = c ∧
      (r.tag canon q).2.tags.get c = some h) ∧
    (∀ k h, r.tags.get k = some h → (r.tag canon q).2.tags.get k = some h) := by
  cases h1 : r.tags.get q with
  | some h =>
    have e : r.tag canon q = (.ok h, r) := by simp [Registry.tag, h1]
    have hk : q ∈ r.tags.keys := (AMap.mem_keys_iff _ _).2 ⟨h, h1⟩
    obtain ⟨q0, hq0, hc0⟩ := (hi.tagsKeys q).1 hk
    have hcq : canon q = .ok q := hid _ _ hc0
    rw [e]
    refine ⟨?_, ?_, ?_, fun k h hk => hk⟩
    · constructor
      · exact hi.tagsNodup
      · exact hi.depNodup
      · exact hi.tagsText
      · intro k
        rw [hi.tagsKeys]
        constructor
        · rintro ⟨x, hx, hx2⟩; exact ⟨x, by simp [hx], hx2⟩
        · rintro ⟨x, hx, hx2⟩
          rcases List.mem_append.1 hx with hx | hx
          · exact ⟨x, hx, hx2⟩
          · simp at hx; subst hx
            rw [hcq] at hx2; cases hx2; exact ⟨q0, hq0, hc0⟩
      · exact hi.tagsInj
      · intro k
        rw [hi.depKeys]
        constructor
        · rintro ⟨a, b⟩; exact ⟨by simp [a], b⟩
        · rintro ⟨a, c, b, d⟩
          rcases List.mem_append.1 a with a | a
          · exact ⟨a, c, b, d⟩
          · simp at a; subst a
            rw [hcq] at b; cases b; exact absurd rfl d
      · exact hi.depVal
    · intro x hx; rw [hcq] at hx; cases hx
    · intro c hc; rw [hcq] at hc; cases hc
      exact ⟨h, rfl, (hi.tagsText _ _ h1).1, h1⟩
  | none =>
    cases h2 : r.deprecated.get q with
    | some h =>
      have e : r.tag canon q = (.ok h, r) := by simp [Registry.tag, h1, h2]
      obtain ⟨hcq, hth⟩ := hi.depVal _ _ h2
      have hk : q ∈ r.deprecated.keys := (AMap.mem_keys_iff _ _).2 ⟨h, h2⟩
      have hq := ((hi.depKeys q).1 hk).1
      rw [e]
      refine ⟨?_, ?_, ?_, fun k h hk => hk⟩
      · constructor
        · exact hi.tagsNodup
        · exact hi.depNodup
        · exact hi.tagsText
        · intro k
          rw [hi.tagsKeys]
          constructor
          · rintro ⟨x, hx, hx2⟩; exact ⟨x, by simp [hx], hx2⟩
          · rintro ⟨x, hx, hx2⟩
            rcases List.mem_append.1 hx with hx | hx
            · exact ⟨x, hx, hx2⟩
            · simp at hx; subst hx; exact ⟨x, hq, hx2⟩
        · exact hi.tagsInj
        · intro k
          rw [hi.depKeys]
          constructor
          · rintro ⟨a, b⟩; exact ⟨by simp [a], b⟩
          · rintro ⟨a, b⟩
            rcases List.mem_append.1 a with a | a
            · exact ⟨a, b⟩
            · simp at a; subst a; exact ⟨hq, b⟩
        · exact hi.depVal
      · intro x hx; rw [hcq] at hx; cases hx
      · intro c hc; rw [hcq] at hc; cases hc
        exact ⟨h, rfl, rfl, hth⟩
    | none =>
      cases hc : canon q with
      | error err =>
        have e : r.tag canon q = (.error err, r) := by simp [Registry.tag, h1, h2, hc]
        rw [e]
        refine ⟨?_, ?_, ?_, fun k h hk => hk⟩
        · constructor
          · exact hi.tagsNodup
          · exact hi.depNodup
          · exact hi.tagsText
          · intro k
            rw [hi.tagsKeys]
            constructor
            · rintro ⟨x, hx, hx2⟩; exact ⟨x, by simp [hx], hx2⟩
            · rintro ⟨x, hx, hx2⟩
              rcases List.mem_append.1 hx with hx | hx
              · exact ⟨x, hx, hx2⟩
              · simp at hx; subst hx; rw [hc] at hx2; cases hx2
          · exact hi.tagsInj
          · intro k
            rw [hi.depKeys]
            constructor
            · rintro ⟨a, b⟩; exact ⟨by simp [a], b⟩
            · rintro ⟨a, c, b, d⟩
              rcases List.mem_append.1 a with a | a
              · exact ⟨a, c, b, d⟩
              · simp at a; subst a; rw [hc] at b; cases b
          · exact hi.depVal
        · intro x hx; cases hx; rfl
        · intro c hc'; cases hc'
      | ok c =>
        cases h3 : r.tags.get c with
        | some h =>
          have e : r.tag canon q = (.ok h, { r with deprecated := r.deprecated.insert q h }) := by
            simp [Registry.tag, h1, h2, hc, h3]
          have htext := (hi.tagsText _ _ h3).1
          have hne : c ≠ q := by
            rintro rfl; rw [h1] at h3; cases h3
          rw [e]
          refine ⟨?_, ?_, ?_, fun k h hk => hk⟩
          · constructor
            · exact hi.tagsNodup
            · exact AMap.nodup_insert _ _ hi.depNodup
            · exact hi.tagsText
            · intro k
              show k ∈ r.tags.keys ↔ _
              rw [hi.tagsKeys]
              constructor
              · rintro ⟨x, hx, hx2⟩; exact ⟨x, by simp [hx], hx2⟩
              · rintro ⟨x, hx, hx2⟩
                rcases List.mem_append.1 hx with hx | hx
                · exact ⟨x, hx, hx2⟩
                · simp at hx; subst hx
                  rw [hc] at hx2; cases hx2
                  exact (hi.tagsKeys c).1 ((AMap.mem_keys_iff _ _).2 ⟨h, h3⟩)
            · exact hi.tagsInj
            · intro k
              show k ∈ (r.deprecated.insert q h).keys ↔ _
              rw [AMap.mem_keys_insert, hi.depKeys]
              constructor
              · rintro (rfl | ⟨a, b⟩)
                · exact ⟨by simp, c, hc, hne⟩
                · exact ⟨by simp [a], b⟩
              · rintro ⟨a, b⟩
                rcases List.mem_append.1 a with a | a
                · exact Or.inr ⟨a, b⟩
                · simp at a; exact Or.inl a
            · intro k h' hk
              show canon k = .ok h'.text ∧ r.tags.get h'.text = some h'
              change (r.deprecated.insert q h).get k = some h' at hk
              rw [AMap.get_insert] at hk
              by_cases hqk : q = k
              · subst hqk; simp at hk; subst hk
                rw [htext]; exact ⟨hc, h3⟩
              · simp [hqk] at hk; exact hi.depVal _ _ hk
          · intro x hx; cases hx
          · intro c' hc'; cases hc'
            exact ⟨h, rfl, htext, h3⟩
        | none =>
          have e : r.tag canon q = (.ok { addr := r.nextAddr, text := c },
              { tags := r.tags.insert c { addr := r.nextAddr, text := c }
                deprecated := if q ≠ c then r.deprecated.insert q { addr := r.nextAddr, text := c }
                  else r.deprecated
                nextAddr := r.nextAddr + 1 }) := by
            by_cases hqc : q = c
            · subst hqc; simp [Registry.tag, h1, h2, hc]
            · simp [Registry.tag, h1, h2, hc, h3, hqc]
          rw [e]
          have hkeep : ∀ k h, r.tags.get k = some h →
              (r.tags.insert c { addr := r.nextAddr, text := c }).get k = some h := by
            intro k h hk
            rw [AMap.get_insert_ne _ _ (by rintro rfl; rw [h3] at hk; cases hk)]
            exact hk
          refine ⟨?_, ?_, ?_, hkeep⟩
          · constructor
            · exact AMap.nodup_insert _ _ hi.tagsNodup
            · show (AMap.keys (if q ≠ c then _ else _)).Nodup
              split
              · exact AMap.nodup_insert _ _ hi.depNodup
              · exact hi.depNodup
            · intro k h hk
              change (r.tags.insert c { addr := r.nextAddr, text := c }).get k = some h at hk
              show h.text = k ∧ h.addr < r.nextAddr + 1
              rw [AMap.get_insert] at hk
              by_cases hck : c = k
              · simp [hck] at hk; subst hk; exact ⟨rfl, Nat.lt_succ_self _⟩
              · simp [hck] at hk
                have := hi.tagsText _ _ hk
                exact ⟨this.1, Nat.lt_succ_of_lt this.2⟩
            · intro k
              show k ∈ (r.tags.insert c _).keys ↔ _
              rw [AMap.mem_keys_insert, hi.tagsKeys]
              constructor
              · rintro (rfl | ⟨x, hx, hx2⟩)
                · exact ⟨q, by simp, hc⟩
                · exact ⟨x, by simp [hx], hx2⟩
              · rintro ⟨x, hx, hx2⟩
                rcases List.mem_append.1 hx with hx | hx
                · exact Or.inr ⟨x, hx, hx2⟩
                · simp at hx; subst hx; rw [hc] at hx2; cases hx2; exact Or.inl rfl
            · intro k k' h h' hk hk' ha
              change (r.tags.insert c _).get k = some h at hk
              change (r.tags.insert c _).get k' = some h' at hk'
              rw [AMap.get_insert] at hk hk'
              by_cases hck : c = k
              · by_cases hck' : c = k'
                · rw [← hck, hck']
                · simp [hck] at hk; simp [hck'] at hk'
                  have := (hi.tagsText _ _ hk').2
                  subst hk; simp at ha; omega
              · by_cases hck' : c = k'
                · simp [hck] at hk; simp [hck'] at hk'
                  have := (hi.tagsText _ _ hk).2
                  subst hk'; simp at ha; omega
                · simp [hck] at hk; simp [hck'] at hk'
                  exact hi.tagsInj _ _ _ _ hk hk' ha
            · intro k
              show k ∈ AMap.keys (if q ≠ c then _ else _) ↔ _
              by_cases hqc : q = c
              · rw [if_neg (by simpa using hqc), hi.depKeys]
                constructor
                · rintro ⟨a, b⟩; exact ⟨by simp [a], b⟩
                · rintro ⟨a, c', b, d⟩
                  rcases List.mem_append.1 a with a | a
                  · exact ⟨a, c', b, d⟩
                  · simp at a; subst a; rw [hc] at b; cases b; exact absurd hqc.symm d
              · rw [if_pos hqc, AMap.mem_keys_insert, hi.depKeys]
                constructor
                · rintro (rfl | ⟨a, b⟩)
                  · exact ⟨by simp, c, hc, fun e => hqc e.symm⟩
                  · exact ⟨by simp [a], b⟩
                · rintro ⟨a, b⟩
                  rcases List.mem_append.1 a with a | a
                  · exact Or.inr ⟨a, b⟩
                  · simp at a; exact Or.inl a
            · intro k h hk
              show canon k = .ok h.text ∧ (r.tags.insert c _).get h.text = some h
              change AMap.get (if q ≠ c then _ else _) k = some h at hk
              by_cases hqc : q = c
              · rw [if_neg (by simpa using hqc)] at hk
                have := hi.depVal _ _ hk
                exact ⟨this.1, hkeep _ _ this.2⟩
              · rw [if_pos hqc, AMap.get_insert] at hk
                by_cases hqk : q = k
                · simp [hqk] at hk; subst hk
                  exact ⟨by rw [← hqk]; exact hc, by simp [AMap.get_insert]⟩
                · simp [hqk] at hk
                  have := hi.depVal _ _ hk
                  exact ⟨this.1, hkeep _ _ this.2⟩
          · intro x hx; cases hx
          · intro c' hc'; cases hc'
            exact ⟨_, rfl, rfl, by simp [AMap.get_insert]⟩

/-- What a run of requests does. -/
theorem run_spec (canon : Str → Except E Str) (hid : Idem canon) (qs : List Str) : ∀ (ps : List Str) (r : Registry),
    Inv canon ps r →
    Inv canon (ps ++ qs) (r.run canon qs).2 ∧
    (∀ k h, r.tags.get k = some h → (r.run canon qs).2.tags.get k = some h) ∧
    (r.run canon qs).1.map Prod.fst = qs ∧
    (∀ q a, (q, a) ∈ (r.run canon qs).1 →
      match canon q with
      | .error e => a = .error e
      | .ok c => ∃ h, a = .ok h ∧ h.text = c ∧ (r.run canon qs).2.tags.get c = some h) := by
  induction qs with
  | nil => intro ps r h; simpa [Registry.run] using h
  | cons q qs ih =>
    intro ps r h
    obtain ⟨h1, h2, h3, h4⟩ := tag_spec canon hid ps r q h
    obtain ⟨i1, i2, i3, i4⟩ := ih _ _ h1
    simp only [Registry.run]
    refine ⟨by simpa using i1, fun k hh hk => i2 _ _ (h4 _ _ hk), by simp [i3], ?_⟩
    intro q' a hmem
    rcases List.mem_cons.1 hmem with hmem | hmem
    · cases hmem
      cases hc : canon q with
      | error e => simp only; rw [h2 e hc]
      | ok c =>
        obtain ⟨hh, ha, hb, hd⟩ := h3 c hc
        exact ⟨hh, ha, hb, i2 _ _ hd⟩
    · exact i4 q' a hmem

/-! ICU cache -/

structure IcuInv {L : Type} (parse : Str → Option L) (m : IcuCache L) : Prop where
  val : ∀ k a l, m.entries.get k = some (a, l) → parse k = some l ∧ a < m.nextAddr
  inj : ∀ k k' a l l', m.entries.get k = some (a, l) → m.entries.get k' = some (a, l') → k = k'

theorem icu_spec {L : Type} (parse : Str → Option L) (m : IcuCache L) (t : TagRef) (hi : IcuInv parse m) :
    IcuInv parse (m.icuLanguage parse t).2 ∧
    (∀ k v, m.entries.get k = some v → (m.icuLanguage parse t).2.entries.get k = some v) ∧
    ((m.icuLanguage parse t).1.map Prod.snd = parse t.text) ∧
    (∀ v, (m.icuLanguage parse t).1 = some v → (m.icuLanguage parse t).2.entries.get t.text = some v) := by
  cases h1 : m.entries.get t.text with
  | some v =>
    obtain ⟨a, l⟩ := v
    have e : m.icuLanguage parse t = (some (a, l), m) := by simp [IcuCache.icuLanguage, h1]
    rw [e]
    refine ⟨hi, fun _ _ h => h, ?_, ?_⟩
    · simp [(hi.val _ _ _ h1).1]
    · intro v hv; cases hv; exact h1
  | none =>
    cases h2 : parse t.text with
    | none =>
      have e : m.icuLanguage parse t = (none, m) := by simp [IcuCache.icuLanguage, h1, h2]
      rw [e]
      exact ⟨hi, fun _ _ h => h, by simp, by simp⟩
    | some l =>
      have e : m.icuLanguage parse t = (some (m.nextAddr, l),
          { entries := m.entries.insert t.text (m.nextAddr, l), nextAddr := m.nextAddr + 1 }) := by
        simp [IcuCache.icuLanguage, h1, h2]
      rw [e]
      refine ⟨⟨?_, ?_⟩, ?_, by simp, ?_⟩
      · intro k a l' hk
        simp only [AMap.get_insert] at hk
        by_cases hkk : t.text = k
        · simp [hkk] at hk; obtain ⟨rfl, rfl⟩ := hk; rw [← hkk]; exact ⟨h2, Nat.lt_succ_self _⟩
        · simp [hkk] at hk
          have := hi.val _ _ _ hk
          exact ⟨this.1, Nat.lt_succ_of_lt this.2⟩
      · intro k k' a l1 l2 hk hk'
        simp only [AMap.get_insert] at hk hk'
        by_cases hkk : t.text = k
        · by_cases hkk' : t.text = k'
          · rw [← hkk, hkk']
          · simp [hkk] at hk; simp [hkk'] at hk'
            have := (hi.val _ _ _ hk').2
            omega
        · by_cases hkk' : t.text = k'
          · simp [hkk] at hk; simp [hkk'] at hk'
            have := (hi.val _ _ _ hk).2
            omega
          · simp [hkk] at hk; simp [hkk'] at hk'
            exact hi.inj _ _ _ _ _ hk hk'
      · intro k v hk
        simp only
        rw [AMap.get_insert_ne _ _ (by rintro rfl; rw [h1] at hk; cases hk)]
        exact hk
      · intro v hv; cases hv; simp [AMap.get_insert]

theorem icu_run_spec {L : Type} (parse : Str → Option L) (ts : List TagRef) : ∀ (m : IcuCache L), IcuInv parse m →
    IcuInv parse (m.run parse ts).2 ∧
    (∀ k v, m.entries.get k = some v → (m.run parse ts).2.entries.get k = some v) ∧
    (∀ t a, (t, a) ∈ (m.run parse ts).1 → a.map Prod.snd = parse t.text ∧
      ∀ v, a = some v → (m.run parse ts).2.entries.get t.text = some v) := by
  induction ts with
  | nil => intro m h; simp [IcuCache.run, h]
  | cons t ts ih =>
    intro m h
    obtain ⟨h1, h2, h3, h4⟩ := icu_spec parse m t h
    obtain ⟨i1, i2, i3⟩ := ih _ h1
    simp only [IcuCache.run]
    refine ⟨i1, fun k v hk => i2 _ _ (h2 _ _ hk), ?_⟩
    intro t' a hmem
    rcases List.mem_cons.1 hmem with hmem | hmem
    · cases hmem
      exact ⟨h3, fun v hv => i2 _ _ (h4 v hv)⟩
    · exact i3 t' a hmem

end Verif.RegistryLemmas
