import Verif.Lemmas.ProviderDetails
import Verif.Spec.ProviderUsable
/-
When the SQLite provider can give details.
-/
namespace Verif.ProviderLemmas
open Verif Verif.Spec

variable {E : Type} {α β ε : Type}

theorem bind_eq_err {x : Outcome ε α} {f : α → Outcome ε β} {e : ε} (h : (x >>= f) = .err e) :
    x = .err e ∨ ∃ a, x = .ok a ∧ f a = .err e := by
  cases x with
  | ok a => exact .inr ⟨a, rfl, h⟩
  | err e' => cases h; exact .inl rfl
  | panic => cases h

theorem readTable_ok {t : Except Nat α} {x : α} : readTable (E := E) t = .ok x ↔ t = .ok x := by
  cases t <;> simp [readTable]

theorem readTable_err {t : Except Nat α} {e : ProvErr E} : readTable t = .err e ↔ ∃ code, e = .sql code ∧ t = .error code := by
  cases t with
  | ok x => simp [readTable]
  | error code =>
    simp only [readTable, Outcome.err.injEq, Except.error.injEq]
    constructor
    · rintro rfl; exact ⟨code, rfl, rfl⟩
    · rintro ⟨_, rfl, rfl⟩; rfl

theorem askTag_ok {canon : Str → Except E Str} {t x : Str} : askTag canon t = .ok x ↔ canon t = .ok x := by
  unfold askTag; cases canon t <;> simp

theorem askTag_err {canon : Str → Except E Str} {t : Str} {e : ProvErr E} (h : askTag canon t = .err e) :
    ∃ e', e = .registry e' ∧ canon t = .error e' := by
  unfold askTag at h
  cases hc : canon t with
  | ok x => rw [hc] at h; cases h
  | error e' => rw [hc] at h; cases h; exact ⟨e', rfl, rfl⟩

theorem askTags_accepted {canon : Str → Except E Str} : ∀ {ts xs : List Str}, askTags canon ts = .ok xs →
    ∀ t ∈ ts, ∃ x, canon t = .ok x := by
  intro ts
  induction ts with
  | nil => intro _ _ t ht; cases ht
  | cons t ts ih =>
    intro xs h t' ht'
    obtain ⟨a, h1, h2⟩ := bind_eq_ok h
    obtain ⟨as, h3, h4⟩ := bind_eq_ok h2
    rcases List.mem_cons.1 ht' with rfl | ht'
    · exact ⟨a, askTag_ok.1 h1⟩
    · exact ih h3 t' ht'

theorem askTags_err {canon : Str → Except E Str} : ∀ {ts : List Str} {e : ProvErr E}, askTags canon ts = .err e →
    ∃ t ∈ ts, ∃ e', e = .registry e' ∧ canon t = .error e' := by
  intro ts
  induction ts with
  | nil => intro e h; cases h
  | cons t ts ih =>
    intro e h
    rcases bind_eq_err h with h | ⟨a, _, h⟩
    · obtain ⟨e', h1, h2⟩ := askTag_err h
      exact ⟨t, by simp, e', h1, h2⟩
    · rcases bind_eq_err h with h | ⟨as, _, h⟩
      · obtain ⟨t', h0, e', h1, h2⟩ := ih h
        exact ⟨t', by simp [h0], e', h1, h2⟩
      · cases h

theorem askIf_ok {b : Bool} {x : ProvM E α} {y z : α} (h : askIf b x y = .ok z) : (b = true → x = .ok z) ∧ (b = false → y = z) := by
  unfold askIf at h
  cases b with
  | true => exact ⟨fun _ => h, fun h => nomatch h⟩
  | false => exact ⟨fun h => (nomatch h), fun _ => by simpa using h⟩

theorem askIf_err {b : Bool} {x : ProvM E α} {y : α} {e : ProvErr E} (h : askIf b x y = .err e) : b = true ∧ x = .err e := by
  unfold askIf at h
  cases b with
  | true => exact ⟨rfl, h⟩
  | false => cases h

/-! ### One table -/

variable {canon : Str → Except E Str} {p : Sqlite} {st : Store} {c : Str} {files : Bool × Bool}

theorem languages_ok {name : Str} {aio : Bool} (hn : p.connection (E := E) c aio = .ok name) {ls : List Str}
    (h : p.languages canon st c aio = .ok ls) : ∃ rows, (st name).contributor = .ok rows ∧
      (∀ r ∈ rows, r.component = c → ∃ x, canon r.tag = .ok x) ∧
      ∀ t, t ∈ ls ↔ ∃ r ∈ rows, r.component = c ∧ canon r.tag = .ok t := by
  unfold Sqlite.languages at h
  rw [hn, Outcome.bind_ok] at h
  obtain ⟨rows, h1, h2⟩ := bind_eq_ok h
  have hmem : ∀ t, t ∈ selectLanguages rows c ↔ ∃ r ∈ rows, r.component = c ∧ r.tag = t := by
    intro t
    unfold selectLanguages
    rw [mem_distinct, List.mem_map]
    simp only [List.mem_filter, decide_eq_true_eq, and_assoc]
  refine ⟨rows, readTable_ok.1 h1, fun r hr hrc => askTags_accepted h2 _ ((hmem _).2 ⟨r, hr, hrc, rfl⟩), fun t => ?_⟩
  rw [askTags_ok h2]
  constructor
  · rintro ⟨tag, h3, h4⟩
    obtain ⟨r, h5, h6, rfl⟩ := (hmem _).1 h3
    exact ⟨r, h5, h6, h4⟩
  · rintro ⟨r, h5, h6, h7⟩
    exact ⟨_, (hmem _).2 ⟨r, h5, h6, rfl⟩, h7⟩

theorem languages_err {name : Str} {aio : Bool} (hn : p.connection (E := E) c aio = .ok name) (hp : name ∈ places files c)
    {e : ProvErr E} (h : p.languages canon st c aio = .err e) : Fault canon st files c e := by
  unfold Sqlite.languages at h
  rw [hn, Outcome.bind_ok] at h
  rcases bind_eq_err h with h | ⟨rows, h1, h⟩
  · obtain ⟨code, rfl, hcode⟩ := readTable_err.1 h
    exact .contributor hp hcode
  · obtain ⟨t, h2, e', rfl, h3⟩ := askTags_err h
    unfold selectLanguages at h2
    rw [mem_distinct, List.mem_map] at h2
    obtain ⟨r, h4, rfl⟩ := h2
    simp only [List.mem_filter, decide_eq_true_eq] at h4
    exact .language hp (readTable_ok.1 h1) h4.1 h4.2 h3

theorem contributors_err {name tag : Str} {aio : Bool} (hn : p.connection (E := E) c aio = .ok name)
    (hp : name ∈ places files c) {e : ProvErr E} (h : p.contributors st c tag aio = .err e) : Fault canon st files c e := by
  unfold Sqlite.contributors at h
  rw [hn, Outcome.bind_ok] at h
  rcases bind_eq_err h with h | ⟨rows, h1, h⟩
  · obtain ⟨code, rfl, hcode⟩ := readTable_err.1 h
    exact .contributor hp hcode
  · cases h

theorem count_err {name tag : Str} {aio : Bool} (hn : p.connection (E := E) c aio = .ok name)
    (hp : name ∈ places files c) {e : ProvErr E} (h : p.count st c tag aio = .err e) : Fault canon st files c e := by
  unfold Sqlite.count at h
  rw [hn, Outcome.bind_ok] at h
  rcases bind_eq_err h with h | ⟨rows, h1, h⟩
  · obtain ⟨code, rfl, hcode⟩ := readTable_err.1 h
    exact .pattern hp hcode
  · cases h

theorem count_ok {name tag : Str} {aio : Bool} (hn : p.connection (E := E) c aio = .ok name) {n : Nat}
    (h : p.count (E := E) st c tag aio = .ok n) : ∃ rows, (st name).pattern = .ok rows := by
  unfold Sqlite.count at h
  rw [hn, Outcome.bind_ok] at h
  obtain ⟨rows, h1, _⟩ := bind_eq_ok h
  exact ⟨rows, readTable_ok.1 h1⟩

theorem defaultLanguage_err {name : Str} {aio : Bool} (hn : p.connection (E := E) c aio = .ok name)
    (hp : AskedForDefault st files c name) {e : ProvErr E} (h : p.defaultLanguage canon st c aio = .err e) :
    Fault canon st files c e := by
  unfold Sqlite.defaultLanguage at h
  rw [hn, Outcome.bind_ok] at h
  rcases bind_eq_err h with h | ⟨rows, h1, h⟩
  · obtain ⟨code, rfl, hcode⟩ := readTable_err.1 h
    exact .component hp hcode
  · rcases bind_eq_err h with h | ⟨_, _, h⟩
    · obtain ⟨t, h2, e', rfl, h3⟩ := askTags_err h
      unfold selectDefault at h2
      rw [List.mem_map] at h2
      obtain ⟨r, h4, rfl⟩ := h2
      simp only [List.mem_filter, decide_eq_true_eq] at h4
      exact .tag hp (readTable_ok.1 h1) h4.1 h4.2 h3
    · cases h

/-- The last tag, read. -/
theorem askTags_getLast : ∀ {ts xs : List Str}, askTags canon ts = .ok xs →
    (xs.getLast? = none ↔ ts = []) ∧ ∀ t, xs.getLast? = some t → ∃ tag, ts.getLast? = some tag ∧ canon tag = .ok t := by
  intro ts
  induction ts with
  | nil => intro xs h; cases h; simp
  | cons tag ts ih =>
    intro xs h
    obtain ⟨x, h1, h2⟩ := bind_eq_ok h
    obtain ⟨xs', h3, h4⟩ := bind_eq_ok h2
    cases h4
    have hx := askTag_ok.1 h1
    obtain ⟨i1, i2⟩ := ih h3
    refine ⟨by simp, fun t ht => ?_⟩
    cases hl : xs'.getLast? with
    | none =>
      have h5 := i1.1 hl
      have h6 := List.getLast?_eq_none_iff.1 hl
      subst h5 h6
      simp at ht
      subst ht
      exact ⟨tag, rfl, hx⟩
    | some y =>
      rw [List.getLast?_cons, hl] at ht
      simp at ht
      subst ht
      obtain ⟨tag', h5, h6⟩ := i2 y hl
      exact ⟨tag', by rw [List.getLast?_cons, h5]; rfl, h6⟩

theorem defaultLanguage_ok {name : Str} {aio : Bool} (hn : p.connection (E := E) c aio = .ok name) {x : Option Str}
    (h : p.defaultLanguage canon st c aio = .ok x) :
    (x = none → NoDefaultIn st c name) ∧ ∀ t names, x = some t → DefaultOf canon st c (name :: names) t := by
  unfold Sqlite.defaultLanguage at h
  rw [hn, Outcome.bind_ok] at h
  obtain ⟨rows, h1, h⟩ := bind_eq_ok h
  obtain ⟨ts, h2, h3⟩ := bind_eq_ok h
  cases h3
  obtain ⟨l1, l2⟩ := askTags_getLast h2
  have hrows := readTable_ok.1 h1
  unfold selectDefault at l1 l2 h2
  constructor
  · intro hx
    have := l1.1 hx
    rw [List.map_eq_nil_iff, List.filter_eq_nil_iff] at this
    exact ⟨rows, hrows, fun r hr => by simpa using this r hr⟩
  · intro t names ht
    obtain ⟨tag, e3, e4⟩ := l2 t ht
    rw [List.getLast?_map] at e3
    obtain ⟨r, e5, rfl⟩ := Option.map_eq_some_iff.1 e3
    refine .here hrows (fun r hr hid => ?_) e5 e4
    exact askTags_accepted h2 _ (List.mem_map.2 ⟨r, List.mem_filter.2 ⟨hr, by simpa using hid⟩, rfl⟩)

/-! ### One component -/

/-- The two questions for the default language, crates/provider/sqlite3/src/provider.rs:1026-1044. -/
def Asked (canon : Str → Except E Str) (p : Sqlite) (st : Store) (c : Str) (files : Bool × Bool) : ProvM E (Option Str) := do
  let first ← askIf files.1 (p.defaultLanguage canon st c true) none
  askIf (first.isNone && files.2) (p.defaultLanguage canon st c false) first

theorem asked_ok (hc : Connected p) (hcomp : p.components.get c = some files) {x : Option Str}
    (h : Asked canon p st c files = .ok x) :
    (x = none → ∀ name ∈ places files c, NoDefaultIn st c name) ∧
      ∀ t, x = some t → DefaultOf canon st c (places files c) t := by
  obtain ⟨first, h1, h2⟩ := bind_eq_ok h
  have hs := fun hf => connection_shared (E := E) hc hcomp hf
  have ho := fun hf => connection_own (E := E) (aio := false) hc hcomp hf rfl
  obtain ⟨a, b⟩ := files
  simp only at h1 h2 hs ho
  cases a with
  | true =>
    obtain ⟨k1, k2⟩ := defaultLanguage_ok (hs rfl) ((askIf_ok h1).1 rfl)
    cases first with
    | some t =>
      simp only [Option.isNone_some, Bool.false_and] at h2
      have := (askIf_ok h2).2 rfl
      subst this
      exact ⟨fun h => (nomatch h), fun t2 ht => by cases ht; exact k2 t _ rfl⟩
    | none =>
      have k1 := k1 rfl
      cases b with
      | false =>
        have := (askIf_ok h2).2 rfl
        subst this
        exact ⟨fun _ name hn => by simp [places] at hn; rw [hn]; exact k1, fun t ht => nomatch ht⟩
      | true =>
        obtain ⟨m1, m2⟩ := defaultLanguage_ok (ho rfl) ((askIf_ok h2).1 rfl)
        refine ⟨fun hx name hn => ?_, fun t ht => .later k1 (m2 t [] ht)⟩
        simp [places] at hn
        rcases hn with rfl | rfl
        · exact k1
        · exact m1 hx
  | false =>
    have := (askIf_ok h1).2 rfl
    subst this
    cases b with
    | false =>
      have := (askIf_ok h2).2 rfl
      subst this
      exact ⟨fun _ name hn => by simp [places] at hn, fun t ht => nomatch ht⟩
    | true =>
      obtain ⟨m1, m2⟩ := defaultLanguage_ok (ho rfl) ((askIf_ok h2).1 rfl)
      refine ⟨fun hx name hn => ?_, fun t ht => m2 t [] ht⟩
      simp [places] at hn
      rw [hn]; exact m1 hx

theorem asked_err (hc : Connected p) (hcomp : p.components.get c = some files) {e : ProvErr E}
    (h : Asked canon p st c files = .err e) : Fault canon st files c e := by
  have hs := fun hf => connection_shared (E := E) hc hcomp hf
  have ho := fun hf => connection_own (E := E) (aio := false) hc hcomp hf rfl
  obtain ⟨a, b⟩ := files
  simp only at hs ho
  rcases bind_eq_err h with h | ⟨first, h1, h2⟩
  · obtain ⟨rfl, h⟩ := askIf_err h
    exact defaultLanguage_err (hs rfl) ⟨[], _, rfl, fun n hn => by cases hn⟩ h
  · obtain ⟨hb, h2⟩ := askIf_err h2
    simp only [Bool.and_eq_true, Option.isNone_iff_eq_none] at hb
    obtain ⟨rfl, rfl⟩ := hb
    refine defaultLanguage_err (ho rfl) ⟨if a then [allInOne] else [], [], rfl, fun n hn => ?_⟩ h2
    cases a with
    | false => simp at hn
    | true =>
      simp at hn
      rw [hn]
      exact (defaultLanguage_ok (hs rfl) ((askIf_ok h1).1 rfl)).1 rfl

theorem languageData_err (hc : Connected p) (hcomp : p.components.get c = some files) {tag : Str} {e : ProvErr E}
    (h : p.languageData st c files tag = .err e) : Fault canon st files c e := by
  have hs := fun hf => connection_shared (E := E) hc hcomp hf
  have ho := fun hf => connection_own (E := E) (aio := false) hc hcomp hf rfl
  have ps : files.1 = true → allInOne ∈ places files c := fun hf => by simp [places, hf]
  have po : files.2 = true → c ∈ places files c := fun hf => by simp [places, hf]
  unfold Sqlite.languageData at h
  rcases bind_eq_err h with h | ⟨_, _, h⟩
  · obtain ⟨hf, h⟩ := askIf_err h
    exact contributors_err (hs hf) (ps hf) h
  rcases bind_eq_err h with h | ⟨_, _, h⟩
  · obtain ⟨hf, h⟩ := askIf_err h
    exact contributors_err (ho hf) (po hf) h
  rcases bind_eq_err h with h | ⟨_, _, h⟩
  · obtain ⟨hf, h⟩ := askIf_err h
    exact count_err (hs hf) (ps hf) h
  rcases bind_eq_err h with h | ⟨_, _, h⟩
  · obtain ⟨hf, h⟩ := askIf_err h
    exact count_err (ho hf) (po hf) h
  · cases h

theorem languageData_ok (hc : Connected p) (hcomp : p.components.get c = some files) {tag : Str} {d : LanguageData}
    (h : p.languageData (E := E) st c files tag = .ok d) : ∀ name ∈ places files c, ∃ rows, (st name).pattern = .ok rows := by
  have hs := fun hf => connection_shared (E := E) hc hcomp hf
  have ho := fun hf => connection_own (E := E) (aio := false) hc hcomp hf rfl
  obtain ⟨_, _, h⟩ := bind_eq_ok h
  obtain ⟨_, _, h⟩ := bind_eq_ok h
  obtain ⟨_, h1, h⟩ := bind_eq_ok h
  obtain ⟨_, h2, h⟩ := bind_eq_ok h
  intro name hn
  simp only [places, List.mem_append] at hn
  rcases hn with hn | hn
  · by_cases hf : files.1 = true
    · simp [hf] at hn
      rw [hn]
      exact count_ok (hs hf) ((askIf_ok h1).1 hf)
    · simp [hf] at hn
  · by_cases hf : files.2 = true
    · simp [hf] at hn
      rw [hn]
      exact count_ok (ho hf) ((askIf_ok h2).1 hf)
    · simp [hf] at hn

theorem countLanguages_err (hc : Connected p) (hcomp : p.components.get c = some files) :
    ∀ {tags : List Str} {own : ComponentDetails} {repo : RepositoryDetails} {e : ProvErr E},
    p.countLanguages st c files tags own repo = .err e → Fault canon st files c e := by
  intro tags
  induction tags with
  | nil => intro own repo e h; cases h
  | cons t tags ih =>
    intro own repo e h
    unfold Sqlite.countLanguages at h
    rcases bind_eq_err h with h | ⟨_, _, h⟩
    · unfold Outcome.unwrap at h; split at h <;> cases h
    rcases bind_eq_err h with h | ⟨_, _, h⟩
    · exact languageData_err hc hcomp h
    rcases bind_eq_err h with h | ⟨_, _, h⟩
    · unfold Outcome.unwrap at h; split at h <;> cases h
    exact ih h

theorem componentLanguages_contributed (hc : Connected p) (hcomp : p.components.get c = some files) {first second : List Str}
    (h1 : askIf files.1 (p.languages canon st c true) [] = .ok first)
    (h2 : askIf files.2 (p.languages canon st c false) [] = .ok second) :
    (∀ name ∈ places files c, ∃ rows, (st name).contributor = .ok rows ∧
      ∀ r ∈ rows, r.component = c → ∃ x, canon r.tag = .ok x) ∧
    ∀ t, Contributed canon st c (places files c) t ↔ t ∈ first ∨ t ∈ second := by
  have hs := fun hf => connection_shared (E := E) hc hcomp hf
  have ho := fun hf => connection_own (E := E) (aio := false) hc hcomp hf rfl
  obtain ⟨a, b⟩ := files
  simp only at h1 h2 hs ho
  have one : ∀ {name : Str} {ls : List Str}, (∃ rows, (st name).contributor = .ok rows ∧
      (∀ r ∈ rows, r.component = c → ∃ x, canon r.tag = .ok x) ∧
      ∀ t, t ∈ ls ↔ ∃ r ∈ rows, r.component = c ∧ canon r.tag = .ok t) →
      ∀ t, (∃ rows, (st name).contributor = .ok rows ∧ ∃ r ∈ rows, r.component = c ∧ canon r.tag = .ok t) ↔ t ∈ ls := by
    rintro name ls ⟨rows, g1, g2, g3⟩ t
    rw [g3]
    constructor
    · rintro ⟨rows', g4, g5⟩
      rw [g1] at g4; cases g4
      exact g5
    · intro g5; exact ⟨rows, g1, g5⟩
  cases a <;> cases b
  · have e1 := (askIf_ok h1).2 rfl
    have e2 := (askIf_ok h2).2 rfl
    subst e1 e2
    exact ⟨fun _ hn => by simp [places] at hn, fun t => by simp [Contributed, places]⟩
  · have e1 := (askIf_ok h1).2 rfl
    subst e1
    have g := languages_ok (ho rfl) ((askIf_ok h2).1 rfl)
    refine ⟨fun _ hn => ?_, fun t => ?_⟩
    · simp [places] at hn
      rw [hn]
      obtain ⟨rows, g1, g2, _⟩ := g
      exact ⟨rows, g1, g2⟩
    · simp only [Contributed, places, Bool.false_eq_true, if_false, if_true, List.nil_append, List.mem_singleton,
        exists_eq_left, List.not_mem_nil, false_or]
      exact one g t
  · have e2 := (askIf_ok h2).2 rfl
    subst e2
    have g := languages_ok (hs rfl) ((askIf_ok h1).1 rfl)
    refine ⟨fun _ hn => ?_, fun t => ?_⟩
    · simp [places] at hn
      rw [hn]
      obtain ⟨rows, g1, g2, _⟩ := g
      exact ⟨rows, g1, g2⟩
    · simp only [Contributed, places, Bool.false_eq_true, if_false, if_true, List.append_nil, List.mem_singleton,
        exists_eq_left, List.not_mem_nil, or_false]
      exact one g t
  · have g := languages_ok (hs rfl) ((askIf_ok h1).1 rfl)
    have k := languages_ok (ho rfl) ((askIf_ok h2).1 rfl)
    refine ⟨fun _ hn => ?_, fun t => ?_⟩
    · simp [places] at hn
      rcases hn with rfl | rfl
      · obtain ⟨rows, g1, g2, _⟩ := g
        exact ⟨rows, g1, g2⟩
      · obtain ⟨rows, g1, g2, _⟩ := k
        exact ⟨rows, g1, g2⟩
    · simp only [Contributed, places, if_true, List.cons_append, List.nil_append, List.mem_cons, List.not_mem_nil, or_false]
      rw [← one g t, ← one k t]
      constructor
      · rintro ⟨name, rfl | rfl, h⟩
        · exact .inl h
        · exact .inr h
      · rintro (h | h)
        · exact ⟨_, .inl rfl, h⟩
        · exact ⟨_, .inr rfl, h⟩

theorem buildComponent_err (hc : Connected p) (hcomp : p.components.get c = some files) {repo : RepositoryDetails}
    {e : ProvErr E} (h : p.buildComponent canon st c files repo = .err e) : Fault canon st files c e := by
  have hs := fun hf => connection_shared (E := E) hc hcomp hf
  have ho := fun hf => connection_own (E := E) (aio := false) hc hcomp hf rfl
  have ps : files.1 = true → allInOne ∈ places files c := fun hf => by simp [places, hf]
  have po : files.2 = true → c ∈ places files c := fun hf => by simp [places, hf]
  unfold Sqlite.buildComponent at h
  rcases bind_eq_err h with h | ⟨und, _, h⟩
  · obtain ⟨e', rfl, hund⟩ := askTag_err h
    exact .undetermined hund
  rcases bind_eq_err h with h | ⟨⟨ls, own0, all⟩, h2, h⟩
  · unfold Sqlite.componentLanguages at h
    rcases bind_eq_err h with h | ⟨_, _, h⟩
    · obtain ⟨hf, h⟩ := askIf_err h
      exact languages_err (hs hf) (ps hf) h
    rcases bind_eq_err h with h | ⟨_, _, h⟩
    · obtain ⟨hf, h⟩ := askIf_err h
      exact languages_err (ho hf) (po hf) h
    · cases h
  rcases bind_eq_err h with h | ⟨first, h3, h⟩
  · exact asked_err hc hcomp (by unfold Asked; rw [h]; rfl)
  rcases bind_eq_err h with h | ⟨def?, h4, h⟩
  · exact asked_err hc hcomp (by unfold Asked; rw [h3]; exact h)
  have hask : Asked canon p st c files = .ok def? := by unfold Asked; rw [h3]; exact h4
  obtain ⟨k1, k2⟩ := asked_ok hc hcomp hask
  cases def? with
  | none => cases h; exact .noDefault (k1 rfl)
  | some d =>
    simp only at h
    split at h
    · next hdef =>
      cases h
      obtain ⟨f, s, a1, a2, a3, a4, a5, a6, a7⟩ := componentLanguages_ok h2
      refine .notContributed (k2 d rfl) fun hcon => ?_
      have := ((componentLanguages_contributed hc hcomp a1 a2).2 d).1 hcon
      rw [← mem_union, ← a3, ← a6, AMap.mem_keys_iff] at this
      obtain ⟨v, hv⟩ := this
      simp [hv] at hdef
    · rcases bind_eq_err h with h | ⟨details, _, h⟩
      · exact countLanguages_err hc hcomp h
      rcases bind_eq_err h with h | ⟨_, _, h⟩
      · unfold Outcome.unwrap at h; split at h <;> cases h
      · cases h

theorem buildComponent_usable (hc : Connected p) (hcomp : p.components.get c = some files) {repo : RepositoryDetails}
    {x : ComponentDetails × RepositoryDetails} (h : p.buildComponent canon st c files repo = .ok x) :
    Usable canon st files c := by
  obtain ⟨own, repo'⟩ := x
  have hb := (buildComponent_ok h).1
  obtain ⟨first, second, a1, a2, a3⟩ := hb.languages
  obtain ⟨k1, k2⟩ := componentLanguages_contributed hc hcomp a1 a2
  obtain ⟨d, hd, _⟩ := hb.data _ hb.default
  obtain ⟨f, f1, f2⟩ := hb.defaultFrom
  refine ⟨?_, k1, languageData_ok hc hcomp hd, own.default, ?_, (k2 _).2 ((a3 _).1 hb.default)⟩
  · unfold Sqlite.buildComponent at h
    obtain ⟨und, h1, _⟩ := bind_eq_ok h
    exact ⟨und, askTag_ok.1 h1⟩
  · exact (asked_ok hc hcomp (by unfold Asked; rw [f1]; exact f2)).2 _ rfl

/-! ### A usable component has no fault -/

theorem DefaultOf.unique {names : List Str} {t t' : Str} (h : DefaultOf canon st c names t) (h' : DefaultOf canon st c names t') :
    t = t' := by
  induction h with
  | here h1 h2 h3 h4 =>
    cases h' with
    | here g1 g2 g3 g4 =>
      rw [h1] at g1; cases g1
      rw [h3] at g3; cases g3
      rw [h4] at g4; cases g4; rfl
    | later g1 g2 =>
      obtain ⟨rows, g1, g3⟩ := g1
      rw [h1] at g1; cases g1
      have := List.mem_filter.1 (List.mem_of_getLast? h3)
      exact absurd (by simpa using this.2) (g3 _ this.1)
  | later h1 h2 ih =>
    cases h' with
    | here g1 g2 g3 g4 =>
      obtain ⟨rows, h1, h3⟩ := h1
      rw [h1] at g1; cases g1
      have := List.mem_filter.1 (List.mem_of_getLast? g3)
      exact absurd (by simpa using this.2) (h3 _ this.1)
    | later g1 g2 => exact ih g2

/-- Each database that is asked can be read, up to the one that decides. -/
theorem DefaultOf.asked {name : Str} {t : Str} : ∀ {before after : List Str},
    DefaultOf canon st c (before ++ name :: after) t → (∀ n ∈ before, NoDefaultIn st c n) →
    ∃ rows, (st name).component = .ok rows ∧ ∀ r ∈ rows, r.identifier = c → ∃ x, canon r.tag = .ok x := by
  intro before
  induction before with
  | nil =>
    intro after h _
    cases h with
    | here g1 g2 _ _ => exact ⟨_, g1, g2⟩
    | later g1 _ =>
      obtain ⟨rows, g1, g2⟩ := g1
      exact ⟨rows, g1, fun r hr hc => absurd hc (g2 r hr)⟩
  | cons b before ih =>
    intro after h hb
    cases h with
    | here g1 g2 g3 g4 =>
      obtain ⟨rows, h1, h3⟩ := hb b (by simp)
      rw [h1] at g1; cases g1
      have := List.mem_filter.1 (List.mem_of_getLast? g3)
      exact absurd (by simpa using this.2) (h3 _ this.1)
    | later g1 g2 => exact ih g2 fun n hn => hb n (by simp [hn])

theorem DefaultOf.not_none {names : List Str} {t : Str} (h : DefaultOf canon st c names t) :
    ¬ ∀ n ∈ names, NoDefaultIn st c n := by
  induction h with
  | here g1 g2 g3 g4 =>
    intro hn
    obtain ⟨rows, h1, h3⟩ := hn _ List.mem_cons_self
    rw [h1] at g1; cases g1
    have := List.mem_filter.1 (List.mem_of_getLast? g3)
    exact absurd (by simpa using this.2) (h3 _ this.1)
  | later _ _ ih => exact fun hn => ih fun n hm => hn n (by simp [hm])

theorem Usable.no_fault (h : Usable canon st files c) {e : ProvErr E} : ¬ Fault canon st files c e := by
  obtain ⟨t, h1, h2⟩ := h.default
  intro hf
  cases hf with
  | undetermined g =>
    obtain ⟨x, hx⟩ := h.undetermined
    rw [g] at hx; cases hx
  | contributor g1 g2 =>
    obtain ⟨rows, hx, _⟩ := h.contributor _ g1
    rw [g2] at hx; cases hx
  | language g1 g2 g3 g4 g5 =>
    obtain ⟨rows, hx, hy⟩ := h.contributor _ g1
    rw [g2] at hx; cases hx
    obtain ⟨x, hx⟩ := hy _ g3 g4
    rw [g5] at hx; cases hx
  | component g1 g2 =>
    obtain ⟨before, after, g3, g4⟩ := g1
    rw [g3] at h1
    obtain ⟨rows, hx, _⟩ := DefaultOf.asked h1 g4
    rw [g2] at hx; cases hx
  | tag g1 g2 g3 g4 g5 =>
    obtain ⟨before, after, g6, g7⟩ := g1
    rw [g6] at h1
    obtain ⟨rows, hx, hy⟩ := DefaultOf.asked h1 g7
    rw [g2] at hx; cases hx
    obtain ⟨x, hx⟩ := hy _ g3 g4
    rw [g5] at hx; cases hx
  | noDefault g => exact DefaultOf.not_none h1 g
  | notContributed g1 g2 =>
    rw [DefaultOf.unique g1 h1] at g2
    exact g2 h2
  | pattern g1 g2 =>
    obtain ⟨rows, hx⟩ := h.pattern _ g1
    rw [g2] at hx; cases hx

/-! ### All components -/

theorem buildComponents_usable (hc : Connected p) (hk : p.components.keys.Nodup) :
    ∀ {rest : List (Str × Bool × Bool)} {done : AMap Str ComponentDetails} {repo : RepositoryDetails}
      {x : AMap Str ComponentDetails × RepositoryDetails}, (∀ y ∈ rest, y ∈ p.components) →
    p.buildComponents canon st rest done repo = .ok x → ∀ y ∈ rest, Usable canon st y.2 y.1 := by
  intro rest
  induction rest with
  | nil => intro _ _ _ _ _ y hy; cases hy
  | cons a rest ih =>
    obtain ⟨c, files⟩ := a
    intro done repo x hsub h y hy
    unfold Sqlite.buildComponents at h
    obtain ⟨⟨own, repo1⟩, h1, h⟩ := bind_eq_ok h
    rcases List.mem_cons.1 hy with rfl | hy
    · exact buildComponent_usable hc (AMap.get_of_mem hk (hsub _ (by simp))) h1
    · exact ih (fun y hy => hsub y (by simp [hy])) h y hy

theorem buildComponents_err (hc : Connected p) (hk : p.components.keys.Nodup) :
    ∀ {rest : List (Str × Bool × Bool)} {done : AMap Str ComponentDetails} {repo : RepositoryDetails}
      {e : ProvErr E}, (∀ y ∈ rest, y ∈ p.components) →
    p.buildComponents canon st rest done repo = .err e → ∃ y ∈ rest, Fault canon st y.2 y.1 e := by
  intro rest
  induction rest with
  | nil => intro _ _ _ _ h; cases h
  | cons a rest ih =>
    obtain ⟨c, files⟩ := a
    intro done repo e hsub h
    unfold Sqlite.buildComponents at h
    rcases bind_eq_err h with h | ⟨⟨own, repo1⟩, _, h⟩
    · exact ⟨_, List.mem_cons_self, buildComponent_err hc (AMap.get_of_mem hk (hsub _ List.mem_cons_self)) h⟩
    · obtain ⟨y, hy, hf⟩ := ih (fun y hy => hsub y (by simp [hy])) h
      exact ⟨y, by simp [hy], hf⟩

theorem buildCache_err (hc : Connected p) (hk : p.components.keys.Nodup) {e : ProvErr E}
    (h : p.buildCache canon st = .err e) : ∃ c files, p.components.get c = some files ∧ Fault canon st files c e := by
  unfold Sqlite.buildCache at h
  rcases bind_eq_err h with h | ⟨⟨details, repo⟩, _, h⟩
  · obtain ⟨y, hy, hf⟩ := buildComponents_err hc hk (fun y hy => hy) h
    exact ⟨y.1, y.2, AMap.get_of_mem hk hy, hf⟩
  · simp only at h
    split at h
    · cases h
    · rcases bind_eq_err h with h | ⟨_, _, h⟩
      · unfold Outcome.unwrap at h; split at h <;> cases h
      · cases h

theorem buildCache_iff (hc : Connected p) (hk : p.components.keys.Nodup) :
    (∃ x, p.buildCache canon st = .ok x) ↔ ∀ c files, p.components.get c = some files → Usable canon st files c := by
  constructor
  · rintro ⟨x, h⟩ c files hcomp
    unfold Sqlite.buildCache at h
    obtain ⟨y, h1, _⟩ := bind_eq_ok h
    exact buildComponents_usable hc hk (fun y hy => hy) h1 _ (AMap.mem_of_get hcomp)
  · intro hu
    cases h : p.buildCache canon st with
    | ok x => exact ⟨x, rfl⟩
    | panic => exact absurd h (buildCache_ne_panic hc hk st)
    | err e =>
      obtain ⟨c, files, h1, h2⟩ := buildCache_err hc hk h
      exact absurd h2 (Usable.no_fault (hu c files h1))

end Verif.ProviderLemmas
