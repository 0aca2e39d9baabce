import Verif.Spec.ProviderOpen
import Verif.Lemmas.ProviderDetails
/-
Lemmas on opening a directory of databases.
-/
namespace Verif.ProviderLemmas
open Verif Verif.Spec

/-! ### The schema -/

theorem columnsCheck_ok (table : Str) (row : Column) (w : Wanted) : columnsCheck table row w = .ok () ↔
    row.name = w.name ∧ row.type = w.type ∧ row.notNull = w.notNull ∧ row.primary = w.primary ∧ row.default = none := by
  unfold columnsCheck
  split
  · next h => exact ⟨(fun e => by cases e), fun e => absurd e.1 h⟩
  · next h1 =>
    split
    · next h => exact ⟨(fun e => by cases e), fun e => absurd e.2.1 h⟩
    · next h2 =>
      split
      · next h => exact ⟨(fun e => by cases e), fun e => absurd e.2.2.1 h⟩
      · next h3 =>
        split
        · next h => exact ⟨(fun e => by cases e), fun e => absurd e.2.2.2.1 h⟩
        · next h4 =>
          cases hd : row.default with
          | none =>
            exact ⟨fun _ => ⟨Decidable.not_not.1 h1, Decidable.not_not.1 h2, Decidable.not_not.1 h3, Decidable.not_not.1 h4, rfl⟩,
              fun _ => rfl⟩
          | some d =>
            simp only [Option.isSome_some, if_true]
            constructor
            · intro e; split at e <;> cases e
            · intro e; cases e.2.2.2.2

theorem checkColumns_ok (table : Str) : ∀ (rows : List Column) (ws : List Wanted),
    checkColumns table rows ws = .ok () ↔ ∀ (n : Nat) (row : Column) (w : Wanted), rows[n]? = some row → ws[n]? = some w → row.name = w.name ∧
      row.type = w.type ∧ row.notNull = w.notNull ∧ row.primary = w.primary ∧ row.default = none := by
  intro rows
  induction rows with
  | nil => intro ws; cases ws <;> simp [checkColumns]
  | cons r rows ih =>
    intro ws
    cases ws with
    | nil => simp [checkColumns]
    | cons w ws =>
      unfold checkColumns
      constructor
      · intro h
        obtain ⟨u, h1, h2⟩ := bind_eq_ok h
        intro n row w' hr hw
        cases n with
        | zero =>
          simp only [List.getElem?_cons_zero, Option.some.injEq] at hr hw
          subst hr hw
          exact (columnsCheck_ok _ _ _).1 h1
        | succ n =>
          simp only [List.getElem?_cons_succ] at hr hw
          exact (ih ws).1 h2 n row w' hr hw
      · intro h
        rw [(columnsCheck_ok table r w).2 (h 0 r w (by simp) (by simp)), Outcome.bind_ok, ih]
        intro n row w' hr hw
        exact h (n + 1) row w' (by simpa using hr) (by simpa using hw)

theorem ask_ok {α : Type} {q : Except Nat α} {a : α} (h : ask q = .ok a) : q = .ok a := by
  unfold ask at h
  split at h
  · cases h; rfl
  · cases h

theorem checkTable_ok {db : DbFile} {table : Str} {ws : List Wanted} : checkTable db table ws = .ok () ↔
    ∃ rows, db.columns table = .ok rows ∧ checkColumns table rows ws = .ok () := by
  unfold checkTable
  constructor
  · intro h
    obtain ⟨rows, h1, h2⟩ := bind_eq_ok h
    exact ⟨rows, ask_ok h1, h2⟩
  · rintro ⟨rows, h1, h2⟩
    simp [ask, h1, h2]

theorem tableExists_ok {tables : List Str} {name : Str} : tableExists tables name = .ok () ↔ name ∈ tables := by
  unfold tableExists
  split
  · next h => simp [h]
  · next h => simp [h]

/-- The parameters of the calls say what the schema declares. -/
def ofDeclared (d : Declared) : Wanted :=
  ⟨d.name, d.type, if d.notNull then 1 else 0, if d.primaryKey then 1 else 0⟩

theorem agrees_of {rows : List Column} {ds : List Declared} {ws : List Wanted} (table : Str) (hw : ds.map ofDeclared = ws) :
    checkColumns table rows ws = .ok () ↔
      ∀ (n : Nat) (row : Column) (d : Declared), rows[n]? = some row → ds[n]? = some d → Agrees row d := by
  rw [checkColumns_ok, ← hw]
  constructor
  · intro h n row d hr hd
    exact h n row (ofDeclared d) hr (by simp [hd])
  · intro h n row w hr hw'
    rw [List.getElem?_map] at hw'
    cases hd : ds[n]? with
    | none => rw [hd] at hw'; cases hw'
    | some d =>
      rw [hd] at hw'
      have hw' : ofDeclared d = w := by simpa using hw'
      rw [← hw']
      exact h n row d hr hd

/-- What the verification accepts. -/
theorem verify_ok (db : DbFile) (v : Str) : verifySchema db = .ok v ↔
    v = "1.0".toList ∧ ∃ tables, db.tables = .ok tables ∧ "metadata".toList ∈ tables ∧
      (∃ versions, db.versions = .ok versions ∧ versions.getLast? = some "1.0".toList) ∧
      ∀ t ∈ schemaTables, t.1 ∈ tables ∧ ∃ rows, db.columns t.1 = .ok rows ∧
        ∀ (n : Nat) (row : Column) (d : Declared), rows[n]? = some row → t.2[n]? = some d → Agrees row d := by
  constructor
  · intro h
    unfold verifySchema at h
    obtain ⟨tables, h1, h⟩ := bind_eq_ok h
    split at h
    · cases h
    · next hmeta =>
      obtain ⟨versions, h2, h⟩ := bind_eq_ok h
      simp only at h
      split at h
      · next hv =>
        obtain ⟨_, t1, h⟩ := bind_eq_ok h
        obtain ⟨_, t2, h⟩ := bind_eq_ok h
        obtain ⟨_, t3, h⟩ := bind_eq_ok h
        obtain ⟨_, t4, h⟩ := bind_eq_ok h
        obtain ⟨_, t5, h⟩ := bind_eq_ok h
        obtain ⟨_, c1, h⟩ := bind_eq_ok h
        obtain ⟨_, c2, h⟩ := bind_eq_ok h
        obtain ⟨_, c3, h⟩ := bind_eq_ok h
        obtain ⟨_, c4, h⟩ := bind_eq_ok h
        obtain ⟨_, c5, h⟩ := bind_eq_ok h
        have hv' : versions.getLast? = some "1.0".toList := by
          cases hl : versions.getLast? with
          | none => rw [hl] at hv; exact absurd hv (by decide)
          | some x => rw [hl] at hv; simpa using hv
        have hres : "1.0".toList = v := by
          rw [hv'] at h
          exact Outcome.ok.inj h
        refine ⟨hres.symm, tables, ask_ok h1, Decidable.not_not.1 hmeta, ⟨versions, ask_ok h2, hv'⟩, ?_⟩
        have key : ∀ (name : Str) (ds : List Declared) (ws : List Wanted), ds.map ofDeclared = ws →
            checkTable db name ws = .ok () → ∃ rows, db.columns name = .ok rows ∧
              ∀ (n : Nat) (row : Column) (d : Declared), rows[n]? = some row → ds[n]? = some d → Agrees row d := by
          intro name ds ws hw hc
          obtain ⟨rows, h1, h2⟩ := checkTable_ok.1 hc
          exact ⟨rows, h1, (agrees_of name hw).1 h2⟩
        intro t ht
        simp only [schemaTables, List.mem_cons, List.not_mem_nil, or_false] at ht
        rcases ht with rfl | rfl | rfl | rfl | rfl
        · exact ⟨tableExists_ok.1 t4, key _ _ _ rfl c4⟩
        · exact ⟨tableExists_ok.1 t1, key _ _ _ rfl c1⟩
        · exact ⟨tableExists_ok.1 t2, key _ _ _ rfl c2⟩
        · exact ⟨tableExists_ok.1 t5, key _ _ _ rfl c5⟩
        · exact ⟨tableExists_ok.1 t3, key _ _ _ rfl c3⟩
      · obtain ⟨_, _, h⟩ := bind_eq_ok h
        cases h
  · rintro ⟨rfl, tables, h1, h2, ⟨versions, h3, h4⟩, h5⟩
    have key : ∀ (name : Str) (ds : List Declared) (ws : List Wanted), ds.map ofDeclared = ws →
        (name, ds) ∈ schemaTables → tableExists tables name = .ok () ∧ checkTable db name ws = .ok () := by
      intro name ds ws hw hm
      obtain ⟨k1, rows, k2, k3⟩ := h5 _ hm
      exact ⟨tableExists_ok.2 k1, checkTable_ok.2 ⟨rows, k2, (agrees_of name hw).2 k3⟩⟩
    obtain ⟨a1, b1⟩ := key "contributor".toList _ wantedContributor rfl (by simp only [schemaTables]; exact .tail _ (.head _))
    obtain ⟨a2, b2⟩ := key "language".toList _ wantedLanguage rfl (by simp only [schemaTables]; exact .tail _ (.tail _ (.head _)))
    obtain ⟨a3, b3⟩ := key "pattern".toList _ wantedPattern rfl
      (by simp only [schemaTables]; exact .tail _ (.tail _ (.tail _ (.tail _ (.head _)))))
    obtain ⟨a4, b4⟩ := key "component".toList _ wantedComponent rfl (by simp only [schemaTables]; exact .head _)
    obtain ⟨a5, b5⟩ := key "languageData".toList _ wantedLanguageData rfl
      (by simp only [schemaTables]; exact .tail _ (.tail _ (.tail _ (.head _))))
    unfold verifySchema
    rw [show ask db.tables = .ok tables by simp [ask, h1], Outcome.bind_ok, if_neg (Decidable.not_not.2 h2),
      show ask db.versions = .ok versions by simp [ask, h3], Outcome.bind_ok]
    simp only [h4, Option.getD_some, if_true]
    rw [a1, Outcome.bind_ok, a2, Outcome.bind_ok, a3, Outcome.bind_ok, a4, Outcome.bind_ok, a5, Outcome.bind_ok, b1,
      Outcome.bind_ok, b2, Outcome.bind_ok, b3, Outcome.bind_ok, b4, Outcome.bind_ok, b5, Outcome.bind_ok]
    rfl

/-! ### The directory -/

/-- The flags of a component. -/
def flags (m : AMap Str (Bool × Bool)) (c : Str) : Bool × Bool := (m.get c).getD (false, false)

/-- No component is nowhere. -/
def Somewhere (m : AMap Str (Bool × Bool)) : Prop := ∀ c v, m.get c = some v → v.1 = true ∨ v.2 = true

theorem flags_shared (m : AMap Str (Bool × Bool)) (c c' : Str) :
    flags (addShared m c) c' = if c = c' then (true, (flags m c').2) else flags m c' := by
  unfold flags addShared
  by_cases h : c = c'
  · subst h
    cases hg : m.get c <;> simp [AMap.get_insert]
  · cases hg : m.get c <;> simp [AMap.get_insert, h]

theorem flags_own (m : AMap Str (Bool × Bool)) (c c' : Str) :
    flags (addOwn m c) c' = if c = c' then ((flags m c').1, true) else flags m c' := by
  unfold flags addOwn
  by_cases h : c = c'
  · subst h
    cases hg : m.get c <;> simp [AMap.get_insert]
  · cases hg : m.get c <;> simp [AMap.get_insert, h]

theorem somewhere_shared {m : AMap Str (Bool × Bool)} (h : Somewhere m) (c : Str) : Somewhere (addShared m c) := by
  intro c' v hv
  unfold addShared at hv
  split at hv <;> rw [AMap.get_insert] at hv <;> split at hv
  · cases hv; exact .inl rfl
  · exact h c' v hv
  · cases hv; exact .inl rfl
  · exact h c' v hv

theorem somewhere_own {m : AMap Str (Bool × Bool)} (h : Somewhere m) (c : Str) : Somewhere (addOwn m c) := by
  intro c' v hv
  unfold addOwn at hv
  split at hv <;> rw [AMap.get_insert] at hv <;> split at hv
  · cases hv; exact .inr rfl
  · exact h c' v hv
  · cases hv; exact .inr rfl
  · exact h c' v hv

theorem nodup_shared {m : AMap Str (Bool × Bool)} (h : m.keys.Nodup) (c : Str) : (addShared m c).keys.Nodup := by
  unfold addShared; split <;> exact AMap.nodup_insert _ _ h

theorem nodup_own {m : AMap Str (Bool × Bool)} (h : m.keys.Nodup) (c : Str) : (addOwn m c).keys.Nodup := by
  unfold addOwn; split <;> exact AMap.nodup_insert _ _ h

theorem fold_shared : ∀ (names : List Str) (m : AMap Str (Bool × Bool)),
    (∀ c, flags (names.foldl addShared m) c = if c ∈ names then (true, (flags m c).2) else flags m c) ∧
    (Somewhere m → Somewhere (names.foldl addShared m)) ∧ (m.keys.Nodup → (AMap.keys (names.foldl addShared m)).Nodup) := by
  intro names
  induction names with
  | nil => intro m; exact ⟨fun c => by simp, fun h => h, fun h => h⟩
  | cons n names ih =>
    intro m
    obtain ⟨h1, h2, h3⟩ := ih (addShared m n)
    refine ⟨fun c => ?_, fun h => h2 (somewhere_shared h n), fun h => h3 (nodup_shared h n)⟩
    rw [List.foldl_cons, h1, flags_shared]
    by_cases hn : n = c
    · subst hn; simp
    · have : ¬ c = n := fun e => hn e.symm
      simp [hn, this]

/-- Flags determine the entry. -/
theorem get_of_flags {m m' : AMap Str (Bool × Bool)} (h : Somewhere m) (h' : Somewhere m')
    (hf : ∀ c, flags m c = flags m' c) (c : Str) : m.get c = m'.get c := by
  have := hf c
  unfold flags at this
  cases h1 : m.get c with
  | none =>
    cases h2 : m'.get c with
    | none => rfl
    | some v =>
      rw [h1, h2] at this
      have hv := h' c v h2
      simp at this
      rw [← this] at hv
      simp at hv
  | some v =>
    cases h2 : m'.get c with
    | none =>
      rw [h1, h2] at this
      have hv := h c v h1
      simp at this
      rw [this] at hv
      simp at hv
    | some w =>
      rw [h1, h2] at this
      simpa using this

/-- What the loop needs of an entry. -/
def Fine (e : Except Nat DirEntry) : Prop :=
  ∃ entry, e = .ok entry ∧ (entry.extension = some "sqlite3".toList → ∃ name, entry.stem = some name ∧
    ∀ file, entry.file = some file → verifySchema file.schema = .ok "1.0".toList ∧
      (name = allInOne → ∃ names, file.components = .ok names))

/-- What one entry does. -/
structure Step (p p' : Sqlite) (es : List (Except Nat DirEntry)) : Prop where
  shared : ∀ c, (flags p'.components c).1 = true ↔ (flags p.components c).1 = true ∨ InShared es c
  own : ∀ c, (flags p'.components c).2 = true ↔ (flags p.components c).2 = true ∨ HasOwn es c
  somewhere : Somewhere p.components → Somewhere p'.components
  nodup : p.components.keys.Nodup → p'.components.keys.Nodup
  opened : ∀ name, (∃ file, Opens es name file) → p'.connections.get name = some "1.0".toList
  others : ∀ name, ¬ (∃ file, Opens es name file) → p'.connections.get name = p.connections.get name

theorem opens_one {entry : DirEntry} {name : Str} {file : OpenedFile} : Opens [.ok entry] name file ↔
    entry.extension = some "sqlite3".toList ∧ entry.stem = some name ∧ entry.file = some file := by
  unfold Opens
  constructor
  · rintro ⟨e, h1, h2⟩
    have : e = entry := by simpa using h1
    rw [← this]; exact h2
  · intro h; exact ⟨entry, by simp, h⟩

theorem nothing_opened {p : Sqlite} {entry : DirEntry} (h : ∀ name file, ¬ Opens [.ok entry] name file) :
    Step p p [.ok entry] := by
  refine ⟨fun c => ?_, fun c => ?_, fun h => h, fun h => h, fun name hn => ?_, fun _ _ => rfl⟩
  · constructor
    · exact .inl
    · rintro (h' | ⟨file, _, h', _⟩)
      · exact h'
      · exact absurd h' (h _ _)
  · constructor
    · exact .inl
    · rintro (h' | ⟨_, file, h'⟩)
      · exact h'
      · exact absurd h' (h _ _)
  · obtain ⟨file, h'⟩ := hn
    exact absurd h' (h _ _)

theorem openEntry_fine {p : Sqlite} {e : Except Nat DirEntry} (h : Fine e) : ∃ p', openEntry p e = .ok p' ∧ Step p p' [e] := by
  obtain ⟨entry, rfl, h⟩ := h
  unfold openEntry
  simp only
  split
  · next hext => exact ⟨p, rfl, nothing_opened fun name file ho => hext (opens_one.1 ho).1⟩
  · next hext =>
    have hext := Decidable.not_not.1 hext
    obtain ⟨name, hs, hf⟩ := h hext
    rw [hs, Outcome.unwrap_some, Outcome.bind_ok]
    cases hfile : entry.file with
    | none => exact ⟨p, rfl, nothing_opened fun n file ho => by have := (opens_one.1 ho).2.2; rw [hfile] at this; cases this⟩
    | some file =>
      obtain ⟨hv, hc⟩ := hf file hfile
      have hopen : ∀ n f, Opens [.ok entry] n f ↔ n = name ∧ f = file := by
        intro n f
        rw [opens_one, hs, hfile]
        constructor
        · rintro ⟨_, h1, h2⟩
          exact ⟨(Option.some.inj h1).symm, (Option.some.inj h2).symm⟩
        · rintro ⟨rfl, rfl⟩
          exact ⟨hext, rfl, rfl⟩
      have hex : ∀ n, (∃ f, Opens [.ok entry] n f) ↔ n = name := fun n => by
        constructor
        · rintro ⟨f, h⟩; exact ((hopen n f).1 h).1
        · intro h; exact ⟨file, (hopen n file).2 ⟨h, rfl⟩⟩
      simp only [hv, Outcome.mapErr, Outcome.bind_ok]
      split
      · next ha =>
        obtain ⟨names, hn⟩ := hc ha
        simp only [hn]
        refine ⟨_, rfl, ?_⟩
        obtain ⟨f1, f2, f3⟩ := fold_shared names p.components
        refine ⟨fun c => ?_, fun c => ?_, f2, f3, fun n hn' => ?_, fun n hn' => ?_⟩
        · simp only [f1]
          have : InShared [.ok entry] c ↔ c ∈ names := by
            constructor
            · rintro ⟨f, ns, h1, h2, h3⟩
              rw [((hopen _ _).1 h1).2, hn] at h2
              rw [Except.ok.inj h2]; exact h3
            · intro h; exact ⟨file, names, (hopen _ _).2 ⟨ha.symm, rfl⟩, hn, h⟩
          rw [this]
          by_cases hm : c ∈ names <;> simp [hm]
        · simp only [f1]
          have : ¬ HasOwn [.ok entry] c := by
            rintro ⟨h1, f, h2⟩
            exact h1 (((hopen _ _).1 h2).1.trans ha)
          by_cases hm : c ∈ names <;> simp [hm, this]
        · have := (hex n).1 hn'
          rw [this, ha]
          exact AMap.get_insert_self _ _ _
        · have : n ≠ allInOne := fun e => hn' ((hex n).2 (e.trans ha.symm))
          exact AMap.get_insert_ne _ _ (Ne.symm this)
      · next ha =>
        refine ⟨_, rfl, ?_⟩
        refine ⟨fun c => ?_, fun c => ?_, fun h => somewhere_own h name, fun h => nodup_own h name, fun n hn' => ?_,
          fun n hn' => ?_⟩
        · simp only [flags_own]
          have : ¬ InShared [.ok entry] c := by
            rintro ⟨f, _, h1, _⟩
            exact ha ((hopen _ _).1 h1).1.symm
          by_cases hm : name = c <;> simp [hm, this]
        · simp only [flags_own]
          have : HasOwn [.ok entry] c ↔ name = c := by
            constructor
            · rintro ⟨_, f, h2⟩; exact ((hopen _ _).1 h2).1.symm
            · rintro rfl; exact ⟨ha, file, (hopen _ _).2 ⟨rfl, rfl⟩⟩
          rw [this]
          by_cases hm : name = c <;> simp [hm]
        · rw [(hex n).1 hn']
          exact AMap.get_insert_self _ _ _
        · have : n ≠ name := fun e => hn' ((hex n).2 e)
          exact AMap.get_insert_ne _ _ (Ne.symm this)

theorem fine_of_ok {p p' : Sqlite} {e : Except Nat DirEntry} (h : openEntry p e = .ok p') : Fine e := by
  unfold openEntry at h
  cases e with
  | error code => cases h
  | ok entry =>
    refine ⟨entry, rfl, fun hext => ?_⟩
    simp only [hext, ne_eq, not_true, if_false] at h
    obtain ⟨name, h1, h⟩ := bind_eq_ok h
    have hs : entry.stem = some name := by
      unfold Outcome.unwrap at h1
      split at h1
      · next e => cases h1; exact e
      · cases h1
    refine ⟨name, hs, fun file hf => ?_⟩
    rw [hf] at h
    simp only at h
    obtain ⟨v, h2, h⟩ := bind_eq_ok h
    have hv : verifySchema file.schema = .ok v := by
      unfold Outcome.mapErr at h2
      split at h2
      · next e => cases h2; exact e
      · cases h2
      · cases h2
    have := ((verify_ok file.schema v).1 hv).1
    subst this
    refine ⟨hv, fun ha => ?_⟩
    simp only [ha, if_true] at h
    split at h
    · cases h
    · next names e => exact ⟨names, e⟩

theorem opens_append {es es' : List (Except Nat DirEntry)} {n : Str} {f : OpenedFile} :
    Opens (es ++ es') n f ↔ Opens es n f ∨ Opens es' n f := by
  unfold Opens
  constructor
  · rintro ⟨e, h1, h2⟩
    rcases List.mem_append.1 h1 with h | h
    · exact .inl ⟨e, h, h2⟩
    · exact .inr ⟨e, h, h2⟩
  · rintro (⟨e, h1, h2⟩ | ⟨e, h1, h2⟩)
    · exact ⟨e, by simp [h1], h2⟩
    · exact ⟨e, by simp [h1], h2⟩

theorem Step.trans {p p' p'' : Sqlite} {es es' : List (Except Nat DirEntry)} (h : Step p p' es) (h' : Step p' p'' es') :
    Step p p'' (es ++ es') := by
  refine ⟨fun c => ?_, fun c => ?_, fun hs => h'.somewhere (h.somewhere hs), fun hs => h'.nodup (h.nodup hs),
    fun name hn => ?_, fun name hn => ?_⟩
  · rw [h'.shared, h.shared, or_assoc]
    have : InShared (es ++ es') c ↔ InShared es c ∨ InShared es' c := by
      unfold InShared
      constructor
      · rintro ⟨f, ns, h1, h2⟩
        rcases opens_append.1 h1 with h | h
        · exact .inl ⟨f, ns, h, h2⟩
        · exact .inr ⟨f, ns, h, h2⟩
      · rintro (⟨f, ns, h1, h2⟩ | ⟨f, ns, h1, h2⟩)
        · exact ⟨f, ns, opens_append.2 (.inl h1), h2⟩
        · exact ⟨f, ns, opens_append.2 (.inr h1), h2⟩
    rw [this]
  · rw [h'.own, h.own, or_assoc]
    have : HasOwn (es ++ es') c ↔ HasOwn es c ∨ HasOwn es' c := by
      unfold HasOwn
      constructor
      · rintro ⟨h0, f, h1⟩
        rcases opens_append.1 h1 with h | h
        · exact .inl ⟨h0, f, h⟩
        · exact .inr ⟨h0, f, h⟩
      · rintro (⟨h0, f, h1⟩ | ⟨h0, f, h1⟩)
        · exact ⟨h0, f, opens_append.2 (.inl h1)⟩
        · exact ⟨h0, f, opens_append.2 (.inr h1)⟩
    rw [this]
  · by_cases hl : ∃ f, Opens es' name f
    · exact h'.opened name hl
    · rw [h'.others name hl]
      obtain ⟨f, hf⟩ := hn
      rcases opens_append.1 hf with hf | hf
      · exact h.opened name ⟨f, hf⟩
      · exact absurd ⟨f, hf⟩ hl
  · rw [h'.others name fun ⟨f, hf⟩ => hn ⟨f, opens_append.2 (.inr hf)⟩,
      h.others name fun ⟨f, hf⟩ => hn ⟨f, opens_append.2 (.inl hf)⟩]

theorem openEntries_fine : ∀ {es : List (Except Nat DirEntry)} {p : Sqlite}, (∀ e ∈ es, Fine e) →
    ∃ p', openEntries p es = .ok p' ∧ Step p p' es := by
  intro es
  induction es with
  | nil =>
    intro p _
    have hno : ∀ n f, ¬ Opens [] n f := by rintro n f ⟨e, h, _⟩; cases h
    refine ⟨p, rfl, fun c => ?_, fun c => ?_, fun h => h, fun h => h, fun n ⟨f, hf⟩ => absurd hf (hno n f), fun _ _ => rfl⟩
    · exact ⟨.inl, fun h => h.elim id fun ⟨f, _, h, _⟩ => absurd h (hno _ _)⟩
    · exact ⟨.inl, fun h => h.elim id fun ⟨_, f, h⟩ => absurd h (hno _ _)⟩
  | cons e es ih =>
    intro p h
    obtain ⟨p1, h1, h2⟩ := openEntry_fine (p := p) (h e (by simp))
    obtain ⟨p2, h3, h4⟩ := ih (p := p1) fun e he => h e (by simp [he])
    exact ⟨p2, by simp [openEntries, h1, h3], h2.trans h4⟩

theorem fine_of_entries : ∀ {es : List (Except Nat DirEntry)} {p p' : Sqlite}, openEntries p es = .ok p' → ∀ e ∈ es, Fine e := by
  intro es
  induction es with
  | nil => intro p p' _ e he; cases he
  | cons e es ih =>
    intro p p' h e' he'
    unfold openEntries at h
    obtain ⟨p1, h1, h2⟩ := bind_eq_ok h
    rcases List.mem_cons.1 he' with rfl | he'
    · exact fine_of_ok h1
    · exact ih h2 e' he'

theorem tryNew_ok {es : List (Except Nat DirEntry)} {p : Sqlite} (h : Sqlite.tryNew (.directory es) = .ok p) :
    (∀ e ∈ es, Fine e) ∧ Step { components := [], connections := [] } p es ∧ p.components ≠ [] := by
  unfold Sqlite.tryNew at h
  obtain ⟨p', h1, h2⟩ := bind_eq_ok h
  split at h2
  · cases h2
  · next hne =>
    cases h2
    have hf := fine_of_entries h1
    obtain ⟨p'', h3, h4⟩ := openEntries_fine (p := { components := [], connections := [] }) hf
    rw [h1] at h3
    cases h3
    exact ⟨hf, h4, hne⟩

end Verif.ProviderLemmas
