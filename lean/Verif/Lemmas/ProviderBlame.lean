import Verif.Spec.ProviderBlame
import Verif.Lemmas.Provider
/-
Lemmas on what a request for a string may answer.
-/
namespace Verif.ProviderLemmas
open Verif Verif.Spec

variable {E : Type}

theorem readRows_reading (canon : Str → Except E Str) (rows : List PatternRow) :
    Reading canon rows (readRows canon (rows.map fun r => (r.string, r.tag))) := by
  induction rows with
  | nil => exact .nil
  | cons r rest ih =>
    simp only [List.map_cons, readRows, askTag]
    cases ht : canon r.tag with
    | error e => exact .refused ht
    | ok t =>
      simp only [Outcome.bind_ok]
      generalize readRows canon (rest.map fun r => (r.string, r.tag)) = res at ih
      cases res with
      | ok xs => exact .cons ⟨rfl, ht⟩ ih
      | err e => exact .later ⟨t, ht⟩ ih
      | panic => cases ih

theorem reading_unique {canon : Str → Except E Str} {rows : List PatternRow} {a b : ProvM E (List (Str × Str))}
    (ha : Reading canon rows a) (hb : Reading canon rows b) : a = b := by
  induction ha generalizing b with
  | nil => cases hb; rfl
  | refused h =>
    cases hb with
    | refused h' => rw [h] at h'; cases h'; rfl
    | cons h' _ => cases h.symm.trans h'.2
    | later h' _ => obtain ⟨t, h'⟩ := h'; cases h.symm.trans h'
  | @cons r rs x xs h _ ih =>
    cases hb with
    | refused h' => cases h'.symm.trans h.2
    | @cons _ _ y ys h' hr =>
      cases ih hr
      have : x = y := Prod.ext (h.1.trans h'.1.symm) (Except.ok.inj (h.2.symm.trans h'.2))
      rw [this]
    | later _ hr => cases ih hr
  | later h _ ih =>
    cases hb with
    | refused h' => obtain ⟨t, h⟩ := h; cases h'.symm.trans h
    | cons _ hr => cases ih hr
    | later _ hr => exact ih hr

theorem reading_ok {canon : Str → Except E Str} {rows : List PatternRow} {xs : List (Str × Str)} :
    Reading canon rows (.ok xs) ↔ AllGive canon rows xs := by
  constructor
  · intro h
    generalize hres : (Outcome.ok xs : ProvM E _) = res at h
    induction h generalizing xs with
    | nil => cases hres; exact .nil
    | refused => cases hres
    | cons h _ ih => cases hres; exact .cons h (ih rfl)
    | later => cases hres
  · intro h
    induction h with
    | nil => exact .nil
    | cons h _ ih => exact .cons h ih

theorem reading_err {canon : Str → Except E Str} {rows : List PatternRow} {e : ProvErr E} :
    Reading canon rows (.err e) ↔ ∃ before r after e', rows = before ++ r :: after ∧ (∀ x ∈ before, Readable canon x) ∧
      canon r.tag = .error e' ∧ e = .registry e' := by
  constructor
  · intro h
    generalize hres : (Outcome.err e : ProvM E (List (Str × Str))) = res at h
    induction h with
    | nil => cases hres
    | @refused r rs e' h => cases hres; exact ⟨[], r, rs, e', rfl, by simp, h, rfl⟩
    | cons => cases hres
    | @later r rs e' h _ ih =>
      cases hres
      obtain ⟨before, x, after, e'', h1, h2, h3, h4⟩ := ih rfl
      refine ⟨r :: before, x, after, e'', by simp [h1], fun y hy => ?_, h3, h4⟩
      rcases List.mem_cons.1 hy with rfl | hy
      · exact h
      · exact h2 y hy
  · rintro ⟨before, r, after, e', rfl, hb, h, rfl⟩
    induction before with
    | nil => exact .refused h
    | cons b before ih => exact .later (hb b (by simp)) (ih fun x hx => hb x (by simp [hx]))

theorem reading_not_panic {canon : Str → Except E Str} {rows : List PatternRow} :
    ¬ Reading canon rows (.panic : ProvM E (List (Str × Str))) := nofun

/-- The loop reads the rows at the longest truncation that has some. -/
theorem findLoop_reading (canon : Str → Except E Str) (rows : List PatternRow) (c i : Str) (onlyOne exact : Bool) :
    ∀ (n : Nat) (tag : Str), tag.length ≤ n → (exact = false → NoWildcards tag) →
    ∃ found, Longest rows c i exact tag found ∧
      Reading canon (limit onlyOne found) (findLoop canon rows c i onlyOne exact tag) := by
  intro n
  induction n with
  | zero =>
    intro tag hn _
    have : tag = [] := by simpa using hn
    subst this
    exact ⟨[], .none fun t ht => absurd ht (truncation_nil t), by rw [findLoop]; simp [limit]; exact .nil⟩
  | succ n ih =>
    intro tag hn hw
    by_cases hne : tag = []
    · subst hne
      exact ⟨[], .none fun t ht => absurd ht (truncation_nil t), by rw [findLoop]; simp [limit]; exact .nil⟩
    · have hpat : rsplitBefore '-' (if exact then tag else tag ++ ['%']) = rsplitBefore '-' tag := by
        cases exact with
        | true => rfl
        | false => exact rsplitBefore_snoc (by decide)
      have hread := readRows_reading canon (limit onlyOne (rowsAt rows c i exact tag))
      rw [findLoop]
      simp only [hne, if_false]
      rw [select_rows rows onlyOne exact i tag c hw]
      generalize hres : readRows canon ((limit onlyOne (rowsAt rows c i exact tag)).map fun r => (r.string, r.tag)) = res
        at hread
      by_cases hnil : rowsAt rows c i exact tag = []
      · have : limit onlyOne (rowsAt rows c i exact tag) = [] := (limit_nil _ _).2 hnil
        rw [this] at hread
        cases hread
        simp only [ne_eq, not_true, if_false]
        split
        · next h =>
          rw [hpat] at h
          refine ⟨[], .none fun t ht => ?_, by simp [limit]; exact .nil⟩
          rw [truncation_whole (rsplit_none h) ht]
          exact hnil
        · next b h =>
          rw [hpat] at h
          obtain ⟨rest, hr1, hr2⟩ := rsplit_some h
          have hlen : b.length ≤ n := by have := rsplitBefore_length h; omega
          have hwb : exact = false → NoWildcards b := fun he => by
            have := hw he
            rw [hr1] at this
            exact ⟨fun h => this.1 (by simp [h]), fun h => this.2 (by simp [h])⟩
          obtain ⟨found, h1, h2⟩ := ih b hlen hwb
          refine ⟨found, ?_, h2⟩
          cases h1 with
          | none h1 =>
            refine .none fun t ht => ?_
            rcases (truncation_step hr1 hr2 hne).1 ht with h | h
            · rw [h]; exact hnil
            · exact h1 t h
          | «at» t h1 h4 h5 =>
            refine .at t ((truncation_step hr1 hr2 hne).2 (.inr h1)) h4 fun t' ht' hlt => ?_
            rcases (truncation_step hr1 hr2 hne).1 ht' with h | h
            · rw [h]; exact hnil
            · exact h5 t' h hlt
      · refine ⟨rowsAt rows c i exact tag, .at tag ⟨hne, .inl rfl⟩ hnil fun t' ht' hlt => ?_, ?_⟩
        · have := truncation_length ht'
          omega
        · cases res with
          | err e => exact hread
          | panic => exact absurd hread reading_not_panic
          | ok xs =>
            have hxs : xs ≠ [] := fun h => hnil ((limit_nil _ _).1 ((allGive_nil (reading_ok.1 hread)).1 h))
            simpa [hxs] using hread

theorem limit_take {α : Type} (one : Bool) (l : List α) : limit one l = if one then l.take 1 else l := rfl

theorem askedFor_unique {canon : Str → Except E Str} {st : Store} {c i tag : Str} {exact one : Bool} {names : List Str}
    {a b : ProvM E (List (Str × Str))} (ha : AskedFor canon st c i exact one tag names a)
    (hb : AskedFor canon st c i exact one tag names b) : a = b := by
  induction ha generalizing b with
  | none => cases hb; rfl
  | unreadable h =>
    cases hb with
    | unreadable h' => cases h.symm.trans h'; rfl
    | here h' => cases h.symm.trans h'
    | later h' => cases h.symm.trans h'
  | here h hl hne hr =>
    cases hb with
    | unreadable h' => cases h.symm.trans h'
    | here h' hl' _ hr' =>
      cases h.symm.trans h'
      cases hl.unique hl'
      exact reading_unique hr hr'
    | later h' hl' _ =>
      cases h.symm.trans h'
      exact absurd (hl.unique hl') hne
  | later h hl _ ih =>
    cases hb with
    | unreadable h' => cases h.symm.trans h'
    | here h' hl' hne _ =>
      cases h.symm.trans h'
      exact absurd (hl'.unique hl) hne
    | later _ _ hr => exact ih hr

/-- One place. -/
theorem askedFor_place {canon : Str → Except E Str} {st : Store} {c i tag : Str} {exact one : Bool} {name : Str}
    (hw : exact = false → NoWildcards tag) :
    ∃ res, (readTable (st name).pattern >>= fun rows => findLoop canon rows c i one exact tag) = res ∧
      ((∃ e, res = .err e ∧ ∀ names, AskedFor canon st c i exact one tag (name :: names) (.err e)) ∨
       (∃ xs, res = .ok xs ∧ xs ≠ [] ∧ (one = true → xs.getLast? = xs.head?) ∧
          ∀ names, AskedFor canon st c i exact one tag (name :: names) (.ok xs)) ∨
       (res = .ok [] ∧ ∀ names r, AskedFor canon st c i exact one tag names r →
          AskedFor canon st c i exact one tag (name :: names) r)) := by
  refine ⟨_, rfl, ?_⟩
  cases hp : (st name).pattern with
  | error code => exact .inl ⟨.sql code, rfl, fun _ => .unreadable hp⟩
  | ok rows =>
    obtain ⟨found, h1, h2⟩ := findLoop_reading canon rows c i one exact tag.length tag (Nat.le_refl _) hw
    simp only [readTable, Outcome.bind_ok]
    generalize findLoop canon rows c i one exact tag = res at h2
    cases res with
    | panic => exact absurd h2 reading_not_panic
    | err e =>
      refine .inl ⟨e, rfl, fun _ => .here hp h1 (fun h => ?_) h2⟩
      subst h
      rw [(limit_nil one _).2 rfl] at h2
      cases h2
    | ok xs =>
      have hg := reading_ok.1 h2
      by_cases hf : found = []
      · subst hf
        have : xs = [] := (allGive_nil hg).2 ((limit_nil _ _).2 rfl)
        subst this
        exact .inr (.inr ⟨rfl, fun _ _ h => .later hp h1 h⟩)
      · refine .inr (.inl ⟨xs, rfl, fun h => hf ((limit_nil _ _).1 ((allGive_nil hg).1 h)), fun ho => ?_,
          fun _ => .here hp h1 hf h2⟩)
        subst ho
        exact allGive_one hg

theorem find_at_shared {p : Sqlite} (hc : Connected p) {c : Str} {files : Bool × Bool} {canon : Str → Except E Str}
    {st : Store} (h : p.components.get c = some files) (hf : files.1 = true) (i tag : Str) (one exact : Bool) :
    p.findStrings canon st c i tag true one exact =
      (readTable (st allInOne).pattern >>= fun rows => findLoop canon rows c i one exact tag) := by
  unfold Sqlite.findStrings
  simp [connection_shared hc h hf]

theorem find_at_own {p : Sqlite} (hc : Connected p) {c : Str} {files : Bool × Bool} {canon : Str → Except E Str}
    {st : Store} (h : p.components.get c = some files) (hf : files.2 = true) (i tag : Str) (one exact : Bool) :
    p.findStrings canon st c i tag false one exact =
      (readTable (st c).pattern >>= fun rows => findLoop canon rows c i one exact tag) := by
  unfold Sqlite.findStrings
  simp [connection_own hc h hf (aio := false) rfl]

theorem oneString_askedFor {p : Sqlite} (hc : Connected p) {c i tag : Str} {files : Bool × Bool}
    {canon : Str → Except E Str} {st : Store} (h : p.components.get c = some files) (exact : Bool)
    (hw : exact = false → NoWildcards tag) :
    ∃ r, AskedFor canon st c i exact true tag (places files c) r ∧
      p.oneString canon st c i tag exact = (r >>= fun xs => pure xs.head?) := by
  obtain ⟨f1, f2⟩ := files
  unfold Sqlite.oneString
  rw [h]
  have second : f2 = true → ∃ r, AskedFor canon st c i exact true tag [c] r ∧
      (p.findStrings canon st c i tag false true exact >>= fun second => pure second.getLast?) =
        (r >>= fun xs => pure xs.head?) := by
    intro hf
    rw [find_at_own hc h hf]
    obtain ⟨res, h1, h2⟩ := askedFor_place (canon := canon) (st := st) (c := c) (i := i) (one := true) (name := c) hw
    rw [h1]
    rcases h2 with ⟨e, rfl, h2⟩ | ⟨xs, rfl, _, hl, h2⟩ | ⟨rfl, h2⟩
    · exact ⟨_, h2 [], rfl⟩
    · exact ⟨_, h2 [], by simp [hl rfl]⟩
    · exact ⟨_, h2 [] _ .none, rfl⟩
  have rest : ∃ r, AskedFor canon st c i exact true tag (if f2 then [c] else []) r ∧
      (askIf f2 (p.findStrings canon st c i tag false true exact) [] >>= fun second => pure second.getLast?) =
        (r >>= fun xs => pure xs.head?) := by
    cases f2 with
    | false => exact ⟨_, .none, rfl⟩
    | true =>
      obtain ⟨r, h1, h2⟩ := second rfl
      exact ⟨r, by simpa using h1, by simpa [askIf] using h2⟩
  cases f1 with
  | false =>
    obtain ⟨r, h1, h2⟩ := rest
    exact ⟨r, by simpa [places] using h1, by simpa [askIf] using h2⟩
  | true =>
    have hs := find_at_shared hc h rfl (canon := canon) (st := st) i tag true exact
    obtain ⟨res, h1, h2⟩ := askedFor_place (canon := canon) (st := st) (c := c) (i := i) (one := true) (name := allInOne) hw
    rw [h1] at hs
    simp only [askIf, if_true, hs]
    rcases h2 with ⟨e, rfl, h2⟩ | ⟨xs, rfl, hne, hl, h2⟩ | ⟨rfl, h2⟩
    · exact ⟨_, by simpa [places] using h2 _, rfl⟩
    · exact ⟨_, by simpa [places] using h2 _, by simp [hne, hl rfl]⟩
    · obtain ⟨r, h3, h4⟩ := rest
      exact ⟨r, by simpa [places] using h2 _ _ h3, by simpa [askIf] using h4⟩

theorem strings_askedFor {p : Sqlite} (hc : Connected p) {c i tag : Str} {files : Bool × Bool}
    {canon : Str → Except E Str} {st : Store} (h : p.components.get c = some files) (hw : NoWildcards tag) :
    AskedFor canon st c i false false tag (places files c) (p.strings canon st c i tag) := by
  obtain ⟨f1, f2⟩ := files
  unfold Sqlite.strings
  rw [h]
  have rest : AskedFor canon st c i false false tag (if f2 then [c] else [])
      (askIf f2 (p.findStrings canon st c i tag false false false) []) := by
    cases f2 with
    | false => exact .none
    | true =>
      simp only [askIf, if_true]
      rw [find_at_own hc h rfl]
      obtain ⟨res, h1, h2⟩ := askedFor_place (canon := canon) (st := st) (c := c) (i := i) (one := false) (name := c)
        (exact := false) fun _ => hw
      rw [h1]
      rcases h2 with ⟨e, rfl, h2⟩ | ⟨xs, rfl, _, _, h2⟩ | ⟨rfl, h2⟩
      · exact h2 []
      · exact h2 []
      · exact h2 [] _ .none
  cases f1 with
  | false => simpa [places, askIf] using rest
  | true =>
    have hs := find_at_shared hc h rfl (canon := canon) (st := st) i tag false false
    obtain ⟨res, h1, h2⟩ := askedFor_place (canon := canon) (st := st) (c := c) (i := i) (one := false) (name := allInOne)
      (exact := false) fun _ => hw
    rw [h1] at hs
    simp only [askIf, if_true, hs]
    rcases h2 with ⟨e, rfl, h2⟩ | ⟨xs, rfl, hne, _, h2⟩ | ⟨rfl, h2⟩
    · simpa [places] using h2 _
    · simpa [places, hne] using h2 _
    · simpa [places, askIf] using h2 _ _ rest

/-! ### What the answers are -/

theorem askedAt_cons {st : Store} {c i tag name n : Str} {exact : Bool} {names : List Str}
    (hp : Passed st c i exact tag n) (h : AskedAt st c i exact tag names name) :
    AskedAt st c i exact tag (n :: names) name := by
  obtain ⟨before, after, rfl, h⟩ := h
  exact ⟨n :: before, after, rfl, fun x hx => by
    rcases List.mem_cons.1 hx with rfl | hx
    · exact hp
    · exact h x hx⟩

theorem askedFor_skip {canon : Str → Except E Str} {st : Store} {c i tag : Str} {exact one : Bool} {before names : List Str}
    {r : ProvM E (List (Str × Str))} (hb : ∀ n ∈ before, Passed st c i exact tag n)
    (h : AskedFor canon st c i exact one tag names r) : AskedFor canon st c i exact one tag (before ++ names) r := by
  induction before with
  | nil => exact h
  | cons n before ih =>
    obtain ⟨rows, h1, h2⟩ := hb n (by simp)
    exact .later h1 h2 (ih fun x hx => hb x (by simp [hx]))

theorem askedFor_err {canon : Str → Except E Str} {st : Store} {c i tag : Str} {exact one : Bool} {names : List Str}
    {e : ProvErr E} : AskedFor canon st c i exact one tag names (.err e) ↔
      (∃ name code, AskedAt st c i exact tag names name ∧ (st name).pattern = .error code ∧ e = .sql code) ∨
      (∃ found, Answering st c i exact tag names found ∧ Reading canon (if one then found.take 1 else found) (.err e)) := by
  constructor
  · intro h
    generalize hres : (Outcome.err e : ProvM E (List (Str × Str))) = res at h
    induction h with
    | none => cases hres
    | @unreadable name names code h => cases hres; exact .inl ⟨name, code, ⟨[], names, rfl, by simp⟩, h, rfl⟩
    | @here name names rows found res h hl hne hr =>
      cases hres
      exact .inr ⟨found, ⟨name, rows, ⟨[], names, rfl, by simp⟩, h, hl, hne⟩, hr⟩
    | @later name names rows res h hl _ ih =>
      rcases ih hres with ⟨n, code, h1, h2, h3⟩ | ⟨found, ⟨n, rows', h1, h2⟩, h3⟩
      · exact .inl ⟨n, code, askedAt_cons ⟨rows, h, hl⟩ h1, h2, h3⟩
      · exact .inr ⟨found, ⟨n, rows', askedAt_cons ⟨rows, h, hl⟩ h1, h2⟩, h3⟩
  · rintro (⟨name, code, ⟨before, after, rfl, hb⟩, h, rfl⟩ | ⟨found, ⟨name, rows, ⟨before, after, rfl, hb⟩, h, hl, hne⟩, hr⟩)
    · exact askedFor_skip hb (.unreadable h)
    · exact askedFor_skip hb (.here h hl hne hr)

theorem askedFor_ok {canon : Str → Except E Str} {st : Store} {c i tag : Str} {exact one : Bool} {names : List Str}
    {xs : List (Str × Str)} : AskedFor canon st c i exact one tag names (.ok xs) ↔
      (xs = [] ∧ ∀ n ∈ names, Passed st c i exact tag n) ∨
      (∃ found, Answering st c i exact tag names found ∧ AllGive canon (if one then found.take 1 else found) xs) := by
  constructor
  · intro h
    generalize hres : (Outcome.ok xs : ProvM E (List (Str × Str))) = res at h
    induction h with
    | none => cases hres; exact .inl ⟨rfl, by simp⟩
    | unreadable => cases hres
    | @here name names rows found res h hl hne hr =>
      cases hres
      exact .inr ⟨found, ⟨name, rows, ⟨[], names, rfl, by simp⟩, h, hl, hne⟩, reading_ok.1 hr⟩
    | @later name names rows res h hl _ ih =>
      rcases ih hres with ⟨h1, h2⟩ | ⟨found, ⟨n, rows', h1, h2⟩, h3⟩
      · refine .inl ⟨h1, fun n hn => ?_⟩
        rcases List.mem_cons.1 hn with rfl | hn
        · exact ⟨rows, h, hl⟩
        · exact h2 n hn
      · exact .inr ⟨found, ⟨n, rows', askedAt_cons ⟨rows, h, hl⟩ h1, h2⟩, h3⟩
  · rintro (⟨rfl, h⟩ | ⟨found, ⟨name, rows, ⟨before, after, rfl, hb⟩, h, hl, hne⟩, hr⟩)
    · have := askedFor_skip (before := names) (names := []) h
        (.none (canon := canon) (st := st) (c := c) (i := i) (exact := exact) (one := one) (tag := tag))
      simpa using this
    · exact askedFor_skip hb (.here h hl hne (reading_ok.2 hr))

theorem askedFor_not_panic {canon : Str → Except E Str} {st : Store} {c i tag : Str} {exact one : Bool} {names : List Str} :
    ¬ AskedFor canon st c i exact one tag names (.panic : ProvM E (List (Str × Str))) := by
  intro h
  generalize hres : (Outcome.panic : ProvM E (List (Str × Str))) = res at h
  induction h with
  | none => cases hres
  | unreadable => cases hres
  | here _ _ _ hr => subst hres; exact reading_not_panic hr
  | later _ _ _ ih => exact ih hres

end Verif.ProviderLemmas
