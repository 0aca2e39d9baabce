import Verif.Lemmas.FormatMore
/-
Items that are reached while a text is produced; templates as a whole.
-/
namespace Verif.FormatLemmas
open Verif Verif.Spec
open Verif.TreeLemmas (complete anyGr)
open Verif.LexerLemmas (lex_eq)

variable {D F : Type}

/-- A text is produced only if every item gives a text. -/
theorem evalItems_each {E : FmtEnv D F} {lang : Str} {values : AMap Str (PValue D F)} {self}
    {sub : Str → Store → Res} {items : List Item} : ∀ {st : Store} {s : Str},
    (evalItems E lang values self sub items st).1 = some (.ok s) →
    ∀ it ∈ items, ∃ st' s', (evalItem E lang values self sub it st').1 = some (.ok s') := by
  induction items with
  | nil => intro st s _ it hi; simp at hi
  | cons it items ih =>
    intro st s h it' hi
    simp only [evalItems] at h
    generalize hy : evalItem E lang values self sub it st = y at h
    match y, h with
    | (none, _), h => simp at h
    | (some (.err _), _), h => simp at h
    | (some .panic, _), h => simp at h
    | (some (.ok s'), s1), h =>
      rcases List.mem_cons.1 hi with rfl | hi
      · exact ⟨st, s', by rw [hy]⟩
      · simp only at h
        cases hz : evalItems E lang values self sub items s1 with
        | mk z1 z2 =>
          rw [hz] at h
          match z1, h with
          | some (.ok s''), _ => exact ih (by rw [hz]) it' hi
          | none, h => simp at h
          | some (.err _), h => simp at h
          | some .panic, h => simp at h

theorem evalPlural_ok {X : Icu4x D F} {lang : Str} {category : D → PluralCategory} {n : D} {keys}
    {sub : Str → Store → Res} {st : Store} {s : Str}
    (h : (evalPlural X lang (.ok category) (some n) keys sub st).1 = some (.ok s)) :
    categoryName (category n) ∈ keys ∧ ∃ st', (sub (categoryName (category n)) st').1 = some (.ok s) := by
  unfold evalPlural at h
  cases hd : X.decimal lang none with
  | error e => rw [hd] at h; simp at h
  | ok fm =>
    rw [hd] at h
    simp only at h
    split at h
    · exact ⟨by assumption, _, h⟩
    · simp at h

/-- The selected string gives a text too. -/
theorem evalItem_selects {E : FmtEnv D F} {lang : Str} {values : AMap Str (PValue D F)} {self}
    {sub : Str → Store → Res} {it : Item} {st : Store} {s name : Str} (hsel : Selects E lang values it name)
    (h : (evalItem E lang values self sub it st).1 = some (.ok s)) :
    (∃ id k sels, it = .pat id (some (k, sels)) ∧ name ∈ keysOf sels) ∧
    ∃ st', (sub name st').1 = some (.ok s) := by
  obtain ⟨k1, k2, k3, k4, k5, k6, k7, k8, k9, k10⟩ := kw_ne
  cases hsel with
  | @plural id k sels v n category hk hv hn hc =>
    simp only [evalItem, hv, hk, k4, k5, k6, if_false, if_true, hn, hc] at h
    obtain ⟨h1, h2⟩ := evalPlural_ok h
    exact ⟨⟨id, k, sels, rfl, h1⟩, h2⟩
  | @ordinal id k sels v n category hk hv hn hc =>
    simp only [evalItem, hv, hk, k2, k3, if_false, if_true, hn, hc] at h
    obtain ⟨h1, h2⟩ := evalPlural_ok h
    exact ⟨⟨id, k, sels, rfl, h1⟩, h2⟩
  | @select id k sels v s hk hv ht =>
    simp only [evalItem, hv, hk, k7, k8, k9, k10, if_false, ht, evalSelect] at h
    split at h
    · rename_i hm
      split at h
      · simp at h
      · exact ⟨⟨id, k, sels, rfl, hm⟩, st, h⟩
    · simp at h

theorem evalNamed_find {E : FmtEnv D F} {lang : Str} {values : AMap Str (PValue D F)} {L : List Named}
    (hL : (L.map Named.name).Nodup) {n : Named} (hn : n ∈ L) {st : Store} {s : Str}
    (h : (evalNamed E lang values L n.name st).1 = some (.ok s)) :
    ∃ L', (∃ p, L = p ++ L') ∧
      (evalItems E lang values n.name (evalNamed E lang values L') n.items st).1 = some (.ok s) := by
  induction L with
  | nil => simp at hn
  | cons m L ih =>
    simp only [List.map_cons, List.nodup_cons] at hL
    simp only [evalNamed] at h
    rcases List.mem_cons.1 hn with rfl | hn
    · simp only [if_true] at h
      exact ⟨L, ⟨[n], rfl⟩, h⟩
    · have hne : ¬ m.name = n.name := fun e => hL.1 (by rw [e]; exact List.mem_map.2 ⟨n, hn, rfl⟩)
      simp only [hne, if_false] at h
      obtain ⟨L', ⟨p, hp⟩, h'⟩ := ih hL.2 hn h
      exact ⟨L', ⟨m :: p, by simp [hp]⟩, h'⟩

/-- A name that gives a text is the name of a string in the list. -/
theorem evalNamed_ok_mem {E : FmtEnv D F} {lang : Str} {values : AMap Str (PValue D F)} {L : List Named} {name : Str}
    {st : Store} {s : Str} (h : (evalNamed E lang values L name st).1 = some (.ok s)) : ∃ n ∈ L, n.name = name := by
  induction L with
  | nil => simp [evalNamed] at h
  | cons m L ih =>
    simp only [evalNamed] at h
    split at h
    · exact ⟨m, by simp, by assumption⟩
    · obtain ⟨n, hn, e⟩ := ih h
      exact ⟨n, by simp [hn], e⟩

theorem named_nodup {E : FmtEnv D F} {L : List Named} (h : Ordered E L) : (L.map Named.name).Nodup := by
  induction h with
  | nil => simp
  | cons hn _ _ ih =>
    simp only [List.map_cons, List.nodup_cons]
    exact ⟨fun hm => hn (by simp [hm]), ih⟩

theorem eval_reached {E : FmtEnv D F} {lang : Str} {values : AMap Str (PValue D F)} {d : Doc} (hd : DocOk E d)
    {st : Store} {s : Str} (h : (d.eval E lang values st).1 = some (.ok s)) {it : Item}
    (hr : Reached E lang values d it) :
    ∃ L self st' s', (∃ p, d.named.reverse = p ++ L) ∧
      (evalItem E lang values self (evalNamed E lang values L) it st').1 = some (.ok s') := by
  have hnd := named_nodup (ordered_doc hd)
  induction hr with
  | main hm =>
    obtain ⟨st', s', h'⟩ := evalItems_each h _ hm
    exact ⟨_, _, st', s', ⟨[], rfl⟩, h'⟩
  | @named it n it' _ hsel hn hit ih =>
    obtain ⟨L, self, st', s', ⟨p, hp⟩, h'⟩ := ih
    obtain ⟨_, st2, h2⟩ := evalItem_selects hsel h'
    obtain ⟨m, hm, hme⟩ := evalNamed_ok_mem h2
    have hmd : m ∈ d.named.reverse := by rw [hp]; simp [hm]
    have hnd' : n ∈ d.named.reverse := by simpa using hn
    have : m = n := by
      have key : ∀ (L : List Named), (L.map Named.name).Nodup → m ∈ L → n ∈ L → m.name = n.name → m = n := by
        intro L hL hm hn e
        induction L with
        | nil => simp at hm
        | cons a L ih =>
          simp only [List.map_cons, List.nodup_cons] at hL
          rcases List.mem_cons.1 hm with e1 | hm1 <;> rcases List.mem_cons.1 hn with e2 | hn1
          · rw [e1, e2]
          · exact absurd (List.mem_map.2 ⟨n, hn1, by rw [← e, e1]⟩) hL.1
          · exact absurd (List.mem_map.2 ⟨m, hm1, by rw [e, e2]⟩) hL.1
          · exact ih hL.2 hm1 hn1
      exact key _ hnd hmd hnd' hme
    subst this
    have hL : (L.map Named.name).Nodup := by
      rw [hp, List.map_append] at hnd
      exact (List.nodup_append.1 hnd).2.1
    obtain ⟨L', ⟨q, hq⟩, h3⟩ := evalNamed_find hL hm h2
    obtain ⟨st4, s4, h4⟩ := evalItems_each h3 _ hit
    exact ⟨L', _, st4, s4, ⟨p ++ q, by rw [hp, hq]; simp⟩, h4⟩

/-- Every placeholder that is reached has a value, and every plural pattern lists the category of its value. -/
theorem eval_reached_value {E : FmtEnv D F} {lang : Str} {values : AMap Str (PValue D F)} {d : Doc} (hd : DocOk E d)
    {st : Store} {s : Str} (h : (d.eval E lang values st).1 = some (.ok s)) {id k}
    (hr : Reached E lang values d (.pat id k)) : ∃ v, values.get id.str = some v := by
  obtain ⟨L, self, st', s', _, h'⟩ := eval_reached hd h hr
  cases hv : values.get id.str with
  | some v => exact ⟨v, rfl⟩
  | none =>
    cases k with
    | none => simp [evalItem, hv] at h'
    | some ks => obtain ⟨k, sels⟩ := ks; simp [evalItem, hv] at h'

theorem eval_reached_listed {E : FmtEnv D F} {lang : Str} {values : AMap Str (PValue D F)} {d : Doc} (hd : DocOk E d)
    {st : Store} {s : Str} (h : (d.eval E lang values st).1 = some (.ok s)) {id k sels name}
    (hr : Reached E lang values d (.pat id (some (k, sels))))
    (hs : Selects E lang values (.pat id (some (k, sels))) name) : name ∈ keysOf sels := by
  obtain ⟨L, self, st', s', _, h'⟩ := eval_reached hd h hr
  obtain ⟨⟨_, _, _, he, hm⟩, _⟩ := evalItem_selects hs h'
  injection he with _ he
  injection he with he
  injection he with _ he
  rw [he]; exact hm

/-! ### The main string has no number signs -/

theorem content_numbers {n items ts} (h : Content false n items ts) : NoNumbers items := by
  induction h with
  | nil => intro l hl; simp at hl
  | plain _ _ ih =>
    intro l hl
    rcases mem_pushText hl with hl | ⟨_, he, _⟩
    · exact ih l hl
    · cases he
  | escaped _ _ ih =>
    intro l hl
    rcases mem_pushText hl with hl | ⟨_, he, _⟩
    · exact ih l hl
    · cases he
  | number _ hs => cases hs
  | pattern _ hp ih =>
    intro l hl
    rcases List.mem_append.1 hl with hl | hl
    · exact ih l hl
    · simp only [List.mem_singleton] at hl
      subst hl
      cases hp

theorem sentence_numbers {d ts} (h : Sentence d ts) : NoNumbers d.main := by
  cases h with
  | plain h => exact content_numbers h
  | group h _ _ => exact content_numbers h

/-! ### Templates -/

theorem Shows.text {v : PValue D F} {s : Str} (h : Shows v s) : textOf v = some s := by cases h <;> rfl

theorem fill_source (val : Str → Str) (segs : List Seg) (h : ∀ c ∈ source segs, c ∉ patternGrammar) :
    fill val segs = source segs := by
  induction segs with
  | nil => rfl
  | cons a segs ih =>
    simp only [source, fill, List.flatMap_cons] at *
    rw [ih (fun c hc => h c (by simp only [List.mem_append]; exact Or.inr hc))]
    congr 1
    have h' : ∀ c ∈ a.source, c ∉ patternGrammar := fun c hc => h c (by simp only [List.mem_append]; exact Or.inl hc)
    cases a with
    | hole id => exact absurd (by decide) (h' '{' (by simp [Seg.source]))
    | text t =>
      simp only [Seg.fill, Seg.source] at *
      induction t with
      | nil => rfl
      | cons c t iht =>
        simp only [escape, List.flatMap_cons] at *
        by_cases hc : c ∈ patternGrammar
        · exact absurd hc (h' c (by simp [hc]))
        · simp only [hc, if_false, List.cons_append, List.nil_append]
          rw [← iht (fun x hx => h x (by simp only [List.mem_append] at *; rcases hx with hx | hx
                                         · exact Or.inl (Or.inr hx)
                                         · exact Or.inr hx))
              (fun x hx => h' x (by simp only [List.mem_append]; exact Or.inr hx))]

theorem plain_ok {E : FmtEnv D F} {known : List Str} {it : Item} (h : Plain it) : ItemOk E known it := by
  match it, h with
  | .text _, _ => trivial
  | .pat _ none, _ => trivial

/-- A template is read, and means its texts with the placeholders replaced. -/
theorem template {E : FmtEnv D F} (hE : Standard E) (segs : List Seg) (lang : Str) (values : AMap Str (PValue D F))
    (val : Str → Str)
    (hid : ∀ id ∈ holes segs, IsIdentifier E.icu id ∧ ∃ v, values.get id = some v ∧ Shows v (val id))
    (hs : source segs ≠ []) :
    ∃ ts items, lex E.icu E.grammar (source segs) = .ok ts ∧ Toks E.icu patternGrammar ts ∧
      (ts.map Token.string).flatten = source segs ∧
      Sentence ⟨items, none⟩ ts ∧ Doc.patNames ⟨items, none⟩ = holes segs ∧ DocOk E ⟨items, none⟩ ∧
      ∀ st, Doc.eval E lang values ⟨items, none⟩ st = (some (.ok (fill val segs)), st) := by
  have hl := lex_eq E.icu E.grammar (source segs) (by rw [hE.grammar]; decide) hs
  obtain ⟨ts, hl⟩ : ∃ ts, lex E.icu E.grammar (source segs) = .ok ts := ⟨_, hl⟩
  rw [hE.grammar] at hl
  obtain ⟨htoks, hcat⟩ := toks_of_lex (by decide) hs hl
  obtain ⟨items, hc, hr⟩ := read_template hE.syn lang values val ts.length ts (Nat.le_refl _) htoks (atoms segs)
    (by rw [hcat, src_atoms]) (by
      intro id hi
      rw [ids_atoms] at hi
      obtain ⟨h1, v, h2, h3⟩ := hid id hi
      exact ⟨h1, by simp [h2, Shows.text h3]⟩) [] [] [] [] .nil
    ⟨by simp, rfl, fun _ _ => rfl⟩
  refine ⟨ts, items, by rw [hE.grammar]; exact hl, htoks, hcat, .plain (by simpa using hc), ?_, ?_, ?_⟩
  · have := hr.names
    simpa [Doc.patNames, ids_atoms] using this
  · exact ⟨trivial, fun it hit => plain_ok (hr.plain it hit)⟩
  · intro st
    have := hr.text (evalNamed E lang values ([] : List Named)) st
    rw [vals_atoms] at this
    simpa [Doc.eval, Doc.named] using this

end Verif.FormatLemmas
