import Verif.Props.Format
import Verif.Props.Tree
/-
More forms of templates: those that are rejected, those in which a value is missing, texts with needless backticks, and a
template that ends in a select pattern.
-/
namespace Verif.FormatLemmas
open Verif Verif.Spec
open Verif.LexerLemmas (lex_eq)
open Verif.TreeLemmas (patNames_append patNames_pushText)

variable {D F : Type}

/-! ### What formatting gives -/

/-- A string that is read gives its meaning. -/
theorem formatString_reads {E : FmtEnv D F} {s : Str} {d : Doc} (hd : Reads E s d) (hok : DocOk E d) (tag lang : Str)
    (values : AMap Str (PValue D F)) {o : Outcome Unit Str} (ho : (d.eval E lang values Store.empty).1 = some o) :
    forget (formatString E s tag (some lang) values) = tagged o tag := by
  have hs : s ≠ [] := by
    rintro rfl
    obtain ⟨ts, hl, _⟩ := hd
    unfold lex LexerIterator.tryNew at hl
    by_cases hg : E.grammar = [] <;> simp [hg, charIndices] at hl
  obtain ⟨f, hf⟩ := (Props.C48_accepted_exactly E s tag lang).2 ⟨d, hd, hok⟩
  have := (Props.C48_format_gives_the_meaning E hd hf [] (fun v hv => by simp at hv) values).1 o ho
  unfold formatString
  rw [if_neg hs, hf]
  exact this

theorem forget_ok {ε α : Type} {x : Outcome ε α} {a : α} (h : forget x = .ok a) : x = .ok a := by
  cases x with
  | ok b => simpa [forget, Outcome.mapErr] using h
  | err e => simp [forget, Outcome.mapErr] at h
  | panic => simp [forget, Outcome.mapErr] at h

/-- A string that the parser rejects is not formatted. -/
theorem formatString_rejected {E : FmtEnv D F} {s : Str} {e : TreeError} (h : Tree.tryNew E.icu E.grammar s = .err e)
    (hs : s ≠ []) (tag : Str) (lang : Option Str) (values : AMap Str (PValue D F)) :
    ∀ x, formatString E s tag lang values ≠ .ok x := by
  intro x
  unfold formatString
  rw [if_neg hs]
  have : Formatter.tryNew E s tag lang = .err (.tree e) := by
    unfold Formatter.tryNew
    rw [h]
    rfl
  rw [this]
  simp

/-! ### Parts of token sequences -/

theorem Toks.append {icu g} {a b : List Token} (h : Toks icu g (a ++ b)) : Toks icu g a ∧ Toks icu g b := by
  refine ⟨⟨fun t ht => h.nonempty t (by simp [ht]), fun t ht => h.uniform t (by simp [ht]),
    fun t ht => h.single t (by simp [ht]), ?_⟩, ⟨fun t ht => h.nonempty t (by simp [ht]),
    fun t ht => h.uniform t (by simp [ht]), fun t ht => h.single t (by simp [ht]), ?_⟩⟩
  · rintro x y post ⟨pre, rfl⟩
    exact h.maximal x y (post ++ b) ⟨pre, by simp⟩
  · rintro x y post ⟨pre, rfl⟩
    exact h.maximal x y post ⟨a ++ pre, by simp⟩

section
variable {icu : Icu} (hsyn : ∀ c ∈ patternGrammar, icu.whiteSpace c = false ∧ icu.syn c = true)
include hsyn

/-- At a grammar character a new token begins. -/
theorem split_at {g : Char} (hg : g ∈ patternGrammar) {b : Str} : ∀ {ts : List Token} {a : Str},
    Toks icu patternGrammar ts → (ts.map Token.string).flatten = a ++ g :: b →
    ∃ pre t post, ts = pre ++ t :: post ∧ (pre.map Token.string).flatten = a ∧ Gr g t ∧
      (post.map Token.string).flatten = b
  | [], a, _, h => by simp at h
  | t :: ts, a, ht, h => by
    rw [List.map_cons, List.flatten_cons] at h
    obtain ⟨y, w, hw⟩ := List.exists_cons_of_ne_nil (ht.nonempty t (by simp))
    cases a with
    | nil =>
      rw [hw] at h
      simp only [List.cons_append, List.nil_append, List.cons.injEq] at h
      obtain ⟨rfl, h⟩ := h
      have hgr := grammar_token hsyn ht hg hw
      have : w = [] := by
        have := hgr.2
        rw [hw] at this
        simpa using this
      subst this
      exact ⟨[], t, ts, rfl, rfl, hgr, by simpa using h⟩
    | cons x a =>
      have key : t.string <+: x :: a := by
        rcases List.append_eq_append_iff.1 h with ⟨u, h1, h2⟩ | ⟨u, h1, h2⟩
        · exact ⟨u, h1.symm⟩
        · cases u with
          | nil => exact ⟨[], by rw [h1]; simp⟩
          | cons z u =>
            exfalso
            simp only [List.cons_append, List.cons.injEq] at h2
            have hc := ht.uniform t (by simp) g (by rw [h1, h2.1]; simp)
            have := HasClass.unique hc (class_of_grammar hsyn hg)
            have := ht.single t (by simp) this
            rw [h1] at this
            simp at this
      obtain ⟨u, hu⟩ := key
      rw [← hu, List.append_assoc, List.append_cancel_left_eq] at h
      obtain ⟨pre, t', post, rfl, h1, h2, h3⟩ := split_at hg ht.tail h
      exact ⟨t :: pre, t', post, rfl, by simp [h1, hu], h2, h3⟩

omit hsyn in
/-- A word of one class, up to where another class begins, is one token. -/
theorem take_word {ts : List Token} (ht : Toks icu patternGrammar ts) {w rest : Str} {k : TokenType} (hk : k ≠ .grammar)
    (hw : w ≠ []) (hc : ∀ c ∈ w, HasClass icu patternGrammar c k)
    (hr : ∀ c r, rest = c :: r → ¬ HasClass icu patternGrammar c k) (h : (ts.map Token.string).flatten = w ++ rest) :
    ∃ t ts', ts = t :: ts' ∧ t.string = w ∧ t.tokenType = k ∧ (ts'.map Token.string).flatten = rest := by
  cases ts with
  | nil => simp at h; exact absurd h.1 hw
  | cons t ts =>
    rw [List.map_cons, List.flatten_cons] at h
    obtain ⟨y, v, hv⟩ := List.exists_cons_of_ne_nil (ht.nonempty t (by simp))
    obtain ⟨x, w', rfl⟩ := List.exists_cons_of_ne_nil hw
    have hyx : y = x := by
      rw [hv] at h
      simp only [List.cons_append, List.cons.injEq] at h
      exact h.1
    subst hyx
    have hcl : t.tokenType = k :=
      HasClass.unique (ht.uniform t (by simp) y (by simp [hv])) (hc y (by simp))
    rcases List.append_eq_append_iff.1 h with ⟨u, h1, h2⟩ | ⟨u, h1, h2⟩
    · cases u with
      | nil => exact ⟨t, ts, rfl, by simpa using h1.symm, hcl, by simpa using h2⟩
      | cons z u =>
        exfalso
        cases ts with
        | nil => simp at h2
        | cons t2 ts =>
          rw [List.map_cons, List.flatten_cons] at h2
          obtain ⟨z', v', hv'⟩ := List.exists_cons_of_ne_nil (ht.tail.nonempty t2 (by simp))
          rw [hv'] at h2
          simp only [List.cons_append, List.cons.injEq] at h2
          have h3 : t2.tokenType = k :=
            HasClass.unique (ht.tail.uniform t2 (by simp) z' (by simp [hv'])) (hc z' (by rw [h1, h2.1]; simp))
          rcases ht.maximal t t2 ts ⟨[], rfl⟩ with h4 | h4
          · exact h4 (by rw [hcl, h3])
          · exact hk (by rw [← hcl, h4])
    · cases u with
      | nil => exact ⟨t, ts, rfl, by simpa using h1, hcl, by simpa using h2.symm⟩
      | cons z u =>
        exfalso
        simp only [List.cons_append] at h2
        exact hr z _ h2 (hcl ▸ ht.uniform t (by simp) z (by rw [h1]; simp))

end

/-! ### Templates as items -/

theorem get_same (l : List Str) (id : Str) (h : id ∈ l) :
    (AMap.get (l.map fun id => (id, (PValue.string id : PValue D F))) id).bind textOf = some id := by
  induction l with
  | nil => simp at h
  | cons a l ih =>
    rw [List.map_cons, AMap.get_cons]
    split
    · rename_i e
      subst e
      rfl
    · rename_i e
      exact ih (by
        rcases List.mem_cons.1 h with rfl | h
        · exact absurd rfl e
        · exact h)

/-- The tokens of a template are read, whatever the values. -/
theorem template_items {icu : Icu} (hsyn : ∀ c ∈ patternGrammar, icu.whiteSpace c = false ∧ icu.syn c = true)
    (segs : List Seg) (hid : ∀ id ∈ holes segs, IsIdentifier icu id) {ts : List Token} (ht : Toks icu patternGrammar ts)
    (hcat : (ts.map Token.string).flatten = source segs) :
    ∃ items, Content false 0 items ts ∧ (∀ i ∈ items, Plain i) ∧ patNames items = holes segs := by
  let E : FmtEnv Nat Unit := { Demo.env with icu := icu }
  obtain ⟨items, hc, hr⟩ := read_template (E := E) hsyn [] ((holes segs).map fun id => (id, .string id)) id ts.length ts
    (Nat.le_refl _) ht (atoms segs) (by rw [hcat, src_atoms]) (by
      intro id hi
      rw [ids_atoms] at hi
      exact ⟨hid id hi, get_same _ id hi⟩) [] [] [] [] .nil ⟨by simp, rfl, fun _ _ => rfl⟩
  exact ⟨items, by simpa using hc, hr.plain, by simpa [ids_atoms] using hr.names⟩

/-- A template is read, whatever the values. -/
theorem template_reads {E : FmtEnv D F} (hE : Standard E) (segs : List Seg)
    (hid : ∀ id ∈ holes segs, IsIdentifier E.icu id) (hs : source segs ≠ []) :
    ∃ ts items, lex E.icu E.grammar (source segs) = .ok ts ∧ Sentence ⟨items, none⟩ ts ∧ (∀ i ∈ items, Plain i) ∧
      Doc.patNames ⟨items, none⟩ = holes segs := by
  obtain ⟨ts, hl⟩ : ∃ ts, lex E.icu E.grammar (source segs) = .ok ts :=
    ⟨_, lex_eq E.icu E.grammar (source segs) (by rw [hE.grammar]; decide) hs⟩
  have hl' := hl
  rw [hE.grammar] at hl'
  obtain ⟨htoks, hcat⟩ := toks_of_lex (by decide) hs hl'
  obtain ⟨items, hc, hp, hn⟩ := template_items hE.syn segs hid htoks hcat
  exact ⟨ts, items, hl, .plain hc, hp, by simpa [Doc.patNames] using hn⟩

theorem source_ne {segs : List Seg} {id : Str} (h : id ∈ holes segs) : source segs ≠ [] := by
  induction segs with
  | nil => simp [holes] at h
  | cons a segs ih =>
    cases a with
    | text s => 
      have := ih (by simpa [holes] using h)
      simp [source] at this ⊢
      exact fun _ => this
    | hole id => simp [source, Seg.source]

/-- A placeholder written twice. -/
theorem twice_fails {E : FmtEnv D F} (hE : Standard E) (segs : List Seg) (hid : ∀ id ∈ holes segs, IsIdentifier E.icu id)
    (hn : ¬ (holes segs).Nodup) (tag : Str) (lang : Option Str) (values : AMap Str (PValue D F)) :
    ∀ x, formatString E (source segs) tag lang values ≠ .ok x := by
  have hs : source segs ≠ [] := by
    cases h : holes segs with
    | nil => simp [h] at hn
    | cons id l => exact source_ne (id := id) (by simp [h])
  obtain ⟨ts, items, hl, hsen, _, hnames⟩ := template_reads hE segs hid hs
  obtain ⟨x, h | h⟩ := Props.C16_repetition_rejected _ _ _ _ _ hl hsen (.inl (by rw [hnames]; exact hn)) <;>
  exact formatString_rejected h hs tag lang values

theorem mem_patNames {id : Str} : ∀ {items : List Item}, id ∈ patNames items →
    ∃ l k, Item.pat l k ∈ items ∧ l.str = id
  | [], h => by simp [patNames] at h
  | it :: items, h => by
    cases it with
    | pat l k =>
      simp only [patNames, List.mem_cons] at h
      rcases h with rfl | h
      · exact ⟨l, k, by simp, rfl⟩
      · obtain ⟨l, k, h1, h2⟩ := mem_patNames h
        exact ⟨l, k, by simp [h1], h2⟩
    | _ =>
      obtain ⟨l, k, h1, h2⟩ := mem_patNames (items := items) (by simpa [patNames] using h)
      exact ⟨l, k, by simp [h1], h2⟩

theorem evalItems_plain {E : FmtEnv D F} {lang : Str} {values : AMap Str (PValue D F)} {self} {sub : Str → Store → Res}
    (st : Store) : ∀ {items : List Item}, (∀ i ∈ items, Plain i) →
    ∃ o, (evalItems E lang values self sub items st) = (some o, st)
  | [], _ => ⟨_, rfl⟩
  | it :: items, h => by
    have hx : ∃ o, evalItem E lang values self sub it st = (some o, st) := by
      match it, h it (by simp) with
      | .text t, _ => exact ⟨_, rfl⟩
      | .pat id none, _ =>
        simp only [evalItem]
        cases (values.get id.str).bind textOf <;> exact ⟨_, rfl⟩
    obtain ⟨o, ho⟩ := hx
    obtain ⟨o', ho'⟩ := evalItems_plain (E := E) (lang := lang) (values := values) (self := self) (sub := sub) st
      (items := items) fun i hi => h i (by simp [hi])
    cases o with
    | ok s => 
      simp only [evalItems, ho, ho']
      cases o' <;> exact ⟨_, rfl⟩
    | err e => simp only [evalItems, ho]; exact ⟨_, rfl⟩
    | panic => simp only [evalItems, ho]; exact ⟨_, rfl⟩

/-- A placeholder for which there is no text. -/
theorem missing_fails {E : FmtEnv D F} (hE : Standard E) (segs : List Seg)
    (hid : ∀ id ∈ holes segs, IsIdentifier E.icu id) {id : Str} (hm : id ∈ holes segs) (tag lang : Str)
    (values : AMap Str (PValue D F)) (hv : (values.get id).bind textOf = none) :
    ∀ x, formatString E (source segs) tag (some lang) values ≠ .ok x := by
  by_cases hn : (holes segs).Nodup
  · have hs := source_ne hm
    obtain ⟨ts, items, hl, hsen, hp, hnames⟩ := template_reads hE segs hid hs
    have hmem : id ∈ patNames items := by
      have : id ∈ Doc.patNames ⟨items, none⟩ := by rw [hnames]; exact hm
      simpa [Doc.patNames] using this
    obtain ⟨l, k, h1, h2⟩ := mem_patNames hmem
    have hg : ∃ t ∈ ts, t.tokenType = .grammar := by
      have hl' := hl
      rw [hE.grammar] at hl'
      obtain ⟨htoks, hcat⟩ := toks_of_lex (by decide) hs hl'
      have hc : '{' ∈ source segs := by
        clear hl hl' hcat hsen hid hn hv hs hnames
        induction segs with
        | nil => simp [holes] at hm
        | cons a segs ih =>
          cases a with
          | text s =>
            have := ih (by simpa [holes] using hm)
            simp only [source, List.flatMap_cons, List.mem_append] at this ⊢
            exact .inr this
          | hole id => simp [source, Seg.source]
      rw [← hcat] at hc
      obtain ⟨w, hw, hcw⟩ := List.mem_flatten.1 hc
      obtain ⟨t, ht, rfl⟩ := List.mem_map.1 hw
      exact ⟨t, ht, HasClass.unique (htoks.uniform t ht _ hcw) (class_of_grammar hE.syn (by decide))⟩
    have hr : Reads E (source segs) ⟨items, none⟩ := ⟨ts, hl, hsen, by rw [hnames]; exact hn, by simp [Doc.namedNames], hg⟩
    have hok : DocOk E ⟨items, none⟩ := ⟨trivial, fun it hit => plain_ok (hp it hit)⟩
    obtain ⟨o, ho⟩ := evalItems_plain (E := E) (lang := lang) (values := values) (self := mainName)
      (sub := evalNamed E lang values ([] : List Named)) Store.empty hp
    have ho' : (Doc.eval E lang values ⟨items, none⟩ Store.empty).1 = some o := by
      simpa [Doc.eval, Doc.named] using congrArg Prod.fst ho
    intro x hx
    have := formatString_reads hr hok tag lang values ho'
    rw [hx] at this
    cases o with
    | ok s =>
      obtain ⟨st', s', he⟩ := evalItems_each (congrArg Prod.fst ho) _ h1
      match k, hp _ h1 with
      | none, _ => simp [evalItem, h2, hv] at he
    | err e => simp [forget, tagged, Outcome.mapErr] at this
    | panic => simp [forget, tagged, Outcome.mapErr] at this
  · exact twice_fails hE segs hid hn tag (some lang) values

/-- A literal text, written `{`…`}`, after a template. -/
theorem literal_fails {E : FmtEnv D F} (hE : Standard E) (segs : List Seg)
    (hid : ∀ id ∈ holes segs, IsIdentifier E.icu id) (hn : (holes segs).Nodup) (rest : Str) (tag : Str) (lang : Option Str)
    (values : AMap Str (PValue D F)) :
    ∀ x, formatString E (source segs ++ '{' :: '`' :: rest) tag lang values ≠ .ok x := by
  have hs : source segs ++ '{' :: '`' :: rest ≠ [] := by simp
  obtain ⟨ts, hl⟩ : ∃ ts, lex E.icu E.grammar (source segs ++ '{' :: '`' :: rest) = .ok ts :=
    ⟨_, lex_eq E.icu E.grammar _ (by rw [hE.grammar]; decide) hs⟩
  have hl' := hl
  rw [hE.grammar] at hl'
  obtain ⟨htoks, hcat⟩ := toks_of_lex (by decide) hs hl'
  obtain ⟨pre, o, post, rfl, h1, h2, h3⟩ := split_at hE.syn (by decide) htoks hcat
  obtain ⟨pre', q, post', rfl, h4, h5, h6⟩ :=
    split_at (a := []) hE.syn (by decide) htoks.append.2.tail h3
  have : pre' = [] := by
    cases pre' with
    | nil => rfl
    | cons t pre' =>
      have := htoks.nonempty t (by simp)
      simp at h4
      exact absurd h4.1 this
  subst this
  obtain ⟨items, hc, _, hnames⟩ := template_items hE.syn segs hid htoks.append.1 h1
  have := Props.C15_every_literal_text_rejected_partial items pre post' o q hc (by rw [hnames]; exact hn) h2 h5
  exact formatString_rejected (by rw [Props.tryNew_lex hl]; exact this) hs tag lang values

/-! ### Needless backticks -/

/-- A backtick before a character that is not of the grammar: the token after it is text. -/
theorem read_mark {E : FmtEnv D F} (hE : Standard E) (lang : Str) (values : AMap Str (PValue D F)) (val : Str → Str)
    {e : Token} {ts : List Token} (he : Gr '`' e) (ht : Toks E.icu patternGrammar ts) {c : Char} {as : List Atom}
    (hc : c ∉ patternGrammar) (hcat : (ts.map Token.string).flatten = src (.ch c :: as))
    (hids : ∀ id ∈ ids as, IsIdentifier E.icu id ∧ (values.get id).bind textOf = some (val id))
    {body : List Token} {items : List Item} {names : List Str} {text : Str} (hb : Content false 0 items body)
    (hr : Read E lang values items names text) :
    ∃ items', Content false 0 items' (body ++ e :: ts) ∧
      Read E lang values items' (names ++ ids as) (text ++ c :: vals val as) := by
  cases ts with
  | nil => simp [src, Atom.src, hc] at hcat
  | cons t ts =>
    obtain ⟨y, w, hw⟩ := List.exists_cons_of_ne_nil (ht.nonempty t (by simp))
    have hy : y = c := by
      rw [List.map_cons, List.flatten_cons, hw, src_cons] at hcat
      simp only [Atom.src, hc, if_false, List.cons_append, List.cons.injEq] at hcat
      exact hcat.1
    subst hy
    have hg : t.tokenType ≠ .grammar := by
      intro hg
      have := ht.uniform t (by simp) y (by simp [hw])
      rw [hg] at this
      cases this
      exact hc (by assumption)
    obtain ⟨as', he', hrest⟩ := split_word t.string _ (not_grammar_token (ht.uniform t (by simp)) hg hE.syn) _
      (by simpa using hcat)
    have hc' := Content.escaped (t := t) hb he
    have hids' : ids (Atom.ch y :: as) = ids as' := by rw [he', ids_append, ids_ch]; rfl
    obtain ⟨items', h1, h2⟩ := read_template hE.syn lang values val ts.length ts (Nat.le_refl _) ht.tail as' hrest
      (fun id hid => hids id (by rw [← hids'] at hid; simpa [ids] using hid)) (body ++ [e, t])
      (pushText items ⟨0 + body.length + 1, t⟩) names (text ++ t.string) hc'
      ⟨plain_pushText hr.plain, by rw [patNames_pushText]; exact hr.names, fun sub st =>
        evalItems_pushText items _ (hr.text sub st) hr.plain⟩
    have hfl : ∀ t : Str, (t.map Atom.ch).flatMap (Atom.val val) = t := by
      intro t; induction t <;> simp_all [Atom.val]
    have hvals : y :: vals val as = t.string ++ vals val as' := by
      have : vals val (Atom.ch y :: as) = vals val (t.string.map Atom.ch ++ as') := by rw [he']
      simpa [vals, Atom.val, hfl] using this
    refine ⟨items', by simpa using h1, ?_⟩
    rw [hvals, ← List.append_assoc, show ids as = ids as' from by simpa [ids] using hids']
    exact h2

/-- Two backticks before characters that are not of the grammar are not seen in the result. -/
theorem marked_text {E : FmtEnv D F} (hE : Standard E) (s0 s1 s2 : List Seg) (c1 c2 : Char) (t1 t2 : Str)
    (hc1 : c1 ∉ patternGrammar) (hc2 : c2 ∉ patternGrammar) (tag lang : Str) (values : AMap Str (PValue D F))
    (val : Str → Str) (hn : (holes s0 ++ holes s1 ++ holes s2).Nodup)
    (hid : ∀ id ∈ holes s0 ++ holes s1 ++ holes s2, IsIdentifier E.icu id ∧ (values.get id).bind textOf = some (val id)) :
    formatString E (source s0 ++ '`' :: (source (.text (c1 :: t1) :: s1) ++ '`' :: source (.text (c2 :: t2) :: s2))) tag
      (some lang) values =
      .ok (fill val (s0 ++ .text (c1 :: t1) :: s1 ++ .text (c2 :: t2) :: s2), tag) := by
  generalize hS : source s0 ++ '`' :: (source (.text (c1 :: t1) :: s1) ++ '`' :: source (.text (c2 :: t2) :: s2)) = S
  have hs : S ≠ [] := by rw [← hS]; simp
  obtain ⟨ts, hl⟩ : ∃ ts, lex E.icu E.grammar S = .ok ts :=
    ⟨_, lex_eq E.icu E.grammar _ (by rw [hE.grammar]; decide) hs⟩
  have hl' := hl
  rw [hE.grammar] at hl'
  obtain ⟨htoks, hcat⟩ := toks_of_lex (by decide) hs hl'
  rw [← hS] at hcat
  obtain ⟨p0, e1, q, rfl, h1, g1, h2⟩ := split_at hE.syn (by decide) htoks hcat
  obtain ⟨p1, e2, p2, rfl, h3, g2, h4⟩ := split_at hE.syn (by decide) htoks.append.2.tail h2
  have T1 := htoks.append.1
  have T2 := htoks.append.2.tail.append.1
  have T3 := htoks.append.2.tail.append.2.tail
  have m0 : ∀ id ∈ ids (atoms s0), IsIdentifier E.icu id ∧ (values.get id).bind textOf = some (val id) := fun id hi =>
    hid id (by rw [ids_atoms] at hi; simp [hi])
  have m1 : ∀ id ∈ ids (t1.map Atom.ch ++ atoms s1), IsIdentifier E.icu id ∧ (values.get id).bind textOf = some (val id) :=
    fun id hi => hid id (by rw [ids_append, ids_ch, ids_atoms] at hi; simp at hi; simp [hi])
  have m2 : ∀ id ∈ ids (t2.map Atom.ch ++ atoms s2), IsIdentifier E.icu id ∧ (values.get id).bind textOf = some (val id) :=
    fun id hi => hid id (by rw [ids_append, ids_ch, ids_atoms] at hi; simp at hi; simp [hi])
  obtain ⟨i0, a1, a2⟩ := read_template hE.syn lang values val p0.length p0 (Nat.le_refl _) T1 (atoms s0)
    (by rw [h1, src_atoms]) m0 [] [] [] [] .nil ⟨by simp, rfl, fun _ _ => rfl⟩
  obtain ⟨i1, b1, b2⟩ := read_mark hE lang values val g1 T2 hc1 (by rw [h3, ← src_atoms]; rfl) m1 a1 a2
  obtain ⟨i2, d1, d2⟩ := read_mark hE lang values val g2 T3 hc2 (by rw [h4, ← src_atoms]; rfl) m2 b1 b2
  have hnames : patNames i2 = holes s0 ++ holes s1 ++ holes s2 := by
    have := d2.names
    simpa [ids_append, ids_ch, ids_atoms] using this
  have hr : Reads E S ⟨i2, none⟩ := ⟨_, hl, .plain (by simpa using d1), by simpa [Doc.patNames, hnames] using hn,
    by simp [Doc.namedNames], e1, by simp, g1.1⟩
  have hok : DocOk E ⟨i2, none⟩ := ⟨trivial, fun it hit => plain_ok (d2.plain it hit)⟩
  refine forget_ok ?_
  rw [formatString_reads (o := .ok _) hr hok tag lang values (by
    have := d2.text (evalNamed E lang values ([] : List Named)) Store.empty
    exact congrArg Prod.fst this)]
  have hfl : ∀ (t : Str) (as : List Atom), vals val (t.map Atom.ch ++ as) = t ++ vals val as := by
    intro t as
    induction t with
    | nil => rfl
    | cons c t ih => simpa [vals, Atom.val] using ih
  simp [tagged, hfl, vals_atoms, fill, Seg.fill]

/-! ### A select pattern at the end -/

theorem evalItems_append {E : FmtEnv D F} {lang : Str} {values : AMap Str (PValue D F)} {self} {sub : Str → Store → Res}
    {b : List Item} {y : Str} {st' st'' : Store} (hb : evalItems E lang values self sub b st' = (some (.ok y), st'')) :
    ∀ {a : List Item} {st : Store} {x : Str}, evalItems E lang values self sub a st = (some (.ok x), st') →
    evalItems E lang values self sub (a ++ b) st = (some (.ok (x ++ y)), st'')
  | [], st, x, h => by
    simp only [evalItems, Prod.mk.injEq, Option.some.injEq, Outcome.ok.injEq] at h
    obtain ⟨rfl, rfl⟩ := h
    simpa using hb
  | it :: a, st, x, h => by
    simp only [List.cons_append, evalItems] at h ⊢
    match hy : evalItem E lang values self sub it st, h with
    | (some (.ok s), st1), h =>
      simp only at h ⊢
      match hz : evalItems E lang values self sub a st1, h with
      | (some (.ok s'), st2), h =>
        simp only [Prod.mk.injEq, Option.some.injEq, Outcome.ok.injEq] at h
        obtain ⟨rfl, rfl⟩ := h
        rw [evalItems_append hb hz]
        simp

theorem _root_.Verif.Spec.Letters.word {icu : Icu} (h : Letters icu) {w : Str}
    (hw : w ≠ [] ∧ ∀ c ∈ w, c ∈ "abcdefghijklmnopqrstuvwxyzABCDEFGHIJKLMNOPQRSTUVWXYZ_".toList) : IsIdentifier icu w :=
  ⟨hw.1, fun c hc => h.letter c (hw.2 c hc)⟩

theorem one_word {icu : Icu} {ts : List Token} (ht : Toks icu patternGrammar ts) {w : Str} (hw : IsIdentifier icu w)
    (h : (ts.map Token.string).flatten = w) : ∃ t, ts = [t] ∧ t.string = w ∧ t.tokenType = .identifier := by
  obtain ⟨t, ts', rfl, h1, h2, h3⟩ := take_word (rest := []) ht (by decide) hw.1
    (fun c hc => .id (hw.2 c hc).1 (hw.2 c hc).2) (by simp) (by simpa using h)
  have : ts' = [] := by
    cases ts' with
    | nil => rfl
    | cons a ts' =>
      have := ht.nonempty a (by simp)
      simp at h3
      exact absurd h3.1 this
  subst this
  exact ⟨t, rfl, h1, h2⟩

/-- A word, a space, and what follows. -/
theorem word_space {icu : Icu} (hL : Letters icu) {ts : List Token} (ht : Toks icu patternGrammar ts) {w rest : Str}
    (hw : IsIdentifier icu w) (hr : ∀ c r, rest = c :: r → icu.whiteSpace c = false)
    (h : (ts.map Token.string).flatten = w ++ ' ' :: rest) :
    ∃ t s ts', ts = t :: s :: ts' ∧ t.string = w ∧ t.tokenType = .identifier ∧ s.tokenType = .whiteSpace ∧
      (ts'.map Token.string).flatten = rest := by
  obtain ⟨t, ts', rfl, h1, h2, h3⟩ := take_word ht (by decide) hw.1 (fun c hc => .id (hw.2 c hc).1 (hw.2 c hc).2)
    (fun c r e hc => by
      simp only [List.cons.injEq] at e
      rw [← e.1] at hc
      have h1 := hL.space
      cases hc with
      | id h2 _ => rw [h2] at h1; cases h1) h
  obtain ⟨s, ts'', rfl, h4, h5, h6⟩ := take_word (w := [' ']) (rest := rest) (k := .whiteSpace) ht.tail (by decide) (by simp)
    (fun c hc => by simp at hc; subst hc; exact .ws hL.space)
    (fun c r e hc => by
      have h1 := hr c r e
      cases hc with
      | ws h2 => rw [h1] at h2; cases h2) (by simpa using h3)
  exact ⟨t, s, ts'', rfl, h1, h2, h5, h6⟩

/-- A template, a select pattern with the cases `true` and `false`, a full stop, and the texts of the cases. -/
def choice (segs : List Seg) (yes no : Str) : Str :=
  source segs ++ '{' :: ("fallback select true".toList ++ '#' :: ("true false".toList ++ '#' :: ("false".toList ++
    '}' :: ('.' :: '#' :: '{' :: ("true ".toList ++ (yes ++ '}' :: '{' :: ("false ".toList ++ (no ++ ['}']))))))))

/-- The syntax of such a string, given its tokens. -/
theorem choice_sentence {items : List Item} {p0 : List Token} (a1 : Content false 0 items p0)
    {o tb s1 tse s2 t1 h1 t2 s3 f1 h2 f2 k d h3 o1 n1 s4 y1 k1 o2 n2 s5 y2 k2 : Token} (go : Gr '{' o)
    (v1 : tb.tokenType = .identifier) (z1 : s1.tokenType = .whiteSpace) (v2 : tse.tokenType = .identifier)
    (z2 : s2.tokenType = .whiteSpace) (v3 : t1.tokenType = .identifier) (gh1 : Gr '#' h1)
    (v4 : t2.tokenType = .identifier) (z4 : s3.tokenType = .whiteSpace) (v5 : f1.tokenType = .identifier)
    (gh2 : Gr '#' h2) (v6 : f2.tokenType = .identifier) (gk : Gr '}' k) (vd : d.tokenType ≠ .grammar)
    (gh3 : Gr '#' h3) (go1 : Gr '{' o1) (v7 : n1.tokenType = .identifier) (z7 : s4.tokenType = .whiteSpace)
    (v8 : y1.tokenType = .identifier) (gk1 : Gr '}' k1) (go2 : Gr '{' o2) (v9 : n2.tokenType = .identifier)
    (z9 : s5.tokenType = .whiteSpace) (v10 : y2.tokenType = .identifier) (gk2 : Gr '}' k2) :
    ∃ lb lk l1 l2 l3 l4 ld m1 m2 m3 m4 : Leaf, Sentence ⟨items ++ [.pat lb (some (lk, [(l1, l2), (l3, l4)]))] ++
        [.text [ld]], some [⟨m1, [.text [m2]]⟩, ⟨m3, [.text [m4]]⟩]⟩
      (p0 ++ o :: ([tb, s1, tse, s2, t1] ++ h1 :: ([t2, s3, f1] ++ h2 :: ([f2] ++ k :: ([d] ++ h3 :: ([] ++ o1 ::
        ([n1, s4, y1] ++ k1 :: ([] ++ o2 :: ([n2, s5, y2] ++ [k2]))))))))) ∧
      lb.tok = tb ∧ lk.tok = tse ∧ l1.tok = t1 ∧ l3.tok = f1 ∧ ld.tok = d ∧ m1.tok = n1 ∧ m2.tok = y1 ∧ m3.tok = n2 ∧
      m4.tok = y2 := by
  have body := KwBody.selector (.skip (.selector (.skip (.nil (n := 0 + p0.length + 3 + [s1].length)) (t := s2)
    (.inl z2)) v3 gh1.2 v4) (t := s3) (.inl z4)) v5 gh2.2 v6
  have pat := Pattern.keyword go v1 (ws := [s1]) (by simpa [Blank] using z1) v2 body gk
  have main := (Content.pattern a1 pat).plain vd
  have grp := fun n => Group.named (.named (.nil (n := n)) go1 v7 z7 (ws := []) (by simp [Blank])
    (body := [y1]) (.inl v8) (.plain .nil (by rw [v8]; decide)) gk1) go2 v9 z9 (ws := []) (by simp [Blank])
    (body := [y2]) (.inl v10) (.plain .nil (by rw [v10]; decide)) gk2
  have sen := Sentence.group main gh3 (grp _)
  have hpush : ∀ (it : Item) (l : Leaf), (∀ ls, it ≠ .text ls) →
      pushText (items ++ [it]) l = items ++ [it] ++ [.text [l]] := by
    intro it l h
    cases it <;> simp_all [pushText]
  rw [hpush _ _ (fun _ h => by cases h)] at sen
  have hts : ∀ {x y z : List Token} {doc : Doc}, Sentence doc x → x = y → Sentence doc y := fun h e => e ▸ h
  refine ⟨_, _, _, _, _, _, _, _, _, _, _, hts (x := _) (z := []) sen (by
    simp only [List.append_assoc, List.cons_append, List.nil_append]), rfl, rfl, rfl, rfl, rfl, rfl, rfl, rfl, rfl⟩

theorem choice_ok {E : FmtEnv D F} (hE : Standard E) (hL : Letters E.icu) (segs : List Seg) (yes no : Str)
    (hy : IsIdentifier E.icu yes) (hno : IsIdentifier E.icu no) (tag lang : Str) (values : AMap Str (PValue D F))
    (val : Str → Str) (hn : (holes segs ++ ["fallback".toList]).Nodup)
    (hid : ∀ id ∈ holes segs, IsIdentifier E.icu id ∧ (values.get id).bind textOf = some (val id)) (b : Bool)
    (hf : (values.get "fallback".toList).bind textOf = some (if b then "true".toList else "false".toList)) :
    formatString E (choice segs yes no) tag (some lang) values =
      .ok (fill val segs ++ (if b then yes else no) ++ ['.'], tag) := by
  have ch : ∀ {c : Char} {r : Str}, IsIdentifier E.icu (c :: r) → E.icu.whiteSpace c = false := fun h => (h.2 _ (by simp)).1
  have hs : choice segs yes no ≠ [] := by simp [choice]
  obtain ⟨ts, hl⟩ : ∃ ts, lex E.icu E.grammar (choice segs yes no) = .ok ts :=
    ⟨_, lex_eq E.icu E.grammar _ (by rw [hE.grammar]; decide) hs⟩
  have hl' := hl
  rw [hE.grammar] at hl'
  obtain ⟨T, hcat⟩ := toks_of_lex (by decide) hs hl'
  have wt : IsIdentifier E.icu "true".toList := hL.word (by decide)
  have wf : IsIdentifier E.icu "false".toList := hL.word (by decide)
  have wb : IsIdentifier E.icu "fallback".toList := hL.word (by decide)
  have wse : IsIdentifier E.icu "select".toList := hL.word (by decide)
  have lead : ∀ {w : Str} (r : Str), IsIdentifier E.icu w → ∀ c r', w ++ r = c :: r' → E.icu.whiteSpace c = false := by
    intro w r hw c r' e
    obtain ⟨x, w', rfl⟩ := List.exists_cons_of_ne_nil hw.1
    simp only [List.cons_append, List.cons.injEq] at e
    exact e.1 ▸ (hw.2 x (by simp)).1
  unfold choice at hcat
  -- the pieces between grammar characters
  obtain ⟨p0, o, q, rfl, c0, go, e⟩ := split_at (g := '{') hE.syn (by decide) T hcat
  have T0 := T.append.1
  have T1 := T.append.2.tail
  obtain ⟨p1, h1, q, rfl, c1, gh1, e⟩ := split_at (g := '#') hE.syn (by decide) T1 e
  have T2 := T1.append.2.tail
  obtain ⟨p2, h2, q, rfl, c2, gh2, e⟩ := split_at (g := '#') hE.syn (by decide) T2 e
  have T3 := T2.append.2.tail
  obtain ⟨p3, k, q, rfl, c3, gk, e⟩ := split_at (g := '}') hE.syn (by decide) T3 e
  have T4 := T3.append.2.tail
  obtain ⟨p4, h3, q, rfl, c4, gh3, e⟩ := split_at (g := '#') (a := ['.']) hE.syn (by decide) T4 (by simpa using e)
  have T5 := T4.append.2.tail
  obtain ⟨p5, o1, q, rfl, c5, go1, e⟩ := split_at (g := '{') (a := []) hE.syn (by decide) T5 (by simpa using e)
  have T6 := T5.append.2.tail
  obtain ⟨p6, k1, q, rfl, c6, gk1, e⟩ := split_at (g := '}') (a := "true ".toList ++ yes) hE.syn (by decide) T6 (by simpa using e)
  have T7 := T6.append.2.tail
  obtain ⟨p7, o2, q, rfl, c7, go2, e⟩ := split_at (g := '{') (a := []) hE.syn (by decide) T7 (by simpa using e)
  have T8 := T7.append.2.tail
  obtain ⟨p8, k2, q, rfl, c8, gk2, e⟩ := split_at (g := '}') (a := "false ".toList ++ no) (b := []) hE.syn (by decide) T8
    (by simpa using e)
  have T9 := T8.append.2.tail
  have none_of : ∀ {l : List Token}, Toks E.icu patternGrammar l → (l.map Token.string).flatten = [] → l = [] := by
    intro l hl h
    cases l with
    | nil => rfl
    | cons a l =>
      simp at h
      exact absurd h.1 (hl.nonempty a (by simp))
  obtain rfl := none_of T9 e
  obtain rfl := none_of T7.append.1 c7
  obtain rfl := none_of T5.append.1 c5
  -- words
  obtain ⟨tb, s1, x, rfl, u1, v1, z1, e⟩ := word_space (w := "fallback".toList) (rest := "select true".toList) hL
    T1.append.1 wb (lead (w := "select".toList) " true".toList wse) (by rw [c1]; rfl)
  have X1 := T1.append.1.tail.tail
  obtain ⟨tse, s2, x, rfl, u2, v2, z2, e⟩ := word_space (w := "select".toList) (rest := "true".toList) hL X1 wse
    (lead (w := "true".toList) [] wt) (by rw [e]; rfl)
  obtain ⟨t1, rfl, u3, v3⟩ := one_word X1.tail.tail wt e
  obtain ⟨t2, s3, x, rfl, u4, v4, z4, e⟩ := word_space (w := "true".toList) (rest := "false".toList) hL T2.append.1 wt
    (lead (w := "false".toList) [] wf) (by rw [c2]; rfl)
  obtain ⟨f1, rfl, u5, v5⟩ := one_word T2.append.1.tail.tail wf e
  obtain ⟨f2, rfl, u6, v6⟩ := one_word T3.append.1 wf c3
  obtain ⟨n1, s4, x, rfl, u7, v7, z7, e⟩ := word_space (w := "true".toList) (rest := yes) hL T6.append.1 wt
    (by simpa using lead [] hy) (by rw [c6]; rfl)
  obtain ⟨y1, rfl, u8, v8⟩ := one_word T6.append.1.tail.tail hy e
  obtain ⟨n2, s5, x, rfl, u9, v9, z9, e⟩ := word_space (w := "false".toList) (rest := no) hL T8.append.1 wf
    (by simpa using lead [] hno) (by rw [c8]; rfl)
  obtain ⟨y2, rfl, u10, v10⟩ := one_word T8.append.1.tail.tail hno e
  -- the full stop
  obtain ⟨d, rfl, ud, vd⟩ : ∃ d, p4 = [d] ∧ d.string = ['.'] ∧ d.tokenType ≠ .grammar := by
    cases p4 with
    | nil => simp at c4
    | cons d l =>
      obtain ⟨x, w, hw⟩ := List.exists_cons_of_ne_nil (T4.append.1.nonempty d (by simp))
      rw [List.map_cons, List.flatten_cons, hw] at c4
      simp only [List.cons_append, List.cons.injEq, List.append_eq_nil_iff] at c4
      obtain ⟨rfl, rfl, c4⟩ := c4
      obtain rfl := none_of T4.append.1.tail c4
      refine ⟨d, rfl, hw, fun hg => ?_⟩
      have := T4.append.1.uniform d (by simp) '.' (by simp [hw])
      rw [hg] at this
      cases this
      rename_i h
      exact absurd h (by decide)
  obtain ⟨items, a1, a2⟩ := read_template hE.syn lang values val p0.length p0 (Nat.le_refl _) T0 (atoms segs)
    (by rw [c0, src_atoms]) (fun id hi => hid id (by rwa [ids_atoms] at hi)) [] [] [] [] .nil
    ⟨by simp, rfl, fun _ _ => rfl⟩
  rw [List.nil_append] at a1
  obtain ⟨lb, lk, l1, l2, l3, l4, ld, m1, m2, m3, m4, sen, w1, w2, w3, w4, w5, w6, w7, w8, w9⟩ :=
    choice_sentence a1 go v1 z1 v2 z2 v3 gh1 v4 z4 v5 gh2 v6 gk vd gh3 go1 v7 z7 v8 gk1 go2 v9 z9 v10 gk2
  have hnames : patNames items = holes segs := by simpa [ids_atoms] using a2.names
  have htext : ∀ sub st, evalItems E lang values mainName sub items st = (some (.ok (fill val segs)), st) := by
    simpa [vals_atoms] using a2.text
  have x1 : lb.tok.string = "fallback".toList := by rw [w1, u1]
  have x2 : lk.tok.string = "select".toList := by rw [w2, u2]
  have x3 : l1.tok.string = "true".toList := by rw [w3, u3]
  have x4 : l3.tok.string = "false".toList := by rw [w4, u5]
  have x5 : ld.tok.string = ['.'] := by rw [w5, ud]
  have x6 : m1.tok.string = "true".toList := by rw [w6, u7]
  have x7 : m2.tok.string = yes := by rw [w7, u8]
  have x8 : m3.tok.string = "false".toList := by rw [w8, u9]
  have x9 : m4.tok.string = no := by rw [w9, u10]
  refine forget_ok ?_
  rw [formatString_reads (o := .ok (fill val segs ++ (if b then yes else no) ++ ['.'])) ⟨_, hl, sen, ?_, ?_, o,
    by simp, go.1⟩ ⟨?_, ?_⟩ tag lang values ?_]
  · rfl
  · simpa [Doc.patNames, patNames_append, patNames, hnames, x1] using hn
  · simp [Doc.namedNames, x6, x8]
  · refine ⟨?_, ?_, ?_, ?_, trivial⟩
    · rw [Named.name, Leaf.str, x6]; decide
    · intro it hi; rw [List.mem_singleton] at hi; subst hi; trivial
    · simp only [Named.name, Leaf.str, x6, x8]; decide
    · intro it hi; rw [List.mem_singleton] at hi; subst hi; trivial
  · intro it hi
    simp only [List.mem_append, List.mem_singleton] at hi
    rcases hi with (hi | rfl) | rfl
    · exact plain_ok (a2.plain it hi)
    · refine .inr (.inr ⟨x2, ?_⟩)
      simp only [Leaf.str, Doc.named, Option.getD_some, List.map_cons, List.map_nil, Named.name, x3, x4, x6, x8]
      decide
    · trivial
  · have hsel : ∀ (sub : Str → Store → Res) (st : Store),
        (∀ c : Bool, sub (if c then "true".toList else "false".toList) st = (some (.ok (if c then yes else no)), st)) →
        evalItem E lang values mainName sub (.pat lb (some (lk, [(l1, l2), (l3, l4)]))) st =
          (some (.ok (if b then yes else no)), st) := by
      intro sub st hsub
      obtain ⟨v, hv, hv'⟩ := Option.bind_eq_some_iff.1 hf
      simp only [evalItem, Leaf.str, x1, hv, x2, List.map_cons, List.map_nil, x3, x4, evalSelect, hv']
      rw [if_neg (by decide), if_neg (by decide), if_neg (by decide), if_neg (by decide),
        if_pos (by cases b <;> decide), if_neg (by cases b <;> decide), hsub]
    have hsub : ∀ c : Bool, evalNamed E lang values (Doc.named ⟨items ++ [.pat lb (some (lk, [(l1, l2), (l3, l4)]))] ++
        [.text [ld]], some [⟨m1, [.text [m2]]⟩, ⟨m3, [.text [m4]]⟩]⟩).reverse
        (if c then "true".toList else "false".toList) Store.empty = (some (.ok (if c then yes else no)), Store.empty) := by
      intro c
      simp only [Doc.named, Option.getD_some, List.reverse_cons, List.reverse_nil, List.nil_append, List.singleton_append,
        evalNamed, Named.name, Leaf.str, x6, x8]
      cases c
      · simp [evalItems, evalItem, leafText, Leaf.str, x9]
      · simp [evalItems, evalItem, leafText, Leaf.str, x7]
    refine congrArg Prod.fst (a₂ := (some (Outcome.ok (ε := Unit) (fill val segs ++ (if b then yes else no) ++ ['.'])), Store.empty)) ?_
    refine evalItems_append (st' := Store.empty) ?_ (evalItems_append (st' := Store.empty) ?_ (htext _ Store.empty))
    · simp [evalItems, evalItem, leafText, Leaf.str, x5]
    · rw [evalItems, hsel _ _ hsub]
      simp [evalItems]

end Verif.FormatLemmas
