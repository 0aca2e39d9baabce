import Verif.Lemmas.FormatDoc
import Verif.Lemmas.Lexer
import Verif.Lemmas.TreeComplete
import Verif.Spec.Text
/-
Templates of texts and placeholders are read as such.
-/
namespace Verif.FormatLemmas
open Verif Verif.Spec
open Verif.LexerLemmas (lex_eq annotate_words words_tokenisation words)
open Verif.TreeLemmas (patNames_append patNames_pushText)

variable {D F : Type}

/-- One character of text, or a placeholder. -/
inductive Atom where
  | ch (c : Char)
  | hole (id : Str)

def Atom.src : Atom → Str
  | .ch c => if c ∈ patternGrammar then ['`', c] else [c]
  | .hole id => '{' :: id ++ ['}']

def atoms : List Seg → List Atom
  | [] => []
  | .text s :: rest => s.map .ch ++ atoms rest
  | .hole id :: rest => .hole id :: atoms rest

def src (as : List Atom) : Str := as.flatMap Atom.src

def Atom.val (val : Str → Str) : Atom → Str
  | .ch c => [c]
  | .hole id => val id

def vals (val : Str → Str) (as : List Atom) : Str := as.flatMap (Atom.val val)

def ids : List Atom → List Str
  | [] => []
  | .ch _ :: rest => ids rest
  | .hole id :: rest => id :: ids rest

theorem src_cons (a : Atom) (as : List Atom) : src (a :: as) = a.src ++ src as := by simp [src]

theorem src_atoms (segs : List Seg) : src (atoms segs) = source segs := by
  induction segs with
  | nil => rfl
  | cons s segs ih =>
    cases s with
    | text t =>
      simp only [atoms, source, List.flatMap_cons, Seg.source] at *
      rw [← ih]
      simp [src, escape, List.flatMap_map, Atom.src]
    | hole id =>
      simp only [atoms, source, List.flatMap_cons, Seg.source] at *
      rw [← ih]
      simp [src, Atom.src]

theorem vals_atoms (val : Str → Str) (segs : List Seg) : vals val (atoms segs) = fill val segs := by
  induction segs with
  | nil => rfl
  | cons s segs ih =>
    cases s with
    | text t =>
      simp only [atoms, fill, List.flatMap_cons, Seg.fill] at *
      rw [← ih]
      have : ∀ t : Str, t.flatMap (fun c => [c]) = t := by intro t; induction t <;> simp_all
      simp [vals, List.flatMap_map, Atom.val, this]
    | hole id =>
      simp only [atoms, fill, List.flatMap_cons, Seg.fill] at *
      rw [← ih]
      simp [vals, Atom.val]

theorem ids_append (a b : List Atom) : ids (a ++ b) = ids a ++ ids b := by
  induction a with
  | nil => rfl
  | cons x a ih => cases x <;> simp [ids, ih]

theorem ids_ch (t : Str) : ids (t.map .ch) = [] := by induction t <;> simp_all [ids]

theorem ids_atoms (segs : List Seg) : ids (atoms segs) = holes segs := by
  induction segs with
  | nil => rfl
  | cons s segs ih =>
    cases s with
    | text t => simp [atoms, ids_append, ids_ch, ih, holes]
    | hole id => simp only [atoms, ids, ih, holes, List.flatMap_cons, List.singleton_append]

/-! ### Tokens -/

/-- Tokens as the lexer makes them. -/
structure Toks (icu : Icu) (g : Str) (ts : List Token) : Prop where
  nonempty : ∀ t ∈ ts, t.string ≠ []
  uniform : ∀ t ∈ ts, ∀ c ∈ t.string, HasClass icu g c t.tokenType
  single : ∀ t ∈ ts, t.tokenType = .grammar → t.string.length = 1
  maximal : ∀ a b post, (∃ pre, ts = pre ++ a :: b :: post) → Separated a.tokenType b.tokenType

theorem Toks.tail {icu g t ts} (h : Toks icu g (t :: ts)) : Toks icu g ts where
  nonempty t ht := h.nonempty t (by simp [ht])
  uniform t ht := h.uniform t (by simp [ht])
  single t ht := h.single t (by simp [ht])
  maximal a b post := by
    rintro ⟨pre, rfl⟩
    exact h.maximal a b post ⟨t :: pre, rfl⟩

theorem toks_of_lex {icu : Icu} {g s : Str} {ts : List Token} (hg : g ≠ []) (hs : s ≠ []) (h : lex icu g s = .ok ts) :
    Toks icu g ts ∧ (ts.map Token.string).flatten = s := by
  have hl := lex_eq icu g s hg hs
  rw [hl] at h
  injection h with h
  have hw : ts.map (fun t => (t.tokenType, t.string)) = words (charType icu g) s := by rw [← h, annotate_words]
  have ht := words_tokenisation icu g s
  rw [← hw] at ht
  refine ⟨⟨?_, ?_, ?_, ?_⟩, ?_⟩
  · intro t hm; exact ht.nonempty (t.tokenType, t.string) (List.mem_map.2 ⟨t, hm, rfl⟩)
  · intro t hm; exact ht.uniform (t.tokenType, t.string) (List.mem_map.2 ⟨t, hm, rfl⟩)
  · intro t hm; exact ht.single (t.tokenType, t.string) (List.mem_map.2 ⟨t, hm, rfl⟩)
  · rintro a b post ⟨pre, rfl⟩
    exact ht.maximal (pre.map fun t => (t.tokenType, t.string)) (a.tokenType, a.string) (b.tokenType, b.string)
      (post.map fun t => (t.tokenType, t.string)) (by simp)
  · have := ht.concat
    rw [List.map_map] at this
    exact this

theorem HasClass.unique {icu : Icu} {g : Str} {c : Char} {a b : TokenType} (ha : HasClass icu g c a)
    (hb : HasClass icu g c b) : a = b := by
  cases ha <;> cases hb <;> simp_all

section
variable {icu : Icu} (hsyn : ∀ c ∈ patternGrammar, icu.whiteSpace c = false ∧ icu.syn c = true)
include hsyn

theorem class_of_grammar {c : Char} (hc : c ∈ patternGrammar) : HasClass icu patternGrammar c .grammar :=
  .gr (hsyn c hc).1 (hsyn c hc).2 hc

/-- A token that starts with a grammar character is that character. -/
theorem grammar_token {t : Token} {ts : List Token} (h : Toks icu patternGrammar (t :: ts)) {c : Char} {w : Str}
    (hc : c ∈ patternGrammar) (ht : t.string = c :: w) : Gr c t := by
  have hcl := HasClass.unique (h.uniform t (by simp) c (by simp [ht])) (class_of_grammar hsyn hc)
  have := h.single t (by simp) hcl
  rw [ht] at this
  refine ⟨hcl, ?_⟩
  rw [ht]
  simp only [List.length_cons, Nat.add_eq_right, List.length_eq_zero_iff] at this
  rw [this]

omit hsyn in
theorem not_grammar_token {t : Token} (h : ∀ c ∈ t.string, HasClass icu patternGrammar c t.tokenType)
    (ht : t.tokenType ≠ .grammar) (hs : ∀ c ∈ patternGrammar, icu.whiteSpace c = false ∧ icu.syn c = true) :
    ∀ c ∈ t.string, c ∉ patternGrammar :=
  fun c hc hm => ht (HasClass.unique (h c hc) (class_of_grammar hs hm))

omit hsyn in
/-- Words without grammar characters come from characters of text. -/
theorem split_word (w rest : Str) (hw : ∀ c ∈ w, c ∉ patternGrammar) : ∀ as : List Atom, w ++ rest = src as →
    ∃ as', as = w.map .ch ++ as' ∧ rest = src as' := by
  induction w with
  | nil => intro as h; exact ⟨as, rfl, h⟩
  | cons c w ih =>
    intro as h
    have hc : c ∉ patternGrammar := hw c (by simp)
    cases as with
    | nil => simp [src] at h
    | cons a as =>
      rw [src_cons] at h
      cases a with
      | ch c' =>
        simp only [Atom.src] at h
        split at h
        · simp only [List.cons_append, List.cons.injEq, List.nil_append] at h
          exact absurd (by rw [h.1]; decide) hc
        · simp only [List.cons_append, List.cons.injEq, List.nil_append] at h
          obtain ⟨as', rfl, hr⟩ := ih (fun x hx => hw x (by simp [hx])) as h.2
          exact ⟨as', by simp [h.1], hr⟩
      | hole id =>
        simp only [Atom.src, List.cons_append, List.cons.injEq] at h
        exact absurd (by rw [h.1]; decide) hc

/-- An identifier before a closing brace is one token. -/
theorem split_identifier {ts : List Token} (h : Toks icu patternGrammar ts) {id rest : Str}
    (hid : IsIdentifier icu id) (hc : (ts.map Token.string).flatten = id ++ '}' :: rest) :
    ∃ t c ts', ts = t :: c :: ts' ∧ t.tokenType = .identifier ∧ t.string = id ∧ Gr '}' c ∧
      (ts'.map Token.string).flatten = rest := by
  cases ts with
  | nil => simp at hc
  | cons t ts =>
    obtain ⟨hne, hids⟩ := hid
    obtain ⟨x, id', rfl⟩ := List.exists_cons_of_ne_nil hne
    have hx : HasClass icu patternGrammar x .identifier := .id (hids x (by simp)).1 (hids x (by simp)).2
    obtain ⟨y, w, hw⟩ := List.exists_cons_of_ne_nil (h.nonempty t (by simp))
    simp only [List.map_cons, List.flatten_cons, hw, List.cons_append, List.cons.injEq] at hc
    obtain ⟨rfl, hc⟩ := hc
    have htt : t.tokenType = .identifier := HasClass.unique (h.uniform t (by simp) y (by simp [hw])) hx
    have hwid : ∀ c ∈ w, icu.syn c = false := by
      intro c hcw
      have := h.uniform t (by simp) c (by simp [hw, hcw])
      rw [htt] at this
      cases this
      assumption
    have key : ∀ (w id' : Str), (∀ c ∈ w, icu.syn c = false) → w ++ (ts.map Token.string).flatten = id' ++ '}' :: rest →
        (∀ c ∈ id', icu.whiteSpace c = false ∧ icu.syn c = false) →
        w = id' ∧ (ts.map Token.string).flatten = '}' :: rest ∨
        ∃ c r, icu.whiteSpace c = false ∧ icu.syn c = false ∧ (ts.map Token.string).flatten = c :: r := by
      intro w
      induction w with
      | nil =>
        intro id' _ he hi
        cases id' with
        | nil => exact Or.inl ⟨rfl, by simpa using he⟩
        | cons c id' => exact Or.inr ⟨c, _, (hi c (by simp)).1, (hi c (by simp)).2, he⟩
      | cons c w ih =>
        intro id' hw he hi
        cases id' with
        | nil =>
          simp only [List.cons_append, List.nil_append, List.cons.injEq] at he
          have h1 := hw c (by simp)
          rw [he.1, (hsyn '}' (by decide)).2] at h1
          cases h1
        | cons c' id' =>
          simp only [List.cons_append, List.cons.injEq] at he
          rcases ih id' (fun x hx => hw x (by simp [hx])) he.2 (fun x hx => hi x (by simp [hx])) with ⟨rfl, h2⟩ | h2
          · exact Or.inl ⟨by rw [he.1], h2⟩
          · exact Or.inr h2
    rcases key w id' hwid hc (fun c hcm => hids c (by simp [hcm])) with ⟨rfl, h2⟩ | ⟨c, r, h1, h2, h3⟩
    · cases ts with
      | nil => simp at h2
      | cons c ts =>
        obtain ⟨z, v, hv⟩ := List.exists_cons_of_ne_nil (h.nonempty c (by simp))
        simp only [List.map_cons, List.flatten_cons, hv, List.cons_append, List.cons.injEq] at h2
        obtain ⟨rfl, h2⟩ := h2
        have hg := grammar_token hsyn h.tail (c := '}') (by decide) hv
        have hv' : v = [] := by
          have := hg.2
          rw [hv] at this
          simpa using this
        subst hv'
        exact ⟨t, c, ts, rfl, htt, hw, hg, by simpa using h2⟩
    · exfalso
      cases ts with
      | nil => simp at h3
      | cons u ts =>
        obtain ⟨z, v, hv⟩ := List.exists_cons_of_ne_nil (h.nonempty u (by simp))
        simp only [List.map_cons, List.flatten_cons, hv, List.cons_append, List.cons.injEq] at h3
        obtain ⟨rfl, _⟩ := h3
        have hu : u.tokenType = .identifier :=
          HasClass.unique (h.uniform u (by simp) z (by simp [hv])) (.id h1 h2)
        rcases h.maximal t u ts ⟨[], rfl⟩ with hs | hs
        · exact hs (by rw [htt, hu])
        · rw [htt] at hs; cases hs

end

/-! ### The items of a template -/

/-- The item is text or a plain placeholder. -/
def Plain : Item → Prop
  | .text _ => True
  | .pat _ none => True
  | _ => False

theorem evalItems_snoc {E : FmtEnv D F} {lang : Str} {values self} {sub : Str → Store → Res} (items : List Item) (it : Item)
    {a s : Str} : ∀ {st : Store}, evalItems E lang values self sub items st = (some (.ok a), st) →
    (∀ st, evalItem E lang values self sub it st = (some (.ok s), st)) → (∀ i ∈ items, Plain i) →
    evalItems E lang values self sub (items ++ [it]) st = (some (.ok (a ++ s)), st) := by
  induction items generalizing a with
  | nil =>
    intro st h hi _
    simp only [evalItems, Prod.mk.injEq, Option.some.injEq, Outcome.ok.injEq] at h
    simp [evalItems, hi st, ← h.1]
  | cons x items ih =>
    intro st h hi hp
    have hx : ∃ o, evalItem E lang values self sub x st = (some o, st) := by
      match x, hp x (by simp) with
      | .text t, _ => exact ⟨_, rfl⟩
      | .pat id none, _ =>
        simp only [evalItem]
        cases (values.get id.str).bind textOf <;> exact ⟨_, rfl⟩
    obtain ⟨o, ho⟩ := hx
    simp only [List.cons_append, evalItems, ho] at h ⊢
    match o, h with
    | .ok s', h =>
      simp only at h ⊢
      cases hz : evalItems E lang values self sub items st with
      | mk z1 z2 =>
        rw [hz] at h
        match z1, h with
        | some (.ok s''), h =>
          simp only [Prod.mk.injEq, Option.some.injEq, Outcome.ok.injEq] at h
          obtain ⟨rfl, rfl⟩ := h
          rw [ih hz hi (fun i hi => hp i (by simp [hi]))]
          simp
        | none, h => simp at h
        | some (.err _), h => simp at h
        | some .panic, h => simp at h
    | .err e, h => simp at h
    | .panic, h => simp at h

theorem evalItems_pushText {E : FmtEnv D F} {lang : Str} {values self} {sub : Str → Store → Res} (items : List Item)
    (l : Leaf) {a : Str} : ∀ {st : Store}, evalItems E lang values self sub items st = (some (.ok a), st) →
    (∀ i ∈ items, Plain i) →
    evalItems E lang values self sub (pushText items l) st = (some (.ok (a ++ l.str)), st) := by
  intro st h hp
  unfold pushText
  split
  · rename_i toks heq
    obtain ⟨front, rfl⟩ : ∃ front, items = front ++ [.text toks] := by
      have hne : items ≠ [] := by rintro rfl; simp at heq
      rw [List.getLast?_eq_some_getLast hne] at heq
      injection heq with heq
      exact ⟨items.dropLast, by rw [← heq]; exact (List.dropLast_concat_getLast hne).symm⟩
    rw [List.dropLast_concat]
    have hfront : ∃ a', evalItems E lang values self sub front st = (some (.ok a'), st) := by
      clear heq
      induction front generalizing a with
      | nil => exact ⟨[], rfl⟩
      | cons x front ih =>
        have hx : ∃ o, evalItem E lang values self sub x st = (some o, st) := by
          match x, hp x (by simp) with
          | .text t, _ => exact ⟨_, rfl⟩
          | .pat id none, _ =>
            simp only [evalItem]
            cases (values.get id.str).bind textOf <;> exact ⟨_, rfl⟩
        obtain ⟨o, ho⟩ := hx
        simp only [List.cons_append, evalItems, ho] at h ⊢
        match o, h with
        | .ok s', h =>
          simp only at h ⊢
          cases hz : evalItems E lang values self sub (front ++ [.text toks]) st with
          | mk z1 z2 =>
            rw [hz] at h
            match z1, h with
            | some (.ok s''), h =>
              simp only [Prod.mk.injEq, Option.some.injEq, Outcome.ok.injEq] at h
              obtain ⟨_, rfl⟩ := h
              obtain ⟨a', ha'⟩ := ih hz (fun i hi => hp i (by simp at hi ⊢; exact Or.inr hi))
              exact ⟨s' ++ a', by rw [ha']⟩
            | none, h => simp at h
            | some (.err _), h => simp at h
            | some .panic, h => simp at h
        | .err e, h => simp at h
        | .panic, h => simp at h
    obtain ⟨a', ha'⟩ := hfront
    have h1 := evalItems_snoc front (.text toks) ha' (s := leafText toks) (fun st => rfl) (fun i hi => hp i (by simp [hi]))
    have h2 := evalItems_snoc front (.text (toks ++ [l])) ha' (s := leafText (toks ++ [l])) (fun st => rfl)
      (fun i hi => hp i (by simp [hi]))
    rw [h1] at h
    simp only [Prod.mk.injEq, Option.some.injEq, Outcome.ok.injEq, and_true] at h
    rw [h2, ← h]
    simp [leafText]
  · exact evalItems_snoc items (.text [l]) h (fun st => by simp [evalItem, leafText]) hp

theorem plain_pushText {items : List Item} {l : Leaf} (h : ∀ i ∈ items, Plain i) : ∀ i ∈ pushText items l, Plain i := by
  intro i hi
  rcases mem_pushText hi with hi | ⟨_, rfl, _⟩
  · exact h i hi
  · trivial

/-- What reading a template gives. -/
structure Read (E : FmtEnv D F) (lang : Str) (values : AMap Str (PValue D F)) (items : List Item) (names : List Str)
    (text : Str) : Prop where
  plain : ∀ i ∈ items, Plain i
  names : patNames items = names
  text : ∀ sub st, evalItems E lang values mainName sub items st = (some (.ok text), st)

theorem read_template {E : FmtEnv D F} (hsyn : ∀ c ∈ patternGrammar, E.icu.whiteSpace c = false ∧ E.icu.syn c = true)
    (lang : Str) (values : AMap Str (PValue D F)) (val : Str → Str) (k : Nat) :
    ∀ (ts : List Token), ts.length ≤ k → Toks E.icu patternGrammar ts → ∀ as : List Atom,
    (ts.map Token.string).flatten = src as →
    (∀ id ∈ ids as, IsIdentifier E.icu id ∧ (values.get id).bind textOf = some (val id)) →
    ∀ (body : List Token) (items : List Item) (names : List Str) (text : Str), Content false 0 items body →
    Read E lang values items names text →
    ∃ items', Content false 0 items' (body ++ ts) ∧ Read E lang values items' (names ++ ids as) (text ++ vals val as) := by
  induction k with
  | zero =>
    intro ts hk ht as he hids body items names text hc hr
    obtain rfl : ts = [] := List.length_eq_zero_iff.1 (by omega)
    cases as with
    | nil => exact ⟨items, by simpa using hc, by simpa [ids, vals] using hr⟩
    | cons a as =>
      rw [src_cons] at he
      cases a with
      | ch c =>
        simp only [Atom.src] at he
        split at he <;> simp at he
      | hole id => simp [Atom.src] at he
  | succ k ih =>
    intro ts hk ht as he hids body items names text hc hr
    cases ts with
    | nil => exact ih [] (by simp) ht as he hids body items names text hc hr
    | cons t ts =>
      by_cases hg : t.tokenType = .grammar
      · obtain ⟨g, w, hw⟩ := List.exists_cons_of_ne_nil (ht.nonempty t (by simp))
        have hgm : g ∈ patternGrammar := by
          have := ht.uniform t (by simp) g (by simp [hw])
          rw [hg] at this
          cases this
          assumption
        have hgr := grammar_token hsyn ht hgm hw
        have hts : (t.string ++ (ts.map Token.string).flatten) = src as := by simpa using he
        rw [hgr.2] at hts
        cases as with
        | nil => simp [src] at hts
        | cons a as =>
          rw [src_cons] at hts
          cases a with
          | ch c =>
            simp only [Atom.src] at hts
            split at hts
            · rename_i hcm
              simp only [List.cons_append, List.nil_append, List.cons.injEq] at hts
              obtain ⟨rfl, hts⟩ := hts
              cases ts with
              | nil => simp at hts
              | cons u ts =>
                obtain ⟨z, v, hv⟩ := List.exists_cons_of_ne_nil (ht.tail.nonempty u (by simp))
                simp only [List.map_cons, List.flatten_cons, hv, List.cons_append, List.cons.injEq] at hts
                obtain ⟨rfl, hts⟩ := hts
                have hgu := grammar_token hsyn ht.tail hcm hv
                have hv' : v = [] := by
                  have := hgu.2
                  rw [hv] at this
                  simpa using this
                subst hv'
                have hc' := Content.escaped (t := u) hc hgr
                obtain ⟨items', h1, h2⟩ := ih ts (by simp at hk; omega) ht.tail.tail as (by simpa using hts)
                  (fun id hid => hids id (by simpa [ids] using hid)) (body ++ [t, u])
                  (pushText items ⟨0 + body.length + 1, u⟩) names (text ++ [z]) hc'
                  ⟨plain_pushText hr.plain, by rw [patNames_pushText]; exact hr.names, fun sub st => by
                    rw [evalItems_pushText items _ (hr.text sub st) hr.plain]
                    simp [Leaf.str, hv]⟩
                refine ⟨items', by simpa using h1, ?_⟩
                simpa [ids, vals, Atom.val] using h2
            · rename_i hcm
              simp only [List.cons_append, List.nil_append, List.cons.injEq] at hts
              exact absurd (hts.1 ▸ hgm) hcm
          | hole id =>
            simp only [Atom.src, List.cons_append, List.nil_append, List.cons.injEq, List.append_assoc] at hts
            obtain ⟨rfl, hts⟩ := hts
            obtain ⟨hid, hval⟩ := hids id (by simp [ids])
            obtain ⟨u, c, ts', rfl, hu1, hu2, hcg, hrest⟩ := split_identifier hsyn ht.tail hid hts
            have hpat : Pattern (0 + body.length) (.pat ⟨0 + body.length + 1, u⟩ none) (t :: u :: [] ++ [c]) :=
              .simple hgr hu1 (by simp [Blank]) hcg
            have hc' := Content.pattern hc hpat
            obtain ⟨items', h1, h2⟩ := ih ts' (by simp at hk; omega) ht.tail.tail.tail as hrest
              (fun id hid => hids id (by simp [ids, hid])) _ _ (names ++ [id]) (text ++ val id) hc'
              ⟨by
                intro i hi
                rcases List.mem_append.1 hi with hi | hi
                · exact hr.plain i hi
                · simp only [List.mem_singleton] at hi
                  subst hi
                  trivial, by
                rw [patNames_append, hr.names]
                simp [patNames, hu2], fun sub st => by
                refine evalItems_snoc items _ (hr.text sub st) (fun st => ?_) hr.plain
                simp only [evalItem, Leaf.str, hu2, hval]⟩
            refine ⟨items', by simpa using h1, ?_⟩
            simpa [ids, vals, Atom.val] using h2
      · have hng := not_grammar_token (ht.uniform t (by simp)) hg hsyn
        obtain ⟨as', rfl, hrest⟩ := split_word t.string _ hng as (by simpa using he)
        have hc' := Content.plain hc hg
        obtain ⟨items', h1, h2⟩ := ih ts (by simp at hk; omega) ht.tail as' hrest
          (fun id hid => hids id (by rw [ids_append, ids_ch]; simpa using hid)) (body ++ [t])
          (pushText items ⟨0 + body.length, t⟩) names (text ++ t.string) hc'
          ⟨plain_pushText hr.plain, by rw [patNames_pushText]; exact hr.names, fun sub st =>
            evalItems_pushText items _ (hr.text sub st) hr.plain⟩
        refine ⟨items', by simpa using h1, ?_⟩
        have hfl : ∀ t : Str, (t.map Atom.ch).flatMap (Atom.val val) = t := by
          intro t; induction t <;> simp_all [Atom.val]
        simpa [ids_append, ids_ch, vals, hfl] using h2

end Verif.FormatLemmas
