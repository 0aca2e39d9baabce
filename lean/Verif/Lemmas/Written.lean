import Verif.Lemmas.Templates
import Verif.Spec.Written
/-
What is written is read as it was meant.
-/
namespace Verif.FormatLemmas
open Verif Verif.Spec
open Verif.LexerLemmas (lex_eq)

/-! ### Texts -/

/-- A text after a text goes on with it. -/
def addText (ps : List Piece) (s : Str) : List Piece :=
  match ps.getLast? with
  | some (.text t) => ps.dropLast ++ [.text (t ++ s)]
  | _ => ps ++ [.text s]

theorem addText_text (ps : List Piece) (a s : Str) : addText (ps ++ [.text a]) s = ps ++ [.text (a ++ s)] := by
  simp [addText]

theorem addText_add (ps : List Piece) (a b : Str) : addText (addText ps a) b = addText ps (a ++ b) := by
  cases h : ps.getLast? with
  | none =>
    have e : ∀ s, addText ps s = ps ++ [.text s] := fun s => by simp [addText, h]
    rw [e, e, addText_text]
  | some x =>
    by_cases ht : ∃ t, x = .text t
    · obtain ⟨t, rfl⟩ := ht
      have e : ∀ s, addText ps s = ps.dropLast ++ [.text (t ++ s)] := fun s => by simp [addText, h]
      rw [e, e, addText_text, List.append_assoc]
    · have e : ∀ s, addText ps s = ps ++ [.text s] := fun s => by
        unfold addText
        rw [h]
        split
        · rename_i t e
          injection e with e
          exact absurd ⟨t, e⟩ ht
        · rfl
      rw [e, e, addText_text]

theorem getLast_snoc {α : Type} {l : List α} {x : α} (h : l.getLast? = some x) : l = l.dropLast ++ [x] := by
  have hne : l ≠ [] := by rintro rfl; simp at h
  rw [List.getLast?_eq_some_getLast hne] at h
  injection h with h
  rw [← h]
  exact (List.dropLast_concat_getLast hne).symm

theorem piece_text {it : Item} {t : Str} (h : it.piece = .text t) : ∃ toks, it = .text toks ∧ leafText toks = t := by
  unfold Item.piece at h
  split at h <;> simp_all

theorem piece_number {it : Item} (h : it.piece = .number) : ∃ l, it = .number l := by
  unfold Item.piece at h
  split at h <;> simp_all

theorem pushText_pieces (items : List Item) (l : Leaf) :
    (pushText items l).map Item.piece = addText (items.map Item.piece) l.str := by
  unfold pushText
  split
  · rename_i toks h
    rw [getLast_snoc h]
    simp [addText, Item.piece, leafText]
  · rename_i h
    unfold addText
    split
    · rename_i t h'
      rw [List.getLast?_map] at h'
      cases hl : items.getLast? with
      | none => rw [hl] at h'; cases h'
      | some it =>
        rw [hl] at h'
        obtain ⟨toks, rfl, _⟩ := piece_text (it := it) (t := t) (by simpa using h')
        exact absurd hl (h toks)
    · simp [Item.piece, leafText]

section
variable {icu : Icu} (hsyn : ∀ c ∈ patternGrammar, icu.whiteSpace c = false ∧ icu.syn c = true)
include hsyn

/-- A string that begins with a grammar character begins with its token. -/
theorem split_first {g : Char} (hg : g ∈ patternGrammar) {ts : List Token} {b : Str} (ht : Toks icu patternGrammar ts)
    (h : (ts.map Token.string).flatten = g :: b) : ∃ t ts', ts = t :: ts' ∧ Gr g t ∧ (ts'.map Token.string).flatten = b := by
  obtain ⟨pre, t, post, rfl, h1, h2, h3⟩ := split_at hsyn hg (a := []) ht h
  cases pre with
  | nil => exact ⟨t, post, rfl, h2, h3⟩
  | cons x pre =>
    have := ht.nonempty x (by simp)
    simp at h1
    exact absurd h1.1 this

omit hsyn in
theorem escape_src (s : Str) : src (s.map .ch) = escape s := by
  simp [src, escape, List.flatMap_map, Atom.src]

omit hsyn in
theorem escape_word {w rest s : Str} (hw : ∀ c ∈ w, c ∉ patternGrammar) (h : w ++ rest = escape s) :
    ∃ s', s = w ++ s' ∧ rest = escape s' := by
  rw [← escape_src] at h
  obtain ⟨as', h1, h2⟩ := split_word w rest hw _ h
  obtain ⟨a, b, rfl, h3, h4⟩ := List.map_eq_append_iff.1 h1
  have : a = w := by
    have := congrArg (List.map fun | Atom.ch c => c | .hole _ => 'x') h3
    simpa [Function.comp_def] using this
  subst this
  exact ⟨b, rfl, by rw [h2, ← h4, escape_src]⟩

/-- The tokens of an escaped text are text. -/
theorem read_text {sub : Bool} {n : Nat} : ∀ (k : Nat) (ts : List Token), ts.length ≤ k → Toks icu patternGrammar ts →
    ∀ s : Str, (ts.map Token.string).flatten = escape s → ∀ (body : List Token) (items : List Item),
    Content sub n items body → ∃ items', Content sub n items' (body ++ ts) ∧
      items'.map Item.piece = if s = [] then items.map Item.piece else addText (items.map Item.piece) s := by
  intro k
  induction k with
  | zero =>
    intro ts hk ht s he body items hc
    obtain rfl : ts = [] := List.length_eq_zero_iff.1 (by omega)
    have hs : s = [] := by
      cases s with
      | nil => rfl
      | cons c s =>
        simp only [escape, List.flatMap_cons, List.map_nil, List.flatten_nil] at he
        split at he <;> simp at he
    subst hs
    exact ⟨items, by simpa using hc, by simp⟩
  | succ k ih =>
    intro ts hk ht s he body items hc
    cases ts with
    | nil => exact ih [] (by simp) ht s he body items hc
    | cons t ts =>
      have hts : t.string ++ (ts.map Token.string).flatten = escape s := by simpa using he
      by_cases hg : t.tokenType = .grammar
      · obtain ⟨g, w, hw⟩ := List.exists_cons_of_ne_nil (ht.nonempty t (by simp))
        have hgm : g ∈ patternGrammar := by
          have := ht.uniform t (by simp) g (by simp [hw])
          rw [hg] at this
          cases this
          assumption
        have hgr := grammar_token hsyn ht hgm hw
        rw [hgr.2] at hts
        cases s with
        | nil => simp [escape] at hts
        | cons c s =>
          simp only [escape, List.flatMap_cons] at hts
          split at hts
          · rename_i hcm
            simp only [List.cons_append, List.nil_append, List.cons.injEq] at hts
            obtain ⟨rfl, hts⟩ := hts
            obtain ⟨u, ts, rfl, hu, hr⟩ := split_first hsyn hcm ht.tail hts
            obtain ⟨items', h1, h2⟩ := ih ts (by simp at hk; omega) ht.tail.tail s hr (body ++ [t, u])
              (pushText items ⟨n + body.length + 1, u⟩) (.escaped hc hgr)
            refine ⟨items', by simpa using h1, ?_⟩
            rw [h2, pushText_pieces]
            simp only [reduceCtorEq, if_false]
            have : (Leaf.mk (n + body.length + 1) u).str = [c] := hu.2
            rw [this]
            split
            · rename_i e
              simp [e]
            · rw [addText_add]
              rfl
          · rename_i hcm
            simp only [List.cons_append, List.nil_append, List.cons.injEq] at hts
            exact absurd (hts.1 ▸ hgm) hcm
      · have hw := not_grammar_token (ht.uniform t (by simp)) hg hsyn
        obtain ⟨s', rfl, hr⟩ := escape_word hw hts
        obtain ⟨items', h1, h2⟩ := ih ts (by simp at hk; omega) ht.tail s' hr (body ++ [t])
          (pushText items ⟨n + body.length, t⟩) (.plain hc hg)
        refine ⟨items', by simpa using h1, ?_⟩
        rw [h2, pushText_pieces]
        have hne := ht.nonempty t (by simp)
        have : (Leaf.mk (n + body.length) t).str = t.string := rfl
        have hne' : ¬ t.string ++ s' = [] := by simp [hne]
        rw [this, if_neg hne']
        split
        · rename_i e
          simp [e]
        · rw [addText_add]

/-! ### Names, selectors and parameters -/

omit hsyn in
theorem ident_class {c : Char} {id : Str} (h : IsIdentifier icu id) (hc : c ∈ id) :
    HasClass icu patternGrammar c .identifier := .id (h.2 c hc).1 (h.2 c hc).2

/-- A name before a grammar character. -/
theorem name_grammar {g : Char} (hg : g ∈ patternGrammar) {ts : List Token} (ht : Toks icu patternGrammar ts) {id rest : Str}
    (hid : IsIdentifier icu id) (h : (ts.map Token.string).flatten = id ++ g :: rest) :
    ∃ t ts', ts = t :: ts' ∧ t.string = id ∧ t.tokenType = .identifier ∧ (ts'.map Token.string).flatten = g :: rest :=
  take_word ht (by decide) hid.1 (fun c hc => ident_class hid hc) (by
    rintro c r e hc
    simp only [List.cons.injEq] at e
    obtain ⟨rfl, _⟩ := e
    have := HasClass.unique hc (class_of_grammar hsyn hg)
    cases this) h

omit hsyn in
/-- A name before a space. -/
theorem name_space (hsp : icu.whiteSpace ' ' = true) {ts : List Token} (ht : Toks icu patternGrammar ts) {id rest : Str}
    (hid : IsIdentifier icu id) (h : (ts.map Token.string).flatten = id ++ ' ' :: rest) :
    ∃ t ts', ts = t :: ts' ∧ t.string = id ∧ t.tokenType = .identifier ∧ (ts'.map Token.string).flatten = ' ' :: rest :=
  take_word ht (by decide) hid.1 (fun c hc => ident_class hid hc) (by
    rintro c r e hc
    simp only [List.cons.injEq] at e
    obtain ⟨rfl, _⟩ := e
    have := HasClass.unique hc (.ws hsp)
    cases this) h

omit hsyn in
/-- A space before something else. -/
theorem space_first (hsp : icu.whiteSpace ' ' = true) {ts : List Token} (ht : Toks icu patternGrammar ts) {rest : Str}
    (hr : ∀ c r, rest = c :: r → icu.whiteSpace c = false) (h : (ts.map Token.string).flatten = ' ' :: rest) :
    ∃ t ts', ts = t :: ts' ∧ t.tokenType = .whiteSpace ∧ (ts'.map Token.string).flatten = rest := by
  obtain ⟨t, ts', h1, _, h2, h3⟩ := take_word ht (k := .whiteSpace) (w := [' ']) (rest := rest) (by decide) (by simp)
    (by intro c hc; obtain rfl := List.mem_singleton.1 hc; exact .ws hsp)
    (by
      rintro c r e hc
      have h0 := hr c r e
      cases hc
      rename_i h'
      rw [h0] at h'
      cases h') h
  exact ⟨t, ts', h1, h2, h3⟩

omit hsyn in
theorem ident_ws {id : Str} (h : IsIdentifier icu id) (rest : Str) : ∀ c r, id ++ rest = c :: r → icu.whiteSpace c = false := by
  intro c r e
  obtain ⟨x, w, rfl⟩ := List.exists_cons_of_ne_nil h.1
  simp only [List.cons_append, List.cons.injEq] at e
  exact e.1 ▸ (h.2 x (by simp)).1

/-- Selectors up to the closing brace. -/
theorem read_selectors (hsp : icu.whiteSpace ' ' = true) {n : Nat} {rest : Str} : ∀ (sels : List (Str × Str)) (ts : List Token),
    Toks icu patternGrammar ts → (∀ s ∈ sels, IsIdentifier icu s.1 ∧ IsIdentifier icu s.2) →
    (ts.map Token.string).flatten = (sels.flatMap fun s => ' ' :: s.1 ++ '#' :: s.2) ++ '}' :: rest →
    ∀ (body : List Token) (acc : List (Leaf × Leaf)), KwBody n acc body →
    ∃ ts1 c ts2 sels', ts = ts1 ++ c :: ts2 ∧ KwBody n sels' (body ++ ts1) ∧ Gr '}' c ∧
      (ts2.map Token.string).flatten = rest ∧ pairs sels' = pairs acc ++ sels := by
  intro sels
  induction sels with
  | nil =>
    intro ts ht _ h body acc hk
    obtain ⟨c, ts2, rfl, hc, h2⟩ := split_first hsyn (g := '}') (b := rest) (by decide) ht (by simpa using h)
    exact ⟨[], c, ts2, acc, rfl, by simpa using hk, hc, h2, by simp⟩
  | cons s sels ih =>
    intro ts ht hs h body acc hk
    obtain ⟨a, b⟩ := s
    obtain ⟨ha, hb⟩ := hs (a, b) (by simp)
    simp only [List.flatMap_cons, List.append_assoc, List.cons_append] at h
    obtain ⟨w, ts, rfl, hw, h⟩ := space_first hsp ht (ident_ws ha _) h
    obtain ⟨ta, ts, rfl, ta1, ta2, h⟩ := name_grammar hsyn (by decide) ht.tail ha h
    obtain ⟨th, ts, rfl, hh, h⟩ := split_first hsyn (by decide) ht.tail.tail h
    obtain ⟨tb, ts, rfl, tb1, tb2, h⟩ : ∃ t ts', ts = t :: ts' ∧ t.string = b ∧ t.tokenType = .identifier ∧
        (ts'.map Token.string).flatten = (sels.flatMap fun s => ' ' :: s.1 ++ '#' :: s.2) ++ '}' :: rest := by
      cases sels with
      | nil =>
        simp only [List.flatMap_nil, List.nil_append] at h ⊢
        exact name_grammar hsyn (by decide) ht.tail.tail.tail hb h
      | cons s2 sels =>
        simp only [List.flatMap_cons, List.append_assoc, List.cons_append] at h ⊢
        exact name_space hsp ht.tail.tail.tail hb h
    have hk' := (hk.skip (t := w) (Or.inl hw)).selector ta2 hh.2 tb2
    obtain ⟨ts1, c, ts2, sels', rfl, h1, h2, h3, h4⟩ := ih ts ht.tail.tail.tail.tail (fun s hs' => hs s (by simp [hs'])) h _ _ hk'
    refine ⟨w :: ta :: th :: tb :: ts1, c, ts2, sels', by simp, by simpa using h1, h2, h3, ?_⟩
    rw [h4]
    simp [pairs, Leaf.str, ta1, tb1]

omit hsyn in
theorem ends_ident (pre : List Part) {new : List Leaf} (h : new ≠ []) : endsWithHash (pre ++ new.map Part.ident) = false := by
  obtain ⟨front, z, rfl⟩ : ∃ front z, new = front ++ [z] := ⟨_, _, (List.dropLast_concat_getLast h).symm⟩
  unfold endsWithHash
  rw [List.map_append, ← List.append_assoc, List.map_singleton, List.getLast?_concat]

/-- Parameters up to the closing brace. -/
theorem read_parameters (hsp : icu.whiteSpace ' ' = true) {n : Nat} {rest : Str} : ∀ (params : List Str) (ts : List Token),
    Toks icu patternGrammar ts → (∀ p ∈ params, IsIdentifier icu p) →
    (ts.map Token.string).flatten = (params.flatMap fun p => ' ' :: p) ++ '}' :: rest →
    ∀ (body : List Token) (acc : List Part), CmdBody n acc body →
    ∃ ts1 c ts2, ∃ new : List Leaf, ts = ts1 ++ c :: ts2 ∧ CmdBody n (acc ++ new.map Part.ident) (body ++ ts1) ∧ Gr '}' c ∧
      (ts2.map Token.string).flatten = rest ∧ new.map Leaf.str = params := by
  intro params
  induction params with
  | nil =>
    intro ts ht _ h body acc hk
    obtain ⟨c, ts2, rfl, hc, h2⟩ := split_first hsyn (g := '}') (b := rest) (by decide) ht (by simpa using h)
    exact ⟨[], c, ts2, [], rfl, by simpa using hk, hc, h2, by simp⟩
  | cons p params ih =>
    intro ts ht hs h body acc hk
    have hp := hs p (by simp)
    simp only [List.flatMap_cons, List.append_assoc, List.cons_append] at h
    obtain ⟨w, ts, rfl, hw, h⟩ := space_first hsp ht (ident_ws hp _) h
    obtain ⟨tp, ts, rfl, tp1, tp2, h⟩ : ∃ t ts', ts = t :: ts' ∧ t.string = p ∧ t.tokenType = .identifier ∧
        (ts'.map Token.string).flatten = (params.flatMap fun p => ' ' :: p) ++ '}' :: rest := by
      cases params with
      | nil =>
        simp only [List.flatMap_nil, List.nil_append] at h ⊢
        exact name_grammar hsyn (by decide) ht.tail hp h
      | cons s2 sels =>
        simp only [List.flatMap_cons, List.append_assoc, List.cons_append] at h ⊢
        exact name_space hsp ht.tail hp h
    have hk' := (hk.blank (t := w) hw).ident tp2
    obtain ⟨ts1, c, ts2, new, rfl, h1, h2, h3, h4⟩ := ih ts ht.tail.tail (fun s hs' => hs s (by simp [hs'])) h _ _ hk'
    refine ⟨w :: tp :: ts1, c, ts2, ⟨n + (body ++ [w]).length, tp⟩ :: new, by simp, by simpa using h1, h2, h3, ?_⟩
    simp [h4, Leaf.str, tp1]

/-- A placeholder, a pattern or a command. -/
theorem read_pattern (hsp : icu.whiteSpace ' ' = true) {sub : Bool} {p : Piece} (hp : PieceOk icu sub p)
    (h1 : ∀ s, p ≠ .text s) (h2 : p ≠ .number) (n : Nat) {ts : List Token} (ht : Toks icu patternGrammar ts) {rest : Str}
    (h : (ts.map Token.string).flatten = p.written ++ rest) :
    ∃ w ts' item, ts = w ++ ts' ∧ Pattern n item w ∧ item.piece = p ∧ (ts'.map Token.string).flatten = rest := by
  cases p with
  | text s => exact absurd rfl (h1 s)
  | number => exact absurd rfl h2
  | placeholder id =>
    simp only [Piece.written, List.append_assoc, List.cons_append, List.nil_append] at h
    obtain ⟨o, ts, rfl, ho, h⟩ := split_first hsyn (by decide) ht h
    obtain ⟨ti, ts, rfl, t1, t2, h⟩ := name_grammar hsyn (by decide) ht.tail hp h
    obtain ⟨c, ts, rfl, hc, h⟩ := split_first hsyn (by decide) ht.tail.tail h
    exact ⟨o :: ti :: [] ++ [c], ts, _, by simp, Pattern.simple ho t2 (by simp [Blank]) hc, by simp [Item.piece, Leaf.str, t1], h⟩
  | pattern id kw sels =>
    simp only [Piece.written, List.append_assoc, List.cons_append, List.nil_append] at h
    obtain ⟨o, ts, rfl, ho, h⟩ := split_first hsyn (by decide) ht h
    obtain ⟨ti, ts, rfl, ti1, ti2, h⟩ := name_space hsp ht.tail hp.1 h
    obtain ⟨w, ts, rfl, hw, h⟩ := space_first hsp ht.tail.tail (ident_ws hp.2.1 _) h
    obtain ⟨tk, ts, rfl, tk1, tk2, h⟩ : ∃ t ts', ts = t :: ts' ∧ t.string = kw ∧ t.tokenType = .identifier ∧
        (ts'.map Token.string).flatten = (sels.flatMap fun s => ' ' :: s.1 ++ '#' :: s.2) ++ '}' :: rest := by
      cases sels with
      | nil =>
        simp only [List.flatMap_nil, List.nil_append] at h ⊢
        exact name_grammar hsyn (by decide) ht.tail.tail.tail hp.2.1 h
      | cons s2 sels =>
        simp only [List.flatMap_cons, List.append_assoc, List.cons_append] at h ⊢
        exact name_space hsp ht.tail.tail.tail hp.2.1 h
    obtain ⟨ts1, c, ts2, sels', rfl, k1, k2, k3, k4⟩ := read_selectors hsyn hsp (n := n + 3 + [w].length) sels ts
      ht.tail.tail.tail.tail hp.2.2 h [] [] .nil
    refine ⟨o :: ti :: [w] ++ tk :: ts1 ++ [c], ts2, _, by simp,
      Pattern.keyword ho ti2 (by simpa [Blank] using hw) tk2 (by simpa using k1) k2, ?_, k3⟩
    simp only [Item.piece, Leaf.str, ti1, tk1, k4]
    simp [pairs]
  | command name delayed params =>
    obtain ⟨hn, hps, hd⟩ := hp
    simp only [Piece.written, List.append_assoc, List.cons_append, List.nil_append] at h
    obtain ⟨o, ts, rfl, ho, h⟩ := split_first hsyn (by decide) ht h
    obtain ⟨x, ts, rfl, hx, h⟩ := split_first hsyn (by decide) ht.tail h
    cases delayed with
    | true =>
      simp only [if_true, List.cons_append, List.nil_append] at h
      obtain ⟨tn, ts, rfl, tn1, tn2, h⟩ := name_grammar hsyn (by decide) ht.tail.tail hn h
      obtain ⟨y, ts, rfl, hy, h⟩ := split_first hsyn (by decide) ht.tail.tail.tail h
      have hb : CmdBody (n + 2) _ _ := (CmdBody.nil.ident tn2).hash hy
      obtain ⟨ts1, c, ts2, new, rfl, k1, k2, k3, k4⟩ := read_parameters hsyn hsp params ts ht.tail.tail.tail.tail hps h _ _ hb
      refine ⟨o :: x :: (tn :: y :: ts1) ++ [c], ts2, _, by simp, Pattern.command ho hx (by simpa using k1) (by simp) ?_ k2, ?_, k3⟩
      · have hne : new ≠ [] := by
          rintro rfl
          exact hd rfl (by simpa using k4.symm)
        exact ends_ident [_, _] hne
      · simp [Item.piece, Leaf.str, tn1, ← k4, Function.comp_def, Part.str]
    | false =>
      simp only [Bool.false_eq_true, if_false, List.nil_append] at h
      obtain ⟨tn, ts, rfl, tn1, tn2, h⟩ : ∃ t ts', ts = t :: ts' ∧ t.string = name ∧ t.tokenType = .identifier ∧
          (ts'.map Token.string).flatten = (params.flatMap fun p => ' ' :: p) ++ '}' :: rest := by
        cases params with
        | nil =>
          simp only [List.flatMap_nil, List.nil_append] at h ⊢
          exact name_grammar hsyn (by decide) ht.tail.tail hn h
        | cons s2 sels =>
          simp only [List.flatMap_cons, List.append_assoc, List.cons_append] at h ⊢
          exact name_space hsp ht.tail.tail hn h
      have hb : CmdBody (n + 2) _ _ := CmdBody.nil.ident tn2
      obtain ⟨ts1, c, ts2, new, rfl, k1, k2, k3, k4⟩ := read_parameters hsyn hsp params ts ht.tail.tail.tail hps h _ _ hb
      refine ⟨o :: x :: (tn :: ts1) ++ [c], ts2, _, by simp, Pattern.command ho hx (by simpa using k1) (by simp) ?_ k2, ?_, k3⟩
      · cases new with
        | nil => simp [endsWithHash]
        | cons z zs => exact ends_ident [_] (new := z :: zs) (by simp)
      · cases new with
        | nil => simp [Item.piece, Leaf.str, tn1, ← k4]
        | cons z zs => simp [Item.piece, Leaf.str, tn1, ← k4, Function.comp_def, Part.str]

/-! ### Strings -/

omit hsyn in
theorem written_head {p : Piece} (h : ∀ s, p ≠ .text s) : ∃ g v, p.written = g :: v ∧ g ∈ patternGrammar := by
  cases p with
  | text s => exact absurd rfl (h s)
  | number => exact ⟨_, _, rfl, by decide⟩
  | placeholder id => exact ⟨_, _, rfl, by decide⟩
  | pattern id kw sels => exact ⟨_, _, rfl, by decide⟩
  | command name d ps => exact ⟨_, _, rfl, by decide⟩

/-- What was read may be followed by these parts. -/
def Joins (l ps : List Piece) : Prop := ∀ a b r, l.getLast? = some a → ps = b :: r → Apart a b

omit hsyn in
theorem joins_next {l : List Piece} {p : Piece} {ps : List Piece} (h : AllApart (p :: ps)) : Joins (l ++ [p]) ps := by
  rintro a b r h1 rfl
  rw [List.getLast?_concat] at h1
  injection h1 with h1
  exact h1 ▸ h.1

omit hsyn in
theorem allApart_tail {p : Piece} {ps : List Piece} (h : AllApart (p :: ps)) : AllApart ps := by
  cases ps with
  | nil => trivial
  | cons q ps => exact h.2

/-- The parts of a string are read one after the other. -/
theorem read_pieces (hsp : icu.whiteSpace ' ' = true) {sub : Bool} {n : Nat} : ∀ (ps : List Piece) (ts : List Token),
    Toks icu patternGrammar ts → (∀ p ∈ ps, PieceOk icu sub p) → AllApart ps →
    (ts.map Token.string).flatten = writtenPieces ps → ∀ (body : List Token) (items : List Item), Content sub n items body →
    Joins (items.map Item.piece) ps →
    ∃ items', Content sub n items' (body ++ ts) ∧ items'.map Item.piece = items.map Item.piece ++ ps := by
  intro ps
  induction ps with
  | nil =>
    intro ts ht _ _ h body items hc _
    have : ts = [] := by
      cases ts with
      | nil => rfl
      | cons t ts =>
        have := ht.nonempty t (by simp)
        simp [writtenPieces] at h
        exact absurd h.1 this
    subst this
    exact ⟨items, by simpa using hc, by simp⟩
  | cons p ps ih =>
    intro ts ht hok hap h body items hc hj
    have h : (ts.map Token.string).flatten = p.written ++ writtenPieces ps := by simpa [writtenPieces] using h
    have hps : ∀ q ∈ ps, PieceOk icu sub q := fun q hq => hok q (by simp [hq])
    have hp := hok p (by simp)
    by_cases h1 : ∃ s, p = .text s
    · obtain ⟨s, rfl⟩ := h1
      obtain ⟨ts1, ts2, rfl, k1, k2⟩ : ∃ ts1 ts2, ts = ts1 ++ ts2 ∧ (ts1.map Token.string).flatten = escape s ∧
          (ts2.map Token.string).flatten = writtenPieces ps := by
        cases ps with
        | nil => exact ⟨ts, [], by simp, by simpa [writtenPieces, Piece.written] using h, by simp [writtenPieces]⟩
        | cons q ps =>
          obtain ⟨g, v, hg, hgm⟩ := written_head (p := q) (by
            rintro s' rfl
            exact hap.1)
          have e : writtenPieces (q :: ps) = g :: (v ++ writtenPieces ps) := by simp [writtenPieces, hg]
          rw [e] at h ⊢
          obtain ⟨pre, t, post, rfl, k1, k2, k3⟩ := split_at hsyn hgm ht h
          refine ⟨pre, t :: post, rfl, k1, ?_⟩
          rw [List.map_cons, List.flatten_cons, k2.2, k3]
          rfl
      obtain ⟨items1, c1, c2⟩ := read_text hsyn (sub := sub) (n := n) _ ts1 (Nat.le_refl _) ht.append.1 s k1 body items hc
      rw [if_neg (show ¬ s = [] from hp)] at c2
      have c3 : addText (items.map Item.piece) s = items.map Item.piece ++ [.text s] := by
        unfold addText
        split
        · rename_i t ht'
          exact (hj _ _ _ ht' rfl).elim
        · rfl
      rw [c3] at c2
      obtain ⟨items', d1, d2⟩ := ih ts2 ht.append.2 hps (allApart_tail hap) k2 (body ++ ts1) items1 c1 (by
        rw [c2]
        exact joins_next hap)
      exact ⟨items', by simpa using d1, by rw [d2, c2]; simp⟩
    · by_cases h2 : p = .number
      · subst h2
        obtain ⟨t, ts, rfl, hg, h⟩ := split_first hsyn (g := '#') (by decide) ht h
        have hend : endsWithNumber items = false := by
          unfold endsWithNumber
          split
          · rename_i l hl
            exact (hj .number .number ps (by rw [List.getLast?_map, hl]; rfl) rfl).elim
          · rfl
        obtain ⟨items', d1, d2⟩ := ih ts ht.tail hps (allApart_tail hap) h (body ++ [t]) _ (hc.number hp hend hg) (by
          rw [List.map_append]
          exact joins_next hap)
        exact ⟨items', by simpa using d1, by rw [d2]; simp [Item.piece]⟩
      · obtain ⟨w, ts2, item, rfl, hpat, hpc, h⟩ := read_pattern hsyn hsp hp (fun s hs => h1 ⟨s, hs⟩) h2 (n + body.length) ht h
        obtain ⟨items', d1, d2⟩ := ih ts2 ht.append.2 hps (allApart_tail hap) h (body ++ w) _ (hc.pattern hpat) (by
          rw [List.map_append, List.map_singleton, hpc]
          exact joins_next hap)
        exact ⟨items', by simpa using d1, by rw [d2]; simp [hpc]⟩

/-- What a named string stands for. -/
def namedPieces (n : Named) : Str × List Piece := (n.name, n.items.map Item.piece)

/-- Named strings are read one after the other. -/
theorem read_group (hsp : icu.whiteSpace ' ' = true) {n : Nat} : ∀ (l : List (Str × List Piece)) (ts : List Token),
    Toks icu patternGrammar ts →
    (∀ n ∈ l, IsIdentifier icu n.1 ∧ (∀ p ∈ n.2, PieceOk icu true p) ∧ AllApart n.2 ∧ BeginsNamed icu n.2) →
    (ts.map Token.string).flatten = l.flatMap writtenNamed → ∀ (body : List Token) (acc : List Named), Group n acc body →
    ∃ ns, Group n ns (body ++ ts) ∧ ns.map namedPieces = acc.map namedPieces ++ l := by
  intro l
  induction l with
  | nil =>
    intro ts ht _ h body acc hg
    have : ts = [] := by
      cases ts with
      | nil => rfl
      | cons t ts =>
        have := ht.nonempty t (by simp)
        simp at h
        exact absurd h.1 this
    subst this
    exact ⟨acc, by simpa using hg, by simp⟩
  | cons x l ih =>
    obtain ⟨id, ps⟩ := x
    intro ts ht hok h body acc hg
    obtain ⟨hid, hps, hap, hb⟩ := hok (id, ps) (by simp)
    simp only [List.flatMap_cons, writtenNamed, List.append_assoc, List.cons_append, List.nil_append] at h
    obtain ⟨o, ts, rfl, ho, h⟩ := split_first hsyn (by decide) ht h
    obtain ⟨ti, ts, rfl, ti1, ti2, h⟩ := name_space hsp ht.tail hid h
    have first : ∃ c v, writtenPieces ps = c :: v ∧ (c = '#' ∨ icu.whiteSpace c = false ∧ icu.syn c = false) := by
      match ps, hb with
      | .number :: _, _ => exact ⟨'#', _, by simp only [writtenPieces, List.flatMap_cons, Piece.written]; rfl, .inl rfl⟩
      | .text (c :: s) :: rest, hb =>
        have hb : icu.whiteSpace c = false ∧ icu.syn c = false := hb
        have hc : c ∉ patternGrammar := by
          intro hm
          rw [(hsyn c hm).2] at hb
          simp at hb
        exact ⟨c, escape s ++ writtenPieces rest, by simp [writtenPieces, Piece.written, escape, hc], .inr hb⟩
    obtain ⟨c0, v0, hw0, hc0⟩ := first
    have hws : icu.whiteSpace c0 = false := by
      rcases hc0 with rfl | hc0
      · exact (hsyn '#' (by decide)).1
      · exact hc0.1
    obtain ⟨w, ts, rfl, hw, h⟩ := space_first hsp ht.tail.tail (by
      intro c r e
      rw [hw0] at e
      simp only [List.cons_append, List.cons.injEq] at e
      exact e.1 ▸ hws) h
    obtain ⟨pre, c, post, rfl, k1, k2, k3⟩ := split_at hsyn (by decide) ht.tail.tail.tail h
    have htp := ht.tail.tail.tail.append.1
    obtain ⟨items, c1, c2⟩ := read_pieces hsyn hsp (sub := true) (n := n + body.length + 3 + ([] : List Token).length) ps pre
      htp hps hap k1 [] [] .nil (by rintro a b r h1; simp at h1)
    have hst : Starts pre := by
      cases pre with
      | nil => rw [hw0] at k1; simp at k1
      | cons t pre =>
        rw [hw0, List.map_cons, List.flatten_cons] at k1
        obtain ⟨y, v, hv⟩ := List.exists_cons_of_ne_nil (htp.nonempty t (by simp))
        have : y = c0 := by
          rw [hv] at k1
          simp only [List.cons_append, List.cons.injEq] at k1
          exact k1.1
        subst this
        rcases hc0 with rfl | hc0
        · exact .inr (grammar_token hsyn htp (by decide) hv)
        · exact .inl (HasClass.unique (htp.uniform t (by simp) y (by simp [hv])) (.id hc0.1 hc0.2))
    have hg' := hg.named ho ti2 hw (ws := []) (by simp [Blank]) hst (by simpa using c1) k2
    obtain ⟨ns, d1, d2⟩ := ih post ht.tail.tail.tail.append.2.tail (fun n hn => hok n (by simp [hn])) k3 _ _ hg'
    refine ⟨ns, by simpa using d1, ?_⟩
    rw [d2]
    have c2 : items.map Item.piece = ps := by simpa using c2
    simp [namedPieces, Named.name, Leaf.str, ti1, c2]

omit hsyn in
theorem names_pieces (items : List Item) : patNames items = pieceNames (items.map Item.piece) := by
  induction items with
  | nil => rfl
  | cons it items ih =>
    cases it with
    | text t => simpa [patNames, pieceNames, Item.piece] using ih
    | number l => simpa [patNames, pieceNames, Item.piece] using ih
    | pat id kw =>
      cases kw with
      | none => simpa [patNames, pieceNames, Item.piece, Leaf.str] using ih
      | some kw => simpa [patNames, pieceNames, Item.piece, Leaf.str] using ih
    | cmd parts =>
      have : ∃ a b c, Item.piece (.cmd parts) = .command a b c := by
        unfold Item.piece
        split <;> simp_all
      obtain ⟨a, b, c, e⟩ := this
      simpa [patNames, pieceNames, e] using ih

omit hsyn in
theorem doc_names (d : Doc) :
    d.patNames = pieceNames d.composition.main ++
      ((d.composition.named.getD []).map fun n => pieceNames n.2).flatten ∧
    d.namedNames = (d.composition.named.getD []).map Prod.fst := by
  obtain ⟨m, g⟩ := d
  cases g with
  | none => simp [Doc.patNames, Doc.namedNames, Doc.composition, names_pieces]
  | some l => simp [Doc.patNames, Doc.namedNames, Doc.composition, names_pieces, Function.comp_def, Named.name, Leaf.str]

end

variable {D F : Type}

/-- What is written is read as it was meant. -/
theorem written_reads {E : FmtEnv D F} (hE : Standard E) (hsp : E.icu.whiteSpace ' ' = true) {c : Composition}
    (hc : Composed E.icu c) (hg : ∃ g ∈ patternGrammar, g ∈ c.written) : ∃ d, Reads E c.written d ∧ d.composition = c := by
  have hs : c.written ≠ [] := by
    obtain ⟨g, _, h⟩ := hg
    rintro e
    rw [e] at h
    simp at h
  obtain ⟨ts, hl⟩ : ∃ ts, lex E.icu E.grammar c.written = .ok ts :=
    ⟨_, lex_eq E.icu E.grammar c.written (by rw [hE.grammar]; decide) hs⟩
  have hl' := hl
  rw [hE.grammar] at hl'
  obtain ⟨ht, hcat⟩ := toks_of_lex (by decide) hs hl'
  have hgr : ∃ t ∈ ts, t.tokenType = .grammar := by
    obtain ⟨g, hgm, h⟩ := hg
    rw [← hcat] at h
    obtain ⟨w, hw, hcw⟩ := List.mem_flatten.1 h
    obtain ⟨t, htm, rfl⟩ := List.mem_map.1 hw
    exact ⟨t, htm, HasClass.unique (ht.uniform t htm _ hcw) (class_of_grammar hE.syn hgm)⟩
  have sen : ∃ d, Sentence d ts ∧ d.composition = c := by
    obtain ⟨m, named⟩ := c
    cases named with
    | none =>
      obtain ⟨items, h1, h2⟩ := read_pieces hE.syn hsp (n := 0) m ts ht hc.main.1 hc.main.2
        (by simpa [Composition.written] using hcat) [] [] .nil (by rintro a b r h1; simp at h1)
      exact ⟨⟨items, none⟩, .plain (by simpa using h1), by simpa [Doc.composition] using h2⟩
    | some l =>
      obtain ⟨pre, x, post, rfl, k1, k2, k3⟩ := split_at hE.syn (g := '#') (by decide) ht hcat
      obtain ⟨items, h1, h2⟩ := read_pieces hE.syn hsp (n := 0) m pre ht.append.1 hc.main.1 hc.main.2 k1 [] [] .nil
        (by rintro a b r h1; simp at h1)
      obtain ⟨ns, h3, h4⟩ := read_group hE.syn hsp (n := pre.length + 1) l post ht.append.2.tail hc.named k3 [] [] .nil
      refine ⟨⟨items, some ns⟩, .group (by simpa using h1) k2 (by simpa using h3), ?_⟩
      have h2 : items.map Item.piece = m := by simpa using h2
      have h4 : ns.map namedPieces = l := by simpa using h4
      rw [← h2, ← h4]
      rfl
  obtain ⟨d, hd, rfl⟩ := sen
  exact ⟨d, ⟨ts, hl, hd, by rw [(doc_names d).1]; exact hc.placeholders, by rw [(doc_names d).2]; exact hc.names, hgr⟩, rfl⟩

end Verif.FormatLemmas
