import Verif.Spec.Lexer
/-
Helper lemmas for the lexer properties.
-/
namespace Verif.LexerLemmas
open Verif Verif.Spec

/-- Words of a string given by a right-to-left recursion (helper, not part of a property statement). -/
def words (cls : Char → TokenType) : Str → List (TokenType × Str)
  | [] => []
  | c :: cs =>
    match words cls cs with
    | [] => [(cls c, [c])]
    | (k, w) :: rest =>
      if cls c = k ∧ k ≠ .grammar then (k, c :: w) :: rest
      else (cls c, [c]) :: (k, w) :: rest

/-- Put a pending word in front of a word list. -/
def glue (k : TokenType) (w : Str) : List (TokenType × Str) → List (TokenType × Str)
  | [] => [(k, w)]
  | (k', w') :: rest =>
    if k = k' ∧ k' ≠ .grammar then (k', w ++ w') :: rest
    else (k, w) :: (k', w') :: rest

theorem words_cons (cls : Char → TokenType) (c : Char) (cs : Str) :
    words cls (c :: cs) = glue (cls c) [c] (words cls cs) := by
  simp only [words]
  cases words cls cs with
  | nil => rfl
  | cons a rest => obtain ⟨k, w⟩ := a; simp [glue]

theorem glue_same (k : TokenType) (w : Str) (c : Char) (ws : List (TokenType × Str))
    (hk : k ≠ .grammar) :
    glue k w (glue k [c] ws) = glue k (w ++ [c]) ws := by
  cases ws with
  | nil => simp [glue, hk]
  | cons a rest =>
    obtain ⟨k', w'⟩ := a
    by_cases h : k = k' ∧ k' ≠ .grammar
    · simp [glue, h]
    · simp [glue, h, hk]

theorem glue_diff (k k' : TokenType) (w : Str) (c : Char) (ws : List (TokenType × Str))
    (h : k' = .grammar ∨ k ≠ k') :
    glue k w (glue k' [c] ws) = (k, w) :: glue k' [c] ws := by
  cases ws with
  | nil =>
    rcases h with h | h
    · simp [glue, h]
    · simp [glue, h]
  | cons a rest =>
    obtain ⟨k'', w''⟩ := a
    by_cases h2 : k' = k'' ∧ k'' ≠ .grammar
    · obtain ⟨h2, h3⟩ := h2
      subst h2
      rcases h with h | h
      · exact absurd h h3
      · simp [glue, h3, h]
    · rcases h with h | h
      · simp only [glue, h2, if_false]; simp [h]
      · simp only [glue, h2, if_false]; simp [h]

/-- Attach positions to words. -/
def annotate (icu : Icu) : Nat → Nat → Nat → List (TokenType × Str) → List Token
  | _, _, _, [] => []
  | b, ch, g, (k, w) :: rest =>
    { string := w, tokenType := k, startByte := b, startCharacter := ch, startGrapheme := g
      lengthBytes := byteLen w, lengthCharacters := w.length
      lengthGraphemes := icu.breaks w - 1, endByte := b + byteLen w } ::
    annotate icu (b + byteLen w) (ch + w.length) (g + (icu.breaks w - 1)) rest

theorem byteLen_append (a b : Str) : byteLen (a ++ b) = byteLen a + byteLen b := by
  simp [byteLen]

theorem byteLen_single (c : Char) : byteLen [c] = c.utf8Size := by simp [byteLen]

theorem byteLen_cons (c : Char) (cs : Str) : byteLen (c :: cs) = c.utf8Size + byteLen cs := by
  simp [byteLen]

theorem charIndices_length (b : Nat) (s : Str) : (charIndices b s).length = s.length := by
  induction s generalizing b with
  | nil => rfl
  | cons c cs ih => simp [charIndices, ih]

/-- Relation of an unfinished iterator to the pending word `w` of class `k` and the unread text `cs`. -/
structure Ready (it : LexerIterator) (k : TokenType) (w cs : Str) : Prop where
  notEnd : it.endReached = false
  iter : it.iterator = charIndices (it.tokenStartByte + byteLen w) cs
  len : it.lengthBytes = it.tokenStartByte + byteLen w + byteLen cs
  ty : it.tokenType = k
  str : it.tokenString = w
  chars : it.startCharacter + 1 = it.tokenStartCharacter + w.length

/-- The token which the iterator emits for the pending word. -/
def mkTok (it : LexerIterator) (k : TokenType) (w : Str) : Token :=
  { string := w, tokenType := k, startByte := it.tokenStartByte
    startCharacter := it.tokenStartCharacter, startGrapheme := it.tokenStartGrapheme
    lengthBytes := byteLen w, lengthCharacters := w.length
    lengthGraphemes := it.icu.breaks w - 1, endByte := it.tokenStartByte + byteLen w }

/-- What one `scan` returns. -/
theorem scan_spec (cs : Str) : ∀ (it : LexerIterator) (k : TokenType) (w : Str),
    Ready it k w cs →
    ∃ w', ∃ cs', cs = w' ++ cs' ∧
      glue k w (words (charType it.icu it.grammar) cs) =
        (k, w ++ w') :: words (charType it.icu it.grammar) cs' ∧
      (it.scan it.iterator).1 = mkTok it k (w ++ w') ∧
      (it.scan it.iterator).2.icu = it.icu ∧
      (it.scan it.iterator).2.grammar = it.grammar ∧
      (it.scan it.iterator).2.tokenStartByte = it.tokenStartByte + byteLen (w ++ w') ∧
      (it.scan it.iterator).2.tokenStartCharacter = it.tokenStartCharacter + (w ++ w').length ∧
      (it.scan it.iterator).2.tokenStartGrapheme =
        it.tokenStartGrapheme + (it.icu.breaks (w ++ w') - 1) ∧
      (match cs' with
       | [] => (it.scan it.iterator).2.endReached = true
       | c :: cs'' => Ready (it.scan it.iterator).2 (charType it.icu it.grammar c) [c] cs'') := by
  induction cs with
  | nil =>
    intro it k w h
    refine ⟨[], [], rfl, ?_⟩
    have hi : it.iterator = [] := by rw [h.iter]; rfl
    have hl := h.len
    have hc := h.chars
    simp only [hi, LexerIterator.scan, LexerIterator.token, words, glue, mkTok, List.append_nil,
      h.ty, h.str, and_true, true_and, Token.mk.injEq]
    simp [byteLen] at hl ⊢
    omega
  | cons c cs ih =>
    intro it k w h
    have hi : it.iterator = (it.tokenStartByte + byteLen w, c) ::
        charIndices (it.tokenStartByte + byteLen w + c.utf8Size) cs := by rw [h.iter]; rfl
    have hl := h.len
    have hc := h.chars
    rw [byteLen_cons] at hl
    rw [words_cons]
    by_cases hcase : charType it.icu it.grammar c = .grammar ∨ k ≠ charType it.icu it.grammar c
    · -- the pending word is finished
      rw [glue_diff _ _ _ _ _ hcase, ← words_cons]
      refine ⟨[], c :: cs, rfl, ?_⟩
      have key : it.scan it.iterator =
          LexerIterator.token
            { it with
              iterator := charIndices (it.tokenStartByte + byteLen w + c.utf8Size) cs
              startByte := it.tokenStartByte + byteLen w
              startCharacter := it.startCharacter + 1 }
            (charType it.icu it.grammar c) c := by
        rw [hi, LexerIterator.scan]
        have hty := h.ty
        cases hct : charType it.icu it.grammar c <;> simp_all
      rw [key]
      simp only [LexerIterator.token, mkTok, List.append_nil, h.ty, h.str, Token.mk.injEq, true_and]
      refine ⟨⟨by omega, by omega, trivial⟩, by omega, ?_⟩
      constructor
      · exact h.notEnd
      · simp [byteLen_single]
      · simp [byteLen_single]; omega
      · rfl
      · rfl
      · simp
    · -- the character joins the pending word
      have hng : charType it.icu it.grammar c ≠ .grammar := fun h' => hcase (Or.inl h')
      have hk : k = charType it.icu it.grammar c := Decidable.byContradiction fun h' => hcase (Or.inr h')
      let it2 : LexerIterator :=
        { it with
          iterator := charIndices (it.tokenStartByte + byteLen w + c.utf8Size) cs
          startByte := it.tokenStartByte + byteLen w
          startCharacter := it.startCharacter + 1
          tokenString := w ++ [c] }
      have hready : Ready it2 k (w ++ [c]) cs := by
        constructor
        · exact h.notEnd
        · simp [it2, byteLen_append, byteLen_single, Nat.add_assoc]
        · simp only [it2, byteLen_append, byteLen_single]; omega
        · exact h.ty
        · rfl
        · simp only [it2, List.length_append, List.length_singleton]; omega
      have key : it.scan it.iterator = it2.scan it2.iterator := by
        rw [hi]
        conv => lhs; rw [LexerIterator.scan]
        have hty := h.ty
        have hstr := h.str
        cases hct : charType it.icu it.grammar c <;> simp_all [it2]
      obtain ⟨w', cs', hcs, hglue, hrest⟩ := ih it2 k (w ++ [c]) hready
      refine ⟨c :: w', cs', by rw [hcs]; rfl, ?_, ?_⟩
      · rw [← hk, glue_same _ _ _ _ (by rw [hk]; exact hng)]
        have : it2.icu = it.icu := rfl
        have : it2.grammar = it.grammar := rfl
        simpa using hglue
      · rw [key]
        have e : w ++ [c] ++ w' = w ++ c :: w' := by simp
        rw [e] at hrest
        exact hrest

theorem calls_end (it : LexerIterator) (h : it.endReached = true) (n : Nat) :
    it.calls n = List.replicate n none := by
  induction n with
  | zero => rfl
  | succ n ih =>
    simp only [LexerIterator.calls]
    have : it.next = (none, it) := by simp [LexerIterator.next, h]
    rw [this, ih]; rfl

theorem collectN_end (it : LexerIterator) (h : it.endReached = true) (n : Nat) :
    it.collectN n = [] := by
  cases n with
  | zero => rfl
  | succ n => simp [LexerIterator.collectN, LexerIterator.next, h]

theorem glue_length_pos (k : TokenType) (w : Str) (ws : List (TokenType × Str)) :
    0 < (glue k w ws).length := by
  cases ws with
  | nil => simp [glue]
  | cons a rest => obtain ⟨k', w'⟩ := a; simp only [glue]; split <;> simp

/-- All answers of the iterator from a ready state. -/
theorem calls_ready (m : Nat) : ∀ (cs : Str), cs.length ≤ m → ∀ (it : LexerIterator) (k : TokenType)
    (w : Str), Ready it k w cs → ∀ n,
    it.calls n =
      (((annotate it.icu it.tokenStartByte it.tokenStartCharacter it.tokenStartGrapheme
          (glue k w (words (charType it.icu it.grammar) cs))).map some) ++
        List.replicate n none).take n := by
  induction m with
  | zero =>
    intro cs hm it k w h n
    have : cs = [] := by cases cs with | nil => rfl | cons => simp at hm
    subst this
    obtain ⟨w', cs', hcs, hglue, htok, hicu, hgr, hb, hch, hg, hend⟩ := scan_spec [] it k w h
    have hw : w' = [] ∧ cs' = [] := by simpa using hcs.symm
    obtain ⟨rfl, rfl⟩ := hw
    cases n with
    | zero => simp [LexerIterator.calls]
    | succ n =>
      simp only [LexerIterator.calls, LexerIterator.next, h.notEnd]
      rw [hglue]
      simp only [List.append_nil] at *
      simp only [htok, words, annotate, List.map_cons, List.map_nil, List.cons_append, List.nil_append,
        List.take_succ_cons, Bool.false_eq_true, if_false]
      rw [calls_end _ hend]
      simp [mkTok]
  | succ m ih =>
    intro cs hm it k w h n
    obtain ⟨w', cs', hcs, hglue, htok, hicu, hgr, hb, hch, hg, hend⟩ := scan_spec cs it k w h
    cases n with
    | zero => simp [LexerIterator.calls]
    | succ n =>
      simp only [LexerIterator.calls, LexerIterator.next, h.notEnd]
      rw [hglue]
      simp only [htok, annotate, List.map_cons, List.cons_append,
        List.take_succ_cons, Bool.false_eq_true, if_false]
      congr 1
      cases cs' with
      | nil =>
        rw [calls_end _ hend]
        simp [words, annotate]
      | cons c cs'' =>
        have hlen : cs''.length ≤ m := by
          have := congrArg List.length hcs
          simp at this; omega
        rw [ih cs'' hlen _ _ _ hend n, hicu, hgr, hb, hch, hg, words_cons, List.replicate_succ',
          ← List.append_assoc]
        symm
        apply List.take_append_of_le_length
        simp

theorem collectN_ready (m : Nat) : ∀ (cs : Str), cs.length ≤ m → ∀ (it : LexerIterator) (k : TokenType)
    (w : Str), Ready it k w cs → ∀ n, cs.length + 1 ≤ n →
    it.collectN n =
      annotate it.icu it.tokenStartByte it.tokenStartCharacter it.tokenStartGrapheme
          (glue k w (words (charType it.icu it.grammar) cs)) := by
  induction m with
  | zero =>
    intro cs hm it k w h n hn
    have : cs = [] := by cases cs with | nil => rfl | cons => simp at hm
    subst this
    obtain ⟨w', cs', hcs, hglue, htok, hicu, hgr, hb, hch, hg, hend⟩ := scan_spec [] it k w h
    have hw : w' = [] ∧ cs' = [] := by simpa using hcs.symm
    obtain ⟨rfl, rfl⟩ := hw
    cases n with
    | zero => simp at hn
    | succ n =>
      simp only [LexerIterator.collectN, LexerIterator.next, h.notEnd]
      rw [hglue]
      simp only [List.append_nil] at *
      simp only [htok, words, annotate, Bool.false_eq_true, if_false]
      rw [collectN_end _ hend]
      simp [mkTok]
  | succ m ih =>
    intro cs hm it k w h n hn
    obtain ⟨w', cs', hcs, hglue, htok, hicu, hgr, hb, hch, hg, hend⟩ := scan_spec cs it k w h
    cases n with
    | zero => simp at hn
    | succ n =>
      simp only [LexerIterator.collectN, LexerIterator.next, h.notEnd]
      rw [hglue]
      simp only [htok, annotate, Bool.false_eq_true, if_false]
      congr 1
      cases cs' with
      | nil =>
        rw [collectN_end _ hend]
        simp [words, annotate]
      | cons c cs'' =>
        have hlen : cs''.length + 1 ≤ cs.length := by
          have := congrArg List.length hcs
          simp at this; omega
        rw [ih cs'' (by omega) _ _ _ hend n (by omega), hicu, hgr, hb, hch, hg, words_cons]

theorem tryNew_ready (c : Char) (cs grammar : Str) (icu : Icu) (hg : grammar ≠ []) :
    ∃ it, LexerIterator.tryNew (c :: cs) grammar icu = .ok it ∧
      Ready it (charType icu grammar c) [c] cs ∧ it.icu = icu ∧ it.grammar = grammar ∧
      it.tokenStartByte = 0 ∧ it.tokenStartCharacter = 0 ∧ it.tokenStartGrapheme = 0 := by
  have : grammar.isEmpty = false := by cases grammar <;> simp_all
  simp only [LexerIterator.tryNew, this, charIndices, Bool.false_eq_true, if_false]
  refine ⟨_, rfl, ?_, rfl, rfl, rfl, rfl, rfl⟩
  constructor <;> simp [byteLen]

/-- The main fact: the lexer yields the annotated words. -/
theorem lex_eq (icu : Icu) (grammar s : Str) (hg : grammar ≠ []) (hs : s ≠ []) :
    lex icu grammar s = .ok (annotate icu 0 0 0 (words (charType icu grammar) s)) := by
  cases s with
  | nil => exact absurd rfl hs
  | cons c cs =>
    obtain ⟨it, hit, hr, h1, h2, h3, h4, h5⟩ := tryNew_ready c cs grammar icu hg
    simp only [lex, hit, LexerIterator.collect]
    rw [collectN_ready cs.length cs (Nat.le_refl _) it _ _ hr _
      (by rw [hr.iter, charIndices_length]; exact Nat.le_refl _)]
    rw [h1, h2, h3, h4, h5, words_cons]

theorem calls_eq (icu : Icu) (grammar s : Str) (hg : grammar ≠ []) (hs : s ≠ []) :
    ∃ it, LexerIterator.tryNew s grammar icu = .ok it ∧ ∀ n, it.calls n =
      (((annotate icu 0 0 0 (words (charType icu grammar) s)).map some) ++
        List.replicate n none).take n := by
  cases s with
  | nil => exact absurd rfl hs
  | cons c cs =>
    obtain ⟨it, hit, hr, h1, h2, h3, h4, h5⟩ := tryNew_ready c cs grammar icu hg
    refine ⟨it, hit, fun n => ?_⟩
    rw [calls_ready cs.length cs (Nat.le_refl _) it _ _ hr n, h1, h2, h3, h4, h5, words_cons]

/-! Facts about `annotate` -/

theorem annotate_words (icu : Icu) (ws : List (TokenType × Str)) : ∀ b ch g,
    (annotate icu b ch g ws).map (fun t => (t.tokenType, t.string)) = ws := by
  induction ws with
  | nil => intros; rfl
  | cons a rest ih => obtain ⟨k, w⟩ := a; intros; simp [annotate, ih]

theorem annotate_strings (icu : Icu) (ws : List (TokenType × Str)) (b ch g) :
    (annotate icu b ch g ws).map Token.string = ws.map Prod.snd := by
  conv => rhs; rw [← annotate_words icu ws b ch g]
  simp [List.map_map, Function.comp_def]

theorem annotate_positions (icu : Icu) (ws : List (TokenType × Str)) : ∀ b ch g pre t post,
    annotate icu b ch g ws = pre ++ t :: post →
    t.startByte = b + byteLen ((pre.map Token.string).flatten) ∧
    t.lengthBytes = byteLen t.string ∧
    t.endByte = t.startByte + t.lengthBytes ∧
    t.startCharacter = ch + ((pre.map Token.string).flatten).length ∧
    t.lengthCharacters = t.string.length ∧
    t.lengthGraphemes = icu.breaks t.string - 1 ∧
    t.startGrapheme = g + (pre.map Token.lengthGraphemes).sum := by
  induction ws with
  | nil => intro b ch g pre t post h; simp [annotate] at h
  | cons a rest ih =>
    obtain ⟨k, w⟩ := a
    intro b ch g pre t post h
    cases pre with
    | nil =>
      simp only [annotate, List.nil_append, List.cons.injEq] at h
      obtain ⟨rfl, _⟩ := h
      simp [byteLen]
    | cons p pre =>
      simp only [annotate, List.cons_append, List.cons.injEq] at h
      obtain ⟨rfl, h⟩ := h
      have := ih _ _ _ _ _ _ h
      simp only [List.map_cons, List.flatten_cons, byteLen_append, List.length_append, List.sum_cons]
      omega

theorem annotate_length (icu : Icu) (ws : List (TokenType × Str)) (b ch g) :
    (annotate icu b ch g ws).length = ws.length := by
  have := congrArg List.length (annotate_words icu ws b ch g)
  simpa using this

theorem annotate_append (icu : Icu) (xs ys : List (TokenType × Str)) : ∀ b ch g, ∃ b' ch' g',
    annotate icu b ch g (xs ++ ys) = annotate icu b ch g xs ++ annotate icu b' ch' g' ys := by
  induction xs with
  | nil => intro b ch g; exact ⟨b, ch, g, rfl⟩
  | cons a rest ih =>
    obtain ⟨k, w⟩ := a
    intro b ch g
    obtain ⟨b', ch', g', h⟩ := ih (b + byteLen w) (ch + w.length) (g + (icu.breaks w - 1))
    exact ⟨b', ch', g', by simp [annotate, h]⟩

/-! Facts about `words` -/

theorem charType_hasClass (icu : Icu) (grammar : Str) (c : Char) :
    HasClass icu grammar c (charType icu grammar c) := by
  unfold charType
  by_cases h1 : icu.whiteSpace c
  · simp only [h1, if_true]; exact .ws h1
  · have h1' : icu.whiteSpace c = false := by simpa using h1
    by_cases h2 : icu.syn c
    · by_cases h3 : c ∈ grammar
      · simp only [h1', h2, if_true, Bool.false_eq_true, if_false]
        rw [if_pos (by simpa using h3)]; exact .gr h1' h2 h3
      · simp only [h1', h2, if_true, Bool.false_eq_true, if_false]
        rw [if_neg (by simpa using h3)]; exact .sy h1' h2 h3
    · have h2' : icu.syn c = false := by simpa using h2
      simp only [h1', h2', Bool.false_eq_true, if_false]; exact .id h1' h2'

theorem hasClass_unique {icu : Icu} {grammar : Str} {c : Char} {k k' : TokenType}
    (h : HasClass icu grammar c k) (h' : HasClass icu grammar c k') : k = k' := by
  cases h <;> cases h' <;> simp_all

theorem hasClass_charType {icu : Icu} {grammar : Str} {c : Char} {k : TokenType}
    (h : HasClass icu grammar c k) : charType icu grammar c = k :=
  hasClass_unique (charType_hasClass icu grammar c) h

theorem words_ne_nil (cls : Char → TokenType) (s : Str) (h : s ≠ []) : words cls s ≠ [] := by
  cases s with
  | nil => exact absurd rfl h
  | cons c cs =>
    rw [words_cons]
    intro h'
    have := glue_length_pos (cls c) [c] (words cls cs)
    rw [h'] at this; simp at this

theorem glue_concat (k : TokenType) (w : Str) (ws : List (TokenType × Str)) :
    ((glue k w ws).map Prod.snd).flatten = w ++ (ws.map Prod.snd).flatten := by
  cases ws with
  | nil => simp [glue]
  | cons a rest => obtain ⟨k', w'⟩ := a; simp only [glue]; split <;> simp

theorem words_concat (cls : Char → TokenType) (s : Str) :
    ((words cls s).map Prod.snd).flatten = s := by
  induction s with
  | nil => rfl
  | cons c cs ih => rw [words_cons, glue_concat, ih]; rfl

/-- Properties of word lists kept by `words`. -/
structure Good (cls : Char → TokenType) (ws : List (TokenType × Str)) : Prop where
  nonempty : ∀ w ∈ ws, w.2 ≠ []
  uniform : ∀ w ∈ ws, ∀ c ∈ w.2, cls c = w.1
  single : ∀ w ∈ ws, w.1 = .grammar → w.2.length = 1
  maximal : ∀ pre a b post, ws = pre ++ a :: b :: post → Separated a.1 b.1

theorem Good.tail {cls a ws} (h : Good cls (a :: ws)) : Good cls ws where
  nonempty w hw := h.nonempty w (List.mem_cons_of_mem _ hw)
  uniform w hw := h.uniform w (List.mem_cons_of_mem _ hw)
  single w hw := h.single w (List.mem_cons_of_mem _ hw)
  maximal pre x y post e := h.maximal (a :: pre) x y post (by rw [e]; rfl)

theorem words_good (cls : Char → TokenType) (s : Str) : Good cls (words cls s) := by
  induction s with
  | nil => constructor <;> simp [words]
  | cons c cs ih =>
    rw [words_cons]
    cases hw : words cls cs with
    | nil =>
      constructor
      · simp [glue]
      · simp [glue]
      · simp [glue]
      · intro pre a b post h
        have := congrArg List.length h
        simp [glue] at this; omega
    | cons a rest =>
      obtain ⟨k, w⟩ := a
      rw [hw] at ih
      by_cases h : cls c = k ∧ k ≠ .grammar
      · simp only [glue, h, and_self, if_true, ne_eq, not_false_eq_true]
        obtain ⟨h1, h2⟩ := h
        constructor
        · intro x hx
          rcases List.mem_cons.1 hx with rfl | hx
          · simp
          · exact ih.tail.nonempty x hx
        · intro x hx d hd
          rcases List.mem_cons.1 hx with rfl | hx
          · simp at hd
            rcases hd with rfl | hd
            · exact h1
            · exact ih.uniform (k, w) (by simp) d hd
          · exact ih.tail.uniform x hx d hd
        · intro x hx hx2
          rcases List.mem_cons.1 hx with rfl | hx
          · exact absurd hx2 h2
          · exact ih.tail.single x hx hx2
        · intro pre x y post e
          cases pre with
          | nil =>
            simp only [List.nil_append, List.cons.injEq] at e
            obtain ⟨rfl, e⟩ := e
            exact ih.maximal [] (k, w) y post (by rw [e]; rfl)
          | cons p pre =>
            simp only [List.cons_append, List.cons.injEq] at e
            exact ih.tail.maximal pre x y post e.2
      · simp only [glue, h, if_false]
        constructor
        · intro x hx
          rcases List.mem_cons.1 hx with rfl | hx
          · simp
          · exact ih.nonempty x hx
        · intro x hx d hd
          rcases List.mem_cons.1 hx with rfl | hx
          · simp at hd; rw [hd]
          · exact ih.uniform x hx d hd
        · intro x hx hx2
          rcases List.mem_cons.1 hx with rfl | hx
          · rfl
          · exact ih.single x hx hx2
        · intro pre x y post e
          cases pre with
          | nil =>
            simp only [List.nil_append, List.cons.injEq] at e
            obtain ⟨rfl, rfl, e⟩ := e
            show Separated (cls c) k
            by_cases h1 : cls c = k
            · right
              exact Decidable.byContradiction fun h2 => h ⟨h1, by rw [← h1]; exact h2⟩
            · exact Or.inl h1
          | cons p pre =>
            simp only [List.cons_append, List.cons.injEq] at e
            exact ih.maximal pre x y post e.2

theorem good_unique (cls : Char → TokenType) : ∀ (ws : List (TokenType × Str)), Good cls ws →
    words cls ((ws.map Prod.snd).flatten) = ws := by
  have step : ∀ (w : Str) (k : TokenType) (rest : List (TokenType × Str)), w ≠ [] →
      Good cls ((k, w) :: rest) → words cls ((rest.map Prod.snd).flatten) = rest →
      words cls (w ++ (rest.map Prod.snd).flatten) = (k, w) :: rest := by
    intro w
    induction w with
    | nil => intro k rest h; exact absurd rfl h
    | cons c w ih =>
      intro k rest _ hg hrest
      have hc : cls c = k := hg.uniform (k, c :: w) (by simp) c (by simp)
      rw [List.cons_append, words_cons]
      cases w with
      | nil =>
        rw [List.nil_append, hrest, hc]
        cases rest with
        | nil => rfl
        | cons b rest =>
          obtain ⟨k', w'⟩ := b
          have hs : Separated k k' := hg.maximal [] (k, [c]) (k', w') rest rfl
          simp only [glue]
          rw [if_neg]
          rintro ⟨rfl, hne⟩
          rcases hs with hs | hs
          · exact hs rfl
          · exact hne hs
      | cons d w =>
        have hng : k ≠ .grammar := by
          intro hk
          have := hg.single (k, c :: d :: w) (by simp) hk
          simp at this
        have hg' : Good cls ((k, d :: w) :: rest) := by
          constructor
          · intro x hx
            rcases List.mem_cons.1 hx with rfl | hx
            · simp
            · exact hg.tail.nonempty x hx
          · intro x hx e he
            rcases List.mem_cons.1 hx with rfl | hx
            · exact hg.uniform (k, c :: d :: w) (by simp) e (List.mem_cons_of_mem _ he)
            · exact hg.tail.uniform x hx e he
          · intro x hx hx2
            rcases List.mem_cons.1 hx with rfl | hx
            · exact absurd hx2 hng
            · exact hg.tail.single x hx hx2
          · intro pre x y post e
            cases pre with
            | nil =>
              simp only [List.nil_append, List.cons.injEq] at e
              obtain ⟨rfl, e⟩ := e
              exact hg.maximal [] (k, c :: d :: w) y post (by rw [e]; rfl)
            | cons p pre =>
              simp only [List.cons_append, List.cons.injEq] at e
              exact hg.tail.maximal pre x y post e.2
        rw [ih k rest (by simp) hg' hrest, hc]
        simp [glue, hng]
  intro ws
  induction ws with
  | nil => intro _; rfl
  | cons a rest ih =>
    obtain ⟨k, w⟩ := a
    intro hg
    simp only [List.map_cons, List.flatten_cons]
    exact step w k rest (hg.nonempty (k, w) (by simp)) hg (ih hg.tail)

theorem tokenisation_good {icu : Icu} {grammar s : Str} {ws : List (TokenType × Str)}
    (h : Tokenisation icu grammar s ws) : Good (charType icu grammar) ws where
  nonempty := h.nonempty
  uniform w hw c hc := hasClass_charType (h.uniform w hw c hc)
  single := h.single
  maximal := h.maximal

theorem words_tokenisation (icu : Icu) (grammar s : Str) :
    Tokenisation icu grammar s (words (charType icu grammar) s) where
  concat := words_concat _ s
  nonempty := (words_good _ s).nonempty
  uniform w hw c hc := by
    rw [← (words_good _ s).uniform w hw c hc]; exact charType_hasClass icu grammar c
  single := (words_good _ s).single
  maximal := (words_good _ s).maximal

theorem words_append_left (cls : Char → TokenType) (s t : Str) (hs : s ≠ []) :
    ∃ pre k w w' post, words cls s = pre ++ [(k, w)] ∧ words cls (s ++ t) = pre ++ (k, w ++ w') :: post := by
  induction s with
  | nil => exact absurd rfl hs
  | cons c cs ih =>
    cases cs with
    | nil =>
      rw [List.singleton_append, words_cons, words_cons]
      cases words cls t with
      | nil => exact ⟨[], cls c, [c], [], [], by simp [words, glue], by simp [glue]⟩
      | cons a rest =>
        obtain ⟨k', w'⟩ := a
        by_cases h : cls c = k' ∧ k' ≠ .grammar
        · refine ⟨[], cls c, [c], w', rest, by simp [words, glue], ?_⟩
          simp [glue, h]
        · refine ⟨[], cls c, [c], [], (k', w') :: rest, by simp [words, glue], ?_⟩
          simp only [glue, h, if_false]; simp
    | cons d cs =>
      obtain ⟨pre, k, w, w', post, h1, h2⟩ := ih (by simp)
      rw [List.cons_append, words_cons cls c (d :: cs), words_cons cls c (d :: cs ++ t), h1, h2]
      cases pre with
      | nil =>
        by_cases h : cls c = k ∧ k ≠ .grammar
        · refine ⟨[], k, c :: w, w', post, ?_, ?_⟩ <;> simp [glue, h]
        · refine ⟨[(cls c, [c])], k, w, w', post, ?_, ?_⟩ <;>
            simp only [glue, List.nil_append, h, if_false] <;> rfl
      | cons p pre =>
        obtain ⟨k2, w2⟩ := p
        by_cases h : cls c = k2 ∧ k2 ≠ .grammar
        · refine ⟨(k2, c :: w2) :: pre, k, w, w', post, ?_, ?_⟩ <;> simp [glue, h]
        · refine ⟨(cls c, [c]) :: (k2, w2) :: pre, k, w, w', post, ?_, ?_⟩ <;>
            simp only [glue, List.cons_append, h, if_false]

end Verif.LexerLemmas
