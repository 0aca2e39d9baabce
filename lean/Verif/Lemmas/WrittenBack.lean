import Verif.Lemmas.Written
import Verif.Lemmas.Unambiguous
import Verif.Spec.Meaning
/-
What is read can be written, and the meaning of a pattern string is the meaning of what it stands for.
-/
namespace Verif.FormatLemmas
open Verif Verif.Spec

/-! ### What is read can be written -/

theorem allApart_snoc {l : List Piece} {b : Piece} (h : AllApart l) (hj : ∀ a, l.getLast? = some a → Apart a b) :
    AllApart (l ++ [b]) := by
  induction l with
  | nil => trivial
  | cons x l ih =>
    cases l with
    | nil => exact ⟨hj x rfl, trivial⟩
    | cons y l =>
      refine ⟨h.1, ?_⟩
      have := ih h.2 (fun a ha => hj a (by simpa using ha))
      simpa using this

theorem allApart_dropLast {l : List Piece} {a b : Piece} (h : AllApart (l ++ [a])) (hab : ∀ x, Apart x a → Apart x b) :
    AllApart (l ++ [b]) := by
  induction l with
  | nil => trivial
  | cons x l ih =>
    cases l with
    | nil => exact ⟨hab x h.1, trivial⟩
    | cons y l =>
      refine ⟨h.1, ?_⟩
      have := ih (by simpa using h.2)
      simpa using this

theorem apart_text {x : Piece} {s s' : Str} (h : Apart x (.text s)) : Apart x (.text s') := by
  cases x <;> trivial

theorem addText_apart {l : List Piece} (s : Str) (h : AllApart l) : AllApart (addText l s) := by
  unfold addText
  split
  · rename_i t hl
    rw [getLast_snoc hl] at h
    exact allApart_dropLast h fun x => apart_text
  · rename_i hl
    refine allApart_snoc h fun a ha => ?_
    cases a with
    | text t => exact absurd ha (hl t)
    | _ => trivial

theorem addText_mem {l : List Piece} {s : Str} {p : Piece} (h : p ∈ addText l s) :
    p ∈ l ∨ ∃ t, p = .text (t ++ s) := by
  unfold addText at h
  split at h
  · rename_i t hl
    rcases List.mem_append.1 h with h | h
    · exact .inl (List.dropLast_subset l h)
    · exact .inr ⟨t, by simpa using h⟩
  · rcases List.mem_append.1 h with h | h
    · exact .inl h
    · exact .inr ⟨[], by simpa using h⟩

section
variable {icu : Icu} {g : Str}

theorem ident_token {t : Token} {ts : List Token} (h : Toks icu g ts) (ht : t ∈ ts) (hi : t.tokenType = .identifier) :
    IsIdentifier icu t.string := by
  refine ⟨h.nonempty t ht, fun c hc => ?_⟩
  have := h.uniform t ht c hc
  rw [hi] at this
  cases this
  rename_i h1 h2
  exact ⟨h1, h2⟩

theorem selectors_ok {n : Nat} {sels : List (Leaf × Leaf)} {ts : List Token} (h : KwBody n sels ts) (ht : Toks icu g ts) :
    ∀ s ∈ pairs sels, IsIdentifier icu s.1 ∧ IsIdentifier icu s.2 := by
  induction h with
  | nil => simp [pairs]
  | skip h h1 ih => exact ih ht.append.1
  | @selector sels ts a x b h ha hx hb ih =>
    intro s hs
    rw [pairs, List.map_append, List.mem_append] at hs
    rcases hs with hs | hs
    · exact ih ht.append.1 s hs
    · simp only [List.map_cons, List.map_nil, List.mem_singleton] at hs
      subst hs
      exact ⟨ident_token ht (by simp) ha, ident_token ht (by simp) hb⟩

/-- The parts of a command: its name, the sign of a delayed command, and the parameters. -/
theorem command_parts {n : Nat} {parts : List Part} {ts : List Token} (h : CmdBody n parts ts) (ht : Toks icu g ts) :
    parts = [] ∨ ∃ (a : Leaf) (x : List Part) (new : List Leaf), parts = .ident a :: x ++ new.map Part.ident ∧
      (x = [] ∨ ∃ l, x = [.hash l]) ∧ IsIdentifier icu a.str ∧ ∀ l ∈ new, IsIdentifier icu l.str := by
  induction h with
  | nil => exact .inl rfl
  | blank h h1 ih => exact ih ht.append.1
  | @ident parts ts t h h1 ih =>
    right
    rcases ih ht.append.1 with rfl | ⟨a, x, new, rfl, h2, h3, h4⟩
    · exact ⟨_, [], [], rfl, .inl rfl, ident_token ht (by simp) h1, by simp⟩
    · refine ⟨a, x, new ++ [⟨n + ts.length, t⟩], by simp, h2, h3, ?_⟩
      intro l hl
      rcases List.mem_append.1 hl with hl | hl
      · exact h4 l hl
      · obtain rfl := List.mem_singleton.1 hl
        exact ident_token ht (by simp) h1
  | @hash p ts t h h1 ih =>
    right
    rcases ih ht.append.1 with h2 | ⟨a, x, new, h2, _, h3, _⟩
    · cases h2
    · have hp : p = a := by
        simp only [List.cons_append, List.cons.injEq, Part.ident.injEq] at h2
        exact h2.1
      exact ⟨p, [.hash ⟨n + ts.length, t⟩], [], rfl, .inr ⟨_, rfl⟩, hp ▸ h3, by simp⟩

theorem pattern_ok {n : Nat} {item : Item} {w : List Token} (h : Pattern n item w) (ht : Toks icu g w) (sub : Bool) :
    PieceOk icu sub item.piece ∧ (∀ s, item.piece ≠ .text s) ∧ item.piece ≠ .number := by
  cases h with
  | simple ho hid hws hc =>
    exact ⟨ident_token ht (by simp) hid, by simp [Item.piece], by simp [Item.piece]⟩
  | @keyword o id ws k sels body c ho hid hws hk hb hc =>
    refine ⟨⟨ident_token ht (by simp) hid, ident_token ht (by simp) hk, selectors_ok (g := g) hb ?_⟩, by simp [Item.piece],
      by simp [Item.piece]⟩
    have e : (o :: id :: ws ++ k :: body ++ [c]) = (o :: id :: ws ++ [k]) ++ (body ++ [c]) := by simp
    rw [e] at ht
    exact ht.append.2.append.1
  | @command o x parts body c ho hx hb hne he hc =>
    have e : (o :: x :: body ++ [c]) = [o, x] ++ (body ++ [c]) := by simp
    rw [e] at ht
    rcases command_parts hb ht.append.2.append.1 with rfl | ⟨a, y, new, rfl, h2, h3, h4⟩
    · exact absurd rfl hne
    · rcases h2 with rfl | ⟨l, rfl⟩
      · have e : Item.piece (.cmd (.ident a :: [] ++ new.map Part.ident)) = .command a.str false (new.map Leaf.str) := by
          cases new <;> simp [Item.piece, Part.str, Function.comp_def]
        rw [e]
        refine ⟨⟨h3, ?_, by simp⟩, by simp, by simp⟩
        intro p hp
        obtain ⟨l, hl, rfl⟩ := List.mem_map.1 hp
        exact h4 l hl
      · have e : Item.piece (.cmd (.ident a :: [.hash l] ++ new.map Part.ident)) = .command a.str true (new.map Leaf.str) := by
          simp [Item.piece, Part.str, Function.comp_def]
        rw [e]
        refine ⟨⟨h3, ?_, ?_⟩, by simp, by simp⟩
        · intro p hp
          obtain ⟨l, hl, rfl⟩ := List.mem_map.1 hp
          exact h4 l hl
        · rintro - hn
          have : new = [] := by simpa using hn
          subst this
          simp [endsWithHash] at he

/-- What a content stands for can be written. -/
theorem content_ok {sub : Bool} {n : Nat} {items : List Item} {ts : List Token} (h : Content sub n items ts) (ht : Toks icu g ts) :
    (∀ p ∈ items.map Item.piece, PieceOk icu sub p) ∧ AllApart (items.map Item.piece) := by
  induction h with
  | nil => exact ⟨by simp, trivial⟩
  | @plain items ts t h h1 ih =>
    obtain ⟨i1, i2⟩ := ih ht.append.1
    rw [pushText_pieces]
    refine ⟨fun p hp => ?_, addText_apart _ i2⟩
    rcases addText_mem hp with hp | ⟨s, rfl⟩
    · exact i1 p hp
    · have := ht.nonempty t (by simp)
      simp [PieceOk, Leaf.str, this]
  | @escaped items ts e t h h1 ih =>
    obtain ⟨i1, i2⟩ := ih ht.append.1
    rw [pushText_pieces]
    refine ⟨fun p hp => ?_, addText_apart _ i2⟩
    rcases addText_mem hp with hp | ⟨s, rfl⟩
    · exact i1 p hp
    · have := ht.nonempty t (by simp)
      simp [PieceOk, Leaf.str, this]
  | @number items ts t h h0 h1 h2 ih =>
    obtain ⟨i1, i2⟩ := ih ht.append.1
    rw [List.map_append]
    refine ⟨fun p hp => ?_, allApart_snoc i2 fun a ha => ?_⟩
    · rcases List.mem_append.1 hp with hp | hp
      · exact i1 p hp
      · simp only [List.map_cons, List.map_nil, List.mem_singleton, Item.piece] at hp
        subst hp
        exact h0
    · cases a with
      | number =>
        rw [List.getLast?_map] at ha
        cases hl : items.getLast? with
        | none => rw [hl] at ha; cases ha
        | some it =>
          rw [hl] at ha
          obtain ⟨l, rfl⟩ := piece_number (it := it) (by simpa using ha)
          simp [endsWithNumber, hl] at h1
      | _ => trivial
  | @pattern items ts item w h h1 ih =>
    obtain ⟨i1, i2⟩ := ih ht.append.1
    obtain ⟨p1, p2, p3⟩ := pattern_ok h1 ht.append.2 sub
    rw [List.map_append]
    refine ⟨fun p hp => ?_, allApart_snoc i2 fun a ha => ?_⟩
    · rcases List.mem_append.1 hp with hp | hp
      · exact i1 p hp
      · simp only [List.map_cons, List.map_nil, List.mem_singleton] at hp
        exact hp ▸ p1
    · cases hq : item.piece with
      | text s => exact absurd hq (p2 s)
      | number => exact absurd hq p3
      | _ => cases a <;> trivial

/-! The first part of a string is where its first token is. -/

theorem addText_first {l : List Piece} (s : Str) (hl : l ≠ []) : BeginsNamed icu l → BeginsNamed icu (addText l s) := by
  intro h
  unfold addText
  split
  · rename_i t hlast
    have e := getLast_snoc hlast
    cases hd : l.dropLast with
    | nil =>
      rw [hd] at e
      rw [e] at h
      cases t with
      | nil => exact h.elim
      | cons c t => exact h
    | cons x r =>
      rw [hd] at e
      rw [e] at h
      cases x with
      | text t' => cases t' with
        | nil => exact h.elim
        | cons c t' => exact h
      | number => trivial
      | _ => exact h.elim
  · cases l with
    | nil => exact absurd rfl hl
    | cons x r =>
      cases x with
      | text t' => cases t' with
        | nil => exact h.elim
        | cons c t' => exact h
      | number => trivial
      | _ => exact h.elim

theorem snoc_first {l : List Piece} (p : Piece) (hl : l ≠ []) : BeginsNamed icu l → BeginsNamed icu (l ++ [p]) := by
  intro h
  cases l with
  | nil => exact absurd rfl hl
  | cons x r =>
    cases x with
    | text t' => cases t' with
      | nil => exact h.elim
      | cons c t' => exact h
    | number => trivial
    | _ => exact h.elim

theorem starts_append {a b : List Token} (h : Starts (a ++ b)) (ha : a ≠ []) : Starts a := by
  cases a with
  | nil => exact absurd rfl ha
  | cons t a => exact h

theorem content_nil {sub : Bool} {n : Nat} {ts : List Token} (h : Content sub n [] ts) : ts = [] := by
  generalize hi : ([] : List Item) = items at h
  cases h with
  | nil => rfl
  | plain h =>
    have := congrArg (List.map Item.piece) hi
    rw [pushText_pieces] at this
    unfold addText at this
    split at this <;> simp at this
  | escaped h =>
    have := congrArg (List.map Item.piece) hi
    rw [pushText_pieces] at this
    unfold addText at this
    split at this <;> simp at this
  | number => simp at hi
  | pattern => simp at hi

theorem content_empty {sub : Bool} {n : Nat} {items : List Item} (h : Content sub n items []) : items = [] := by
  generalize hts : ([] : List Token) = ts at h
  cases h with
  | nil => rfl
  | plain => simp at hts
  | escaped => simp at hts
  | number => simp at hts
  | pattern h h1 =>
    obtain ⟨o, v, rfl, _⟩ := Unambiguous.pattern_head h1
    simp at hts

theorem content_begins {n : Nat} {items : List Item} {ts : List Token} (h : Content true n items ts) (ht : Toks icu g ts)
    (hs : Starts ts) : BeginsNamed icu (items.map Item.piece) := by
  induction h with
  | nil => exact hs.elim
  | @plain items ts t h h1 ih =>
    rw [pushText_pieces]
    by_cases he : ts = []
    · subst he
      have : items = [] := content_empty h
      subst this
      have hi : t.tokenType = .identifier := by
        rcases hs with hs | hs
        · exact hs
        · exact absurd hs.1 h1
      obtain ⟨c, v, hv⟩ := List.exists_cons_of_ne_nil (ht.nonempty t (by simp))
      have := ident_token ht (t := t) (by simp) hi
      simp only [List.map_nil, addText, List.getLast?_nil, List.nil_append, Leaf.str, hv]
      exact this.2 c (by simp [hv])
    · have hi : items.map Item.piece ≠ [] := by
        intro e
        have : items = [] := by simpa using e
        subst this
        exact he (content_nil h)
      exact addText_first _ hi (ih ht.append.1 (starts_append hs he))
  | @escaped items ts e t h h1 ih =>
    rw [pushText_pieces]
    by_cases he : ts = []
    · subst he
      rcases hs with hs | hs
      · rw [h1.1] at hs; cases hs
      · have := h1.2.symm.trans hs.2
        simp at this
    · have hi : items.map Item.piece ≠ [] := by
        intro e
        have : items = [] := by simpa using e
        subst this
        exact he (content_nil h)
      exact addText_first _ hi (ih ht.append.1 (starts_append hs he))
  | @number items ts t h h0 h1 h2 ih =>
    rw [List.map_append]
    by_cases he : items = []
    · subst he
      trivial
    · have hts : ts ≠ [] := by
        rintro rfl
        exact he (content_empty h)
      exact snoc_first _ (by simpa using he) (ih ht.append.1 (starts_append hs hts))
  | @pattern items ts item w h h1 ih =>
    rw [List.map_append]
    by_cases he : ts = []
    · subst he
      obtain ⟨o, v, rfl, ho⟩ := Unambiguous.pattern_head h1
      rcases hs with hs | hs
      · rw [ho.1] at hs; cases hs
      · have := ho.2.symm.trans hs.2
        simp at this
    · have hi : items.map Item.piece ≠ [] := by
        intro e
        have : items = [] := by simpa using e
        subst this
        exact he (content_nil h)
      exact snoc_first _ hi (ih ht.append.1 (starts_append hs he))

theorem group_ok {n : Nat} {ns : List Named} {ts : List Token} (h : Group n ns ts) (ht : Toks icu g ts) :
    ∀ x ∈ ns.map namedPieces, IsIdentifier icu x.1 ∧ (∀ p ∈ x.2, PieceOk icu true p) ∧ AllApart x.2 ∧ BeginsNamed icu x.2 := by
  induction h with
  | nil => simp
  | blank h h1 ih => exact ih ht.append.1
  | @named ns ts o id w ws items body c h h1 h2 h3 h4 h5 h6 h7 ih =>
    have e : ts ++ o :: id :: w :: ws ++ body ++ [c] = ts ++ ((o :: id :: w :: ws) ++ (body ++ [c])) := by simp
    rw [e] at ht
    intro x hx
    rw [List.map_append, List.mem_append] at hx
    rcases hx with hx | hx
    · exact ih ht.append.1 x hx
    · simp only [List.map_cons, List.map_nil, List.mem_singleton] at hx
      subst hx
      have hb := ht.append.2.append.2.append.1
      obtain ⟨c1, c2⟩ := content_ok h6 hb
      exact ⟨ident_token ht (t := id) (by simp) h2, c1, c2, content_begins h6 hb h5⟩

end

variable {D F : Type}

/-- What a string is read as can be written. -/
theorem reads_composed {E : FmtEnv D F} {s : Str} {d : Doc} (hd : Reads E s d) : Composed E.icu d.composition := by
  obtain ⟨ts, hl, hsen, hp, hn, _⟩ := hd
  have hg : E.grammar ≠ [] := by
    intro e
    rw [e] at hl
    simp [lex, LexerIterator.tryNew] at hl
  have hs : s ≠ [] := by
    rintro rfl
    unfold lex LexerIterator.tryNew at hl
    by_cases hg : E.grammar = [] <;> simp [hg, charIndices] at hl
  obtain ⟨ht, _⟩ := toks_of_lex hg hs hl
  refine ⟨?_, ?_, by rw [← (doc_names d).1]; exact hp, by rw [← (doc_names d).2]; exact hn⟩
  · cases hsen with
    | plain h => exact content_ok h ht
    | group h => exact content_ok h ht.append.1
  · cases hsen with
    | plain h => simp [Doc.composition]
    | group h h1 h2 => exact group_ok h2 ht.append.2.tail

/-! ### The meaning -/

/-- An item as the parser makes it: commands begin with their name. -/
def Meant (it : Item) : Prop := ∀ parts, it = .cmd parts → ∃ n ps, parts = .ident n :: ps

theorem evalItem_piece (E : FmtEnv D F) (lang : Str) (values : AMap Str (PValue D F)) (self : Str) (sub : Str → Store → Res)
    {it : Item} (h : Meant it) (st : Store) :
    evalItem E lang values self sub it st = evalPiece E lang values self sub it.piece st := by
  cases it with
  | text t => rfl
  | number l => rfl
  | pat id kw =>
    cases kw with
    | none => rfl
    | some kw =>
      obtain ⟨k, sels⟩ := kw
      have e : (pairs sels).map Prod.fst = sels.map fun s => s.1.str := by simp [pairs]
      simp only [Item.piece, evalPiece, evalItem, e]
      cases values.get id.str <;> rfl
  | cmd parts =>
    obtain ⟨n, ps, rfl⟩ := h parts rfl
    match ps with
    | [] => rfl
    | .ident l :: ps => simp [evalItem, evalPiece, Item.piece, Function.comp_def]
    | .hash l :: ps => simp [evalItem, evalPiece, Item.piece, Function.comp_def]

theorem evalItems_pieces (E : FmtEnv D F) (lang : Str) (values : AMap Str (PValue D F)) (self : Str)
    (sub : Str → Store → Res) : ∀ (items : List Item), (∀ it ∈ items, Meant it) → ∀ st,
    evalItems E lang values self sub items st = evalPieces E lang values self sub (items.map Item.piece) st
  | [], _, _ => rfl
  | it :: items, h, st => by
    have ih := evalItems_pieces E lang values self sub items fun x hx => h x (by simp [hx])
    rw [List.map_cons, evalItems, evalPieces, evalItem_piece E lang values self sub (h it (by simp))]
    match evalPiece E lang values self sub it.piece st with
    | (none, _) => rfl
    | (some (.err _), _) => rfl
    | (some .panic, _) => rfl
    | (some (.ok s), st') =>
      simp only [ih]
      match evalPieces E lang values self sub (items.map Item.piece) st' with
      | (none, _) => rfl
      | (some (.err _), _) => rfl
      | (some .panic, _) => rfl
      | (some (.ok _), _) => rfl

theorem evalNamed_pieces (E : FmtEnv D F) (lang : Str) (values : AMap Str (PValue D F)) : ∀ (ns : List Named),
    (∀ n ∈ ns, ∀ it ∈ n.items, Meant it) →
    evalNamed E lang values ns = evalNamedPieces E lang values (ns.map namedPieces)
  | [], _ => rfl
  | n :: ns, h => by
    have ih := evalNamed_pieces E lang values ns fun x hx => h x (by simp [hx])
    funext name st
    simp only [evalNamed, List.map_cons, evalNamedPieces, ih]
    rw [evalItems_pieces E lang values name _ n.items (h n (by simp))]
    rfl

/-- All items are as the parser makes them. -/
def AllMeant (d : Doc) : Prop := (∀ it ∈ d.main, Meant it) ∧ ∀ n ∈ d.named, ∀ it ∈ n.items, Meant it

theorem composition_named (d : Doc) : d.composition.named.getD [] = d.named.map namedPieces := by
  obtain ⟨m, g⟩ := d
  cases g <;> rfl

/-- The meaning of what a pattern string stands for. -/
theorem eval_pieces (E : FmtEnv D F) (lang : Str) (values : AMap Str (PValue D F)) {d : Doc} (h : AllMeant d) (st : Store) :
    d.eval E lang values st = evalPieces E lang values mainName
      (evalNamedPieces E lang values (d.composition.named.getD []).reverse) d.composition.main st := by
  rw [composition_named]
  unfold Doc.eval
  rw [evalItems_pieces E lang values mainName _ _ h.1, evalNamed_pieces E lang values _ (fun n hn => h.2 n (by simpa using hn)),
    List.map_reverse]
  rfl

/-! Acceptance. -/

theorem itemOk_piece (E : FmtEnv D F) (known : List Str) {it : Item} (h : Meant it) :
    ItemOk E known it ↔ AcceptedPiece E known it.piece := by
  cases it with
  | text t => exact Iff.rfl
  | number l => exact Iff.rfl
  | pat id kw =>
    cases kw with
    | none => exact Iff.rfl
    | some kw =>
      obtain ⟨k, sels⟩ := kw
      simp [ItemOk, AcceptedPiece, Item.piece, pairs]
  | cmd parts =>
    obtain ⟨n, ps, rfl⟩ := h parts rfl
    match ps with
    | [] => exact Iff.rfl
    | .ident l :: ps => simp [ItemOk, AcceptedPiece, Item.piece, Function.comp_def]
    | .hash l :: ps => simp [ItemOk, AcceptedPiece, Item.piece]

theorem groupOk_pieces (E : FmtEnv D F) : ∀ (ns : List Named) (known : List Str), (∀ n ∈ ns, ∀ it ∈ n.items, Meant it) →
    (GroupOk E known ns ↔ AcceptedNamed E known (ns.map namedPieces))
  | [], _, _ => Iff.rfl
  | n :: ns, known, h => by
    have ih := groupOk_pieces E ns (known ++ [n.name]) fun x hx => h x (by simp [hx])
    have e : (∀ it ∈ n.items, ItemOk E known it) ↔ ∀ p ∈ (namedPieces n).2, AcceptedPiece E known p := by
      constructor
      · intro k p hp
        obtain ⟨it, hit, rfl⟩ := List.mem_map.1 hp
        exact (itemOk_piece E known (h n (by simp) it hit)).1 (k it hit)
      · intro k it hit
        exact (itemOk_piece E known (h n (by simp) it hit)).2 (k _ (List.mem_map.2 ⟨it, hit, rfl⟩))
    simp only [GroupOk, List.map_cons, AcceptedNamed]
    rw [e, ih]
    rfl

/-- Whether a pattern string is accepted depends on what it stands for. -/
theorem docOk_pieces (E : FmtEnv D F) {d : Doc} (h : AllMeant d) :
    DocOk E d ↔ AcceptedNamed E [mainName] (d.composition.named.getD []) ∧
      ∀ p ∈ d.composition.main, AcceptedPiece E (mainName :: (d.composition.named.getD []).map Prod.fst) p := by
  rw [composition_named]
  unfold DocOk
  rw [groupOk_pieces E _ _ h.2]
  have e : (d.named.map namedPieces).map Prod.fst = d.named.map Named.name := by
    rw [List.map_map]
    rfl
  rw [e]
  refine and_congr Iff.rfl ⟨?_, ?_⟩
  · intro k p hp
    obtain ⟨it, hit, rfl⟩ := List.mem_map.1 hp
    exact (itemOk_piece E _ (h.1 it hit)).1 (k it hit)
  · intro k it hit
    exact (itemOk_piece E _ (h.1 it hit)).2 (k _ (List.mem_map.2 ⟨it, hit, rfl⟩))

/-! Items that are read are as the parser makes them. -/

theorem pattern_meant {n : Nat} {item : Item} {w : List Token} (h : Pattern n item w) : Meant item := by
  intro parts hp
  cases h with
  | simple => cases hp
  | keyword => cases hp
  | @command o x parts' body c ho hx hb hne he hc =>
    obtain rfl : parts' = parts := by simpa using hp
    clear he hp
    induction hb with
    | nil => exact absurd rfl hne
    | blank h h1 ih => exact ih hne
    | @ident parts ts t h h1 ih =>
      cases parts with
      | nil => exact ⟨_, _, rfl⟩
      | cons a l =>
        obtain ⟨m, ps, e⟩ := ih (by simp)
        exact ⟨m, ps ++ [.ident ⟨n + 2 + ts.length, t⟩], by rw [e]; rfl⟩
    | hash h h1 ih => exact ⟨_, _, rfl⟩

theorem content_meant {sub : Bool} {n : Nat} {items : List Item} {ts : List Token} (h : Content sub n items ts) :
    ∀ it ∈ items, Meant it := by
  have push : ∀ {items : List Item} {l : Leaf}, (∀ it ∈ items, Meant it) → ∀ it ∈ pushText items l, Meant it := by
    intro items l h it hit
    rcases mem_pushText hit with hit | ⟨_, rfl, _⟩
    · exact h it hit
    · intro parts hp
      cases hp
  induction h with
  | nil => simp
  | plain h h1 ih => exact push ih
  | escaped h h1 ih => exact push ih
  | number h h0 h1 h2 ih =>
    intro it hit
    rcases List.mem_append.1 hit with hit | hit
    · exact ih it hit
    · obtain rfl := List.mem_singleton.1 hit
      intro parts hp
      cases hp
  | pattern h h1 ih =>
    intro it hit
    rcases List.mem_append.1 hit with hit | hit
    · exact ih it hit
    · obtain rfl := List.mem_singleton.1 hit
      exact pattern_meant h1

theorem group_meant {n : Nat} {ns : List Named} {ts : List Token} (h : Group n ns ts) :
    ∀ x ∈ ns, ∀ it ∈ x.items, Meant it := by
  induction h with
  | nil => simp
  | blank h h1 ih => exact ih
  | named h h1 h2 h3 h4 h5 h6 h7 ih =>
    intro x hx
    rcases List.mem_append.1 hx with hx | hx
    · exact ih x hx
    · obtain rfl := List.mem_singleton.1 hx
      exact content_meant h6

theorem reads_meant {E : FmtEnv D F} {s : Str} {d : Doc} (hd : Reads E s d) : AllMeant d := by
  obtain ⟨ts, _, hsen, _⟩ := hd
  cases hsen with
  | plain h => exact ⟨content_meant h, by simp [Doc.named]⟩
  | group h h1 h2 => exact ⟨content_meant h, group_meant h2⟩

/-- Two readings that stand for the same have the same meaning. -/
theorem eval_same (E : FmtEnv D F) {d d' : Doc} (h : AllMeant d) (h' : AllMeant d') (he : d.composition = d'.composition)
    (lang : Str) (values : AMap Str (PValue D F)) (st : Store) : d.eval E lang values st = d'.eval E lang values st := by
  rw [eval_pieces E lang values h, eval_pieces E lang values h', he]

theorem docOk_same (E : FmtEnv D F) {d d' : Doc} (h : AllMeant d) (h' : AllMeant d') (he : d.composition = d'.composition) :
    DocOk E d ↔ DocOk E d' := by
  rw [docOk_pieces E h, docOk_pieces E h', he]

end Verif.FormatLemmas
