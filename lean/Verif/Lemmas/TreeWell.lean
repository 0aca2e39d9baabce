import Verif.Lemmas.TreeComplete
import Verif.Spec.WellFormed
/-
The arena of a tree is well formed.
-/
namespace Verif.TreeLemmas
open Verif Verif.Spec Verif.Spec.Rose

/-- Leaves have tokens and no children, other nodes have no tokens; the root type does not occur. -/
inductive Typed : Rose → Prop
  | leaf {ty toks} : ty.allowTokens = true → ty.allowChildren = false → Typed (.node ty toks [])
  | node {ty kids} : ty.allowChildren = true → ty.allowTokens = false → ty ≠ .root → (∀ k ∈ kids, Typed k) →
      Typed (.node ty [] kids)

mutual
/-- Token indices in preorder. -/
def toksOf : Rose → List Nat
  | .node _ toks kids => toks ++ toksOfs kids
def toksOfs : List Rose → List Nat
  | [] => []
  | r :: rs => toksOf r ++ toksOfs rs
end

theorem size_pos (r : Rose) : 0 < r.size := by cases r; simp only [size]; omega

theorem offsets_ge {rs : List Rose} {k x : Nat} (h : x ∈ offsets k rs) : k ≤ x := by
  induction rs generalizing k with
  | nil => simp [offsets] at h
  | cons r rs ih =>
    simp only [offsets, List.mem_cons] at h
    rcases h with rfl | h
    · exact Nat.le_refl _
    · have := ih h; omega

theorem offsets_nodup (rs : List Rose) (k : Nat) : (offsets k rs).Nodup := by
  induction rs generalizing k with
  | nil => simp [offsets]
  | cons r rs ih =>
    simp only [offsets, List.nodup_cons]
    refine ⟨?_, ih _⟩
    intro h
    have := offsets_ge h
    have := size_pos r
    omega

theorem count_offsets {rs : List Rose} {k x : Nat} (h : x ∈ offsets k rs) : (offsets k rs).count x = 1 :=
  (offsets_nodup rs k).count.trans (if_pos h)

theorem flattens_length (par off : Nat) (rs : List Rose) : (flattens par off rs).length = sizes rs := by
  induction rs generalizing off with
  | nil => rfl
  | cons r rs ih => simp only [flattens, sizes, List.length_append, flatten_length, ih]

/-- Node `n` at position `i` of storage starting at `off` has its parent at a smaller position of the same storage. -/
def HasParent (L : List Node) (off i : Nat) (n : Node) : Prop :=
  ∃ j pn c, j < i ∧ n.parent = some (off + j) ∧ L[j]? = some pn ∧ pn.children = some c ∧ c.count (off + i) = 1

theorem HasParent.append {L off i n} (R : List Node) (h : HasParent L off i n) : HasParent (L ++ R) off i n := by
  obtain ⟨j, pn, c, h1, h2, h3, h4⟩ := h
  exact ⟨j, pn, c, h1, h2, by rw [List.getElem?_append_left (List.getElem?_eq_some_iff.1 h3).1]; exact h3, h4⟩

theorem HasParent.prepend {L off i n} (R : List Node) (h : HasParent L (off + R.length) i n) :
    HasParent (R ++ L) off (R.length + i) n := by
  obtain ⟨j, pn, c, h1, h2, h3, h4, h5⟩ := h
  refine ⟨R.length + j, pn, c, by omega, by rw [h2]; congr 1; omega, ?_, h4, ?_⟩
  · rw [List.getElem?_append_right (by omega)]; simpa using h3
  · rw [← h5]; congr 1; omega

mutual
theorem parent_flatten {par : Option Nat} {off : Nat} : ∀ {r : Rose}, Typed r → ∀ {i n},
    (flatten par off r)[i]? = some n → i = 0 ∧ n.parent = par ∨ 0 < i ∧ HasParent (flatten par off r) off i n
  | .node ty toks kids, hr, i, n, h => by
    cases i with
    | zero =>
      left
      simp only [flatten_eq, List.getElem?_cons_zero, Option.some.injEq] at h
      subst h; exact ⟨rfl, rfl⟩
    | succ i =>
      right
      refine ⟨by omega, ?_⟩
      simp only [flatten_eq, List.getElem?_cons_succ] at h
      rw [flatten_eq]
      cases hr with
      | leaf => simp [flattens] at h
      | node hc ht hroot hk =>
        rcases parent_flattens hk h with ⟨h1, h2⟩ | h1
        · refine ⟨0, _, offsets (off + 1) kids, by omega, by rw [h1]; rfl, List.getElem?_cons_zero, by simp [head, hc], ?_⟩
          rw [show off + (i + 1) = off + 1 + i from by omega]
          exact count_offsets h2
        · have := HasParent.prepend [head par ty [] (offsets (off + 1) kids)] h1
          rw [show i + 1 = [head par ty [] (offsets (off + 1) kids)].length + i from by simp; omega]
          exact this
theorem parent_flattens {par off : Nat} : ∀ {rs : List Rose}, (∀ r ∈ rs, Typed r) → ∀ {i n},
    (flattens par off rs)[i]? = some n →
      n.parent = some par ∧ off + i ∈ offsets off rs ∨ HasParent (flattens par off rs) off i n
  | [], _, i, n, h => by simp [flattens] at h
  | r :: rs, hr, i, n, h => by
    simp only [flattens] at h ⊢
    by_cases hi : i < (flatten (some par) off r).length
    · rw [List.getElem?_append_left hi] at h
      rcases parent_flatten (hr r (by simp)) h with ⟨h1, h2⟩ | ⟨_, h1⟩
      · left; subst h1; exact ⟨h2, by simp [offsets]⟩
      · right; exact h1.append _
    · rw [List.getElem?_append_right (by omega)] at h
      have hl : (flatten (some par) off r).length = r.size := flatten_length _ _ _
      rcases parent_flattens (fun r h => hr r (by simp [h])) h with ⟨h1, h2⟩ | h1
      · left
        refine ⟨h1, ?_⟩
        simp only [offsets, List.mem_cons]
        right
        rw [hl] at h2 hi
        rwa [show off + r.size + (i - r.size) = off + i from by omega] at h2
      · right
        rw [← hl] at h1
        have := h1.prepend (flatten (some par) off r)
        rw [show (flatten (some par) off r).length + (i - (flatten (some par) off r).length) = i from by omega] at this
        rw [← hl]
        exact this
end

/-- Children listed at position `j` point back. -/
def Lists (L : List Node) (off j : Nat) (n : Node) : Prop :=
  ∀ c, n.children = some c → ∀ x ∈ c, ∃ i m, x = off + i ∧ L[i]? = some m ∧ m.parent = some (off + j)

theorem Lists.append {L off i n} (R : List Node) (h : Lists L off i n) : Lists (L ++ R) off i n := by
  intro c hc x hx
  obtain ⟨i, m, h1, h2, h3⟩ := h c hc x hx
  exact ⟨i, m, h1, by rw [List.getElem?_append_left (List.getElem?_eq_some_iff.1 h2).1]; exact h2, h3⟩

theorem Lists.prepend {L off i n} (R : List Node) (h : Lists L (off + R.length) i n) :
    Lists (R ++ L) off (R.length + i) n := by
  intro c hc x hx
  obtain ⟨j, m, h1, h2, h3⟩ := h c hc x hx
  refine ⟨R.length + j, m, by omega, ?_, by rw [h3]; congr 1; omega⟩
  rw [List.getElem?_append_right (by omega)]; simpa using h2

theorem root_flattens {par off : Nat} {rs : List Rose} {x : Nat} (h : x ∈ offsets off rs) :
    ∃ i m, x = off + i ∧ (flattens par off rs)[i]? = some m ∧ m.parent = some par := by
  induction rs generalizing off with
  | nil => simp [offsets] at h
  | cons r rs ih =>
    simp only [offsets, List.mem_cons] at h
    rcases h with rfl | h
    · obtain ⟨ty, toks, kids⟩ := r
      refine ⟨0, head (some par) ty toks (offsets (x + 1) kids), rfl, ?_, rfl⟩
      simp [flattens, flatten_eq]
    · obtain ⟨i, m, h1, h2, h3⟩ := ih h
      refine ⟨r.size + i, m, by omega, ?_, h3⟩
      simp only [flattens]
      rw [List.getElem?_append_right (by rw [flatten_length]; omega), flatten_length]
      simpa using h2

mutual
theorem lists_flatten {par : Option Nat} {off : Nat} : ∀ {r : Rose} {i n},
    (flatten par off r)[i]? = some n → Lists (flatten par off r) off i n
  | .node ty toks kids, i, n, h => by
    cases i with
    | zero =>
      simp only [flatten_eq, List.getElem?_cons_zero, Option.some.injEq] at h
      subst h
      intro c hc x hx
      have : c = offsets (off + 1) kids := by
        simp only [head] at hc
        split at hc
        · cases hc; rfl
        · cases hc
      subst this
      obtain ⟨i, m, h1, h2, h3⟩ := root_flattens (par := off) hx
      refine ⟨i + 1, m, by omega, ?_, h3⟩
      simpa [flatten_eq] using h2
    | succ i =>
      simp only [flatten_eq, List.getElem?_cons_succ] at h
      rw [flatten_eq]
      have := Lists.prepend [head par ty toks (offsets (off + 1) kids)] (lists_flattens h)
      rw [show i + 1 = [head par ty toks (offsets (off + 1) kids)].length + i from by simp; omega]
      exact this
theorem lists_flattens {par off : Nat} : ∀ {rs : List Rose} {i n},
    (flattens par off rs)[i]? = some n → Lists (flattens par off rs) off i n
  | [], i, n, h => by simp [flattens] at h
  | r :: rs, i, n, h => by
    simp only [flattens] at h ⊢
    have hl : (flatten (some par) off r).length = r.size := flatten_length _ _ _
    by_cases hi : i < (flatten (some par) off r).length
    · rw [List.getElem?_append_left hi] at h
      exact (lists_flatten h).append _
    · rw [List.getElem?_append_right (by omega)] at h
      have h1 := lists_flattens h
      rw [← hl] at h1
      have := h1.prepend (flatten (some par) off r)
      rw [show (flatten (some par) off r).length + (i - (flatten (some par) off r).length) = i from by omega] at this
      rw [← hl]
      exact this
end

mutual
theorem types_flatten {par : Option Nat} {off : Nat} : ∀ {r : Rose}, Typed r → ∀ n ∈ flatten par off r,
    n.nodeType ≠ .root ∧ n.children.isSome = n.nodeType.allowChildren ∧ n.tokens.isSome = n.nodeType.allowTokens
  | .node ty toks kids, hr, n, h => by
    rw [flatten_eq, List.mem_cons] at h
    rcases h with rfl | h
    · refine ⟨?_, ?_, ?_⟩
      · cases hr with
        | leaf h1 h2 => rintro h; simp only [head] at h; subst h; cases h1
        | node _ _ h => exact h
      · simp only [head]; split <;> simp_all
      · simp only [head]; split <;> simp_all
    · cases hr with
      | leaf => simp [flattens] at h
      | node _ _ _ hk => exact types_flattens hk n h
theorem types_flattens {par off : Nat} : ∀ {rs : List Rose}, (∀ r ∈ rs, Typed r) → ∀ n ∈ flattens par off rs,
    n.nodeType ≠ .root ∧ n.children.isSome = n.nodeType.allowChildren ∧ n.tokens.isSome = n.nodeType.allowTokens
  | [], _, n, h => by simp [flattens] at h
  | r :: rs, hr, n, h => by
    simp only [flattens, List.mem_append] at h
    rcases h with h | h
    · exact types_flatten (hr r (by simp)) n h
    · exact types_flattens (fun r h => hr r (by simp [h])) n h
end

mutual
theorem toks_flatten {par : Option Nat} {off : Nat} : ∀ {r : Rose}, Typed r →
    (flatten par off r).flatMap (fun n => n.tokens.getD []) = toksOf r
  | .node ty toks kids, hr => by
    rw [flatten_eq, List.flatMap_cons, toksOf]
    cases hr with
    | leaf h1 h2 => simp [head, h1, flattens, toksOfs]
    | node h1 h2 _ hk => simp [head, h2, toks_flattens hk]
theorem toks_flattens {par off : Nat} : ∀ {rs : List Rose}, (∀ r ∈ rs, Typed r) →
    (flattens par off rs).flatMap (fun n => n.tokens.getD []) = toksOfs rs
  | [], _ => rfl
  | r :: rs, hr => by
    simp only [flattens, List.flatMap_append, toksOfs]
    rw [toks_flatten (hr r (by simp)), toks_flattens (fun r h => hr r (by simp [h]))]
end

/-! ### Trees of pattern strings -/

theorem typed_leaf {ty : NodeType} (l : Leaf) (h1 : ty.allowTokens = true) (h2 : ty.allowChildren = false) :
    Typed (leafRose ty l) := .leaf h1 h2

theorem typed_item (it : Item) : Typed it.rose := by
  cases it with
  | text toks => exact .leaf rfl rfl
  | number l => exact .leaf rfl rfl
  | pat id kw =>
    cases kw with
    | none =>
      refine .node rfl rfl (by simp) ?_
      intro k hk
      rw [List.mem_singleton.1 hk]; exact .leaf rfl rfl
    | some ks =>
      obtain ⟨k, sels⟩ := ks
      refine .node rfl rfl (by simp) ?_
      intro r hr
      simp only [List.mem_cons, List.mem_map] at hr
      rcases hr with rfl | rfl | ⟨x, _, rfl⟩
      · exact .leaf rfl rfl
      · exact .leaf rfl rfl
      · refine .node rfl rfl (by simp) ?_
        intro r hr
        simp only [List.mem_cons, List.not_mem_nil, or_false] at hr
        rcases hr with rfl | rfl <;> exact .leaf rfl rfl
  | cmd parts =>
    refine .node rfl rfl (by simp) ?_
    intro r hr
    simp only [List.mem_map] at hr
    obtain ⟨p, _, rfl⟩ := hr
    cases p <;> exact .leaf rfl rfl

theorem typed_str (items : List Item) : Typed (strRose items) := by
  refine .node rfl rfl (by simp) ?_
  intro r hr
  simp only [List.mem_map] at hr
  obtain ⟨p, _, rfl⟩ := hr
  exact typed_item p

theorem typed_named (n : Named) : Typed n.rose := by
  refine .node rfl rfl (by simp) ?_
  intro r hr
  simp only [List.mem_cons, List.not_mem_nil, or_false] at hr
  rcases hr with rfl | rfl
  · exact .leaf rfl rfl
  · exact typed_str _

theorem typed_group (ns : List Named) : Typed (groupRose ns) := by
  refine .node rfl rfl (by simp) ?_
  intro r hr
  simp only [List.mem_map] at hr
  obtain ⟨p, _, rfl⟩ := hr
  exact typed_named p

/-- Children of the root. -/
def rootKids (d : Doc) : List Rose := strRose d.main :: (match d.group with | none => [] | some ns => [groupRose ns])

theorem typed_rootKids (d : Doc) : ∀ r ∈ rootKids d, Typed r := by
  intro r hr
  unfold rootKids at hr
  cases hg : d.group with
  | none =>
    rw [hg] at hr
    rw [List.mem_singleton.1 hr]; exact typed_str _
  | some ns =>
    rw [hg] at hr
    simp only [List.mem_cons, List.not_mem_nil, or_false] at hr
    rcases hr with rfl | rfl
    · exact typed_str _
    · exact typed_group _

theorem arena_cons (d : Doc) : d.arena = head none .root [] (offsets 1 (rootKids d)) :: flattens 0 1 (rootKids d) := by
  rw [Doc.arena, Doc.rose, flatten_eq]; rfl

/-! ### Token indices -/

theorem toksOfs_append (a b : List Rose) : toksOfs (a ++ b) = toksOfs a ++ toksOfs b := by
  induction a with
  | nil => rfl
  | cons x xs ih => simp [toksOfs, ih]

/-- Strictly increasing indices within `[a, b)`. -/
def Incr (a b : Nat) (l : List Nat) : Prop := l.Pairwise (· < ·) ∧ ∀ x ∈ l, a ≤ x ∧ x < b

theorem Incr.nil (a b : Nat) : Incr a b [] := ⟨.nil, by simp⟩

theorem Incr.mono {a b b' l} (h : Incr a b l) (hb : b ≤ b') : Incr a b' l :=
  ⟨h.1, fun x hx => ⟨(h.2 x hx).1, by have := (h.2 x hx).2; omega⟩⟩

theorem Incr.append {a b c l m} (h1 : Incr a b l) (h2 : Incr b c m) (hab : a ≤ b) (hbc : b ≤ c) : Incr a c (l ++ m) := by
  refine ⟨List.pairwise_append.2 ⟨h1.1, h2.1, ?_⟩, ?_⟩
  · intro x hx y hy
    have := (h1.2 x hx).2
    have := (h2.2 y hy).1
    omega
  · intro x hx
    rcases List.mem_append.1 hx with hx | hx
    · have := h1.2 x hx; omega
    · have := h2.2 x hx; omega

theorem Incr.one {a b x} (h : a ≤ x) (h' : x < b) : Incr a b [x] :=
  ⟨List.pairwise_singleton _ _, by intro y hy; rw [List.mem_singleton.1 hy]; exact ⟨h, h'⟩⟩

theorem toksOf_leaf (ty l) : toksOf (leafRose ty l) = [l.idx] := rfl

theorem toks_pushText (items : List Item) (l : Leaf) :
    toksOfs ((pushText items l).map Item.rose) = toksOfs (items.map Item.rose) ++ [l.idx] := by
  rcases pushText_map items l with ⟨front, toks, rfl, hp⟩ | ⟨_, hp⟩ <;> rw [hp] <;>
    simp [toksOfs_append, toksOfs, Item.rose, toksOf]

theorem incr_kw {n sels ts} (h : KwBody n sels ts) : Incr n (n + ts.length) (toksOfs (sels.map selRose)) := by
  induction h with
  | nil => exact .nil _ _
  | skip _ _ ih => exact ih.mono (by simp)
  | @selector sels ts a hh b _ _ _ _ ih =>
    rw [List.map_append, toksOfs_append]
    refine ih.append (c := n + (ts ++ [a, hh, b]).length) ?_ (by omega) (by simp)
    have e : toksOfs ([(Leaf.mk (n + ts.length) a, Leaf.mk (n + ts.length + 2) b)].map selRose) =
        [n + ts.length] ++ [n + ts.length + 2] := rfl
    rw [e]
    exact (Incr.one (b := n + ts.length + 1) (by omega) (by omega)).append
      (Incr.one (by omega) (by simp; omega)) (by omega) (by simp; omega)

theorem incr_cmd {n parts ts} (h : CmdBody n parts ts) : Incr n (n + ts.length) (toksOfs (parts.map Part.rose)) := by
  induction h with
  | nil => exact .nil _ _
  | blank _ _ ih => exact ih.mono (by simp)
  | @ident parts ts t _ _ ih =>
    rw [List.map_append, toksOfs_append]
    refine ih.append ?_ (by omega) (by simp)
    exact .one (by simp) (by simp)
  | @hash p ts t _ _ ih =>
    have e : toksOfs ([Part.ident p, .hash ⟨n + ts.length, t⟩].map Part.rose) =
      toksOfs ([Part.ident p].map Part.rose) ++ [n + ts.length] := rfl
    rw [e]
    refine ih.append ?_ (by omega) (by simp)
    exact .one (by simp) (by simp)

theorem incr_pattern {n it ts} (h : Pattern n it ts) : Incr n (n + ts.length) (toksOf it.rose) := by
  cases h with
  | @simple o id ws c =>
    exact .one (by simp) (by simp)
  | @keyword o id ws k sels body c _ _ _ _ hb _ =>
    have e : toksOf (Item.rose (.pat ⟨n + 1, id⟩ (some (⟨n + 2 + ws.length, k⟩, sels)))) =
      [n + 1] ++ ([n + 2 + ws.length] ++ toksOfs (sels.map selRose)) := rfl
    rw [e]
    have h1 := incr_kw hb
    refine (Incr.one (b := n + 2) (by omega) (by omega)).append ((Incr.one (b := n + 3 + ws.length) (by omega) (by omega)).append
      (h1.mono ?_) (by omega) ?_) (by omega) ?_ <;> (simp; try omega)
  | @command o h parts body c _ _ hb _ _ _ =>
    have e : toksOf (Item.rose (.cmd parts)) = [] ++ toksOfs (parts.map Part.rose) := rfl
    rw [e]
    refine (Incr.nil n (n + 2)).append ((incr_cmd hb).mono ?_) (by omega) ?_ <;> (simp; try omega)

theorem incr_content {sub n items ts} (h : Content sub n items ts) :
    Incr n (n + ts.length) (toksOfs (items.map Item.rose)) := by
  induction h with
  | nil => exact .nil _ _
  | @plain items ts t _ _ ih =>
    rw [toks_pushText]
    exact ih.append (.one (by simp) (by simp)) (by omega) (by simp)
  | @escaped items ts e t _ _ ih =>
    rw [toks_pushText]
    exact ih.append (.one (by simp) (by simp; omega)) (by omega) (by simp)
  | @number items ts t _ _ _ _ ih =>
    rw [List.map_append, toksOfs_append]
    exact ih.append (.one (by simp) (by simp)) (by omega) (by simp)
  | @pattern items ts item w _ hp ih =>
    rw [List.map_append, toksOfs_append]
    have h1 := incr_pattern hp
    have e : toksOfs ([item].map Item.rose) = toksOf item.rose := by simp [toksOfs]
    rw [e]
    refine ih.append (h1.mono ?_) (by omega) (by simp)
    simp; omega

theorem incr_group {n ns ts} (h : Group n ns ts) : Incr n (n + ts.length) (toksOfs (ns.map Named.rose)) := by
  induction h with
  | nil => exact .nil _ _
  | blank _ _ ih => exact ih.mono (by simp)
  | @named ns ts o id w ws items body c _ _ _ _ _ _ hc _ ih =>
    rw [List.map_append, toksOfs_append]
    have h1 := incr_content hc
    have e : toksOfs ([(⟨⟨n + ts.length + 1, id⟩, items⟩ : Named)].map Named.rose) =
        [n + ts.length + 1] ++ toksOfs (items.map Item.rose) := by
      simp [toksOfs, Named.rose, toksOf, leafRose, strRose]
    rw [e]
    refine ih.append ((Incr.one (b := n + ts.length + 3 + ws.length) (by omega) (by omega)).append (h1.mono ?_) (by omega) ?_)
      (by omega) ?_ <;> (simp; try omega)

theorem incr_sentence {d ts} (h : Sentence d ts) : Incr 0 ts.length (toksOfs (rootKids d)) := by
  cases h with
  | @plain items ts hc =>
    have e : toksOfs (rootKids ⟨items, none⟩) = toksOfs (items.map Item.rose) := by
      simp [rootKids, toksOfs, strRose, toksOf]
    rw [e]
    simpa using incr_content hc
  | @group items ts h named gs hc hg hgs =>
    have e : toksOfs (rootKids ⟨items, some named⟩) = toksOfs (items.map Item.rose) ++ toksOfs (named.map Named.rose) := by
      simp [rootKids, toksOfs, strRose, groupRose, toksOf]
    rw [e]
    have h1 := incr_content hc
    have h2 := incr_group hgs
    refine Incr.append (b := ts.length + 1) ?_ (h2.mono ?_) (by omega) ?_
    · exact h1.mono (by omega)
    · simp; omega
    · simp

theorem allowChildren_iff (ty : NodeType) : ty.allowChildren = true ↔
    ty ∈ [NodeType.root, .string, .namedGroup, .namedString, .selector, .pattern, .command] := by
  cases ty <;> simp [NodeType.allowChildren]

theorem allowTokens_iff (ty : NodeType) : ty.allowTokens = true ↔ ty ∈ [NodeType.text, .numberSign, .identifier] := by
  cases ty <;> simp [NodeType.allowTokens]

theorem wellFormed {ts : List Token} {d : Doc} {g l} (h : Sentence d ts) :
    WellFormed { tokens := ts, hasGrammar := g, lengths := l, nodes := d.arena } := by
  have hT := typed_rootKids d
  have hall : ∀ n ∈ d.arena, n.children.isSome = n.nodeType.allowChildren ∧ n.tokens.isSome = n.nodeType.allowTokens := by
    intro n hn
    rw [arena_cons, List.mem_cons] at hn
    rcases hn with rfl | hn
    · exact ⟨rfl, rfl⟩
    · exact (types_flattens hT n hn).2
  have htoks : (d.arena.flatMap fun n => n.tokens.getD []) = toksOfs (rootKids d) := by
    rw [arena_cons, List.flatMap_cons, toks_flattens hT]
    rfl
  have hincr := incr_sentence h
  refine ⟨⟨_, by rw [arena_cons]; rfl, rfl, rfl⟩, ?_, ?_, ?_, ?_, ?_⟩
  · intro i n hn hi
    simp only [arena_cons] at hn ⊢
    obtain ⟨i, rfl⟩ : ∃ j, i = j + 1 := ⟨i - 1, by omega⟩
    rw [List.getElem?_cons_succ] at hn
    refine ⟨(types_flattens hT n (List.mem_of_getElem? hn)).1, ?_⟩
    rcases parent_flattens hT hn with ⟨h1, h2⟩ | h1
    · refine ⟨0, _, offsets 1 (rootKids d), h1, hi, List.getElem?_cons_zero, rfl, ?_⟩
      rw [show i + 1 = 1 + i from by omega]
      exact count_offsets h2
    · obtain ⟨j, pn, c, h1, h2, h3, h4, h5⟩ := HasParent.prepend
        [head none .root [] (offsets 1 (rootKids d))] (off := 0) h1
      have e : [head none .root [] (offsets 1 (rootKids d))].length + i = i + 1 := by simp; omega
      rw [e] at h1 h5
      simp only [Nat.zero_add] at h2 h5
      exact ⟨j, pn, c, h2, h1, h3, h4, h5⟩
  · intro p pn c hp hc x hx
    obtain ⟨i, m, h1, h2, h3⟩ := lists_flatten (r := d.rose) (par := none) (off := 0) hp c hc x hx
    simp only [Nat.zero_add] at h1 h3
    subst h1
    exact ⟨m, h2, h3⟩
  · intro n hn
    rw [← allowChildren_iff, ← allowTokens_iff, (hall n hn).1, (hall n hn).2]
    exact ⟨Iff.rfl, Iff.rfl⟩
  · intro n hn toks ht k hk
    have : k ∈ toksOfs (rootKids d) := by
      rw [← htoks, List.mem_flatMap]
      exact ⟨n, hn, by rw [ht]; exact hk⟩
    exact (hincr.2 k this).2
  · show (d.arena.flatMap fun n => n.tokens.getD []).Pairwise (· < ·)
    rw [htoks]; exact hincr.1

end Verif.TreeLemmas
