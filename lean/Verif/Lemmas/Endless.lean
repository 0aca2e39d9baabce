import Verif.Spec.Endless
import Verif.Lemmas.Blame
/-
When the meaning of a pattern string has no result.
-/
namespace Verif.FormatLemmas
open Verif Verif.Spec
open Verif.BlameLemmas (shows_of)

variable {D F : Type}

theorem category_not_main (c : PluralCategory) : categoryName c ≠ mainName := by
  cases c <;> decide

theorem kind_none {x y : Option (Outcome Unit Str)} (h : SameKind x y) : x = none ↔ y = none := by
  match x, y, h with
  | none, none, _ => simp
  | some (.ok _), some (.ok _), _ => simp
  | some (.err _), some (.err _), _ => simp
  | some .panic, some .panic, _ => simp

theorem plural_none {X : Icu4x D F} {lang : Str} {rules : Except FormatterError (D → PluralCategory)} {number : Option D}
    {keys : List Str} {sub : Str → Store → Res} (hs : ∀ name st st', SameKind (sub name st).1 (sub name st').1) (st : Store) :
    (evalPlural X lang rules number keys sub st).1 = none ↔
      ∃ r n f, rules = .ok r ∧ number = some n ∧ X.decimal lang none = .ok f ∧ categoryName (r n) ∈ keys ∧
        (sub (categoryName (r n)) Store.empty).1 = none := by
  unfold evalPlural
  match rules, number, X.decimal lang none with
  | .ok r, some n, .ok f =>
    simp only
    by_cases hk : categoryName (r n) ∈ keys
    · rw [if_pos hk, kind_none (hs _ _ Store.empty)]
      constructor
      · exact fun h => ⟨r, n, f, rfl, rfl, rfl, hk, h⟩
      · rintro ⟨_, _, _, e1, e2, _, _, h⟩; cases e1; cases e2; exact h
    · rw [if_neg hk]
      refine ⟨fun h => (nomatch h), ?_⟩
      rintro ⟨_, _, _, e1, e2, _, h, _⟩; cases e1; cases e2; exact absurd h hk
  | .error _, _, _ => exact ⟨fun h => (nomatch h), fun ⟨_, _, _, h, _⟩ => (nomatch h)⟩
  | .ok _, none, _ => exact ⟨fun h => (nomatch h), fun ⟨_, _, _, _, h, _⟩ => (nomatch h)⟩
  | .ok _, some _, .error _ => exact ⟨fun h => (nomatch h), fun ⟨_, _, _, _, _, h, _⟩ => (nomatch h)⟩

theorem select_none {text : Option Str} {keys : List Str} {sub : Str → Store → Res}
    (hs : ∀ name st st', SameKind (sub name st).1 (sub name st').1) (st : Store) :
    (evalSelect text keys sub st).1 = none ↔
      ∃ s, text = some s ∧ s ∈ keys ∧ (s = mainName ∨ (sub s Store.empty).1 = none) := by
  unfold evalSelect
  cases text with
  | none => exact ⟨fun h => (nomatch h), fun ⟨_, h, _⟩ => (nomatch h)⟩
  | some s =>
    simp only
    by_cases hk : s ∈ keys
    · rw [if_pos hk]
      by_cases hm : s = mainName
      · rw [if_pos hm]
        exact ⟨fun _ => ⟨s, rfl, hk, .inl hm⟩, fun _ => rfl⟩
      · rw [if_neg hm, kind_none (hs _ _ Store.empty)]
        constructor
        · exact fun h => ⟨s, rfl, hk, .inr h⟩
        · rintro ⟨_, e, _, h⟩
          cases e
          exact h.resolve_left hm
    · rw [if_neg hk]
      refine ⟨fun h => (nomatch h), ?_⟩
      rintro ⟨_, e, h, _⟩; cases e; exact absurd h hk

/-- An item has no result exactly if it shows the main string or a string without result. -/
theorem item_none {E : FmtEnv D F} {lang : Str} {values : AMap Str (PValue D F)} {self : Str} {sub : Str → Store → Res}
    (hs : ∀ name st st', SameKind (sub name st).1 (sub name st').1) {it : Item} {names : List Str}
    (hok : ItemOk E (mainName :: names) it) (st : Store) :
    (evalItem E lang values self sub it st).1 = none ↔
      ∃ name, Picks E lang values it name ∧ (name = mainName ∨ (sub name Store.empty).1 = none) := by
  have no : ∀ {it : Item} {x : Res}, x.1 ≠ none → (∀ name, ¬ Picks E lang values it name) →
      (x.1 = none ↔ ∃ name, Picks E lang values it name ∧ (name = mainName ∨ (sub name Store.empty).1 = none)) :=
    fun h1 h2 => ⟨fun h => absurd h h1, fun ⟨n, h, _⟩ => absurd h (h2 n)⟩
  match it, hok with
  | .text _, _ => exact no (by simp [evalItem]) (fun _ h => nomatch h)
  | .number _, _ => exact no (by simp [evalItem]) (fun _ h => nomatch h)
  | .pat id none, _ =>
    refine no ?_ (fun _ h => nomatch h)
    simp only [evalItem]
    split <;> simp
  | .cmd parts, _ =>
    refine no ?_ (fun _ h => nomatch h)
    simp only [evalItem]
    split <;> simp
  | .pat id (some (k, sels)), hok =>
    simp only [evalItem]
    cases hv : values.get id.str with
    | none =>
      refine no (by simp) (fun _ h => ?_)
      cases h with
      | count _ _ _ v r n f _ h => rw [hv] at h; cases h
      | choice _ _ _ v s _ h => rw [hv] at h; cases h
    | some v =>
      simp only
      have hkw := ItemOk.keyword hok
      by_cases h1 : k.str = "decimal".toList
      · rw [if_pos h1]
        refine no (by simp) (fun _ h => ?_)
        cases h with
        | count _ _ _ _ _ _ _ h => rcases h with h | h <;> rw [h1] at h <;> exact absurd h (by decide)
        | choice _ _ _ _ _ h => rw [h1] at h; exact absurd h (by decide)
      · rw [if_neg h1]
        by_cases h2 : k.str = "date_time".toList
        · rw [if_pos h2]
          refine no (by simp) (fun _ h => ?_)
          cases h with
          | count _ _ _ _ _ _ _ h => rcases h with h | h <;> rw [h2] at h <;> exact absurd h (by decide)
          | choice _ _ _ _ _ h => rw [h2] at h; exact absurd h (by decide)
        · rw [if_neg h2]
          by_cases h3 : k.str = "ordinal".toList
          · rw [if_pos h3, plural_none hs]
            constructor
            · rintro ⟨r, n, f, e1, e2, e3, e4, e5⟩
              refine ⟨_, .count id k sels v r n f (.inl h3) hv ?_ ?_ e3 e4, .inr e5⟩
              · unfold rulesOf; rw [if_pos h3]; exact e1
              · unfold countOf; rw [if_pos h3]; exact e2
            · rintro ⟨name, hp, hn⟩
              cases hp with
              | count _ _ _ v' r n f _ g1 g2 g3 g4 g5 =>
                rw [hv] at g1; cases g1
                unfold rulesOf at g2; rw [if_pos h3] at g2
                unfold countOf at g3; rw [if_pos h3] at g3
                exact ⟨r, n, f, g2, g3, g4, g5, hn.resolve_left (category_not_main _)⟩
              | choice _ _ _ _ _ h => rw [h3] at h; exact absurd h (by decide)
          · rw [if_neg h3]
            by_cases h4 : k.str = "plural".toList
            · rw [if_pos h4, plural_none hs]
              constructor
              · rintro ⟨r, n, f, e1, e2, e3, e4, e5⟩
                refine ⟨_, .count id k sels v r n f (.inr h4) hv ?_ ?_ e3 e4, .inr e5⟩
                · unfold rulesOf; rw [if_neg h3]; exact e1
                · unfold countOf; rw [if_neg h3]; exact e2
              · rintro ⟨name, hp, hn⟩
                cases hp with
                | count _ _ _ v' r n f _ g1 g2 g3 g4 g5 =>
                  rw [hv] at g1; cases g1
                  unfold rulesOf at g2; rw [if_neg h3] at g2
                  unfold countOf at g3; rw [if_neg h3] at g3
                  exact ⟨r, n, f, g2, g3, g4, g5, hn.resolve_left (category_not_main _)⟩
                | choice _ _ _ _ _ h => rw [h4] at h; exact absurd h (by decide)
            · rw [if_neg h4, select_none hs]
              have h5 : k.str = "select".toList := by
                rcases hkw with h | h | h | h
                · exact absurd h.1 h1
                · exact absurd h.1 h2
                · exact absurd h.1 (by rintro (h | h); exact h3 h; exact h4 h)
                · exact h.1
              constructor
              · rintro ⟨s, e1, e2, e3⟩
                exact ⟨s, .choice id k sels v s h5 hv e1 e2, e3⟩
              · rintro ⟨name, hp, hn⟩
                cases hp with
                | count _ _ _ _ _ _ _ h => exact absurd h (by rintro (h | h); exact h3 h; exact h4 h)
                | choice _ _ _ v' s _ g1 g2 g3 =>
                  rw [hv] at g1; cases g1
                  exact ⟨name, g2, g3, hn⟩

theorem items_none {E : FmtEnv D F} {lang : Str} {values : AMap Str (PValue D F)} {self : Str} {before : List Named}
    (items : List Item) : ∀ st, (evalItems E lang values self (evalNamed E lang values before) items st).1 = none ↔
      ∃ front it back, items = front ++ it :: back ∧ (∀ x ∈ front, HasText E lang values before self x) ∧
        (evalItem E lang values self (evalNamed E lang values before) it Store.empty).1 = none := by
  have hk := evalItem_kind E lang values self _ (evalNamed_kind E lang values before)
  induction items with
  | nil => exact fun st => ⟨fun h => (nomatch h), fun ⟨f, _, _, h, _⟩ => by cases f <;> cases h⟩
  | cons it items ih =>
    intro st
    rw [evalItems]
    cases hy : evalItem E lang values self (evalNamed E lang values before) it st with
    | mk y1 y2 =>
    have hk0 := hk it st Store.empty
    rw [hy] at hk0
    match y1, hy, hk0 with
    | none, hy, hk0 =>
      simp only [true_iff]
      exact ⟨[], it, items, rfl, (by simp), (kind_none hk0).1 rfl⟩
    | some (.ok s), hy, hk0 =>
      have hit := shows_of hy
      have e : ∀ z : Res, (match z with
          | (some (.ok s'), st) => (some (.ok (s ++ s')), st)
          | r => r : Res).1 = none ↔ z.1 = none := by
        intro z
        match z with
        | (none, _) => simp
        | (some (.ok _), _) => simp
        | (some (.err _), _) => simp
        | (some .panic, _) => simp
      simp only
      refine Iff.trans (e _) ?_
      rw [ih y2]
      constructor
      · rintro ⟨front, x, back, rfl, hf, hx⟩
        exact ⟨it :: front, x, back, rfl, by simpa using ⟨hit, hf⟩, hx⟩
      · rintro ⟨front, x, back, he, hf, hx⟩
        match front, he with
        | [], he =>
          cases he
          have := (kind_none hk0).2 hx
          cases this
        | a :: front, he =>
          cases he
          exact ⟨front, x, back, rfl, fun x hx => hf x (by simp [hx]), hx⟩
    | some (.err _), hy, hk0 =>
      refine ⟨fun h => (nomatch h), ?_⟩
      rintro ⟨front, x, back, he, hf, hx⟩
      match front, he with
      | [], he =>
        cases he
        have := (kind_none hk0).2 hx
        cases this
      | a :: front, he =>
        cases he
        obtain ⟨_, _, h⟩ := hf it (by simp) st
        rw [hy] at h
        cases h
    | some .panic, hy, hk0 =>
      refine ⟨fun h => (nomatch h), ?_⟩
      rintro ⟨front, x, back, he, hf, hx⟩
      match front, he with
      | [], he =>
        cases he
        have := (kind_none hk0).2 hx
        cases this
      | a :: front, he =>
        cases he
        obtain ⟨_, _, h⟩ := hf it (by simp) st
        rw [hy] at h
        cases h

theorem ordered_tail {E : FmtEnv D F} {later : List Named} {n : Named} {earlier : List Named}
    (h : Ordered E (later ++ n :: earlier)) : Ordered E (n :: earlier) := by
  induction later with
  | nil => exact h
  | cons m later ih => cases h with | cons _ _ h => exact ih h

theorem evalNamed_found {E : FmtEnv D F} {lang : Str} {values : AMap Str (PValue D F)} {later : List Named} {n : Named}
    {earlier : List Named} (h : Ordered E (later ++ n :: earlier)) :
    evalNamed E lang values (later ++ n :: earlier) n.name =
      evalItems E lang values n.name (evalNamed E lang values earlier) n.items := by
  induction later with
  | nil => funext st; simp [evalNamed]
  | cons m later ih =>
    cases h with
    | cons h1 _ h =>
      funext st
      have : m.name ≠ n.name := fun e => h1 (by simp [e])
      simp only [List.cons_append, evalNamed, if_neg this, ih h]

theorem evalNamed_missing {E : FmtEnv D F} {lang : Str} {values : AMap Str (PValue D F)} {L : List Named} {name : Str}
    (h : ∀ n ∈ L, n.name ≠ name) (st : Store) : evalNamed E lang values L name st = (some (.err ()), st) := by
  induction L with
  | nil => rfl
  | cons n L ih => simp only [evalNamed, if_neg (h n (by simp))]; exact ih fun m hm => h m (by simp [hm])

/-- The meaning has no result exactly if the string never ends. -/
theorem endless_iff {E : FmtEnv D F} {lang : Str} {values : AMap Str (PValue D F)} (k : Nat) :
    ∀ {before : List Named} {self : Str} {items : List Item}, before.length ≤ k → Ordered E before →
    AllOk E (mainName :: before.map Named.name) items → ∀ st,
    ((evalItems E lang values self (evalNamed E lang values before) items st).1 = none ↔
      Endless E lang values before self items) := by
  induction k with
  | zero => ?_
  | succ k ih => ?_
  all_goals
    intro before self items hlen ho hok st
    rw [items_none]
    constructor
    · rintro ⟨front, it, back, rfl, hf, hn⟩
      obtain ⟨name, hp, hm⟩ := (item_none (evalNamed_kind E lang values before) (hok it (by simp)) _).1 hn
      rcases hm with rfl | hm
      · exact .here before self front it back hf hp
      · by_cases hb : ∃ n ∈ before, n.name = name
        · obtain ⟨n, hnb, rfl⟩ := hb
          obtain ⟨later, earlier, rfl⟩ := List.append_of_mem hnb
          first
          | (simp at hlen; done)
          | (rw [evalNamed_found ho] at hm
             cases ordered_tail ho with
             | cons _ hok' ho' =>
               refine .inside _ self front it back n later earlier hf hp rfl ((ih ?_ ho' hok' _).1 hm)
               simp at hlen
               omega)
        · rw [evalNamed_missing (fun n hn e => hb ⟨n, hn, e⟩)] at hm
          cases hm
    · intro h
      cases h with
      | here _ _ front it back hf hp =>
        exact ⟨front, it, back, rfl, hf,
          (item_none (evalNamed_kind E lang values before) (hok it (by simp)) _).2 ⟨_, hp, .inl rfl⟩⟩
      | inside _ _ front it back n later earlier hf hp hb h =>
        subst hb
        refine ⟨front, it, back, rfl, hf,
          (item_none (evalNamed_kind E lang values _) (hok it (by simp)) _).2 ⟨_, hp, .inr ?_⟩⟩
        first
        | (simp at hlen; done)
        | (rw [evalNamed_found ho]
           cases ordered_tail ho with
           | cons _ hok' ho' =>
             refine (ih ?_ ho' hok' _).2 h
             simp at hlen
             omega)

theorem doc_endless_iff {E : FmtEnv D F} {lang : Str} {values : AMap Str (PValue D F)} {d : Doc} (h : DocOk E d) (st : Store) :
    (d.eval E lang values st).1 = none ↔ Endless E lang values d.named.reverse mainName d.main :=
  endless_iff _ (Nat.le_refl _) (ordered_doc h) (docOk_main h) st

end Verif.FormatLemmas
