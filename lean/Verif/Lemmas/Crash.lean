import Verif.Spec.Crash
import Verif.Lemmas.Endless
import Verif.Lemmas.BlameBuild
/-
When a registered command panics while a pattern string is read or formatted.
-/
namespace Verif.CrashLemmas
open Verif Verif.Spec Verif.FormatLemmas Verif.Spec.Rose
open Verif.BlameLemmas (shows_of)

variable {D F : Type}

theorem bind_panic_iff {ε α β : Type} {x : Outcome ε α} {f : α → Outcome ε β} :
    (x >>= f) = .panic ↔ x = .panic ∨ ∃ a, x = .ok a ∧ f a = .panic := by
  cases x <;> simp [bind, Outcome.bind]

/-! ### Formatting -/

theorem kind_panic {x y : Option (Outcome Unit Str)} (h : SameKind x y) : x = some .panic ↔ y = some .panic := by
  match x, y, h with
  | none, none, _ => simp
  | some (.ok _), some (.ok _), _ => simp
  | some (.err _), some (.err _), _ => simp
  | some .panic, some .panic, _ => simp

theorem runCommand_panic_iff {E : FmtEnv D F} {name : Str} {ps : List (PValue D F)} :
    runCommand E name ps = .panic ↔ ∃ f, E.commands.get name = some f ∧ f ps = .panic := by
  unfold runCommand
  cases hg : AMap.get E.commands name with
  | none => exact ⟨fun h => (nomatch h), fun ⟨_, h, _⟩ => (nomatch h)⟩
  | some f =>
    simp only [forget]
    cases hf : f ps with
    | panic => exact ⟨fun _ => ⟨f, rfl, hf⟩, fun _ => rfl⟩
    | ok s => exact ⟨fun h => (nomatch h), fun ⟨g, h, h'⟩ => by cases h; rw [hf] at h'; cases h'⟩
    | err e => exact ⟨fun h => (nomatch h), fun ⟨g, h, h'⟩ => by cases h; rw [hf] at h'; cases h'⟩

theorem plural_panic {X : Icu4x D F} {lang : Str} {rules : Except FormatterError (D → PluralCategory)} {number : Option D}
    {keys : List Str} {sub : Str → Store → Res} (hs : ∀ name st st', SameKind (sub name st).1 (sub name st').1) (st : Store) :
    (evalPlural X lang rules number keys sub st).1 = some .panic ↔
      ∃ r n f, rules = .ok r ∧ number = some n ∧ X.decimal lang none = .ok f ∧ categoryName (r n) ∈ keys ∧
        (sub (categoryName (r n)) Store.empty).1 = some .panic := by
  unfold evalPlural
  match rules, number, X.decimal lang none with
  | .ok r, some n, .ok f =>
    simp only
    by_cases hk : categoryName (r n) ∈ keys
    · rw [if_pos hk, kind_panic (hs _ _ Store.empty)]
      constructor
      · exact fun h => ⟨r, n, f, rfl, rfl, rfl, hk, h⟩
      · rintro ⟨_, _, _, e1, e2, _, _, h⟩; cases e1; cases e2; exact h
    · rw [if_neg hk]
      refine ⟨fun h => (nomatch h), ?_⟩
      rintro ⟨_, _, _, e1, e2, _, h, _⟩; cases e1; cases e2; exact absurd h hk
  | .error _, _, _ => exact ⟨fun h => (nomatch h), fun ⟨_, _, _, h, _⟩ => (nomatch h)⟩
  | .ok _, none, _ => exact ⟨fun h => (nomatch h), fun ⟨_, _, _, _, h, _⟩ => (nomatch h)⟩
  | .ok _, some _, .error _ => exact ⟨fun h => (nomatch h), fun ⟨_, _, _, _, _, h, _⟩ => (nomatch h)⟩

theorem select_panic {text : Option Str} {keys : List Str} {sub : Str → Store → Res}
    (hs : ∀ name st st', SameKind (sub name st).1 (sub name st').1) (st : Store) :
    (evalSelect text keys sub st).1 = some .panic ↔
      ∃ s, text = some s ∧ s ∈ keys ∧ s ≠ mainName ∧ (sub s Store.empty).1 = some .panic := by
  unfold evalSelect
  cases text with
  | none => exact ⟨fun h => (nomatch h), fun ⟨_, h, _⟩ => (nomatch h)⟩
  | some s =>
    simp only
    by_cases hk : s ∈ keys
    · rw [if_pos hk]
      by_cases hm : s = mainName
      · rw [if_pos hm]
        refine ⟨fun h => (nomatch h), ?_⟩
        rintro ⟨_, e, _, h, _⟩; cases e; exact absurd hm h
      · rw [if_neg hm, kind_panic (hs _ _ Store.empty)]
        constructor
        · exact fun h => ⟨s, rfl, hk, hm, h⟩
        · rintro ⟨_, e, _, _, h⟩
          cases e
          exact h
    · rw [if_neg hk]
      refine ⟨fun h => (nomatch h), ?_⟩
      rintro ⟨_, e, h, _⟩; cases e; exact absurd h hk

/-- An item panics exactly if it is a command that does or shows a string that does. -/
theorem item_panic {E : FmtEnv D F} {lang : Str} {values : AMap Str (PValue D F)} {self : Str} {sub : Str → Store → Res}
    (hs : ∀ name st st', SameKind (sub name st).1 (sub name st').1) {it : Item} {names : List Str}
    (hok : ItemOk E (mainName :: names) it) (st : Store) :
    (evalItem E lang values self sub it st).1 = some .panic ↔
      Bursts E values it ∨ ∃ name, Picks E lang values it name ∧ name ≠ mainName ∧ (sub name Store.empty).1 = some .panic := by
  have no : ∀ {it : Item} {x : Res}, x.1 ≠ some .panic → ¬ Bursts E values it → (∀ name, ¬ Picks E lang values it name) →
      (x.1 = some .panic ↔ Bursts E values it ∨
        ∃ name, Picks E lang values it name ∧ name ≠ mainName ∧ (sub name Store.empty).1 = some .panic) :=
    fun h1 h0 h2 => ⟨fun h => absurd h h1, fun h => by
      rcases h with h | ⟨n, h, _⟩
      · exact absurd h h0
      · exact absurd h (h2 n)⟩
  have hf : ∀ x : Option Str, some (ofOption x) ≠ some .panic := fun x he => ofOption_no_panic x (Option.some.inj he)
  match it, hok with
  | .text _, _ => exact no (by simp [evalItem]) (fun h => nomatch h) (fun _ h => nomatch h)
  | .number _, _ => exact no (by simp [evalItem]) (fun h => nomatch h) (fun _ h => nomatch h)
  | .pat id none, _ =>
    refine no ?_ (fun h => nomatch h) (fun _ h => nomatch h)
    simp only [evalItem]
    split <;> simp
  | .cmd (.ident n :: .hash h :: ps), _ =>
    simp only [evalItem, Option.some.injEq, runCommand_panic_iff]
    constructor
    · rintro ⟨f, h1, h2⟩; exact .inl (.command _ _ _ f h1 h2)
    · rintro (h | ⟨_, h, _⟩)
      · cases h with | command _ _ _ f h1 h2 => exact ⟨f, h1, h2⟩
      · cases h
  | .cmd [.ident n], ⟨s, h⟩ =>
    refine no ?_ (fun h => nomatch h) (fun _ h => nomatch h)
    simp only [evalItem, h]
    simp
  | .cmd (.ident n :: .ident m :: ps), ⟨s, h⟩ =>
    refine no ?_ (fun h => nomatch h) (fun _ h => nomatch h)
    simp only [evalItem, h]
    simp
  | .pat id (some (k, sels)), hok =>
    simp only [evalItem]
    cases hv : values.get id.str with
    | none =>
      refine no (by simp) (fun h => nomatch h) (fun _ h => ?_)
      cases h with
      | count _ _ _ v r n f _ h => rw [hv] at h; cases h
      | choice _ _ _ v s _ h => rw [hv] at h; cases h
    | some v =>
      simp only
      have hkw := ItemOk.keyword hok
      by_cases h1 : k.str = "decimal".toList
      · rw [if_pos h1]
        refine no (hf _) (fun h => nomatch h) (fun _ h => ?_)
        cases h with
        | count _ _ _ _ _ _ _ h => rcases h with h | h <;> rw [h1] at h <;> exact absurd h (by decide)
        | choice _ _ _ _ _ h => rw [h1] at h; exact absurd h (by decide)
      · rw [if_neg h1]
        by_cases h2 : k.str = "date_time".toList
        · rw [if_pos h2]
          refine no (hf _) (fun h => nomatch h) (fun _ h => ?_)
          cases h with
          | count _ _ _ _ _ _ _ h => rcases h with h | h <;> rw [h2] at h <;> exact absurd h (by decide)
          | choice _ _ _ _ _ h => rw [h2] at h; exact absurd h (by decide)
        · rw [if_neg h2]
          by_cases h3 : k.str = "ordinal".toList
          · rw [if_pos h3, plural_panic hs]
            constructor
            · rintro ⟨r, n, f, e1, e2, e3, e4, e5⟩
              refine .inr ⟨_, .count id k sels v r n f (.inl h3) hv ?_ ?_ e3 e4, category_not_main _, e5⟩
              · unfold rulesOf; rw [if_pos h3]; exact e1
              · unfold countOf; rw [if_pos h3]; exact e2
            · rintro (hp | ⟨name, hp, hm, hn⟩)
              · cases hp
              cases hp with
              | count _ _ _ v' r n f _ g1 g2 g3 g4 g5 =>
                rw [hv] at g1; cases g1
                unfold rulesOf at g2; rw [if_pos h3] at g2
                unfold countOf at g3; rw [if_pos h3] at g3
                exact ⟨r, n, f, g2, g3, g4, g5, hn⟩
              | choice _ _ _ _ _ h => rw [h3] at h; exact absurd h (by decide)
          · rw [if_neg h3]
            by_cases h4 : k.str = "plural".toList
            · rw [if_pos h4, plural_panic hs]
              constructor
              · rintro ⟨r, n, f, e1, e2, e3, e4, e5⟩
                refine .inr ⟨_, .count id k sels v r n f (.inr h4) hv ?_ ?_ e3 e4, category_not_main _, e5⟩
                · unfold rulesOf; rw [if_neg h3]; exact e1
                · unfold countOf; rw [if_neg h3]; exact e2
              · rintro (hp | ⟨name, hp, hm, hn⟩)
                · cases hp
                cases hp with
                | count _ _ _ v' r n f _ g1 g2 g3 g4 g5 =>
                  rw [hv] at g1; cases g1
                  unfold rulesOf at g2; rw [if_neg h3] at g2
                  unfold countOf at g3; rw [if_neg h3] at g3
                  exact ⟨r, n, f, g2, g3, g4, g5, hn⟩
                | choice _ _ _ _ _ h => rw [h4] at h; exact absurd h (by decide)
            · rw [if_neg h4, select_panic hs]
              have h5 : k.str = "select".toList := by
                rcases hkw with h | h | h | h
                · exact absurd h.1 h1
                · exact absurd h.1 h2
                · exact absurd h.1 (by rintro (h | h); exact h3 h; exact h4 h)
                · exact h.1
              constructor
              · rintro ⟨s, e1, e2, e3, e4⟩
                exact .inr ⟨s, .choice id k sels v s h5 hv e1 e2, e3, e4⟩
              · rintro (hp | ⟨name, hp, hm, hn⟩)
                · cases hp
                cases hp with
                | count _ _ _ _ _ _ _ h => exact absurd h (by rintro (h | h); exact h3 h; exact h4 h)
                | choice _ _ _ v' s _ g1 g2 g3 =>
                  rw [hv] at g1; cases g1
                  exact ⟨name, g2, g3, hm, hn⟩

theorem items_panic {E : FmtEnv D F} {lang : Str} {values : AMap Str (PValue D F)} {self : Str} {before : List Named}
    (items : List Item) : ∀ st, (evalItems E lang values self (evalNamed E lang values before) items st).1 = some .panic ↔
      ∃ front it back, items = front ++ it :: back ∧ (∀ x ∈ front, HasText E lang values before self x) ∧
        (evalItem E lang values self (evalNamed E lang values before) it Store.empty).1 = some .panic := by
  have hk := evalItem_kind E lang values self _ (evalNamed_kind E lang values before)
  induction items with
  | nil => exact fun st => ⟨fun h => (nomatch h), fun ⟨f, _, _, h, _⟩ => by cases f <;> cases h⟩
  | cons it items ih =>
    intro st
    rw [evalItems]
    cases hy : evalItem E lang values self (evalNamed E lang values before) it st with
    | mk y1 y2 =>
    have hk0 := hk it st Store.empty
    rw [hy] at hk0
    match y1, hy, hk0 with
    | some .panic, hy, hk0 =>
      simp only [true_iff]
      exact ⟨[], it, items, rfl, (by simp), (kind_panic hk0).1 rfl⟩
    | some (.ok s), hy, hk0 =>
      have hit := shows_of hy
      have e : ∀ z : Res, (match z with
          | (some (.ok s'), st) => (some (.ok (s ++ s')), st)
          | r => r : Res).1 = some .panic ↔ z.1 = some .panic := by
        intro z
        match z with
        | (none, _) => simp
        | (some (.ok _), _) => simp
        | (some (.err _), _) => simp
        | (some .panic, _) => simp
      simp only
      refine Iff.trans (e _) ?_
      rw [ih y2]
      constructor
      · rintro ⟨front, x, back, rfl, hf, hx⟩
        exact ⟨it :: front, x, back, rfl, by simpa using ⟨hit, hf⟩, hx⟩
      · rintro ⟨front, x, back, he, hf, hx⟩
        match front, he with
        | [], he =>
          cases he
          have := (kind_panic hk0).2 hx
          cases this
        | a :: front, he =>
          cases he
          exact ⟨front, x, back, rfl, fun x hx => hf x (by simp [hx]), hx⟩
    | some (.err _), hy, hk0 =>
      refine ⟨fun h => (nomatch h), ?_⟩
      rintro ⟨front, x, back, he, hf, hx⟩
      match front, he with
      | [], he =>
        cases he
        have := (kind_panic hk0).2 hx
        cases this
      | a :: front, he =>
        cases he
        obtain ⟨_, _, h⟩ := hf it (by simp) st
        rw [hy] at h
        cases h
    | none, hy, hk0 =>
      refine ⟨fun h => (nomatch h), ?_⟩
      rintro ⟨front, x, back, he, hf, hx⟩
      match front, he with
      | [], he =>
        cases he
        have := (kind_panic hk0).2 hx
        cases this
      | a :: front, he =>
        cases he
        obtain ⟨_, _, h⟩ := hf it (by simp) st
        rw [hy] at h
        cases h

theorem ordered_name {E : FmtEnv D F} {later : List Named} {n : Named} {earlier : List Named}
    (h : Ordered E (later ++ n :: earlier)) : n.name ≠ mainName := by
  cases ordered_tail h with
  | cons h1 _ _ => exact fun e => h1 (by simp [e])

/-- The meaning is a panic exactly if a command panics. -/
theorem crashes_iff {E : FmtEnv D F} {lang : Str} {values : AMap Str (PValue D F)} (k : Nat) :
    ∀ {before : List Named} {self : Str} {items : List Item}, before.length ≤ k → Ordered E before →
    AllOk E (mainName :: before.map Named.name) items → ∀ st,
    ((evalItems E lang values self (evalNamed E lang values before) items st).1 = some .panic ↔
      Crashes E lang values before self items) := by
  induction k with
  | zero => ?_
  | succ k ih => ?_
  all_goals
    intro before self items hlen ho hok st
    rw [items_panic]
    constructor
    · rintro ⟨front, it, back, rfl, hf, hn⟩
      rcases (item_panic (evalNamed_kind E lang values before) (hok it (by simp)) _).1 hn with hp | ⟨name, hp, hne, hm⟩
      · exact .here before self front it back hf hp
      · by_cases hb : ∃ n ∈ before, n.name = name
        · obtain ⟨n, hnb, rfl⟩ := hb
          obtain ⟨later, earlier, rfl⟩ := List.append_of_mem hnb
          first
          | (simp at hlen; done)
          | (rw [evalNamed_found ho] at hm
             cases ordered_tail ho with
             | cons _ hok' ho' =>
               refine .inside _ self front it back n later earlier hf hp rfl ((ih ?_ ho' hok' _).1 hm)
               simp at hlen
               omega)
        · rw [evalNamed_missing (fun n hn e => hb ⟨n, hn, e⟩)] at hm
          cases hm
    · intro h
      cases h with
      | here _ _ front it back hf hp =>
        exact ⟨front, it, back, rfl, hf,
          (item_panic (evalNamed_kind E lang values before) (hok it (by simp)) _).2 (.inl hp)⟩
      | inside _ _ front it back n later earlier hf hp hb h =>
        subst hb
        refine ⟨front, it, back, rfl, hf,
          (item_panic (evalNamed_kind E lang values _) (hok it (by simp)) _).2 (.inr ⟨_, hp, (ordered_name ho), ?_⟩)⟩
        first
        | (simp at hlen; done)
        | (rw [evalNamed_found ho]
           cases ordered_tail ho with
           | cons _ hok' ho' =>
             refine (ih ?_ ho' hok' _).2 h
             simp at hlen
             omega)

theorem doc_crashes_iff {E : FmtEnv D F} {lang : Str} {values : AMap Str (PValue D F)} {d : Doc} (h : DocOk E d) (st : Store) :
    (d.eval E lang values st).1 = some .panic ↔ Crashes E lang values d.named.reverse mainName d.main :=
  crashes_iff _ (Nat.le_refl _) (ordered_doc h) (docOk_main h) st

/-! ### Reading -/

theorem callCommand_panic_iff {E : FmtEnv D F} {name : Str} {ps : List (PValue D F)} :
    callCommand E.commands name ps = .panic ↔ ∃ f, E.commands.get name = some f ∧ f ps = .panic := by
  rw [← runCommand_panic_iff, ← callCommand_forget]
  cases callCommand E.commands name ps <;> simp [forget, Outcome.mapErr]

theorem docPart_panic (E : FmtEnv D F) (lang : Str) {patterns : AMap Str (List PatternPart)} {known : List Str}
    (hk : ∀ name, patterns.contains name = true ↔ name ∈ known) (n : Nat) (selectors : List (AMap Str Str))
    (item : Item) (hs : ∀ parts, item = .cmd parts → CmdShape parts)
    (h : docPart E lang patterns n selectors item = .panic) : ItemCrash E item := by
  match item with
  | .text toks => cases h
  | .number l => cases h
  | .pat id none => cases h
  | .pat id (some (k, sels)) =>
    have h' : docPart { E with commands := [] } lang patterns n selectors (.pat id (some (k, sels))) = .panic := h
    have := docPart_spec { E with commands := [] } lang hk n selectors (.pat id (some (k, sels))) (fun _ h => nomatch h)
    rw [h'] at this
    obtain ⟨_, _, _, _, h, _⟩ := this
    cases h
  | .cmd parts =>
    simp only [docPart] at h
    rcases bind_panic_iff.1 h with h | ⟨_, _, h2⟩
    rotate_left
    · cases h2
    have key : ∀ nm ps, (∀ hh ps', ps ≠ Part.hash hh :: ps') →
        ((do let s ← callCommand E.commands nm.str ((nm.str :: ps.map Part.str).map .string); pure (.text s)) :
          FmtM PatternPart) = .panic → ItemCrash E (.cmd (.ident nm :: ps)) := by
      intro nm ps hps h
      rcases bind_panic_iff.1 h with h | ⟨_, _, h2⟩
      · obtain ⟨f, k1, k2⟩ := callCommand_panic_iff.1 h
        refine .command nm ps f hps k1 ?_
        rw [← k2]
        simp only [List.map_cons, List.map_map, Function.comp_def]
      · cases h2
    match parts, hs parts rfl with
    | .ident nm :: .hash b :: ps, hs => cases h
    | [.ident nm], hs => exact key nm [] (by simp) h
    | .ident nm :: .ident b :: ps, hs => exact key nm (.ident b :: ps) (by simp) h

theorem ItemsCrash.cons {E : FmtEnv D F} {known : List Str} {it : Item} {items : List Item}
    (hok : ItemOk E known it) (h : ItemsCrash E known items) : ItemsCrash E known (it :: items) := by
  obtain ⟨front, it', back, rfl, h1, h2⟩ := h
  refine ⟨it :: front, it', back, rfl, fun x hx => ?_, h2⟩
  rcases List.mem_cons.1 hx with rfl | hx
  · exact hok
  · exact h1 x hx

theorem buildNamed_panic (E : FmtEnv D F) (lang : Str) {patterns : AMap Str (List PatternPart)} {known : List Str}
    (hk : ∀ name, patterns.contains name = true ↔ name ∈ known) {t : Tree} (items : List Item) :
    ∀ (off : Nat) (pattern : List PatternPart) (numbers : List Str) (selectors : List (AMap Str Str)),
    Ats t.nodes off (items.map Item.rose) → (∀ it ∈ items, Resolved t.tokens it) → (∀ it ∈ items, Shaped it) →
    buildNamed E lang patterns t (offsets off (items.map Item.rose)) pattern numbers selectors = .panic →
    ItemsCrash E known items := by
  induction items with
  | nil => intro off pattern numbers selectors _ _ _ h; cases h
  | cons it items ih =>
    intro off pattern numbers selectors hat hr hs h
    obtain ⟨h1, h2⟩ := Ats.cons hat
    simp only [List.map_cons, offsets] at h
    rw [buildNamed_cons E h1 (hr it (by simp)) (hs it (by simp))] at h
    rcases bind_panic_iff.1 h with h | ⟨r, h3, h⟩
    · exact ⟨[], it, items, rfl, by simp, docPart_panic E lang hk _ _ it (hs it (by simp)) h⟩
    · have hp := docPart_spec E lang hk numbers.length selectors it (hs it (by simp))
      rw [h3] at hp
      exact ItemsCrash.cons hp.1 (ih _ _ _ _ h2 (fun it h => hr it (by simp [h])) (fun it h => hs it (by simp [h])) h)

theorem buildMain_panic (E : FmtEnv D F) (lang : Str) {patterns : AMap Str (List PatternPart)} {known : List Str}
    (hk : ∀ name, patterns.contains name = true ↔ name ∈ known) {t : Tree} (items : List Item) :
    ∀ (off : Nat) (pattern : List PatternPart) (selectors : List (AMap Str Str)),
    Ats t.nodes off (items.map Item.rose) → (∀ it ∈ items, Resolved t.tokens it) → (∀ it ∈ items, Shaped it) →
    (∀ l, Item.number l ∉ items) →
    buildMain E lang patterns t (offsets off (items.map Item.rose)) pattern selectors = .panic →
    ItemsCrash E known items := by
  induction items with
  | nil => intro off pattern selectors _ _ _ _ h; cases h
  | cons it items ih =>
    intro off pattern selectors hat hr hs hnum h
    obtain ⟨h1, h2⟩ := Ats.cons hat
    simp only [List.map_cons, offsets] at h
    rw [buildMain_cons E h1 (hr it (by simp)) (hs it (by simp)) (fun l e => hnum l (by simp [e]))] at h
    rcases bind_panic_iff.1 h with h | ⟨r, h3, h⟩
    · exact ⟨[], it, items, rfl, by simp, docPart_panic E lang hk _ _ it (hs it (by simp)) h⟩
    · have hp := docPart_spec E lang hk 0 selectors it (hs it (by simp))
      rw [h3] at hp
      exact ItemsCrash.cons hp.1 (ih _ _ _ h2 (fun it h => hr it (by simp [h])) (fun it h => hs it (by simp [h]))
        (fun l h => hnum l (by simp [h])) h)

theorem buildGroup_panic (E : FmtEnv D F) (lang : Str) {t : Tree} (ns : List Named) :
    ∀ (off : Nat) (patterns : AMap Str (List PatternPart)) (owners : List Str) (selectors : List (AMap Str Str))
      (done : List Named),
    Ats t.nodes off (ns.map Named.rose) →
    (∀ m ∈ ns, Has t.tokens m.id ∧ ∀ it ∈ m.items, Resolved t.tokens it) → (∀ m ∈ ns, ∀ it ∈ m.items, Shaped it) →
    Inv E patterns owners selectors done →
    buildGroup E lang t (offsets off (ns.map Named.rose)) patterns (owners.map Store.empty) selectors = .panic →
    GroupCrash E (mainName :: done.map Named.name) ns := by
  induction ns with
  | nil => intro off patterns owners selectors done _ _ _ _ h; cases h
  | cons n ns ih =>
    intro off patterns owners selectors done hat hr hs hinv h
    obtain ⟨h1, h2⟩ := Ats.cons hat
    obtain ⟨hkid, h3⟩ := (At.node h1).2.cons
    have hstr := h3.cons.1
    have hf : t.first off = .ok (off + 1) := by
      simp [Tree.first, children_eq h1 rfl, offsets]
    have hl : t.last off = .ok (off + 1 + (leafRose .identifier n.id).size) := by
      simp [Tree.last, children_eq h1 rfl, offsets]
    have hft : t.firstToken (off + 1) = .ok n.name := firstToken_eq hkid rfl (hr n (by simp)).1
    simp only [List.map_cons, offsets, buildGroup, hf, hl, hft, Outcome.bind_ok, children_eq hstr rfl] at h
    by_cases hc : patterns.contains n.name = true
    · rw [if_pos hc] at h
      cases h
    · have hn : n.name ∉ mainName :: done.map Named.name := fun h => hc ((hinv.keys n.name).2 h)
      rw [if_neg hc] at h
      rcases bind_panic_iff.1 h with h | ⟨r, h4, h⟩
      · exact .items _ n ns hn (buildNamed_panic E lang hinv.keys n.items _ _ _ _ (At.node hstr).2 (hr n (by simp)).2
          (hs n (by simp)) h)
      · have hb := buildNamed_spec E lang hinv.keys n.name n.items _ [] owners (owners.map Store.empty) selectors
          (At.node hstr).2 (hr n (by simp)).2 (hs n (by simp)) (by simp)
        rw [h4] at hb
        obtain ⟨pat', num', sel'⟩ := r
        obtain ⟨hall, parts, k, extra, hpat, rfl, rfl, hz, hns⟩ := hb
        rw [List.nil_append] at hpat
        subst hpat
        dsimp only at h
        rw [replicate_nil_map k n.name, ← List.map_append] at h
        have := ih _ (patterns.insert n.name pat') (owners ++ List.replicate k n.name)
          (selectors ++ extra) (done ++ [n]) h2 (fun m hm => hr m (by simp [hm])) (fun m hm => hs m (by simp [hm]))
          (by simpa using hinv.step n hn _ k extra hz hns) h
        have hmap : mainName :: (done ++ [n]).map Named.name = (mainName :: done.map Named.name) ++ [n.name] := by simp
        rw [hmap] at this
        exact .later _ n ns hn hall this

/-- Panics of building a formatter from the tree of a pattern string. -/
theorem ofTree_panic (E : FmtEnv D F) (tag lang : Str) {d : Doc} {t : Tree} (hd : Sentence d t.tokens)
    (hn : t.nodes = d.arena) (h : Formatter.ofTree E tag (some lang) t = .panic) :
    t.hasGrammar = true ∧ DocCrash E d := by
  obtain ⟨hr1, hr2⟩ := sentence_resolved hd
  obtain ⟨hs1, hs2, hs3⟩ := sentence_shaped hd
  unfold Formatter.ofTree at h
  by_cases hg : t.hasGrammar = true
  rotate_left
  · rw [if_pos hg] at h; cases h
  refine ⟨hg, ?_⟩
  have hroot : At t.nodes 0 d.rose := ⟨none, [], [], by simp [hn, Doc.arena], rfl⟩
  have hty : t.nodeType 0 = .ok .root := nodeType_eq hroot
  have hch := children_eq hroot rfl
  have hkids := (At.node hroot).2
  simp only [hg, not_true_eq_false, if_false, Outcome.unwrap_some, Outcome.bind_ok, hty, ne_eq, hch, offsets,
    List.head?_cons] at h
  obtain ⟨hmain, hrest⟩ := hkids.cons
  have hmc := children_eq hmain rfl
  simp only [hmc] at h
  have key : ∀ x : FmtM (AMap Str (List PatternPart) × List Str × List (AMap Str Str)),
      (x = .panic → GroupCrash E [mainName] d.named) →
      (∀ pat' num' sel', x = .ok (pat', num', sel') → GroupOk E [mainName] d.named ∧ ∃ owners', Inv E pat' owners' sel' d.named) →
      ((do
        let r ← x
        let children ← (Outcome.ok (offsets (0 + 1 + 1) (d.main.map Item.rose)) : FmtM (List Nat))
        let p ← buildMain E lang r.1 t children [] r.2.2
        pure ({ languageTag := tag, icuLanguage := lang, patterns := r.1.insert mainName p.1, numbers := r.2.1,
                selectors := p.2 } : Formatter) : FmtM Formatter) = .panic) → DocCrash E d := by
    intro x hx1 hx2 h
    rcases bind_panic_iff.1 h with h | ⟨r, h1, h⟩
    · exact .inl (hx1 h)
    · obtain ⟨pat', num', sel'⟩ := r
      obtain ⟨hgok, owners, hinv⟩ := hx2 _ _ _ h1
      simp only [Outcome.bind_ok] at h
      rcases bind_panic_iff.1 h with h | ⟨_, _, h⟩
      · exact .inr ⟨hgok, buildMain_panic E lang hinv.keys d.main _ _ _ (At.node hmain).2 hr1 hs1 hs3 h⟩
      · cases h
  cases hdg : d.group with
  | none =>
    have hnamed : d.named = [] := by simp [Doc.named, hdg]
    rw [hdg] at h
    refine key (.ok ([(mainName, [])], [], [])) (fun h => (nomatch h)) (fun _ _ _ h => ?_) h
    cases h
    rw [hnamed]
    exact ⟨trivial, [], inv_init E⟩
  | some ns =>
    have hnamed : d.named = ns := by simp [Doc.named, hdg]
    rw [hdg] at hrest h
    obtain ⟨hgr, _⟩ := hrest.cons
    have hA : ∀ m ∈ ns, Has t.tokens m.id ∧ ∀ it ∈ m.items, Resolved t.tokens it := by simpa [hnamed] using hr2
    have hB : ∀ m ∈ ns, ∀ it ∈ m.items, Shaped it := by simpa [hnamed] using hs2
    have h1 := buildGroup_spec E lang ns _ [(mainName, [])] [] [] [] (At.node hgr).2 hA hB (inv_init E)
    have h2 := buildGroup_panic E lang ns _ [(mainName, [])] [] [] [] (At.node hgr).2 hA hB (inv_init E)
    simp only [offsets, children_eq hgr rfl, Outcome.bind_ok] at h
    refine key _ (fun h => ?_) (fun _ _ _ h => ?_) h
    · rw [hnamed]; exact h2 h
    · rw [hnamed]
      simp only [List.map_nil] at h1
      rw [h] at h1
      obtain ⟨h3, owners', _, h5⟩ := h1
      exact ⟨h3, owners', by simpa using h5⟩

/-! ### What excludes what -/

theorem runCommand_of {E : FmtEnv D F} {name : Str} {f} {ps : List (PValue D F)} (h : E.commands.get name = some f) :
    runCommand E name ps = forget (f ps) := by
  unfold runCommand
  rw [show AMap.get E.commands name = some f from h]

theorem ItemCrash.notOk {E : FmtEnv D F} {known : List Str} {it : Item} (h : ItemCrash E it) : ¬ ItemOk E known it := by
  cases h with
  | command n ps f hps h1 h2 =>
    match ps, hps, h2 with
    | [], _, h2 => rintro ⟨s, h⟩; rw [runCommand_of h1, h2] at h; cases h
    | .ident _ :: _, _, h2 => rintro ⟨s, h⟩; rw [runCommand_of h1, h2] at h; cases h
    | .hash _ :: _, hps, _ => exact absurd rfl (hps _ _)

theorem ItemCrash.noError {E : FmtEnv D F} {known : List Str} {it : Item} {e : FormatterError} (h : ItemCrash E it) :
    ¬ ItemError E known it e := by
  cases h with
  | command n ps f hps h1 h2 =>
    intro h
    cases h with
    | noCommand _ _ _ h => rw [h1] at h; cases h
    | command _ _ g c _ h h' => rw [h1] at h; cases h; rw [h2] at h'; cases h'

theorem ItemError.notOk {E : FmtEnv D F} {known : List Str} {it : Item} {e : FormatterError} (h : ItemError E known it e) :
    ¬ ItemOk E known it := by
  intro hok
  cases h with
  | decimal id k sels key hk hkey =>
    rcases hok with ⟨_, rfl⟩ | ⟨h, _⟩ | ⟨h, _⟩
    · cases hkey
    · rw [hk] at h; revert h; decide
    · rw [hk] at h; revert h; decide
  | dateTime id k sels key hk hkey =>
    rcases hok with ⟨_, rfl⟩ | ⟨h, _⟩ | ⟨h, _⟩
    · cases hkey
    · rw [hk] at h; revert h; decide
    · rw [hk] at h; revert h; decide
  | category id k sels key hc hkey hn =>
    rcases hok with ⟨_, rfl⟩ | ⟨_, h, _⟩ | ⟨h, _⟩
    · cases hkey
    · exact hn (h key hkey).1
    · rcases hc with hc | hc <;> rw [hc] at h <;> revert h <;> decide
  | unknown id k sels key _ hkey hn _ =>
    rcases hok with ⟨_, rfl⟩ | ⟨_, h, _⟩ | ⟨_, h⟩
    · cases hkey
    · exact hn (h key hkey).2
    · exact hn (h key hkey)
  | other id k sels hc _ hn =>
    rcases hok with ⟨h, _⟩ | ⟨_, _, h⟩ | ⟨h, _⟩
    · rcases hc with hc | hc <;> rw [hc] at h <;> revert h <;> decide
    · exact hn h
    · rcases hc with hc | hc <;> rw [hc] at h <;> revert h <;> decide
  | keyword id k sels hn =>
    apply hn
    rcases hok with ⟨h | h, _⟩ | ⟨h | h, _⟩ | ⟨h, _⟩ <;> rw [h] <;> decide
  | noCommand n ps hps h1 =>
    have hr : ∀ l : List (PValue D F), runCommand E n.str l = .err () := by
      intro l
      unfold runCommand
      rw [show AMap.get E.commands n.str = none from h1]
    match ps, hps, hok with
    | [], _, ⟨s, h⟩ => rw [hr] at h; cases h
    | .ident _ :: _, _, ⟨s, h⟩ => rw [hr] at h; cases h
    | .hash _ :: _, hps, _ => exact absurd rfl (hps _ _)
  | command n ps f c hps h1 h2 =>
    match ps, hps, h2, hok with
    | [], _, h2, ⟨s, h⟩ => rw [runCommand_of h1, h2] at h; cases h
    | .ident _ :: _, _, h2, ⟨s, h⟩ => rw [runCommand_of h1, h2] at h; cases h
    | .hash _ :: _, hps, _, _ => exact absurd rfl (hps _ _)

/-- The first element that is not so is one element. -/
theorem first_unique {α : Type} {P : α → Prop} (l : List α) : ∀ {f f' : List α} {x x' : α} {b b' : List α},
    l = f ++ x :: b → l = f' ++ x' :: b' → (∀ y ∈ f, P y) → (∀ y ∈ f', P y) → ¬ P x → ¬ P x' → x = x' := by
  induction l with
  | nil => intro f _ _ _ _ _ h; cases f <;> cases h
  | cons a l ih =>
    intro f f' x x' b b' h h' hf hf' hx hx'
    cases f with
    | nil =>
      obtain ⟨rfl, rfl⟩ := List.cons.inj h
      cases f' with
      | nil => exact (List.cons.inj h').1
      | cons y f' =>
        obtain ⟨rfl, _⟩ := List.cons.inj h'
        exact absurd (hf' a (by simp)) hx
    | cons y f =>
      obtain ⟨rfl, h0⟩ := List.cons.inj h
      cases f' with
      | nil =>
        obtain ⟨rfl, _⟩ := List.cons.inj h'
        exact absurd (hf a (by simp)) hx'
      | cons z f' =>
        obtain ⟨rfl, h0'⟩ := List.cons.inj h'
        exact ih h0 h0' (fun y hy => hf y (by simp [hy])) (fun y hy => hf' y (by simp [hy])) hx hx'

theorem ItemsCrash.notOk {E : FmtEnv D F} {known : List Str} {items : List Item} (h : ItemsCrash E known items) :
    ¬ ∀ it ∈ items, ItemOk E known it := by
  obtain ⟨f, it, b, rfl, _, h⟩ := h
  exact fun ho => ItemCrash.notOk h (ho it (by simp))

theorem ItemsError.notOk {E : FmtEnv D F} {known : List Str} {items : List Item} {e : FormatterError}
    (h : ItemsError E known items e) : ¬ ∀ it ∈ items, ItemOk E known it := by
  obtain ⟨f, it, b, rfl, _, h⟩ := h
  exact fun ho => ItemError.notOk h (ho it (by simp))

theorem ItemsCrash.noError {E : FmtEnv D F} {known : List Str} {items : List Item} {e : FormatterError}
    (h : ItemsCrash E known items) : ¬ ItemsError E known items e := by
  obtain ⟨f, it, b, rfl, h1, h⟩ := h
  rintro ⟨f', it', b', he, h1', h'⟩
  have := first_unique _ rfl he h1 h1' (ItemCrash.notOk h) (ItemError.notOk h')
  subst this
  exact ItemCrash.noError h h'

theorem GroupCrash.notOk {E : FmtEnv D F} {known : List Str} {ns : List Named} (h : GroupCrash E known ns) :
    ¬ GroupOk E known ns := by
  induction h with
  | items known n rest _ h => exact fun ho => ItemsCrash.notOk h ho.2.1
  | later known n rest _ _ _ ih => exact fun ho => ih ho.2.2

theorem GroupError.notOk {E : FmtEnv D F} {known : List Str} {ns : List Named} {e : FormatterError}
    (h : GroupError E known ns e) : ¬ GroupOk E known ns := by
  induction h with
  | twice known n rest h => exact fun ho => ho.1 h
  | items known n rest e _ h => exact fun ho => ItemsError.notOk h ho.2.1
  | later known n rest e _ _ _ ih => exact fun ho => ih ho.2.2

theorem GroupCrash.noError {E : FmtEnv D F} {known : List Str} {ns : List Named} {e : FormatterError}
    (h : GroupCrash E known ns) : ¬ GroupError E known ns e := by
  induction h with
  | items known n rest hn h =>
    intro h'
    cases h' with
    | twice _ _ _ h' => exact hn h'
    | items _ _ _ _ _ h' => exact ItemsCrash.noError h h'
    | later _ _ _ _ _ h' _ => exact ItemsCrash.notOk h h'
  | later known n rest hn hok _ ih =>
    intro h'
    cases h' with
    | twice _ _ _ h' => exact hn h'
    | items _ _ _ _ _ h' => exact ItemsError.notOk h' hok
    | later _ _ _ _ _ _ h' => exact ih h'

theorem DocCrash.notOk {E : FmtEnv D F} {d : Doc} (h : DocCrash E d) : ¬ DocOk E d := by
  rcases h with h | ⟨_, h⟩
  · exact fun ho => GroupCrash.notOk h ho.1
  · exact fun ho => ItemsCrash.notOk h ho.2

theorem DocError.notOk {E : FmtEnv D F} {d : Doc} {e : FormatterError} (h : DocError E d e) : ¬ DocOk E d := by
  rcases h with h | ⟨_, h⟩
  · exact fun ho => GroupError.notOk h ho.1
  · exact fun ho => ItemsError.notOk h ho.2

theorem DocCrash.noError {E : FmtEnv D F} {d : Doc} {e : FormatterError} (h : DocCrash E d) : ¬ DocError E d e := by
  rcases h with h | ⟨hg, h⟩
  · rintro (h' | ⟨hg', _⟩)
    · exact GroupCrash.noError h h'
    · exact GroupCrash.notOk h hg'
  · rintro (h' | ⟨_, h'⟩)
    · exact GroupError.notOk h' hg
    · exact ItemsCrash.noError h h'

end Verif.CrashLemmas
