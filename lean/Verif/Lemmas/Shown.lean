import Verif.Lemmas.FormatReach
import Verif.Spec.Shown
/-
Helper lemmas: a text results exactly if every item that is reached can be shown.
-/
namespace Verif.FormatLemmas
open Verif Verif.Spec

variable {D F : Type}

theorem categoryName_ne_main (c : PluralCategory) : categoryName c ≠ mainName := by
  cases c <;> decide

/-- The string that an item selects has a text whatever the numbers are. -/
def SubShown (E : FmtEnv D F) (lang : Str) (values : AMap Str (PValue D F)) (sub : Str → Store → Res) (it : Item) : Prop :=
  ∀ name, name ≠ mainName → Selects E lang values it name → (∃ id k sels, it = .pat id (some (k, sels)) ∧
    name ∈ keysOf sels) → ∀ st, ∃ s, (sub name st).1 = some (.ok s)

theorem shown_item {E : FmtEnv D F} {lang : Str} {values : AMap Str (PValue D F)} {known : List Str} {self : Str}
    {sub : Str → Store → Res} {it : Item} (hok : ItemOk E known it) (hs : Shown E lang values it)
    (hsub : SubShown E lang values sub it) (st : Store) : ∃ s, (evalItem E lang values self sub it st).1 = some (.ok s) := by
  obtain ⟨k1, k2, k3, k4, k5, k6, k7, k8, k9, k10⟩ := kw_ne
  cases hs with
  | text toks => exact ⟨_, rfl⟩
  | number l => exact ⟨_, rfl⟩
  | plain id v s hv ht => exact ⟨s, by simp [evalItem, hv, ht]⟩
  | decimal id k sels v s hk hv hd => exact ⟨s, by simp only [evalItem, hv, hk, if_true, hd]⟩
  | dateTime id k sels v s hk hv hd => exact ⟨s, by simp only [evalItem, hv, hk, k1, if_false, if_true, hd]⟩
  | plural id k sels v n category format hk hv hn hc hf hm =>
    obtain ⟨s, h⟩ := hsub _ (categoryName_ne_main _) (.plural hk hv hn hc) ⟨id, k, sels, rfl, hm⟩
      (st.put (categoryName (category n)) (format n))
    refine ⟨s, ?_⟩
    simp only [evalItem, hv, hk, k4, k5, k6, if_false, if_true, hn, hc, evalPlural, hf]
    rw [if_pos hm]
    exact h
  | ordinal id k sels v n category format hk hv hn hc hf hm =>
    obtain ⟨s, h⟩ := hsub _ (categoryName_ne_main _) (.ordinal hk hv hn hc) ⟨id, k, sels, rfl, hm⟩
      (st.put (categoryName (category n)) (format n))
    refine ⟨s, ?_⟩
    simp only [evalItem, hv, hk, k2, k3, if_false, if_true, hn, hc, evalPlural, hf]
    rw [if_pos hm]
    exact h
  | select id k sels v name hk hv ht hm hne =>
    obtain ⟨s, h⟩ := hsub _ hne (.select hk hv ht) ⟨id, k, sels, rfl, hm⟩ st
    refine ⟨s, ?_⟩
    simp only [evalItem, hv, hk, k7, k8, k9, k10, if_false, ht, evalSelect]
    rw [if_pos hm, if_neg hne]
    exact h
  | delayed n l ps s h => exact ⟨s, by simp [evalItem, h]⟩
  | immediate n ps hne =>
    cases ps with
    | nil =>
      obtain ⟨s, h⟩ := hok
      exact ⟨s, by simpa [evalItem] using h⟩
    | cons p ps =>
      cases p with
      | hash l => exact absurd rfl (hne l ps)
      | ident m =>
        obtain ⟨s, h⟩ := hok
        exact ⟨s, by simpa [evalItem] using h⟩

theorem item_shown {E : FmtEnv D F} {lang : Str} {values : AMap Str (PValue D F)} {self : Str} {sub : Str → Store → Res}
    {known : List Str} {it : Item} (hok : ItemOk E known it) {st : Store} {s : Str}
    (h : (evalItem E lang values self sub it st).1 = some (.ok s)) : Shown E lang values it := by
  obtain ⟨k1, k2, k3, k4, k5, k6, k7, k8, k9, k10⟩ := kw_ne
  have hplural : ∀ {rules : Except FormatterError (D → PluralCategory)} {number : Option D} {keys : List Str},
      (evalPlural E.icu4x lang rules number keys sub st).1 = some (.ok s) → ∃ category n format, rules = .ok category ∧
        number = some n ∧ E.icu4x.decimal lang none = .ok format ∧ categoryName (category n) ∈ keys := by
    intro rules number keys h
    unfold evalPlural at h
    split at h
    · next category n format h3 =>
      simp only at h
      split at h
      · next hm => exact ⟨category, n, format, rfl, rfl, h3, hm⟩
      · cases h
    · cases h
  match it with
  | .text toks => exact .text toks
  | .number l => exact .number l
  | .pat id none =>
    simp only [evalItem] at h
    cases hv : values.get id.str with
    | none => rw [hv] at h; cases h
    | some v =>
      cases ht : textOf v with
      | none => simp [hv, ht] at h
      | some s' => exact .plain id v s' hv ht
  | .pat id (some (k, sels)) =>
    simp only [evalItem] at h
    cases hv : values.get id.str with
    | none => rw [hv] at h; cases h
    | some v =>
      simp only [hv] at h
      rcases hok with ⟨hk | hk, _⟩ | ⟨hk | hk, _⟩ | ⟨hk, _⟩
      · simp only [hk, if_true] at h
        exact .decimal id k sels v s hk hv (Option.some.inj h)
      · simp only [hk, k1, if_false, if_true] at h
        exact .dateTime id k sels v s hk hv (Option.some.inj h)
      · simp only [hk, k2, k3, if_false, if_true] at h
        obtain ⟨category, n, format, h1, h2, h3, h4⟩ := hplural h
        exact .ordinal id k sels v n category format hk hv h2 h1 h3 h4
      · simp only [hk, k4, k5, k6, if_false, if_true] at h
        obtain ⟨category, n, format, h1, h2, h3, h4⟩ := hplural h
        exact .plural id k sels v n category format hk hv h2 h1 h3 h4
      · simp only [hk, k7, k8, k9, k10, if_false] at h
        unfold evalSelect at h
        split at h
        · next name ht =>
          split at h
          · next hm =>
            split at h
            · cases h
            · next hne => exact .select id k sels v name hk hv ht hm hne
          · cases h
        · cases h
  | .cmd [] => exact absurd hok (by simp [ItemOk])
  | .cmd (.hash l :: ps) => exact absurd hok (by simp [ItemOk])
  | .cmd (.ident n :: .hash l :: ps) =>
    simp only [evalItem] at h
    exact .delayed n l ps s (Option.some.inj h)
  | .cmd [.ident n] => exact .immediate n [] (fun l ps h => nomatch h)
  | .cmd (.ident n :: .ident m :: ps) => exact .immediate n _ (fun l ps h => nomatch h)

theorem shown_items {E : FmtEnv D F} {lang : Str} {values : AMap Str (PValue D F)} {self : Str} {sub : Str → Store → Res}
    {items : List Item} (h : ∀ it ∈ items, ∀ st, ∃ s, (evalItem E lang values self sub it st).1 = some (.ok s)) :
    ∀ st, ∃ s, (evalItems E lang values self sub items st).1 = some (.ok s) := by
  induction items with
  | nil => intro st; exact ⟨[], rfl⟩
  | cons it items ih =>
    intro st
    obtain ⟨s, h1⟩ := h it (by simp) st
    simp only [evalItems]
    cases hy : evalItem E lang values self sub it st with
    | mk y st' =>
      rw [hy] at h1
      simp only at h1
      subst h1
      obtain ⟨s', h2⟩ := ih (fun it hit => h it (by simp [hit])) st'
      cases hz : evalItems E lang values self sub items st' with
      | mk z st2 =>
        rw [hz] at h2
        simp only at h2
        subst h2
        exact ⟨s ++ s', by simp only [hz]⟩

/-- The names an accepted item lists are known. -/
theorem keys_known {E : FmtEnv D F} {known : List Str} {id k sels} (h : ItemOk E known (.pat id (some (k, sels)))) :
    ∀ name ∈ keysOf sels, name ∈ known := by
  intro name hm
  rcases h with ⟨_, hs⟩ | ⟨_, hall, _⟩ | ⟨_, hall⟩
  · subst hs; cases hm
  · exact (hall name hm).2
  · exact hall name hm

theorem shown_named {E : FmtEnv D F} {lang : Str} {values : AMap Str (PValue D F)} {d : Doc}
    (hs : ∀ it, Reached E lang values d it → Shown E lang values it) : ∀ {L : List Named}, Ordered E L →
    (∀ n ∈ L, n ∈ d.named) → ∀ n ∈ L, (∀ it ∈ n.items, Reached E lang values d it) →
    ∀ st, ∃ s, (evalNamed E lang values L n.name st).1 = some (.ok s) := by
  intro L hL
  induction hL with
  | nil => intro _ n hn; cases hn
  | @cons m before hnew hok hord ih =>
    intro hsub n hn hreach st
    have ih := ih fun n hn => hsub n (by simp [hn])
    simp only [evalNamed]
    rcases List.mem_cons.1 hn with rfl | hn
    · rw [if_pos rfl]
      refine shown_items (fun it hit => ?_) st
      refine shown_item (hok it hit) (hs it (hreach it hit)) ?_
      rintro name hne hsel ⟨id, k, sels, rfl, hm⟩
      have := keys_known (hok _ hit) name hm
      rcases List.mem_cons.1 this with e | hb
      · exact absurd e hne
      · obtain ⟨n', hn', rfl⟩ := List.mem_map.1 hb
        exact ih n' hn' fun it' hit' => .named (hreach _ hit) hsel (hsub n' (by simp [hn'])) hit'
    · have hne : m.name ≠ n.name := fun e => hnew (by simp only [List.mem_cons]; right; rw [e]; exact List.mem_map.2 ⟨n, hn, rfl⟩)
      rw [if_neg hne]
      exact ih n hn hreach st

/-- The items that are reached are accepted. -/
theorem reached_ok {E : FmtEnv D F} {lang : Str} {values : AMap Str (PValue D F)} {d : Doc} (hd : DocOk E d) {it : Item}
    (hr : Reached E lang values d it) : ∃ known, ItemOk E known it := by
  cases hr with
  | main hm => exact ⟨_, hd.2 _ hm⟩
  | @named it n _ _ _ hn hit =>
    have : ∀ {L : List Named}, Ordered E L → n ∈ L → ∃ known, AllOk E known n.items := by
      intro L hL
      induction hL with
      | nil => intro h; cases h
      | cons _ hok _ ih =>
        intro hn
        rcases List.mem_cons.1 hn with rfl | hn
        · exact ⟨_, hok⟩
        · exact ih hn
    obtain ⟨known, h⟩ := this (ordered_doc hd) (by simpa using hn)
    exact ⟨known, h _ hit⟩

theorem eval_ok_iff {E : FmtEnv D F} {lang : Str} {values : AMap Str (PValue D F)} {d : Doc} (hd : DocOk E d) (st : Store) :
    (∃ s, (d.eval E lang values st).1 = some (.ok s)) ↔ ∀ it, Reached E lang values d it → Shown E lang values it := by
  constructor
  · rintro ⟨s, h⟩ it hr
    obtain ⟨known, hok⟩ := reached_ok hd hr
    obtain ⟨L, self, st', s', _, h'⟩ := eval_reached hd h hr
    exact item_shown hok h'
  · intro hs
    refine shown_items (fun it hit => ?_) st
    refine shown_item (docOk_main hd it hit) (hs it (.main hit)) ?_
    rintro name hne hsel ⟨id, k, sels, rfl, hm⟩
    have := keys_known (docOk_main hd _ hit) name hm
    rcases List.mem_cons.1 this with e | hb
    · exact absurd e hne
    · obtain ⟨n', hn', rfl⟩ := List.mem_map.1 hb
      exact shown_named hs (ordered_doc hd) (fun n hn => by simpa using hn) n' hn' fun it' hit' =>
        .named (.main hit) hsel (by simpa using hn') hit'

end Verif.FormatLemmas
