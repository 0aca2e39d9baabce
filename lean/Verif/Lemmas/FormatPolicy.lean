import Verif.Lemmas.Shown
/-
A policy matters only for the items that are reached.
-/
namespace Verif.FormatLemmas
open Verif Verif.Spec

variable {D F : Type}

/-- The policy resolves what the item selects as the categories do. -/
def Follows (Q : Policy) (E : FmtEnv D F) (lang : Str) (values : AMap Str (PValue D F)) (it : Item) : Prop :=
  ∀ id k sels name, it = .pat id (some (k, sels)) → Selects E lang values it name →
    (if k.str = "select".toList then Q.select (pairs sels) name else Q.plural (pairs sels) name) = listed (pairs sels) name

theorem evalPluralP_follows {Q : Policy} {X : Icu4x D F} {lang rules number sels} {sub sub' : Str → Option Str → Store → Res}
    (h : ∀ n category, number = some n → rules = .ok category →
      Q.plural sels (categoryName (category n)) = listed sels (categoryName (category n)))
    (hsub : ∀ n category, number = some n → rules = .ok category → ∀ num st,
      sub (categoryName (category n)) num st = sub' (categoryName (category n)) num st) (st : Store) :
    evalPluralP byCategory X lang rules number sels sub st = evalPluralP Q X lang rules number sels sub' st := by
  unfold evalPluralP
  split
  · next category d format _ =>
    rw [h d category rfl rfl]
    simp only [byCategory]
    cases hl : listed sels (categoryName (category d)) with
    | none => rfl
    | some b =>
      have : b = categoryName (category d) := by
        unfold listed at hl
        split at hl
        · exact (Option.some.inj hl).symm
        · cases hl
      subst this
      exact hsub d category rfl rfl _ _
  · rfl

theorem evalItemP_follows {Q : Policy} {E : FmtEnv D F} {lang : Str} {values : AMap Str (PValue D F)} {known : List Str}
    {self : Str} {num : Option Str} {sub sub' : Str → Option Str → Store → Res} {it : Item} (hok : ItemOk E known it)
    (h : Follows Q E lang values it)
    (hsub : ∀ name, Selects E lang values it name → ∀ num st, sub name num st = sub' name num st) (st : Store) :
    evalItemP byCategory E lang values self num sub it st = evalItemP Q E lang values self num sub' it st := by
  match it, hok, h, hsub with
  | .text _, _, _, _ => rfl
  | .number _, _, _, _ => rfl
  | .pat id none, _, _, _ => rfl
  | .cmd parts, _, _, _ => rfl
  | .pat id (some (k, sels)), hok, h, hsub =>
    have hkey := hok
    simp only [ItemOk] at hkey
    simp only [evalItemP]
    cases hv : values.get id.str with
    | none => rfl
    | some v =>
      simp only
      split
      · rfl
      split
      · rfl
      split
      · next hk =>
        have hns : k.str ≠ "select".toList := by rw [hk]; decide
        refine evalPluralP_follows (fun n c hn hc => ?_) (fun n c hn hc => hsub _ (.ordinal hk hv hn hc)) st
        have := h id k sels _ rfl (.ordinal hk hv hn hc)
        rwa [if_neg hns] at this
      split
      · next hk =>
        have hns : k.str ≠ "select".toList := by rw [hk]; decide
        refine evalPluralP_follows (fun n c hn hc => ?_) (fun n c hn hc => hsub _ (.plural hk hv hn hc)) st
        have := h id k sels _ rfl (.plural hk hv hn hc)
        rwa [if_neg hns] at this
      · next h1 h2 h3 h4 =>
        have hk : k.str = "select".toList := by
          rcases hkey with ⟨hk, _⟩ | ⟨hk, _⟩ | ⟨hk, _⟩
          · rcases hk with hk | hk
            · exact absurd hk h1
            · exact absurd hk h2
          · rcases hk with hk | hk
            · exact absurd hk h3
            · exact absurd hk h4
          · exact hk
        unfold evalSelectP
        cases ht : textOf v with
        | none => rfl
        | some s =>
          have hs := h id k sels s rfl (.select hk hv ht)
          rw [if_pos hk] at hs
          simp only [hs, byCategory]
          cases hl : listed (pairs sels) s with
          | none => rfl
          | some b =>
            have : b = s := by
              unfold listed at hl
              split at hl
              · exact (Option.some.inj hl).symm
              · cases hl
            subst this
            simp only [hsub b (.select hk hv ht)]

theorem evalItemsP_each {P Q : Policy} {E : FmtEnv D F} {lang : Str} {values self num}
    {sub sub' : Str → Option Str → Store → Res} {items : List Item}
    (h : ∀ it ∈ items, ∀ st, evalItemP P E lang values self num sub it st = evalItemP Q E lang values self num sub' it st) :
    ∀ st, evalItemsP P E lang values self num sub items st = evalItemsP Q E lang values self num sub' items st := by
  induction items with
  | nil => intro st; rfl
  | cons it items ih =>
    intro st
    simp only [evalItemsP, h it (by simp), ih fun x hx => h x (by simp [hx])]

theorem evalNamedP_follows {Q : Policy} {E : FmtEnv D F} {lang : Str} {values : AMap Str (PValue D F)} {d : Doc}
    (hd : DocOk E d) (hf : ∀ it, Reached E lang values d it → Follows Q E lang values it) {L : List Named} :
    (∀ n ∈ L, n ∈ d.named) → ∀ name, (∀ n ∈ L, n.name = name → ∀ it ∈ n.items, Reached E lang values d it) →
    ∀ num st, evalNamedP byCategory E lang values L name num st = evalNamedP Q E lang values L name num st := by
  induction L with
  | nil => intro _ name _ num st; rfl
  | cons n before ih =>
    intro hL name hr num st
    have ih := ih fun m hm => hL m (by simp [hm])
    simp only [evalNamedP]
    split
    · next he =>
      refine evalItemsP_each (fun it hit st => ?_) st
      have hit' := hr n (by simp) he it hit
      obtain ⟨known, hok⟩ := reached_ok hd hit'
      exact evalItemP_follows hok (hf it hit') (fun name' hs =>
        ih name' fun m hm hme it' hit'' => .named hit' (hme ▸ hs) (hL m (by simp [hm])) hit'') st
    · exact ih name (fun m hm => hr m (by simp [hm])) num st

/-- A policy that follows the categories in the items that are reached gives the meaning by category. -/
theorem evalP_follows {Q : Policy} {E : FmtEnv D F} {lang : Str} {values : AMap Str (PValue D F)} {d : Doc}
    (hd : DocOk E d) (hf : ∀ it, Reached E lang values d it → Follows Q E lang values it) (st : Store) :
    d.evalP byCategory E lang values st = d.evalP Q E lang values st := by
  unfold Doc.evalP
  refine evalItemsP_each (fun it hit st => ?_) st
  exact evalItemP_follows (hd.2 it hit) (hf it (.main hit)) (fun name hs =>
    evalNamedP_follows hd hf (fun n hn => by simpa using hn) name fun n hn hne it' hit' =>
      .named (.main hit) (hne ▸ hs) (by simpa using hn) hit') st

/-! ### Stored numbers matter only for named strings selected by a text -/

/-- The same numbers for the names in a set. -/
def SameOn (S : Str → Prop) (st st' : Store) : Prop := ∀ x, S x → st x = st' x

/-- The same outcome, and the same numbers for the names in a set. -/
def SameRes (S : Str → Prop) (r r' : Res) : Prop := r.1 = r'.1 ∧ SameOn S r.2 r'.2

theorem SameOn.put {S : Str → Prop} {st st' : Store} (h : SameOn S st st') (name number : Str) :
    SameOn S (st.put name number) (st'.put name number) := by
  intro x hx
  unfold Store.put
  split
  · rfl
  · exact h x hx

theorem listed_some {sels : List (Str × Str)} {c b : Str} (h : listed sels c = some b) : b = c := by
  unfold listed at h
  split at h
  · exact (Option.some.inj h).symm
  · cases h

theorem evalPluralP_same {S : Str → Prop} {X : Icu4x D F} {lang rules number sels} {sub : Str → Option Str → Store → Res}
    (hsub : ∀ n category, number = some n → rules = .ok category → ∀ num st st', SameOn S st st' →
      SameRes S (sub (categoryName (category n)) (some num) st) (sub (categoryName (category n)) (some num) st'))
    {st st' : Store} (h : SameOn S st st') :
    SameRes S (evalPluralP byCategory X lang rules number sels sub st) (evalPluralP byCategory X lang rules number sels sub st') := by
  unfold evalPluralP
  split
  · next category d format _ =>
    simp only [byCategory]
    cases hl : listed sels (categoryName (category d)) with
    | none => exact ⟨rfl, h⟩
    | some b =>
      have := listed_some hl
      subst this
      exact hsub d category rfl rfl _ _ _ (h.put _ _)
  · exact ⟨rfl, h⟩

theorem evalItemP_same {S : Str → Prop} {E : FmtEnv D F} {lang : Str} {values : AMap Str (PValue D F)} {known : List Str}
    {self : Str} {num : Option Str} {sub : Str → Option Str → Store → Res} {it : Item} (hok : ItemOk E known it)
    (hnum : ∀ l, it = .number l → num = none → S self)
    (hsub : ∀ name, Selects E lang values it name → ∀ num st st',
      (num = none → ∃ id k sels, it = .pat id (some (k, sels)) ∧ k.str = "select".toList) → SameOn S st st' →
      SameRes S (sub name num st) (sub name num st')) {st st' : Store} (h : SameOn S st st') :
    SameRes S (evalItemP byCategory E lang values self num sub it st)
      (evalItemP byCategory E lang values self num sub it st') := by
  match it, hok, hnum, hsub with
  | .text _, _, _, _ => exact ⟨rfl, h⟩
  | .number l, _, hnum, _ =>
    refine ⟨?_, h⟩
    cases num with
    | some s => rfl
    | none => simp only [evalItemP, Option.getD, h self (hnum l rfl rfl)]
  | .pat id none, _, _, _ =>
    simp only [evalItemP, evalItem]
    split
    · exact ⟨rfl, h⟩
    · exact ⟨rfl, h⟩
  | .cmd parts, _, _, _ =>
    simp only [evalItemP, evalItem]
    split
    · exact ⟨rfl, h⟩
    · exact ⟨rfl, h⟩
    · exact ⟨rfl, h⟩
  | .pat id (some (k, sels)), hok, _, hsub =>
    have hkey := hok
    simp only [ItemOk] at hkey
    simp only [evalItemP]
    cases hv : values.get id.str with
    | none => exact ⟨rfl, h⟩
    | some v =>
      simp only
      split
      · exact ⟨rfl, h⟩
      split
      · exact ⟨rfl, h⟩
      split
      · next hk =>
        exact evalPluralP_same (fun n c hn hc num st st' => hsub _ (.ordinal hk hv hn hc) _ st st' fun e => nomatch e) h
      split
      · next hk =>
        exact evalPluralP_same (fun n c hn hc num st st' => hsub _ (.plural hk hv hn hc) _ st st' fun e => nomatch e) h
      · next h1 h2 h3 h4 =>
        have hk : k.str = "select".toList := by
          rcases hkey with ⟨hk, _⟩ | ⟨hk, _⟩ | ⟨hk, _⟩
          · rcases hk with hk | hk
            · exact absurd hk h1
            · exact absurd hk h2
          · rcases hk with hk | hk
            · exact absurd hk h3
            · exact absurd hk h4
          · exact hk
        unfold evalSelectP
        cases ht : textOf v with
        | none => exact ⟨rfl, h⟩
        | some s =>
          simp only [byCategory]
          cases hl : listed (pairs sels) s with
          | none => exact ⟨rfl, h⟩
          | some b =>
            have := listed_some hl
            subst this
            simp only
            split
            · exact ⟨rfl, h⟩
            · exact hsub b (.select hk hv ht) none st st' (fun _ => ⟨id, k, sels, rfl, hk⟩) h

theorem evalItemsP_same {S : Str → Prop} {E : FmtEnv D F} {lang : Str} {values self num}
    {sub : Str → Option Str → Store → Res} {items : List Item}
    (h : ∀ it ∈ items, ∀ st st', SameOn S st st' → SameRes S (evalItemP byCategory E lang values self num sub it st)
      (evalItemP byCategory E lang values self num sub it st')) :
    ∀ st st', SameOn S st st' → SameRes S (evalItemsP byCategory E lang values self num sub items st)
      (evalItemsP byCategory E lang values self num sub items st') := by
  induction items with
  | nil => intro st st' hs; exact ⟨rfl, hs⟩
  | cons it items ih =>
    intro st st' hs
    have h1 := h it (by simp) st st' hs
    have ih := ih fun x hx => h x (by simp [hx])
    simp only [evalItemsP]
    generalize evalItemP byCategory E lang values self num sub it st = r at h1 ⊢
    generalize evalItemP byCategory E lang values self num sub it st' = r' at h1 ⊢
    obtain ⟨o, s1⟩ := r
    obtain ⟨o', s1'⟩ := r'
    obtain ⟨e, h1⟩ := h1
    simp only at e h1
    subst e
    match o with
    | none => exact ⟨rfl, h1⟩
    | some (.err e) => exact ⟨rfl, h1⟩
    | some .panic => exact ⟨rfl, h1⟩
    | some (.ok t) =>
      have h2 := ih s1 s1' h1
      simp only
      generalize evalItemsP byCategory E lang values self num sub items s1 = r at h2 ⊢
      generalize evalItemsP byCategory E lang values self num sub items s1' = r' at h2 ⊢
      obtain ⟨o, s2⟩ := r
      obtain ⟨o', s2'⟩ := r'
      obtain ⟨e, h2⟩ := h2
      simp only at e h2
      subst e
      match o with
      | none => exact ⟨rfl, h2⟩
      | some (.err e) => exact ⟨rfl, h2⟩
      | some .panic => exact ⟨rfl, h2⟩
      | some (.ok t') => exact ⟨rfl, h2⟩

theorem evalNamedP_same {E : FmtEnv D F} {lang : Str} {values : AMap Str (PValue D F)} {d : Doc}
    (hd : DocOk E d) {L : List Named} :
    (∀ n ∈ L, n ∈ d.named) → ∀ name, (∀ n ∈ L, n.name = name → ∀ it ∈ n.items, Reached E lang values d it) →
    ∀ num, (num = none → ByText E lang values d name) → ∀ st st', SameOn (ByTextWithNumbers E lang values d) st st' →
    SameRes (ByTextWithNumbers E lang values d) (evalNamedP byCategory E lang values L name num st)
      (evalNamedP byCategory E lang values L name num st') := by
  induction L with
  | nil => intro _ name _ num _ st st' hs; exact ⟨rfl, hs⟩
  | cons n before ih =>
    intro hL name hr num hnum st st' hs
    have ih := ih fun m hm => hL m (by simp [hm])
    simp only [evalNamedP]
    split
    · next he =>
      refine evalItemsP_same (fun it hit st st' hs => ?_) st st' hs
      have hit' := hr n (by simp) he it hit
      obtain ⟨known, hok⟩ := reached_ok hd hit'
      refine evalItemP_same hok (fun l e hn => ⟨hnum hn, n, hL n (by simp), he, l, e ▸ hit⟩) (fun name' hsel num st st' hq hs =>
        ih name' (fun m hm hme it' hit'' => .named hit' (hme ▸ hsel) (hL m (by simp [hm])) hit'') num (fun e => ?_) st st' hs) hs
      obtain ⟨id, k, sels, rfl, hk⟩ := hq e
      exact ⟨id, k, sels, hit', hk, hsel⟩
    · exact ih name (fun m hm => hr m (by simp [hm])) num hnum st st' hs

/-- The outcome depends on the stored numbers only through the named strings with number signs that a text selects. -/
theorem evalP_same {E : FmtEnv D F} {lang : Str} {values : AMap Str (PValue D F)} {d : Doc}
    (hd : DocOk E d) (hn : ∀ l, Item.number l ∉ d.main) {st st' : Store}
    (h : SameOn (ByTextWithNumbers E lang values d) st st') :
    SameRes (ByTextWithNumbers E lang values d) (d.evalP byCategory E lang values st) (d.evalP byCategory E lang values st') := by
  unfold Doc.evalP
  refine evalItemsP_same (fun it hit st st' hs => ?_) st st' h
  refine evalItemP_same (hd.2 it hit) (fun l e => absurd (e ▸ hit) (hn l)) (fun name hsel num st st' hq hs =>
    evalNamedP_same hd (fun n hn => by simpa using hn) name (fun n hn hne it' hit' =>
      .named (.main hit) (hne ▸ hsel) (by simpa using hn) hit') num (fun e => ?_) st st' hs) hs
  obtain ⟨id, k, sels, rfl, hk⟩ := hq e
  exact ⟨id, k, sels, .main hit, hk, hsel⟩

end Verif.FormatLemmas
