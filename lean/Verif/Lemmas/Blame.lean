import Verif.Spec.Blame
import Verif.Lemmas.FormatMore
/-
The errors of the formatter are those that `Spec.Blame` assigns.
-/
namespace Verif.BlameLemmas
open Verif Verif.Spec Verif.FormatLemmas

variable {D F : Type}

theorem liftE_err {ε α : Type} {x : Except ε α} {e : ε} : liftE x = .err e ↔ x = .error e := by
  cases x <;> simp [liftE]

theorem bind_err {ε α β : Type} {x : Outcome ε α} {f : α → Outcome ε β} {e : ε} :
    (x >>= f) = .err e ↔ x = .err e ∨ ∃ a, x = .ok a ∧ f a = .err e := by
  cases x <;> simp [bind, Outcome.bind]

/-! ### Values -/

theorem toDecimal_err (X : Icu4x D F) (what : Str) (v : PValue D F) :
    (toDecimal X v = none → NumberError X what v (.invalidValue what)) ∧
    (∀ e, toDecimal X v = some (.err e) → NumberError X what v e) ∧ toDecimal X v ≠ some .panic ∧
    ∀ d, toDecimal X v = some (.ok d) → numberOf X v = some d := by
  cases v with
  | float x =>
    cases h : X.ofFloat x with
    | ok d => simp [toDecimal, liftE, numberOf, h, Except.toOption]
    | error e => simpa [toDecimal, liftE, h] using NumberError.float x e h
  | string s => exact ⟨fun _ => .other _ rfl (by simp), by simp [toDecimal], by simp [toDecimal], by simp [toDecimal]⟩
  | taggedString s t => exact ⟨fun _ => .other _ rfl (by simp), by simp [toDecimal], by simp [toDecimal], by simp [toDecimal]⟩
  | localised s t => exact ⟨fun _ => .other _ rfl (by simp), by simp [toDecimal], by simp [toDecimal], by simp [toDecimal]⟩
  | localisationData c i l =>
    exact ⟨fun _ => .other _ rfl (by simp), by simp [toDecimal], by simp [toDecimal], by simp [toDecimal]⟩
  | dateTime s t => exact ⟨fun _ => .other _ rfl (by simp), by simp [toDecimal], by simp [toDecimal], by simp [toDecimal]⟩
  | date s => exact ⟨fun _ => .other _ rfl (by simp), by simp [toDecimal], by simp [toDecimal], by simp [toDecimal]⟩
  | time s => exact ⟨fun _ => .other _ rfl (by simp), by simp [toDecimal], by simp [toDecimal], by simp [toDecimal]⟩
  | _ => simp [toDecimal, numberOf]

theorem toOrdinal_err (X : Icu4x D F) (v : PValue D F) :
    (toOrdinal X v = none → ordinalOf X v = none) ∧
    (∀ d, toOrdinal X v = some d → ∃ n, d = .ok n ∧ ordinalOf X v = some n) := by
  cases v <;> simp [toOrdinal, ordinalOf]

theorem liftIso_err {α : Type} {x : Except IsoError α} {e : FormatterError} :
    liftIso x = .err e ↔ ∃ i, x = .error i ∧ e = isoBlame i := by
  cases x with
  | ok a => simp [liftIso]
  | error i => cases i <;> simp [liftIso, isoError, isoBlame, eq_comm]

theorem liftIso_ok {α : Type} {x : Except IsoError α} {a : α} : liftIso x = .ok a ↔ x = .ok a := by
  cases x <;> simp [liftIso]

theorem liftE_ok' {ε α : Type} {x : Except ε α} {a : α} : liftE x = .ok a ↔ x = .ok a := by
  cases x <;> simp [liftE]

theorem formatDateTime_err (X : Icu4x D F) (lang : Str) (v : PValue D F) (e : FormatterError)
    (h : formatDateTime X lang none none none v = .err e) : MomentError X lang v e := by
  unfold formatDateTime at h
  simp only [Option.getD_none] at h
  have hd : ∀ d t, (liftE (X.dateTime lang .medium .medium) >>= fun f => liftE (f d t)) = .err e →
      ShowError X lang (some d) (some t) e := by
    intro d t h
    rcases bind_err.1 h with h | ⟨f, h1, h2⟩
    · exact .noDateTime _ _ _ (liftE_err.1 h)
    · exact .dateTime _ _ f _ (liftE_ok'.1 h1) (liftE_err.1 h2)
  have hda : ∀ d, (liftE (X.date lang .medium) >>= fun f => liftE (f d)) = .err e → ShowError X lang (some d) none e := by
    intro d h
    rcases bind_err.1 h with h | ⟨f, h1, h2⟩
    · exact .noDate _ _ (liftE_err.1 h)
    · exact .date _ f _ (liftE_ok'.1 h1) (liftE_err.1 h2)
  have ht : ∀ t, (liftE (X.time lang .medium) >>= fun f => (pure (f t) : FmtM Str)) = .err e →
      ShowError X lang none (some t) e := by
    intro t h
    rcases bind_err.1 h with h | ⟨f, h1, h2⟩
    · exact .noTime _ _ (liftE_err.1 h)
    · cases h2
  cases v with
  | dateTime d t => exact .both _ _ _ (hd d t h)
  | date d => exact .date _ _ (hda d h)
  | time t => exact .time _ _ (ht t h)
  | string s =>
    dsimp only at h
    split at h
    · rename_i a b hs
      obtain ⟨h1, h2, h3⟩ := splitOn_two _ _ _ _ hs
      by_cases ha : a = []
      · rw [if_pos ha] at h
        subst ha
        rw [List.length_nil, Nat.zero_add] at h2
        subst h2
        rcases bind_err.1 h with h | ⟨t, k1, k2⟩
        · obtain ⟨i, k1, rfl⟩ := liftIso_err.1 h
          exact .isoTime s i h3 h1.symm k1
        · exact .isoTimeShow s t e h3 h1.symm (liftIso_ok.1 k1) (ht t k2)
      · rw [if_neg ha] at h
        subst h1 h2
        rcases bind_err.1 h with h | ⟨d, k1, k2⟩
        · obtain ⟨i, k1, rfl⟩ := liftIso_err.1 h
          exact .isoDate s i (fun _ => ha) k1
        · rcases bind_err.1 k2 with h | ⟨t, k3, k4⟩
          · obtain ⟨i, k3, rfl⟩ := liftIso_err.1 h
            exact .isoBoth s d i h3 ha (liftIso_ok.1 k1) k3
          · exact .isoBothShow s d t e h3 ha (liftIso_ok.1 k1) (liftIso_ok.1 k3) (hd d t k4)
    · rename_i hs
      have h3 := splitOn_not_two 'T' s hs
      rw [splitOn_head] at h
      rcases bind_err.1 h with h | ⟨d, k1, k2⟩
      · obtain ⟨i, k1, rfl⟩ := liftIso_err.1 h
        exact .isoDate s i (fun h => absurd h h3) k1
      · exact .isoDateShow s d e h3 (liftIso_ok.1 k1) (hda d k2)
  | _ =>
    cases h
    exact .other _ (by simp) (by simp) (by simp) (by simp)

theorem formatDecimal_err (X : Icu4x D F) (lang : Str) (v : PValue D F) (e : FormatterError)
    (h : formatDecimal X lang none none v = .err e) :
    X.decimal lang none = .error e ∨ ∃ f, X.decimal lang none = .ok f ∧ NumberError X "PatternDecimal".toList v e := by
  unfold formatDecimal at h
  rcases bind_err.1 h with h | ⟨f, h1, h2⟩
  · exact .inl (liftE_err.1 h)
  · refine .inr ⟨f, liftE_ok'.1 h1, ?_⟩
    obtain ⟨k1, k2, k3, _⟩ := toDecimal_err X "PatternDecimal".toList v
    cases hd : toDecimal X v with
    | none => rw [hd] at h2; cases h2; exact k1 hd
    | some o =>
      rw [hd] at h2
      cases o with
      | ok d => cases h2
      | panic => cases h2
      | err e' => cases h2; exact k2 _ hd

theorem callCommand_err (E : FmtEnv D F) (name : Str) (ps : List (PValue D F)) (e : FormatterError)
    (h : callCommand E.commands name ps = .err e) :
    (E.commands.get name = none ∧ e = .command (.notFound name)) ∨
    ∃ f c, E.commands.get name = some f ∧ f ps = .err c ∧ e = .command c := by
  unfold callCommand CommandRegistry.command at h
  cases hg : AMap.get E.commands name with
  | none => rw [hg] at h; cases h; exact .inl ⟨rfl, rfl⟩
  | some f =>
    rw [hg] at h
    simp only [Outcome.okOr_some, Outcome.bind_ok] at h
    cases hf : f ps with
    | ok a => rw [hf] at h; cases h
    | panic => rw [hf] at h; cases h
    | err c => rw [hf] at h; cases h; exact .inr ⟨f, c, rfl, hf, rfl⟩

/-! ### Formatting -/

/-- Errors of the strings that an item may show. -/
def SubBlame (owners : List Str) (rec : Str → List Str → FmtRes) (sub : Str → Store → Res) (names : List Str)
    (B : Str → FormatterError → Prop) : Prop :=
  ∀ name ∈ names, ∀ (st : Store) (n' : List Str) e, (sub name st).1 ≠ none → rec name (owners.map st) = (some (.err e), n') →
    B name e

theorem formatPlural_blame {E : FmtEnv D F} {f : Formatter} {owners : List Str} {rec : Str → List Str → FmtRes}
    {sub : Str → Store → Res} {names : List Str} {B : Str → FormatterError → Prop} {b : Bool}
    (hr : Refs E f owners b rec sub names) (hb : SubBlame owners rec sub names B) (values : AMap Str (PValue D F))
    {id k : Leaf} {sels : List (Leaf × Leaf)} {v : PValue D F} (hv : values.get id.str = some v) (hk : Counts k)
    {number : Option (FmtM D)} {what : Str} (hp : number ≠ some .panic)
    (h0 : ∀ r, rulesOf E.icu4x f.icuLanguage k = .ok r → number = none →
      Direct E f.icuLanguage values (.pat id (some (k, sels))) (.invalidValue what))
    (h1 : ∀ r e, rulesOf E.icu4x f.icuLanguage k = .ok r → number = some (.err e) →
      Direct E f.icuLanguage values (.pat id (some (k, sels))) e)
    (h2 : ∀ d, number = some (.ok d) → countOf E.icu4x k v = some d) {i : Nat} {m : AMap Str Str}
    (hi : f.selectors[i]? = some m) (hm : SelRep sels m) (hkeys : ∀ key ∈ keysOf sels, IsCategory key ∧ key ∈ mainName :: names)
    (st : Store) (hne : (evalPlural E.icu4x f.icuLanguage (rulesOf E.icu4x f.icuLanguage k) (countOf E.icu4x k v) (keysOf sels)
      sub st).1 ≠ none) {e : FormatterError} {n' : List Str}
    (h : formatPlural E.icu4x f rec (rulesOf E.icu4x f.icuLanguage k) number what i (owners.map st) = (some (.err e), n')) :
    Direct E f.icuLanguage values (.pat id (some (k, sels))) e ∨
    ∃ name, Picks E f.icuLanguage values (.pat id (some (k, sels))) name ∧ name ∈ names ∧ B name e := by
  unfold formatPlural at h
  cases hrules : rulesOf E.icu4x f.icuLanguage k with
  | error e' => rw [hrules] at h; cases h; exact .inl (.noRules id k sels v _ hk hv hrules)
  | ok r =>
    rw [hrules] at h
    dsimp only at h
    match hnum : number with
    | none => cases h; exact .inl (h0 r hrules rfl)
    | some (.err e') => cases h; exact .inl (h1 r _ hrules rfl)
    | some .panic => exact absurd rfl hp
    | some (.ok d) =>
      have hc := h2 d rfl
      simp only [findNumberSign] at h
      cases hx : E.icu4x.decimal f.icuLanguage none with
      | error e' => rw [hx] at h; cases h; exact .inl (.noDigits id k sels v r d _ hk hv hrules hc hx)
      | ok fdf =>
        simp only [hx, hi, pluralCategory_eq, hm (categoryName (r d))] at h
        by_cases hin : categoryName (r d) ∈ keysOf sels
        · rw [if_pos hin] at h
          obtain ⟨hcat, hkn⟩ := hkeys _ hin
          have hmn : categoryName (r d) ≠ mainName := fun e => mainName_not_category (e ▸ hcat)
          have hin' : categoryName (r d) ∈ names := by
            rcases List.mem_cons.1 hkn with e | h
            · exact absurd e hmn
            · exact h
          obtain ⟨_, parts, hg, hns⟩ := hr.stored _ hin'
          simp only [hg, updateNumbers_put _ _ parts owners st hns] at h
          refine .inr ⟨_, .count id k sels v r d fdf hk hv hrules hc hx hin, hin', ?_⟩
          refine hb _ hin' _ _ _ ?_ h
          unfold evalPlural at hne
          simp only [hrules, hc, hx, if_pos hin] at hne
          exact hne
        · rw [if_neg hin] at h
          cases h
          exact .inl (.category id k sels v r d fdf i hk hv hrules hc hx hin)

theorem formatPart_blame {E : FmtEnv D F} {f : Formatter} {owners : List Str} {rec : Str → List Str → FmtRes}
    {sub : Str → Store → Res} {names : List Str} {B : Str → FormatterError → Prop} {b : Bool}
    (hr : Refs E f owners b rec sub names) (hb : SubBlame owners rec sub names B) (values : AMap Str (PValue D F))
    {self : Str} {it : Item} {p : PatternPart} (hc : CItem E owners f.selectors self it p)
    (hok : ItemOk E (mainName :: names) it) (st : Store)
    (hne : (evalItem E f.icuLanguage values self sub it st).1 ≠ none) {e : FormatterError} {n' : List Str}
    (h : formatPart E f values rec p (owners.map st) = (some (.err e), n')) :
    Direct E f.icuLanguage values it e ∨ ∃ name, Picks E f.icuLanguage values it name ∧ name ∈ names ∧ B name e := by
  cases hc with
  | text toks => cases h
  | number l i ho =>
    simp only [formatPart, List.getElem?_map, ho, Option.map_some] at h
    cases h
  | string id =>
    simp only [formatPart] at h
    cases hv : values.get id.str with
    | none => rw [hv] at h; cases h; exact .inl (.missing id none hv)
    | some v =>
      simp only [hv, toText_eq] at h
      cases ht : textOf v with
      | none => rw [ht] at h; cases h; exact .inl (.noText id v hv ht)
      | some s => rw [ht] at h; cases h
  | decimal id k hk =>
    simp only [formatPart] at h
    cases hv : values.get id.str with
    | none =>
      rw [hv] at h; cases h
      have := Direct.missing (E := E) (lang := f.icuLanguage) id (some (k, [])) hv
      rw [show kindName (some (k, [])) = "PatternDecimal".toList from if_pos hk] at this
      exact .inl this
    | some v =>
      simp only [hv, Prod.mk.injEq, Option.some.injEq] at h
      rcases formatDecimal_err _ _ _ _ h.1 with h | ⟨g, h1, h2⟩
      · exact .inl (.noDecimals id k [] v e hk hv h)
      · exact .inl (.noNumber id k [] v g e hk hv h1 h2)
  | dateTime id k hk =>
    simp only [formatPart] at h
    cases hv : values.get id.str with
    | none =>
      rw [hv] at h; cases h
      have := Direct.missing (E := E) (lang := f.icuLanguage) id (some (k, [])) hv
      have hkd : k.str ≠ "decimal".toList := by rw [hk]; decide
      rw [show kindName (some (k, [])) = "PatternDateTime".toList from (if_neg hkd).trans (if_pos hk)] at this
      exact .inl this
    | some v =>
      simp only [hv, Prod.mk.injEq, Option.some.injEq] at h
      exact .inl (.noMoment id k [] v e hk hv (formatDateTime_err _ _ _ _ h.1))
  | complex id k ss ct i m hk hi hm =>
    simp only [formatPart] at h
    simp only [evalItem] at hne
    cases hv : values.get id.str with
    | none =>
      rw [hv] at h; cases h
      have := Direct.missing (E := E) (lang := f.icuLanguage) id (some (k, ss)) hv
      have hkn : kindName (some (k, ss)) = "PatternComplex".toList := by
        have h1 : k.str ≠ "decimal".toList := by rcases hk with ⟨hk, _⟩ | ⟨hk, _⟩ | ⟨hk, _⟩ <;> rw [hk] <;> decide
        have h2 : k.str ≠ "date_time".toList := by rcases hk with ⟨hk, _⟩ | ⟨hk, _⟩ | ⟨hk, _⟩ <;> rw [hk] <;> decide
        exact (if_neg h1).trans (if_neg h2)
      rw [hkn] at this
      exact .inl this
    | some v =>
      simp only [hv] at h hne
      rcases hk with ⟨hk, rfl⟩ | ⟨hk, rfl⟩ | ⟨hk, rfl⟩
      · have h1 : ¬ ("ordinal".toList = "decimal".toList) := by decide
        have h2 : ¬ ("ordinal".toList = "date_time".toList) := by decide
        have h3 : ¬ ("ordinal".toList = "select".toList) := by decide
        simp only [hk, h1, h2, if_true, if_false] at hne
        simp only [ItemOk, hk, h1, h2, h3, or_self, false_and, false_or, true_or, true_and, or_false] at hok
        have hrr : rulesOf E.icu4x f.icuLanguage k = E.icu4x.ordinal f.icuLanguage := by unfold rulesOf; rw [if_pos hk]
        have hco : countOf E.icu4x k v = ordinalOf E.icu4x v := by unfold countOf; rw [if_pos hk]
        obtain ⟨k1, k2⟩ := toOrdinal_err E.icu4x v
        dsimp only at h
        rw [← hrr] at h hne
        rw [← hco] at hne
        refine formatPlural_blame hr hb values hv (.inl hk) (fun hp => ?_) (fun r hr' hn => ?_) (fun r e' hr' hn => ?_)
          (fun d hn => ?_) hi hm hok.1 st hne h
        · obtain ⟨_, hx, _⟩ := k2 _ hp; cases hx
        · exact .noOrdinal id k ss v r hk hv hr' (k1 hn)
        · obtain ⟨_, hx, _⟩ := k2 _ hn; cases hx
        · obtain ⟨_, hx, hy⟩ := k2 _ hn; cases hx; rw [hco]; exact hy
      · have h1 : ¬ ("plural".toList = "decimal".toList) := by decide
        have h2 : ¬ ("plural".toList = "date_time".toList) := by decide
        have h3 : ¬ ("plural".toList = "select".toList) := by decide
        have h4 : ¬ ("plural".toList = "ordinal".toList) := by decide
        simp only [hk, h1, h2, h4, if_true, if_false] at hne
        simp only [ItemOk, hk, h1, h2, h3, h4, or_self, false_and, false_or, or_true, true_and, or_false] at hok
        have hrr : rulesOf E.icu4x f.icuLanguage k = E.icu4x.cardinal f.icuLanguage := by
          unfold rulesOf; rw [if_neg (by rw [hk]; decide)]
        have hco : countOf E.icu4x k v = numberOf E.icu4x v := by unfold countOf; rw [if_neg (by rw [hk]; decide)]
        obtain ⟨k1, k2, k3, k4⟩ := toDecimal_err E.icu4x "PatternPlural".toList v
        dsimp only at h
        rw [← hrr] at h hne
        rw [← hco] at hne
        exact formatPlural_blame hr hb values hv (.inr hk) k3 (fun r hr' hn => .noCount id k ss v r _ hk hv hr' (k1 hn))
          (fun r e' hr' hn => .noCount id k ss v r _ hk hv hr' (k2 _ hn)) (fun d hn => by rw [hco]; exact k4 d hn) hi hm hok.1 st
          hne h
      · have h1 : ¬ ("select".toList = "decimal".toList) := by decide
        have h2 : ¬ ("select".toList = "date_time".toList) := by decide
        have h3 : ¬ ("select".toList = "plural".toList) := by decide
        have h4 : ¬ ("select".toList = "ordinal".toList) := by decide
        simp only [hk, h1, h2, h3, h4, if_false] at hne
        simp only [ItemOk, hk, h1, h2, h3, h4, or_self, false_and, false_or, true_and] at hok
        simp only [toText_eq] at h
        cases ht : textOf v with
        | none => rw [ht] at h; cases h; exact .inl (.noChoice id k ss v hk hv ht)
        | some s =>
          rw [ht] at h hne
          simp only [selectString, hi, hm s] at h
          simp only [evalSelect] at hne
          by_cases hs : s ∈ keysOf ss
          · have hs' : s ∈ ss.map (fun s => s.1.str) := hs
            rw [if_pos hs] at h
            rw [if_pos hs'] at hne
            by_cases hmn : s = mainName
            · rw [if_pos hmn] at hne; exact absurd rfl hne
            · rw [if_neg hmn] at hne
              rcases List.mem_cons.1 (hok s hs) with e' | hin
              · exact absurd e' hmn
              · exact .inr ⟨s, .choice id k ss v s hk hv ht hs', hin, hb s hin st _ _ hne h⟩
          · rw [if_neg hs] at h
            cases h
            exact .inl (.choice id k ss v s i hk hv ht hs)
  | delayed n hh ps =>
    simp only [formatPart, Prod.mk.injEq, Option.some.injEq] at h
    rcases callCommand_err E _ _ _ h.1 with ⟨k1, rfl⟩ | ⟨g, c, k1, k2, rfl⟩
    · exact .inl (.noCommand n hh ps k1)
    · refine .inl (.command n hh ps g c k1 ?_)
      rw [← k2]
      simp only [List.map_map, Function.comp_def, commandValue_eq]
  | now n ps s h1 h2 => cases h

theorem shows_of {E : FmtEnv D F} {lang : Str} {values : AMap Str (PValue D F)} {before : List Named} {self : Str} {it : Item}
    {st st' : Store} {s : Str}
    (h : evalItem E lang values self (evalNamed E lang values before) it st = (some (.ok s), st')) :
    HasText E lang values before self it := by
  intro st2
  have hk := evalItem_kind E lang values self _ (evalNamed_kind E lang values before) it st st2
  rw [h] at hk
  generalize evalItem E lang values self (evalNamed E lang values before) it st2 = y at hk ⊢
  obtain ⟨y1, y2⟩ := y
  match y1, hk with
  | some (.ok s'), _ => exact ⟨s', y2, rfl⟩

/-- The error of the named string, which may use those before it. -/
def NamedBlame (E : FmtEnv D F) (lang : Str) (values : AMap Str (PValue D F)) (L : List Named) (name : Str)
    (e : FormatterError) : Prop :=
  ∃ n later earlier, L = later ++ n :: earlier ∧ n.name = name ∧ Blamed E lang values earlier n.name n.items e

theorem formatParts_blame {E : FmtEnv D F} {f : Formatter} {owners : List Str} {rec : Str → List Str → FmtRes}
    {values : AMap Str (PValue D F)} {L : List Named}
    (hr : Refs E f owners true rec (evalNamed E f.icuLanguage values L) (L.map Named.name))
    (hb : SubBlame owners rec (evalNamed E f.icuLanguage values L) (L.map Named.name) (NamedBlame E f.icuLanguage values L))
    {self : Str} {items : List Item} {parts : List PatternPart} (hz : Zip (CItem E owners f.selectors self) items parts)
    (hok : AllOk E (mainName :: L.map Named.name) items) : ∀ (acc : Str) (st : Store) (e : FormatterError) (n' : List Str),
    (evalItems E f.icuLanguage values self (evalNamed E f.icuLanguage values L) items st).1 ≠ none →
    formatParts E f values rec parts acc (owners.map st) = (some (.err e), n') →
    Blamed E f.icuLanguage values L self items e := by
  induction hz with
  | nil => intro acc st e n' _ h; cases h
  | @cons it p items parts hc _ ih =>
    intro acc st e n' hne h
    obtain ⟨hok1, hok2⟩ := allOk_cons.1 hok
    have hne1 : (evalItem E f.icuLanguage values self (evalNamed E f.icuLanguage values L) it st).1 ≠ none := by
      intro hn
      apply hne
      simp only [evalItems]
      generalize evalItem E f.icuLanguage values self (evalNamed E f.icuLanguage values L) it st = y at hn
      obtain ⟨y1, y2⟩ := y
      dsimp only at hn
      subst hn
      rfl
    simp only [formatParts] at h
    rcases formatPart_sim hr values hc hok1 st with ⟨o, o', hx, hy, ho⟩ | hbad
    rotate_left
    · exact absurd hbad hne1
    rw [pre_nil] at ho
    cases o with
    | ok s =>
      rw [hx] at h
      dsimp only at h
      generalize hyy : evalItem E f.icuLanguage values self (evalNamed E f.icuLanguage values L) it st = y at hy hne1 h
      obtain ⟨y1, st'⟩ := y
      dsimp only at hy h
      subst hy
      subst ho
      have hne2 : (evalItems E f.icuLanguage values self (evalNamed E f.icuLanguage values L) items st').1 ≠ none := by
        intro hn
        apply hne
        simp only [evalItems, hyy, forget, Outcome.mapErr]
        generalize evalItems E f.icuLanguage values self (evalNamed E f.icuLanguage values L) items st' = z at hn
        obtain ⟨z1, z2⟩ := z
        dsimp only at hn
        subst hn
        rfl
      have hshow : HasText E f.icuLanguage values L self it := shows_of hyy
      have := ih hok2 (acc ++ s) st' e n' hne2 h
      generalize hitems : items = items' at this
      cases this with
      | here _ _ front it' back _ h1 h2 =>
        refine .here L self (it :: front) it' back e (fun x hx => ?_) h2
        rcases List.mem_cons.1 hx with rfl | hx
        · exact hshow
        · exact h1 x hx
      | inside _ _ front it' back _ n later earlier h1 h2 h3 h4 =>
        refine .inside L self (it :: front) it' back e n later earlier (fun x hx => ?_) h2 h3 h4
        rcases List.mem_cons.1 hx with rfl | hx
        · exact hshow
        · exact h1 x hx
    | panic => rw [hx] at h; cases h
    | err e' =>
      rw [hx] at h
      cases h
      rcases formatPart_blame hr hb values hc hok1 st hne1 hx with h | ⟨name, h1, _, n, later, earlier, h2, h3, h4⟩
      · exact .here L self [] it items e (by simp) h
      · subst h3
        exact .inside L self [] it items e n later earlier (by simp) h1 h2 h4

theorem chain_blame {E : FmtEnv D F} {f : Formatter} {owners : List Str} (values : AMap Str (PValue D F)) {L : List Named}
    (h : Chain E f owners L) : ∀ depth, L.length ≤ depth →
    SubBlame owners (formatPattern E f values depth) (evalNamed E f.icuLanguage values L) (L.map Named.name)
      (NamedBlame E f.icuLanguage values L) := by
  induction h with
  | nil => intro depth _ name hname; cases hname
  | @cons n before hrep hnew hok hchain ih =>
    intro depth hd name hname st n' e hne h
    cases depth with
    | zero => simp at hd
    | succ depth =>
      have ihd := ih depth (by simpa using hd)
      have ihd' := ih (depth + 1) (by simp at hd; omega)
      obtain ⟨parts, hg, hz, hns⟩ := hrep
      by_cases he : n.name = name
      · subst he
        simp only [evalNamed, if_true] at hne
        simp only [formatPattern, hg] at h
        exact ⟨n, [], before, rfl, rfl,
          formatParts_blame (chain_complete values hchain depth (by simpa using hd)) ihd hz hok [] st e n' hne h⟩
      · simp only [evalNamed, he, if_false] at hne
        simp only [List.map_cons, List.mem_cons] at hname
        obtain ⟨m, later, earlier, h1, h2, h3⟩ := ihd' name (hname.resolve_left fun e => he e.symm) st n' e hne h
        exact ⟨m, n :: later, earlier, by rw [h1]; rfl, h2, h3⟩

theorem rep_blame {E : FmtEnv D F} {d : Doc} {f : Formatter} {owners : List Str} (h : Rep E d f owners)
    (values : AMap Str (PValue D F)) (st : Store) (hst : f.numbers = owners.map st) (e : FormatterError)
    (he : (f.format E values).1 = .err e) : Blamed E f.icuLanguage values d.named.reverse mainName d.main e := by
  have hne : (d.eval E f.icuLanguage values st).1 ≠ none := by
    intro hn
    have := h.format_eq values st hst
    generalize d.eval E f.icuLanguage values st = y at hn this
    obtain ⟨y1, y2⟩ := y
    dsimp only at hn
    subst hn
    rw [he] at this
    exact nomatch this.1
  obtain ⟨parts, hg, hz⟩ := h.main
  unfold Formatter.format at he
  simp only [formatPattern, hg, hst] at he
  have hlen : d.named.reverse.length ≤ f.patterns.length := by simp [h.len]
  have key := formatParts_blame (chain_complete values h.chain f.patterns.length hlen)
    (chain_blame values h.chain f.patterns.length hlen) hz (fun it hit => itemOk_congr (by simp) (h.ok.2 it hit)) [] st
  generalize formatParts E f values (formatPattern E f values f.patterns.length) parts [] (owners.map st) = x at he key
  obtain ⟨x1, x2⟩ := x
  match x1 with
  | none => cases he
  | some (.ok s) => cases he
  | some .panic => cases he
  | some (.err e') => cases he; exact key _ _ hne rfl

end Verif.BlameLemmas
