import Verif.Lemmas.FormatText
/-
Pattern strings accepted by the formatter; depth of recursion; values that are used.
-/
namespace Verif.FormatLemmas
open Verif Verif.Spec
open Verif.TreeLemmas (complete sound anyGr)

variable {D F : Type}

theorem anyGr_iff (ts : List Token) : anyGr ts = true ↔ ∃ t ∈ ts, t.tokenType = .grammar := by
  simp [anyGr]

/-- A string that is read gives the tree of its syntax. -/
theorem Reads.tree {E : FmtEnv D F} {s : Str} {d : Doc} (h : Reads E s d) :
    ∃ t, Tree.tryNew E.icu E.grammar s = .ok t ∧ Sentence d t.tokens ∧ t.nodes = d.arena ∧ t.hasGrammar = true := by
  obtain ⟨ts, hl, hs, hp, hn, hg⟩ := h
  have := complete hs hp hn
  refine ⟨_, by rw [Tree.tryNew, hl]; exact this, hs, rfl, (anyGr_iff ts).2 hg⟩

theorem tree_reads {E : FmtEnv D F} {s : Str} {t : Tree} (h : Tree.tryNew E.icu E.grammar s = .ok t) :
    ∃ d, Sentence d t.tokens ∧ t.nodes = d.arena ∧ (t.hasGrammar = true → Reads E s d) := by
  unfold Tree.tryNew at h
  cases hl : lex E.icu E.grammar s with
  | error e => rw [hl] at h; cases h
  | ok ts =>
    rw [hl] at h
    obtain ⟨d, hs, hp, hn, rfl⟩ := sound h
    exact ⟨d, hs, rfl, fun hg => ⟨ts, hl, hs, hp, hn, (anyGr_iff ts).1 hg⟩⟩

/-- The formatter of a string that is read as `d`. -/
theorem tryNew_spec {E : FmtEnv D F} {s : Str} {d : Doc} (h : Reads E s d) (tag lang : Str) :
    match Formatter.tryNew E s tag (some lang) with
    | .ok f => f.languageTag = tag ∧ f.icuLanguage = lang ∧ ∃ owners, Rep E d f owners ∧ f.numbers = owners.map Store.empty
    | .err _ => ¬ DocOk E d
    | .panic => ¬ DocOk E d ∧ CmdPanics E := by
  obtain ⟨t, ht, hs, hn, hg⟩ := Reads.tree h
  have := ofTree_spec E tag lang hs hn
  unfold Formatter.tryNew
  rw [ht]
  simp only [Outcome.mapErr, Outcome.bind_ok]
  generalize Formatter.ofTree E tag (some lang) t = x at this ⊢
  match x, this with
  | .ok f, h => exact h.2
  | .err e, h => exact fun hd => h ⟨hg, hd⟩
  | .panic, h => exact h

theorem tryNew_reads {E : FmtEnv D F} {s tag lang : Str} {f : Formatter}
    (h : Formatter.tryNew E s tag (some lang) = .ok f) : ∃ d, Reads E s d := by
  unfold Formatter.tryNew at h
  cases ht : Tree.tryNew E.icu E.grammar s with
  | err e => rw [ht] at h; cases h
  | panic => rw [ht] at h; cases h
  | ok t =>
    rw [ht] at h
    simp only [Outcome.mapErr, Outcome.bind_ok] at h
    obtain ⟨d, hs, hn, hr⟩ := tree_reads ht
    have := ofTree_spec E tag lang hs hn
    rw [h] at this
    exact ⟨d, hr this.1⟩

theorem tryNew_panic {E : FmtEnv D F} {s tag lang : Str}
    (h : Formatter.tryNew E s tag (some lang) = .panic) : Tree.tryNew E.icu E.grammar s = .panic ∨ CmdPanics E := by
  unfold Formatter.tryNew at h
  cases ht : Tree.tryNew E.icu E.grammar s with
  | err e => rw [ht] at h; cases h
  | panic => exact Or.inl rfl
  | ok t =>
    rw [ht] at h
    simp only [Outcome.mapErr, Outcome.bind_ok] at h
    obtain ⟨d, hs, hn, hr⟩ := tree_reads ht
    have := ofTree_spec E tag lang hs hn
    rw [h] at this
    exact Or.inr this.2

/-- Accepted formatters represent their string. -/
theorem rep_of {E : FmtEnv D F} {s tag lang : Str} {d : Doc} {f : Formatter} (h : Reads E s d)
    (hf : Formatter.tryNew E s tag (some lang) = .ok f) :
    f.languageTag = tag ∧ f.icuLanguage = lang ∧ ∃ owners, Rep E d f owners ∧ f.numbers = owners.map Store.empty := by
  have := tryNew_spec h tag lang
  rw [hf] at this
  exact this

theorem ended_at {E : FmtEnv D F} {lang : Str} {d : Doc} {v : AMap Str (PValue D F)}
    (h : (d.eval E lang v Store.empty).1 ≠ none) (st : Store) : (d.eval E lang v st).1 ≠ none :=
  fun hn => h (doc_none E lang v d st Store.empty hn)

/-- The state after a history. -/
theorem rep_after {E : FmtEnv D F} {d : Doc} {owners : List Str} (history : List (AMap Str (PValue D F))) :
    ∀ (f : Formatter) (st : Store), Rep E d f owners → f.numbers = owners.map st → Ended E f.icuLanguage d history →
    Rep E d (after E f history) owners ∧ (after E f history).languageTag = f.languageTag ∧
      (after E f history).icuLanguage = f.icuLanguage ∧
      (after E f history).patterns = f.patterns ∧ (after E f history).selectors = f.selectors ∧
      (after E f history).numbers =
        owners.map (history.foldl (fun st v => (d.eval E f.icuLanguage v st).2) st) := by
  induction history with
  | nil => intro f st hr hn _; exact ⟨hr, rfl, rfl, rfl, rfl, hn⟩
  | cons v history ih =>
    intro f st hr hn he
    have h := hr.format_eq v st hn
    have hv := ended_at (he v (by simp)) st
    simp only [after, List.foldl_cons]
    generalize hy : d.eval E f.icuLanguage v st = y at h hv
    obtain ⟨y1, st'⟩ := y
    match y1, h, hv with
    | none, _, hv => exact absurd rfl hv
    | some o, ⟨_, h2⟩, _ =>
      have hr' : Rep E d (f.format E v).2 owners := by
        rw [h2]
        exact ⟨hr.main, hr.named, hr.ok, hr.len, hr.keys⟩
      have hl : (f.format E v).2.icuLanguage = f.icuLanguage := by rw [h2]
      have := ih (f.format E v).2 st' hr' (by rw [h2]) (by rw [hl]; exact fun w hw => he w (by simp [hw]))
      rw [hl] at this
      obtain ⟨a, b, c, p, q, e⟩ := this
      exact ⟨a, by rw [← after, b, h2], c, by rw [← after, p, h2], by rw [← after, q, h2], e⟩

/-! ### Depth of recursion -/

/-- `rec'` gives the same result wherever `rec` ends. -/
def Extends (rec rec' : Str → List Str → FmtRes) : Prop :=
  ∀ name n r n', rec name n = (some r, n') → rec' name n = (some r, n')

theorem findNumberSign_extends {X : Icu4x D F} {f : Formatter} {rec rec' : Str → List Str → FmtRes}
    (h : Extends rec rec') {category d index n r n'} (hx : findNumberSign X f rec category d index n = (some r, n')) :
    findNumberSign X f rec' category d index n = (some r, n') := by
  unfold findNumberSign at hx ⊢
  generalize X.decimal f.icuLanguage none = fd at hx ⊢
  cases fd with
  | error e => exact hx
  | ok fdf =>
    simp only at hx ⊢
    generalize f.selectors[index]? = m at hx ⊢
    cases m with
    | none => exact hx
    | some m =>
      simp only at hx ⊢
      generalize m.get (pluralCategory (category d)) = nm at hx ⊢
      cases nm with
      | none => exact hx
      | some nm =>
        simp only at hx ⊢
        generalize f.patterns.get nm = p at hx ⊢
        cases p with
        | none => exact hx
        | some p =>
          simp only at hx ⊢
          generalize updateNumbers (fdf d) p n = u at hx ⊢
          match u, hx with
          | (.ok _, n1), hx => exact h _ _ _ _ hx
          | (.err _, n1), hx => exact hx
          | (.panic, n1), hx => exact hx

theorem formatPlural_extends {X : Icu4x D F} {f : Formatter} {rec rec' : Str → List Str → FmtRes}
    (h : Extends rec rec') {rules number what index n r n'}
    (hx : formatPlural X f rec rules number what index n = (some r, n')) :
    formatPlural X f rec' rules number what index n = (some r, n') := by
  unfold formatPlural at hx ⊢
  match rules, number, hx with
  | .error _, _, hx => exact hx
  | .ok _, none, hx => exact hx
  | .ok _, some (.err _), hx => exact hx
  | .ok _, some .panic, hx => exact hx
  | .ok _, some (.ok _), hx => exact findNumberSign_extends h hx

theorem formatPart_extends {E : FmtEnv D F} {f : Formatter} {values} {rec rec' : Str → List Str → FmtRes}
    (h : Extends rec rec') {p n r n'} (hx : formatPart E f values rec p n = (some r, n')) :
    formatPart E f values rec' p n = (some r, n') := by
  cases p with
  | text s => exact hx
  | patternString p => exact hx
  | patternDecimal p s g => exact hx
  | patternDateTime p a b c => exact hx
  | patternComplex p ct i =>
    simp only [formatPart] at hx ⊢
    cases hv : values.get p with
    | none => rw [hv] at hx; exact hx
    | some v =>
      rw [hv] at hx
      cases ct with
      | plural => exact formatPlural_extends h hx
      | ordinal => exact formatPlural_extends h hx
      | select =>
        simp only at hx ⊢
        cases ht : toText v with
        | none => rw [ht] at hx; exact hx
        | some s =>
          rw [ht] at hx
          simp only [selectString] at hx ⊢
          generalize f.selectors[i]? = m at hx ⊢
          cases m with
          | none => exact hx
          | some m =>
            simp only at hx ⊢
            generalize m.get s = nm at hx ⊢
            cases nm with
            | none => exact hx
            | some nm => exact h _ _ _ _ hx
  | numberSign i => exact hx
  | command ss => exact hx

theorem formatParts_extends {E : FmtEnv D F} {f : Formatter} {values} {rec rec' : Str → List Str → FmtRes}
    (h : Extends rec rec') (ps : List PatternPart) : ∀ {acc n r n'}, formatParts E f values rec ps acc n = (some r, n') →
    formatParts E f values rec' ps acc n = (some r, n') := by
  induction ps with
  | nil => intro acc n r n' hx; exact hx
  | cons p ps ih =>
    intro acc n r n' hx
    simp only [formatParts] at hx ⊢
    cases hp : formatPart E f values rec p n with
    | mk o n1 =>
      rw [hp] at hx
      cases o with
      | none => simp at hx
      | some o =>
        rw [formatPart_extends h hp]
        cases o with
        | ok s => exact ih hx
        | err e => exact hx
        | panic => exact hx

theorem formatPattern_extends {E : FmtEnv D F} {f : Formatter} {values : AMap Str (PValue D F)} (depth : Nat) :
    Extends (formatPattern E f values depth) (formatPattern E f values (depth + 1)) := by
  induction depth with
  | zero => intro name n r n' hx; simp [formatPattern] at hx
  | succ depth ih =>
    intro name n r n' hx
    unfold formatPattern at hx ⊢
    cases hp : f.patterns.get name with
    | none => rw [hp] at hx; exact hx
    | some ps => rw [hp] at hx; exact formatParts_extends ih ps hx

theorem formatPattern_depth {E : FmtEnv D F} {f : Formatter} {values : AMap Str (PValue D F)} {depth depth' : Nat}
    (hd : depth ≤ depth') {name n r n'} (h : formatPattern E f values depth name n = (some r, n')) :
    formatPattern E f values depth' name n = (some r, n') := by
  induction hd with
  | refl => exact h
  | step _ ih => exact formatPattern_extends _ _ _ _ _ ih

/-! ### Errors do not depend on the numbers -/

/-- Both end in the same way: with some text, the same error, a panic, or not at all. -/
def SameEnd (a b : FmtRes) : Prop :=
  a.2.length = b.2.length ∧
  match a.1, b.1 with
  | none, none => True
  | some (.ok _), some (.ok _) => True
  | some (.err e), some (.err e') => e = e'
  | some .panic, some .panic => True
  | _, _ => False

/-- Formatters that differ in their numbers only. -/
structure Alike (f g : Formatter) : Prop where
  lang : f.icuLanguage = g.icuLanguage
  patterns : f.patterns = g.patterns
  selectors : f.selectors = g.selectors

def SameEnds (rec rec' : Str → List Str → FmtRes) : Prop :=
  ∀ name n n', n.length = n'.length → SameEnd (rec name n) (rec' name n')

theorem SameEnd.const (r : Option (FmtM Str)) {n n' : List Str} (h : n.length = n'.length) : SameEnd (r, n) (r, n') := by
  refine ⟨h, ?_⟩
  match r with
  | none => trivial
  | some (.ok _) => trivial
  | some (.err _) => rfl
  | some .panic => trivial

theorem updateNumbers_sameEnd (v : Str) (ps : List PatternPart) : ∀ n n' : List Str, n.length = n'.length →
    (updateNumbers v ps n).1 = (updateNumbers v ps n').1 ∧
    (updateNumbers v ps n).2.length = (updateNumbers v ps n').2.length := by
  induction ps with
  | nil => intro n n' h; exact ⟨rfl, h⟩
  | cons p ps ih =>
    intro n n' h
    cases p <;> simp only [updateNumbers] <;> try exact ih n n' h
    rename_i i
    by_cases hi : i < n.length
    · have hi' : i < n'.length := by omega
      simp only [hi, hi', if_true]
      exact ih _ _ (by simp [h])
    · have hi' : ¬ i < n'.length := by omega
      simp only [hi, hi', if_false]
      exact ⟨trivial, h⟩

theorem findNumberSign_sameEnd {X : Icu4x D F} {f g : Formatter} (hfg : Alike f g) {rec rec' : Str → List Str → FmtRes}
    (h : SameEnds rec rec') {category d index n n'} (hn : n.length = n'.length) :
    SameEnd (findNumberSign X f rec category d index n) (findNumberSign X g rec' category d index n') := by
  unfold findNumberSign
  rw [hfg.lang, hfg.selectors, hfg.patterns]
  cases X.decimal g.icuLanguage none with
  | error e => exact .const _ hn
  | ok fdf =>
    simp only
    cases g.selectors[index]? with
    | none => exact .const _ hn
    | some m =>
      simp only
      cases m.get (pluralCategory (category d)) with
      | none => exact .const _ hn
      | some nm =>
        simp only
        cases g.patterns.get nm with
        | none => exact .const _ hn
        | some p =>
          simp only
          obtain ⟨h1, h2⟩ := updateNumbers_sameEnd (fdf d) p n n' hn
          generalize updateNumbers (fdf d) p n = u at h1 h2
          generalize updateNumbers (fdf d) p n' = u' at h1 h2
          obtain ⟨u1, u2⟩ := u
          obtain ⟨v1, v2⟩ := u'
          simp only at h1 h2
          subst h1
          match u1 with
          | .ok _ => exact h _ _ _ h2
          | .err _ => exact .const _ h2
          | .panic => exact .const _ h2

theorem formatPlural_sameEnd {X : Icu4x D F} {f g : Formatter} (hfg : Alike f g) {rec rec' : Str → List Str → FmtRes}
    (h : SameEnds rec rec') {rules number what index n n'} (hn : n.length = n'.length) :
    SameEnd (formatPlural X f rec rules number what index n) (formatPlural X g rec' rules number what index n') := by
  unfold formatPlural
  match rules, number with
  | .error _, _ => exact .const _ hn
  | .ok _, none => exact .const _ hn
  | .ok _, some (.err _) => exact .const _ hn
  | .ok _, some .panic => exact .const _ hn
  | .ok _, some (.ok _) => exact findNumberSign_sameEnd hfg h hn

theorem formatPart_sameEnd {E : FmtEnv D F} {f g : Formatter} (hfg : Alike f g) {values : AMap Str (PValue D F)}
    {rec rec' : Str → List Str → FmtRes} (h : SameEnds rec rec') (p : PatternPart) {n n'} (hn : n.length = n'.length) :
    SameEnd (formatPart E f values rec p n) (formatPart E g values rec' p n') := by
  cases p with
  | text s => exact .const _ hn
  | patternString p =>
    simp only [formatPart]
    cases values.get p with
    | none => exact .const _ hn
    | some v => cases ht : toText v <;> simp only [ht] <;> exact .const _ hn
  | patternDecimal p s gr =>
    simp only [formatPart, hfg.lang]
    cases values.get p <;> exact .const _ hn
  | patternDateTime p a b c =>
    simp only [formatPart, hfg.lang]
    cases values.get p <;> exact .const _ hn
  | patternComplex p ct i =>
    simp only [formatPart, hfg.lang]
    cases values.get p with
    | none => exact .const _ hn
    | some v =>
      cases ct with
      | plural => exact formatPlural_sameEnd hfg h hn
      | ordinal => exact formatPlural_sameEnd hfg h hn
      | select =>
        simp only
        cases toText v with
        | none => exact .const _ hn
        | some s =>
          simp only [selectString, hfg.selectors]
          cases g.selectors[i]? with
          | none => exact .const _ hn
          | some m =>
            simp only
            cases m.get s with
            | none => exact .const _ hn
            | some nm => exact h _ _ _ hn
  | numberSign i =>
    simp only [formatPart]
    by_cases hi : i < n.length
    · have hi' : i < n'.length := by omega
      simp only [List.getElem?_eq_getElem hi, List.getElem?_eq_getElem hi']
      exact ⟨hn, trivial⟩
    · have hi' : ¬ i < n'.length := by omega
      simp only [List.getElem?_eq_none (Nat.le_of_not_lt hi), List.getElem?_eq_none (Nat.le_of_not_lt hi')]
      exact .const _ hn
  | command ss => cases ss <;> exact .const _ hn

theorem formatParts_sameEnd {E : FmtEnv D F} {f g : Formatter} (hfg : Alike f g) {values : AMap Str (PValue D F)}
    {rec rec' : Str → List Str → FmtRes} (h : SameEnds rec rec') (ps : List PatternPart) :
    ∀ {acc acc' n n'}, n.length = n'.length →
    SameEnd (formatParts E f values rec ps acc n) (formatParts E g values rec' ps acc' n') := by
  induction ps with
  | nil => intro acc acc' n n' hn; exact ⟨hn, trivial⟩
  | cons p ps ih =>
    intro acc acc' n n' hn
    have hp := formatPart_sameEnd (E := E) hfg (values := values) h p hn
    simp only [formatParts]
    generalize formatPart E f values rec p n = x at hp
    generalize formatPart E g values rec' p n' = y at hp
    match x, y, hp with
    | (some (.ok _), _), (some (.ok _), _), hp => exact ih hp.1
    | (none, _), (none, _), hp => exact hp
    | (some (.err _), _), (some (.err _), _), hp => exact hp
    | (some .panic, _), (some .panic, _), hp => exact hp

theorem formatPattern_sameEnd {E : FmtEnv D F} {f g : Formatter} (hfg : Alike f g) (values : AMap Str (PValue D F))
    (depth : Nat) : SameEnds (formatPattern E f values depth) (formatPattern E g values depth) := by
  induction depth with
  | zero => intro name n n' hn; exact .const _ hn
  | succ depth ih =>
    intro name n n' hn
    simp only [formatPattern, hfg.patterns]
    cases g.patterns.get name with
    | none => exact .const _ hn
    | some ps => exact formatParts_sameEnd hfg ih ps hn

/-- Results that agree up to details of errors agree. -/
theorem format_sameEnd {E : FmtEnv D F} {f g : Formatter} (hfg : Alike f g)
    (hn : f.numbers.length = g.numbers.length) (values : AMap Str (PValue D F))
    (h : forget (f.format E values).1 = forget (g.format E values).1) :
    (f.format E values).1 = (g.format E values).1 := by
  have hs := formatPattern_sameEnd (E := E) hfg values (g.patterns.length + 1) mainName f.numbers g.numbers hn
  unfold Formatter.format at h ⊢
  rw [hfg.patterns] at h ⊢
  generalize formatPattern E f values (g.patterns.length + 1) mainName f.numbers = x at hs h ⊢
  generalize formatPattern E g values (g.patterns.length + 1) mainName g.numbers = y at hs h ⊢
  match x, y, hs, h with
  | (none, _), (none, _), _, _ => rfl
  | (some (.ok a), _), (some (.ok b), _), _, h =>
    simp only [forget, Outcome.mapErr, Outcome.bind_ok] at h ⊢
    change (Outcome.ok (a, f.languageTag) : Outcome Unit _) = .ok (b, g.languageTag) at h
    change (Outcome.ok (a, f.languageTag) : FmtM _) = .ok (b, g.languageTag)
    injection h with h
    rw [h]
  | (some (.err e), _), (some (.err e'), _), hs, _ => obtain ⟨_, rfl⟩ := hs; rfl
  | (some .panic, _), (some .panic, _), _, _ => rfl

/-! ### Values that are used -/

/-- Identifiers whose values a part uses. -/
def partMentions : PatternPart → List Str
  | .patternString p => [p]
  | .patternDecimal p _ _ => [p]
  | .patternDateTime p _ _ _ => [p]
  | .patternComplex p _ _ => [p]
  | .command (_ :: ps) => ps
  | _ => []

theorem formatPart_values {E : FmtEnv D F} {f : Formatter} {values values' : AMap Str (PValue D F)}
    {rec : Str → List Str → FmtRes} {p : PatternPart} (h : ∀ x ∈ partMentions p, values.get x = values'.get x)
    (n : List Str) : formatPart E f values rec p n = formatPart E f values' rec p n := by
  cases p with
  | text s => rfl
  | patternString p => simp only [formatPart, h p (by simp [partMentions])]
  | patternDecimal p s g => simp only [formatPart, h p (by simp [partMentions])]
  | patternDateTime p a b c => simp only [formatPart, h p (by simp [partMentions])]
  | patternComplex p ct i => simp only [formatPart, h p (by simp [partMentions])]
  | numberSign i => rfl
  | command ss =>
    cases ss with
    | nil => rfl
    | cons s ss =>
      have : ss.map (commandValue values) = ss.map (commandValue values') := by
        apply List.map_congr_left
        intro x hx
        have := h x (by simpa [partMentions] using hx)
        simp only [commandValue, this]
      simp only [formatPart, this]

theorem formatParts_values {E : FmtEnv D F} {f : Formatter} {values values' : AMap Str (PValue D F)}
    {rec : Str → List Str → FmtRes} (ps : List PatternPart)
    (h : ∀ p ∈ ps, ∀ x ∈ partMentions p, values.get x = values'.get x) :
    ∀ acc n, formatParts E f values rec ps acc n = formatParts E f values' rec ps acc n := by
  induction ps with
  | nil => intro acc n; rfl
  | cons p ps ih =>
    intro acc n
    simp only [formatParts, formatPart_values (h p (by simp)), ih (fun q hq => h q (by simp [hq]))]

theorem formatPattern_values {E : FmtEnv D F} {f : Formatter} {values values' : AMap Str (PValue D F)}
    (h : ∀ name ps, f.patterns.get name = some ps → ∀ p ∈ ps, ∀ x ∈ partMentions p, values.get x = values'.get x)
    (depth : Nat) : formatPattern E f values depth = formatPattern E f values' depth := by
  induction depth with
  | zero => funext name n; rfl
  | succ depth ih =>
    funext name n
    simp only [formatPattern, ih]
    cases hp : f.patterns.get name with
    | none => rfl
    | some ps => exact formatParts_values ps (h name ps hp) [] n

theorem CItem.mentions {E : FmtEnv D F} {owners sels self it p} (h : CItem E owners sels self it p) :
    ∀ x ∈ partMentions p, x ∈ it.mentions := by
  cases h <;> simp [partMentions, Item.mentions]

theorem Zip.right {α β : Type} {R : α → β → Prop} {as bs} (h : Zip R as bs) : ∀ b ∈ bs, ∃ a ∈ as, R a b := by
  induction h with
  | nil => simp
  | cons hr _ ih =>
    intro b hb
    rcases List.mem_cons.1 hb with rfl | hb
    · exact ⟨_, by simp, hr⟩
    · obtain ⟨a, ha, h⟩ := ih b hb
      exact ⟨a, by simp [ha], h⟩

theorem Rep.mentions {E : FmtEnv D F} {d : Doc} {f : Formatter} {owners : List Str} (h : Rep E d f owners) :
    ∀ name ps, f.patterns.get name = some ps → ∀ p ∈ ps, ∀ x ∈ partMentions p, x ∈ d.mentions := by
  intro name ps hg p hp x hx
  have hk := (h.keys name).1 (by simp [AMap.contains, hg])
  simp only [Doc.mentions, List.mem_flatMap, Doc.items, List.mem_append]
  rcases List.mem_cons.1 hk with rfl | hk
  · obtain ⟨ps', hg', hz⟩ := h.main
    rw [hg'] at hg
    injection hg with hg
    subst hg
    obtain ⟨it, hit, hc⟩ := hz.right p hp
    exact ⟨it, Or.inl hit, hc.mentions x hx⟩
  · obtain ⟨n, hn, rfl⟩ := List.mem_map.1 hk
    obtain ⟨ps', hg', hz, _⟩ := h.named n hn
    rw [hg'] at hg
    injection hg with hg
    subst hg
    obtain ⟨it, hit, hc⟩ := hz.right p hp
    exact ⟨it, Or.inr ⟨n, hn, hit⟩, hc.mentions x hx⟩

end Verif.FormatLemmas
