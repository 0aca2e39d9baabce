import Verif.Spec.RequestBlame
import Verif.Lemmas.LocaliserCache
import Verif.Props.Blame
/-
Errors of requests and what they come from.
-/
namespace Verif.LocaliserLemmas
open Verif Verif.Spec Verif.Props Verif.FormatLemmas

variable {D F P S : Type}

/-- Formatters in the cache were made for a use, and every call ended. -/
def EntryTold (L : LocEnv D F P) (uses : List Use) (tag key : Str) (e : CacheData) : Prop :=
  ∀ f, e = .formatter f → EntryOk L uses tag key (.formatter f)

def Told (L : LocEnv D F P) (uses : List Use) (cache : Cache) : Prop :=
  ∀ tag m, cache.get tag = some m → ∀ key e, m.get key = some e → EntryTold L uses tag key e

theorem Told.insert {L : LocEnv D F P} {uses : List Use} {cache : Cache} (h : Told L uses cache) {tag : Str}
    {m : AMap Str CacheData} (hm : ∀ key e, m.get key = some e → EntryTold L uses tag key e) :
    Told L uses (cache.insert tag m) := by
  intro tag' m' h'
  rw [AMap.get_insert] at h'
  by_cases ht : tag = tag'
  · subst ht
    simp only [if_true] at h'
    cases h'
    exact hm
  · simp only [ht, if_false] at h'
    exact h _ _ h'

theorem told_insert {L : LocEnv D F P} {uses : List Use} {tag : Str} {m : AMap Str CacheData}
    (h : ∀ key e, m.get key = some e → EntryTold L uses tag key e) {key : Str} {e : CacheData}
    (he : EntryTold L uses tag key e) : ∀ key' e', (m.insert key e).get key' = some e' → EntryTold L uses tag key' e' := by
  intro key' e' h'
  rw [AMap.get_insert] at h'
  by_cases hk : key = key'
  · subst hk
    simp only [if_true] at h'
    cases h'
    exact he
  · simp only [hk, if_false] at h'
    exact h _ _ h'

/-- The result of a step: a panic, or a cache in order and an error only with a cause. -/
def StepTold (L : LocEnv D F P) (uses : List Use) {α : Type} (C : LocErr P → Prop) (r : LocM P α × Cache) : Prop :=
  r.1 = .panic ∨ Told L uses r.2 ∧ ∀ e, r.1 = .err e → C e

theorem returnString_told {L : LocEnv D F P} {uses : List Use} {cache : Cache} (h : Told L uses cache)
    (C : LocErr P → Prop) (caching ex : Bool) (key s t : Str) :
    StepTold L uses C (returnString (P := P) cache caching ex key s t) := by
  have he : EntryTold L uses t key (.localised s t) := fun f h => by cases h
  unfold returnString addStringToCache
  cases caching with
  | false => exact .inr ⟨h, fun e h => by cases h⟩
  | true =>
    cases ex with
    | false => exact .inr ⟨h.insert (told_insert (m := []) (fun _ _ h => by cases h) he), fun e h => by cases h⟩
    | true =>
      simp only [not_true, if_false, if_true]
      cases hg : AMap.get cache t with
      | none => exact .inl rfl
      | some m => exact .inr ⟨h.insert (told_insert (h _ _ hg) he), fun e h => by cases h⟩

theorem literal_told {L : LocEnv D F P} {uses : List Use} (hs : ∀ u ∈ uses, '/' ∉ u.component) {cache : Cache}
    (h : Told L uses cache) {u : Use} (hu : u ∈ uses) (hl : u.formatted = false) (caching : Bool) :
    StepTold L uses (fun e => Cause L u [] e ∨ FormattedBefore L uses u e)
      (actualLiteral L cache u.component u.identifier u.tag u.fallback caching) := by
  unfold actualLiteral
  have hmiss : StepTold L uses (fun e => Cause L u [] e ∨ FormattedBefore L uses u e)
      (match fetch L u.component u.identifier u.tag u.fallback with
      | .err e => (.err e, cache)
      | .panic => (.panic, cache)
      | .ok (s, t) => returnString cache caching (AMap.get cache u.tag).isSome (cacheKey u.component u.identifier) s t) := by
    have hff := fetch_found L u.component u.identifier u.tag u.fallback
    cases hf : fetch L u.component u.identifier u.tag u.fallback with
    | err e =>
      refine .inr ⟨h, fun e' he => ?_⟩
      cases he
      rw [hf] at hff
      exact .inl (.provider _ hff)
    | panic => exact .inl rfl
    | ok r => exact returnString_told h _ _ _ _ _ _
  cases hg : AMap.get cache u.tag with
  | none => rw [hg] at hmiss; exact hmiss
  | some m =>
    simp only [Option.bind_some]
    cases hk : m.get (cacheKey u.component u.identifier) with
    | none => rw [hg] at hmiss; exact hmiss
    | some e =>
      have he := h _ _ hg _ _ hk
      cases e with
      | localised s t => exact .inr ⟨h, fun e h => by cases h⟩
      | formatter f =>
        refine .inr ⟨h, fun e hee => .inr ?_⟩
        cases hee
        obtain ⟨v, hv, h1, h2, h3, s, t, lang, f0, d, history, h4, h5, h6, h7, h8, _⟩ := he f rfl
        obtain ⟨e1, e2⟩ := cacheKey_inj h3 (hs u hu) (hs v hv)
        refine ⟨rfl, hl, v, hv, e1.symm, e2.symm, h2, h1, s, t, d, ?_, h8, accepted_ok h8 h7⟩
        rw [h2, ← h4]
        exact fetch_found L _ _ _ _

theorem formatCached_told {L : LocEnv D F P} {uses : List Use}
    {cache : Cache} (h : Told L uses cache) {u v : Use} (hv : v ∈ uses) (hl : u.formatted = true)
    (hlv : v.formatted = true) (htag : v.tag = u.tag) (hc : u.component = v.component) (hi : u.identifier = v.identifier)
    {s t lang : Str} {f0 f : Formatter} {d : Doc} {history : List (AMap Str (PValue D F))}
    (h1 : fetch L v.component v.identifier u.tag v.fallback = .ok (s, t)) (h2 : s ≠ []) (h3 : L.icuLanguage t = some lang)
    (h4 : Formatter.tryNew L.fmt s t (some lang) = .ok f0) (h5 : Reads L.fmt s d) (h6 : f = after L.fmt f0 history)
    (h7 : Ended L.fmt lang d history) {m : AMap Str CacheData}
    (hm : ∀ key e, m.get key = some e → EntryTold L uses u.tag key e) (values : AMap Str (PValue D F)) :
    StepTold L uses (Cause L u values)
      (formatCached L.fmt cache m u.tag (cacheKey u.component u.identifier) f values) := by
  subst h6
  by_cases hp : ((after L.fmt f0 history).format L.fmt values).1 = .panic
  · exact .inl ((mapErr_panic _ _).2 hp)
  · refine .inr ⟨h.insert (told_insert hm ?_), fun e he => ?_⟩
    · intro f hf
      cases hf
      refine ⟨v, hv, hlv, htag, by rw [hc, hi], s, t, lang, f0, d, history ++ [values], h1, h2, h3, h4, h5, ?_,
        ended_snoc h5 h4 h7 hp⟩
      rw [after_snoc]
    · simp only [formatCached] at he
      cases hr : ((after L.fmt f0 history).format L.fmt values).1 with
      | ok _ => rw [hr] at he; cases he
      | panic => rw [hr] at he; cases he
      | err e' =>
        rw [hr] at he
        cases he
        have hfound := fetch_found L v.component v.identifier u.tag v.fallback
        rw [h1, ← hc, ← hi] at hfound
        exact .values v.fallback s t lang d e' hl hfound h3 h5 (accepted_ok h5 h4)
          (C80_error_tells_the_cause L.fmt h5 h4 history h7 values e' hr)

theorem tryNew_none_err {E : FmtEnv D F} {s tag : Str} {e : FormatterError} (h : Formatter.tryNew E s tag none = .err e) :
    (∃ te, Tree.tryNew E.icu E.grammar s = .err te ∧ e = .tree te) ∨ e = .noGrammar := by
  unfold Formatter.tryNew Formatter.ofTree at h
  cases ht : Tree.tryNew E.icu E.grammar s with
  | err te => rw [ht] at h; cases h; exact .inl ⟨te, rfl, rfl⟩
  | panic => rw [ht] at h; cases h
  | ok t =>
    rw [ht] at h
    simp only [Outcome.mapErr, Outcome.bind_ok] at h
    split at h
    · cases h; exact .inr rfl
    · cases h

theorem format_told {L : LocEnv D F P} {uses : List Use} (hs : ∀ u ∈ uses, '/' ∉ u.component) {cache : Cache}
    (h : Told L uses cache) {u : Use} (hu : u ∈ uses) (hl : u.formatted = true) (values : AMap Str (PValue D F))
    (caching : Bool) :
    StepTold L uses (Cause L u values)
      (actualFormat L cache u.component u.identifier values u.tag u.fallback caching) := by
  unfold actualFormat
  have hmiss : StepTold L uses (Cause L u values) (match fetch L u.component u.identifier u.tag u.fallback with
      | .err e => (.err e, cache)
      | .panic => (.panic, cache)
      | .ok (s, t) =>
        if s = [] then returnString cache caching (AMap.get cache u.tag).isSome (cacheKey u.component u.identifier) s t
        else
          match Formatter.tryNew L.fmt s t (L.icuLanguage t) with
          | .err .noGrammar =>
            returnString cache caching (AMap.get cache u.tag).isSome (cacheKey u.component u.identifier) s t
          | .err e => (.err (.formatter e), cache)
          | .panic => (.panic, cache)
          | .ok f =>
            if ¬ caching then ((f.format L.fmt values).1.mapErr .formatter, cache)
            else cacheFormatter L.fmt cache (AMap.get cache u.tag).isSome u.tag (cacheKey u.component u.identifier) f
              values) := by
    have hff := fetch_found L u.component u.identifier u.tag u.fallback
    cases hf : fetch L u.component u.identifier u.tag u.fallback with
    | err e =>
      refine .inr ⟨h, fun e' he => ?_⟩
      cases he
      rw [hf] at hff
      exact .provider _ hff
    | panic => exact .inl rfl
    | ok r =>
      obtain ⟨s, t⟩ := r
      rw [hf] at hff
      simp only
      by_cases hse : s = []
      · rw [if_pos hse]
        exact returnString_told h _ _ _ _ _ _
      · rw [if_neg hse]
        cases hx : Formatter.tryNew L.fmt s t (L.icuLanguage t) with
        | panic => exact .inl rfl
        | err e =>
          by_cases hne : e = .noGrammar
          · subst hne
            exact returnString_told h _ _ _ _ _ _
          · have hcause : Cause L u values (.formatter e) := by
              cases hlang : L.icuLanguage t with
              | none =>
                rw [hlang] at hx
                rcases tryNew_none_err hx with ⟨te, h1, rfl⟩ | h1
                · exact .syntactic s t te hl hff h1
                · exact absurd h1 hne
              | some lang =>
                rw [hlang] at hx
                rcases C81_rejection_tells_the_cause L.fmt s t lang e hx with ⟨te, h1, rfl⟩ | ⟨h1, _⟩ | ⟨d, h1, h2⟩
                · exact .syntactic s t te hl hff h1
                · exact absurd h1 hne
                · exact .rejected s t lang d e hl hff hlang h1 h2
            have : StepTold L uses (Cause L u values) ((.err (.formatter e), cache) : LocM P (Str × Str) × Cache) :=
              .inr ⟨h, fun e' he => by cases he; exact hcause⟩
            cases e <;> first | exact absurd rfl hne | exact this
        | ok f =>
          cases hlang : L.icuLanguage t with
          | none => rw [hlang] at hx; exact absurd hx tryNew_none
          | some lang =>
            have hx' := hx
            rw [hlang] at hx'
            obtain ⟨d, hd⟩ := tryNew_reads hx'
            cases caching with
            | false =>
              simp only [Bool.false_eq_true, not_false_eq_true, if_true]
              cases hr : (f.format L.fmt values).1 with
              | panic => exact .inl rfl
              | ok r => exact .inr ⟨h, fun e he => by cases he⟩
              | err e =>
                refine .inr ⟨h, fun e' he => ?_⟩
                cases he
                exact .values u.fallback s t lang d e hl hff hlang hd (accepted_ok hd hx')
                  (C80_error_tells_the_cause L.fmt hd hx' [] (fun v hv => by cases hv) values e hr)
            | true =>
              have hentry : EntryTold L uses u.tag (cacheKey u.component u.identifier) (.formatter f) := by
                intro f' hf'
                cases hf'
                exact ⟨u, hu, hl, rfl, rfl, s, t, lang, f, d, [], hf, hse, hlang, hx', hd, rfl, by intro v hv; cases hv⟩
              have hgo : ∀ m, (∀ key e, AMap.get m key = some e → EntryTold L uses u.tag key e) →
                  StepTold L uses (Cause L u values) (formatCached L.fmt (AMap.insert cache u.tag m) m u.tag
                    (cacheKey u.component u.identifier) f values) := by
                intro m hm
                exact formatCached_told (h.insert hm) hu hl hl rfl rfl rfl hf hse hlang hx' hd (f := f)
                  (history := []) rfl (by intro v hv; cases hv) hm values
              unfold cacheFormatter
              simp only [not_true, if_false]
              cases hg : AMap.get cache u.tag with
              | none =>
                simp only [Option.isSome_none, Bool.false_eq_true, not_false_eq_true, if_true, AMap.get_insert_self]
                have : AMap.get [(cacheKey u.component u.identifier, CacheData.formatter f)]
                    (cacheKey u.component u.identifier) = some (.formatter f) := by simp [AMap.get_cons]
                rw [this]
                exact hgo _ (told_insert (m := []) (fun _ _ h => by cases h) hentry)
              | some m =>
                simp only [Option.isSome_some, not_true, if_false, AMap.get_insert_self]
                exact hgo _ (told_insert (h _ _ hg) hentry)
  cases hg : AMap.get cache u.tag with
  | none => rw [hg] at hmiss; exact hmiss
  | some m =>
    simp only [Option.bind_some]
    cases hk : m.get (cacheKey u.component u.identifier) with
    | none => rw [hg] at hmiss; exact hmiss
    | some e =>
      have he := h _ _ hg _ _ hk
      cases e with
      | localised s t => exact .inr ⟨h, fun e h => by cases h⟩
      | formatter f =>
        obtain ⟨v, hv, h1, h2, h3, s, t, lang, f0, d, history, h4, h5, h6, h7, h8, h9, h10⟩ := he f rfl
        obtain ⟨e1, e2⟩ := cacheKey_inj h3 (hs u hu) (hs v hv)
        exact formatCached_told h hv hl h1 h2 e1 e2 h4 h5 h6 h7 h8 h9 h10 (h _ _ hg) values

/-! ### Localisation data -/

/-- A cause among the strings that localisation data needs. -/
def DataCause (L : LocEnv D F P) (uses : List Use) (tag : Str) (fb : Bool) (c i : Str)
    (values : Option (List (Str × PValue D F))) (e : LocErr P) : Prop :=
  ∃ u vs, DataNeeds tag fb c i values u vs ∧ (Cause L u vs e ∨ FormattedBefore L uses u e)

/-- What has been done of the values: those in `acc` are from `done`. -/
theorem filled_step {seen : List (Str × PValue D F)} {acc : AMap Str (PValue D F)} (h : WithTexts seen acc) {name : Str}
    {w v : PValue D F} (hv : v = w ∧ (∀ c i ws, w ≠ .localisationData c i ws) ∨
      ∃ c i ws s t, w = .localisationData c i ws ∧ v = .localised s t) :
    WithTexts (seen ++ [(name, w)]) (acc.insert name v) := by
  refine ⟨fun name' v' h' => ?_, fun name' w' h' => ?_⟩
  · rw [AMap.get_insert] at h'
    by_cases hn : name = name'
    · subst hn
      simp only [if_true] at h'
      cases h'
      exact ⟨w, by simp, hv⟩
    · simp only [hn, if_false] at h'
      obtain ⟨w', h1, h2⟩ := h.1 _ _ h'
      exact ⟨w', by simp [h1], h2⟩
  · rw [AMap.get_insert]
    by_cases hn : name = name'
    · exact ⟨v, by simp [hn]⟩
    · simp only [hn, if_false]
      simp only [List.mem_append, List.mem_singleton, Prod.mk.injEq] at h'
      rcases h' with h' | ⟨h', _⟩
      · exact h.2 _ _ h'
      · exact absurd h'.symm hn

mutual
theorem data_told {L : LocEnv D F P} {uses : List Use} (hs : ∀ u ∈ uses, '/' ∉ u.component) (tag : Str) (fb caching : Bool)
    (c i : Str) (values : Option (List (Str × PValue D F))) (hu : ∀ u ∈ dataUses tag fb c i values, u ∈ uses)
    (cache : Cache) (h : Told L uses cache) :
    StepTold L uses (DataCause L uses tag fb c i values) (actualData L tag fb caching c i values cache) := by
  match values with
  | none =>
    simp only [actualData]
    rcases literal_told hs h (u := ⟨c, i, tag, fb, false⟩) (hu _ (by simp [dataUses])) rfl caching with h1 | ⟨h1, h2⟩
    · exact .inl h1
    · exact .inr ⟨h1, fun e he => ⟨_, _, .literal c i, h2 e he⟩⟩
  | some vs =>
    have hv := values_told hs tag fb caching vs (fun u hm => hu u (by simp [dataUses, hm])) c i vs [] rfl [] cache
      ⟨fun _ _ h => (by cases h), fun _ _ h => (by cases h)⟩ h
    simp only [actualData]
    generalize resolveValues L tag fb caching vs [] cache = x at hv ⊢
    obtain ⟨x1, x2⟩ := x
    obtain ⟨hv, hfill⟩ := hv
    cases x1 with
    | ok m =>
      rcases hv with hv | ⟨hv, _⟩
      · cases hv
      · rcases format_told hs hv (u := ⟨c, i, tag, fb, true⟩) (hu _ (by simp [dataUses])) rfl m caching with h1 | ⟨h1, h2⟩
        · exact .inl h1
        · exact .inr ⟨h1, fun e he => ⟨_, _, .format c i vs m (hfill m rfl), .inl (h2 e he)⟩⟩
    | err e =>
      rcases hv with hv | ⟨hv, h2⟩
      · cases hv
      · exact .inr ⟨hv, fun e' he => by cases he; exact h2 e rfl⟩
    | panic => exact .inl rfl

theorem values_told {L : LocEnv D F P} {uses : List Use} (hs : ∀ u ∈ uses, '/' ∉ u.component) (tag : Str) (fb caching : Bool)
    (values : List (Str × PValue D F)) (hu : ∀ u ∈ valueUses tag fb values, u ∈ uses) (c i : Str)
    (all seen : List (Str × PValue D F)) (hall : all = seen ++ values) (acc : AMap Str (PValue D F)) (cache : Cache)
    (hfill : WithTexts seen acc) (h : Told L uses cache) :
    StepTold L uses (DataCause L uses tag fb c i (some all)) (resolveValues L tag fb caching values acc cache) ∧
      ∀ m, (resolveValues L tag fb caching values acc cache).1 = .ok m → WithTexts all m := by
  have plain : ∀ (name : Str) (v : PValue D F) (rest : List (Str × PValue D F)), values = (name, v) :: rest →
      (∀ c i ws, v ≠ .localisationData c i ws) → WithTexts (seen ++ [(name, v)]) (acc.insert name v) :=
    fun name v rest _ hv => filled_step hfill (.inl ⟨rfl, hv⟩)
  match values with
  | [] =>
    simp only [resolveValues]
    refine ⟨.inr ⟨h, fun e he => by cases he⟩, fun m hm => ?_⟩
    cases hm
    rw [hall, List.append_nil]
    exact hfill
  | (name, .localisationData c' i' vs) :: rest =>
    have hd := data_told hs tag fb caching c' i' vs (fun u hm => hu u (by simp [valueUses, hm])) cache h
    simp only [resolveValues]
    generalize actualData L tag fb caching c' i' vs cache = x at hd ⊢
    obtain ⟨x1, x2⟩ := x
    cases x1 with
    | ok r =>
      obtain ⟨s, t⟩ := r
      rcases hd with hd | ⟨hd, _⟩
      · cases hd
      · exact values_told hs tag fb caching rest (fun u hm => hu u (by simp [valueUses, hm])) c i all
          (seen ++ [(name, .localisationData c' i' vs)]) (by rw [hall]; simp) _ _
          (filled_step hfill (.inr ⟨c', i', vs, s, t, rfl, rfl⟩)) hd
    | err e =>
      rcases hd with hd | ⟨hd, h2⟩
      · cases hd
      · refine ⟨.inr ⟨hd, fun e' he => ?_⟩, fun m hm => by cases hm⟩
        cases he
        obtain ⟨u, ws, h3, h4⟩ := h2 e rfl
        exact ⟨u, ws, .nested c i all name c' i' vs u ws (by rw [hall]; simp) h3, h4⟩
    | panic => exact ⟨.inl rfl, fun m hm => by cases hm⟩
  | (name, .string v) :: rest =>
    simp only [resolveValues]
    exact values_told hs tag fb caching rest (fun u hm => hu u (by simp [valueUses, hm])) c i all
      (seen ++ [(name, .string v)]) (by rw [hall]; simp) _ _ (plain _ _ _ rfl (fun _ _ _ h => by cases h)) h
  | (name, .integer v) :: rest =>
    simp only [resolveValues]
    exact values_told hs tag fb caching rest (fun u hm => hu u (by simp [valueUses, hm])) c i all
      (seen ++ [(name, .integer v)]) (by rw [hall]; simp) _ _ (plain _ _ _ rfl (fun _ _ _ h => by cases h)) h
  | (name, .unsigned v) :: rest =>
    simp only [resolveValues]
    exact values_told hs tag fb caching rest (fun u hm => hu u (by simp [valueUses, hm])) c i all
      (seen ++ [(name, .unsigned v)]) (by rw [hall]; simp) _ _ (plain _ _ _ rfl (fun _ _ _ h => by cases h)) h
  | (name, .float v) :: rest =>
    simp only [resolveValues]
    exact values_told hs tag fb caching rest (fun u hm => hu u (by simp [valueUses, hm])) c i all
      (seen ++ [(name, .float v)]) (by rw [hall]; simp) _ _ (plain _ _ _ rfl (fun _ _ _ h => by cases h)) h
  | (name, .taggedString v w) :: rest =>
    simp only [resolveValues]
    exact values_told hs tag fb caching rest (fun u hm => hu u (by simp [valueUses, hm])) c i all
      (seen ++ [(name, .taggedString v w)]) (by rw [hall]; simp) _ _ (plain _ _ _ rfl (fun _ _ _ h => by cases h)) h
  | (name, .localised v w) :: rest =>
    simp only [resolveValues]
    exact values_told hs tag fb caching rest (fun u hm => hu u (by simp [valueUses, hm])) c i all
      (seen ++ [(name, .localised v w)]) (by rw [hall]; simp) _ _ (plain _ _ _ rfl (fun _ _ _ h => by cases h)) h
  | (name, .fixedDecimal v) :: rest =>
    simp only [resolveValues]
    exact values_told hs tag fb caching rest (fun u hm => hu u (by simp [valueUses, hm])) c i all
      (seen ++ [(name, .fixedDecimal v)]) (by rw [hall]; simp) _ _ (plain _ _ _ rfl (fun _ _ _ h => by cases h)) h
  | (name, .dateTime v w) :: rest =>
    simp only [resolveValues]
    exact values_told hs tag fb caching rest (fun u hm => hu u (by simp [valueUses, hm])) c i all
      (seen ++ [(name, .dateTime v w)]) (by rw [hall]; simp) _ _ (plain _ _ _ rfl (fun _ _ _ h => by cases h)) h
  | (name, .date v) :: rest =>
    simp only [resolveValues]
    exact values_told hs tag fb caching rest (fun u hm => hu u (by simp [valueUses, hm])) c i all
      (seen ++ [(name, .date v)]) (by rw [hall]; simp) _ _ (plain _ _ _ rfl (fun _ _ _ h => by cases h)) h
  | (name, .time v) :: rest =>
    simp only [resolveValues]
    exact values_told hs tag fb caching rest (fun u hm => hu u (by simp [valueUses, hm])) c i all
      (seen ++ [(name, .time v)]) (by rw [hall]; simp) _ _ (plain _ _ _ rfl (fun _ _ _ h => by cases h)) h
end

/-! ### Calls -/

theorem call_told {L : LocEnv D F P} {uses : List Use} (hs : ∀ u ∈ uses, '/' ∉ u.component) (scriptOf : Str → S)
    (l : Localiser S) (h : Told L uses l.cache) (r : Request D F) (hu : ∀ u ∈ requestUses l.tag l.fallback r, u ∈ uses) :
    (l.call L scriptOf r).1 = some .panic ∨ Told L uses (l.call L scriptOf r).2.cache ∧
      ∀ e, (l.call L scriptOf r).1 = some (.err e) → ∃ u vs, Needs l.tag l.fallback r u vs ∧
        (Cause L u vs e ∨ FormattedBefore L uses u e) := by
  cases r with
  | format c i vs t fb ca =>
    rcases format_told hs h (u := ⟨c, i, t.getD l.tag, fb.getD l.fallback, true⟩) (hu _ (by simp [requestUses])) rfl vs
      (ca.getD l.caching) with h1 | ⟨h1, h2⟩
    · exact .inl (congrArg some h1)
    · exact .inr ⟨h1, fun e he => ⟨_, _, .format c i vs t fb ca, .inl (h2 e (Option.some.inj he))⟩⟩
  | literal c i t fb ca =>
    rcases literal_told hs h (u := ⟨c, i, t.getD l.tag, fb.getD l.fallback, false⟩) (hu _ (by simp [requestUses])) rfl
      (ca.getD l.caching) with h1 | ⟨h1, h2⟩
    · exact .inl (congrArg some h1)
    · exact .inr ⟨h1, fun e he => ⟨_, _, .literal c i t fb ca, h2 e (Option.some.inj he)⟩⟩
  | data c i vs t fb ca =>
    rcases data_told hs (t.getD l.tag) (fb.getD l.fallback) (ca.getD l.caching) c i vs (fun u hm => hu u hm) l.cache h with
      h1 | ⟨h1, h2⟩
    · exact .inl (congrArg some h1)
    · refine .inr ⟨h1, fun e he => ?_⟩
      obtain ⟨u, ws, h3, h4⟩ := h2 e (Option.some.inj he)
      exact ⟨u, ws, .data c i vs t fb ca u ws h3, h4⟩
  | defaults t fb ca =>
    refine .inr ⟨?_, fun e he => by cases he⟩
    have : (l.setDefaults scriptOf t fb ca).cache = l.cache := by
      unfold Localiser.setDefaults
      cases t <;> cases fb <;> cases ca <;> rfl
    simp only [Localiser.call, this]
    exact h

theorem history_told {L : LocEnv D F P} {uses : List Use} (hs : ∀ u ∈ uses, '/' ∉ u.component) (scriptOf : Str → S)
    (r : Request D F) : ∀ (calls : List (Request D F)) (l : Localiser S), Told L uses l.cache →
    (∀ u ∈ callsUses l.tag l.fallback (calls ++ [r]), u ∈ uses) → NoPanic L scriptOf l calls →
    Told L uses (l.after L scriptOf calls).cache ∧
      ∀ u ∈ requestUses (l.after L scriptOf calls).tag (l.after L scriptOf calls).fallback r, u ∈ uses := by
  intro calls
  induction calls with
  | nil =>
    intro l h hu _
    refine ⟨h, fun u hm => hu u ?_⟩
    rw [List.nil_append, call_defaults L scriptOf]
    exact List.mem_append_left _ hm
  | cons q rest ih =>
    intro l h hu hp
    rw [List.cons_append, call_defaults L scriptOf] at hu
    rcases call_told hs scriptOf l h q (fun u hm => hu u (List.mem_append_left _ hm)) with h1 | ⟨h1, _⟩
    · exact absurd h1 hp.1
    · exact ih _ h1 (fun u hm => hu u (List.mem_append_right _ hm)) hp.2

end Verif.LocaliserLemmas
