import Verif.Spec.Localiser
import Verif.Props.Format
/-
The cache of the localiser: what entries stand for, and answers compared with those without a cache.
-/
namespace Verif.LocaliserLemmas
open Verif Verif.Spec Verif.Props Verif.FormatLemmas

variable {D F P S : Type}

/-! ### Keys -/

theorem cacheKey_inj {c i c' i' : Str} (h : cacheKey c i = cacheKey c' i') (hc : '/' ∉ c) (hc' : '/' ∉ c') :
    c = c' ∧ i = i' := by
  unfold cacheKey at h
  induction c generalizing c' with
  | nil =>
    cases c' with
    | nil => simpa using h
    | cons x c' => simp only [List.nil_append, List.cons_append] at h; injection h with h _; subst h; simp at hc'
  | cons x c ih =>
    cases c' with
    | nil => simp only [List.nil_append, List.cons_append] at h; injection h with h _; subst h; simp at hc
    | cons y c' =>
      simp only [List.cons_append] at h
      injection h with h1 h2
      obtain ⟨h3, h4⟩ := ih h2 (fun hm => hc (by simp [hm])) (fun hm => hc' (by simp [hm]))
      exact ⟨by rw [h1, h3], h4⟩

/-! ### Answers without a cache -/

/-- A found string is formatted. -/
def shown (L : LocEnv D F P) (values : AMap Str (PValue D F)) (r : Str × Str) : LocM P (Str × Str) :=
  (formatString L.fmt r.1 r.2 (L.icuLanguage r.2) values).mapErr .formatter

theorem actualFormat_nil (L : LocEnv D F P) (c i : Str) (values : AMap Str (PValue D F)) (tag : Str) (fb : Bool) :
    actualFormat L [] c i values tag fb false = ((fetch L c i tag fb >>= shown L values), []) := by
  unfold actualFormat shown formatString
  simp only [AMap.get_nil, Option.bind_none]
  cases fetch L c i tag fb with
  | err e => rfl
  | panic => rfl
  | ok r =>
    obtain ⟨s, t⟩ := r
    simp only [Outcome.bind_ok, returnString]
    by_cases hs : s = []
    · simp [hs, Outcome.mapErr]
    · simp only [hs, if_false]
      generalize Formatter.tryNew L.fmt s t (L.icuLanguage t) = x
      cases x with
      | ok f => simp
      | panic => rfl
      | err e => cases e <;> rfl

theorem actualLiteral_nil (L : LocEnv D F P) (c i tag : Str) (fb : Bool) :
    actualLiteral L [] c i tag fb false = (fetch L c i tag fb, []) := by
  unfold actualLiteral
  simp only [AMap.get_nil, Option.bind_none]
  cases fetch L c i tag fb <;> rfl

theorem fetch_string {L : LocEnv D F P} (hc : Coherent L.provider) {c i tag : Str} {fb : Bool} {s t : Str}
    (h : fetch L c i tag fb = .ok (s, t)) : L.provider.string c i t = .ok (some (s, t)) := by
  unfold fetch at h
  split at h
  · cases h
  · rename_i r hr
    cases h
    exact hc _ _ _ _ _ hr
  · split at h
    · cases h
    · split at h
      · cases h
      · split at h
        · cases h
        · rename_i r hr
          cases h
          exact hc _ _ _ _ _ hr
        · cases h

theorem fetch_of_string {L : LocEnv D F P} {c i t : Str} {r : Str × Str} (h : L.provider.string c i t = .ok (some r))
    (fb : Bool) : fetch L c i t fb = .ok r := by
  unfold fetch
  rw [h]

theorem fetch_found (L : LocEnv D F P) (c i tag : Str) (fb : Bool) :
    Found L.provider c i tag fb (fetch L c i tag fb) := by
  unfold fetch
  cases h : L.provider.string c i tag with
  | error e => exact .broken h
  | ok o =>
    cases o with
    | some r => exact .requested h
    | none =>
      cases fb with
      | false => exact .missing h
      | true =>
        simp only [not_true, if_false]
        cases h2 : L.provider.default c with
        | error e => exact .noDetails h h2
        | ok d =>
          simp only
          cases h3 : L.provider.string c i d with
          | error e => exact .brokenDefault h h2 h3
          | ok o =>
            cases o with
            | some r => exact .default h h2 h3
            | none => exact .missingDefault h h2 h3

theorem found_fetch {L : LocEnv D F P} {c i tag : Str} {fb : Bool} {r : LocM P (Str × Str)}
    (h : Found L.provider c i tag fb r) : fetch L c i tag fb = r := by
  unfold fetch
  cases h <;> simp [*]

/-! ### Entries -/

/-- The string is returned as it is. -/
def AsIs (L : LocEnv D F P) (s t : Str) : Prop :=
  s = [] ∨ Formatter.tryNew L.fmt s t (L.icuLanguage t) = .err .noGrammar

theorem Plain.asIs {L : LocEnv D F P} {s : Str} (h : Plain L.fmt s) (t : Str) : AsIs L s t := by
  rcases h with h | h
  · exact .inl h
  · exact .inr (h _ _)

theorem AsIs.shown {L : LocEnv D F P} {s t : Str} (h : AsIs L s t) (values : AMap Str (PValue D F)) :
    shown L values (s, t) = .ok (s, t) := by
  unfold LocaliserLemmas.shown formatString
  rcases h with h | h
  · simp [h, Outcome.mapErr]
  · by_cases hs : s = []
    · simp [hs, Outcome.mapErr]
    · simp only [hs, if_false, h]; rfl

/-- What an entry stands for. -/
def EntryOk (L : LocEnv D F P) (uses : List Use) (tag key : Str) : CacheData → Prop
  | .localised s t => tag = t ∧ ∃ u ∈ uses, key = cacheKey u.component u.identifier ∧
      L.provider.string u.component u.identifier t = .ok (some (s, t)) ∧ (u.formatted = true → AsIs L s t)
  | .formatter f => ∃ u ∈ uses, u.formatted = true ∧ u.tag = tag ∧ key = cacheKey u.component u.identifier ∧
      ∃ s t lang f0 d history, fetch L u.component u.identifier tag u.fallback = .ok (s, t) ∧ s ≠ [] ∧
        L.icuLanguage t = some lang ∧ Formatter.tryNew L.fmt s t (some lang) = .ok f0 ∧ Reads L.fmt s d ∧
        f = after L.fmt f0 history ∧ Ended L.fmt lang d history

def CacheOk (L : LocEnv D F P) (uses : List Use) (cache : Cache) : Prop :=
  ∀ tag m, cache.get tag = some m → ∀ key e, m.get key = some e → EntryOk L uses tag key e

theorem CacheOk.nil (L : LocEnv D F P) (uses : List Use) : CacheOk L uses [] := by
  intro tag m h; cases h

theorem CacheOk.insert {L : LocEnv D F P} {uses : List Use} {cache : Cache} (h : CacheOk L uses cache) {tag : Str}
    {m : AMap Str CacheData} (hm : ∀ key e, m.get key = some e → EntryOk L uses tag key e) :
    CacheOk L uses (cache.insert tag m) := by
  intro tag' m' h'
  rw [AMap.get_insert] at h'
  by_cases ht : tag = tag'
  · subst ht
    simp only [if_true] at h'
    cases h'
    exact hm
  · simp only [ht, if_false] at h'
    exact h _ _ h'

theorem entries_insert {L : LocEnv D F P} {uses : List Use} {tag : Str} {m : AMap Str CacheData}
    (h : ∀ key e, m.get key = some e → EntryOk L uses tag key e) {key : Str} {e : CacheData}
    (he : EntryOk L uses tag key e) : ∀ key' e', (m.insert key e).get key' = some e' → EntryOk L uses tag key' e' := by
  intro key' e' h'
  rw [AMap.get_insert] at h'
  by_cases hk : key = key'
  · subst hk
    simp only [if_true] at h'
    cases h'
    exact he
  · simp only [hk, if_false] at h'
    exact h _ _ h'

theorem entries_single {L : LocEnv D F P} {uses : List Use} {tag key : Str} {e : CacheData}
    (he : EntryOk L uses tag key e) : ∀ key' e', AMap.get [(key, e)] key' = some e' → EntryOk L uses tag key' e' :=
  entries_insert (m := []) (fun _ _ h => by cases h) he

/-- The result of a step: the answer without a cache, and a cache in order, or else a panic because of the cache. -/
def StepOk (L : LocEnv D F P) (uses : List Use) {α : Type} (r : LocM P α × Cache) (answer : LocM P α) : Prop :=
  r.1 = answer ∧ (r.1 = .panic ∨ CacheOk L uses r.2) ∨ r.1 = .panic ∧ ¬ Exact L uses

theorem returnString_ok {L : LocEnv D F P} {uses : List Use} {cache : Cache} (h : CacheOk L uses cache)
    (caching : Bool) {u : Use} (hu : u ∈ uses) {key s t : Str}
    (hf : fetch L u.component u.identifier u.tag u.fallback = .ok (s, t)) (he : EntryOk L uses t key (.localised s t)) :
    StepOk L uses (returnString (P := P) cache caching (AMap.get cache u.tag).isSome key s t) (.ok (s, t)) := by
  unfold returnString addStringToCache
  cases caching with
  | false => exact .inl ⟨rfl, .inr h⟩
  | true =>
    simp only [if_true]
    cases hex : (AMap.get cache u.tag).isSome with
    | false => exact .inl ⟨rfl, .inr (h.insert (entries_single he))⟩
    | true =>
      simp only [not_true, if_false]
      cases hg : AMap.get cache t with
      | none =>
        refine .inr ⟨rfl, fun hx => ?_⟩
        rw [← hx u hu s t (hf ▸ fetch_found L _ _ _ _), hg] at hex
        cases hex
      | some m => exact .inl ⟨rfl, .inr (h.insert (entries_insert (h _ _ hg) he))⟩

theorem literal_ok {L : LocEnv D F P} {uses : List Use} (hco : Coherent L.provider) (ht : Tame L uses) {cache : Cache}
    (h : CacheOk L uses cache) {u : Use} (hu : u ∈ uses) (hl : u.formatted = false) (caching : Bool) :
    StepOk L uses (actualLiteral L cache u.component u.identifier u.tag u.fallback caching)
      (fetch L u.component u.identifier u.tag u.fallback) := by
  unfold actualLiteral
  have hnew : ∀ s t, fetch L u.component u.identifier u.tag u.fallback = .ok (s, t) →
      EntryOk L uses t (cacheKey u.component u.identifier) (.localised s t) :=
    fun s t hf => ⟨rfl, u, hu, rfl, fetch_string hco hf, by simp [hl]⟩
  have hmiss : StepOk L uses (match fetch L u.component u.identifier u.tag u.fallback with
      | .err e => (.err e, cache)
      | .panic => (.panic, cache)
      | .ok (s, t) => returnString cache caching (AMap.get cache u.tag).isSome (cacheKey u.component u.identifier) s t)
      (fetch L u.component u.identifier u.tag u.fallback) := by
    cases hf : fetch L u.component u.identifier u.tag u.fallback with
    | err e => exact .inl ⟨rfl, .inr h⟩
    | panic => exact .inl ⟨rfl, .inl rfl⟩
    | ok r => exact returnString_ok h _ hu hf (hnew _ _ hf)
  cases hg : AMap.get cache u.tag with
  | none => rw [hg] at hmiss; exact hmiss
  | some m =>
    simp only [Option.bind_some]
    cases hk : m.get (cacheKey u.component u.identifier) with
    | none => rw [hg] at hmiss; exact hmiss
    | some e =>
      have he := h _ _ hg _ _ hk
      cases e with
      | localised s t =>
        obtain ⟨h1, v, hv, h2, h3, _⟩ := he
        obtain ⟨h4, h5⟩ := cacheKey_inj h2 (ht.slash u hu) (ht.slash v hv)
        refine .inl ⟨?_, .inr h⟩
        rw [h1, h4, h5, fetch_of_string h3]
      | formatter f =>
        exfalso
        obtain ⟨v, hv, h1, h2, h3, s, t, lang, f0, d, history, h4, h5, h6, h7, _⟩ := he
        obtain ⟨e1, e2⟩ := cacheKey_inj h3 (ht.slash u hu) (ht.slash v hv)
        rcases ht.kinds v hv u hu e1.symm e2.symm h1 hl t s t (fetch_string hco h4) with hp | hp
        · exact h5 hp
        · rw [hp] at h7; cases h7

theorem tryNew_none {E : FmtEnv D F} {s tag : Str} {f : Formatter} : Formatter.tryNew E s tag none ≠ .ok f := by
  intro h
  unfold Formatter.tryNew Formatter.ofTree at h
  cases ht : Tree.tryNew E.icu E.grammar s with
  | err e => rw [ht] at h; cases h
  | panic => rw [ht] at h; cases h
  | ok t =>
    rw [ht] at h
    simp only [Outcome.mapErr, Outcome.bind_ok] at h
    split at h <;> cases h

theorem after_snoc (E : FmtEnv D F) (f : Formatter) (history : List (AMap Str (PValue D F))) (v : AMap Str (PValue D F)) :
    after E f (history ++ [v]) = ((after E f history).format E v).2 := by
  simp [after, List.foldl_append]

theorem ended_snoc {E : FmtEnv D F} {s tag lang : Str} {d : Doc} {f : Formatter} (hd : Reads E s d)
    (hf : Formatter.tryNew E s tag (some lang) = .ok f) {history : List (AMap Str (PValue D F))}
    (hh : Ended E lang d history) {v : AMap Str (PValue D F)} (hp : ((after E f history).format E v).1 ≠ .panic) :
    Ended E lang d (history ++ [v]) := by
  intro w hw
  rcases List.mem_append.1 hw with hw | hw
  · exact hh w hw
  · obtain rfl := List.mem_singleton.1 hw
    intro hn
    exact hp ((C48_format_gives_the_meaning E hd hf history hh w).2 (doc_none E lang w d _ _ hn)).1

theorem mapErr_panic {ε ε' α : Type} (g : ε → ε') (x : Outcome ε α) : x.mapErr g = .panic ↔ x = .panic := by
  cases x <;> simp [Outcome.mapErr]

/-- A formatter that stands for the use, applied and put back. -/
theorem formatCached_ok {L : LocEnv D F P} {uses : List Use} (hco : Coherent L.provider) (ht : Tame L uses)
    {cache : Cache} (h : CacheOk L uses cache) {u v : Use} (hu : u ∈ uses) (hv : v ∈ uses) (hl : u.formatted = true)
    (hlv : v.formatted = true) (htag : v.tag = u.tag) (hc : u.component = v.component) (hi : u.identifier = v.identifier)
    {s t lang : Str} {f0 f : Formatter} {d : Doc} {history : List (AMap Str (PValue D F))}
    (h1 : fetch L v.component v.identifier u.tag v.fallback = .ok (s, t)) (h2 : s ≠ []) (h3 : L.icuLanguage t = some lang)
    (h4 : Formatter.tryNew L.fmt s t (some lang) = .ok f0) (h5 : Reads L.fmt s d) (h6 : f = after L.fmt f0 history)
    (h7 : Ended L.fmt lang d history) {m : AMap Str CacheData}
    (hm : ∀ key e, m.get key = some e → EntryOk L uses u.tag key e) (values : AMap Str (PValue D F)) :
    StepOk L uses (formatCached L.fmt cache m u.tag (cacheKey u.component u.identifier) f values)
      (fetch L u.component u.identifier u.tag u.fallback >>= shown L values) := by
  subst h6
  refine .inl ⟨?_, ?_⟩
  · have hfb : u.fallback = v.fallback := ht.fallback u hu v hv hc hi htag.symm hl hlv
    rw [hc, hi, hfb, h1]
    have hs := ht.numbers v hv hlv t s t (fetch_string hco h1) d h5
    have := C22_history_is_irrelevant_partial L.fmt h5 h4 hs history [] h7 (by intro v hv; cases hv) values
    simp only [formatCached, Outcome.bind_ok, shown, formatString, h2, if_false, h3, h4, this]
    rfl
  · by_cases hp : ((after L.fmt f0 history).format L.fmt values).1 = .panic
    · exact .inl ((mapErr_panic _ _).2 hp)
    · refine .inr (h.insert (entries_insert hm ?_))
      refine ⟨v, hv, hlv, htag, by rw [hc, hi], s, t, lang, f0, d, history ++ [values], h1, h2, h3, h4, h5, ?_,
        ended_snoc h5 h4 h7 hp⟩
      rw [after_snoc]

theorem format_ok {L : LocEnv D F P} {uses : List Use} (hco : Coherent L.provider) (ht : Tame L uses) {cache : Cache}
    (h : CacheOk L uses cache) {u : Use} (hu : u ∈ uses) (hl : u.formatted = true) (values : AMap Str (PValue D F))
    (caching : Bool) :
    StepOk L uses (actualFormat L cache u.component u.identifier values u.tag u.fallback caching)
      (fetch L u.component u.identifier u.tag u.fallback >>= shown L values) := by
  unfold actualFormat
  have hmiss : StepOk L uses (match fetch L u.component u.identifier u.tag u.fallback with
      | .err e => (.err e, cache)
      | .panic => (.panic, cache)
      | .ok (s, t) =>
        if s = [] then returnString cache caching (AMap.get cache u.tag).isSome (cacheKey u.component u.identifier) s t
        else
          match Formatter.tryNew L.fmt s t (L.icuLanguage t) with
          | .err .noGrammar =>
            returnString cache caching (AMap.get cache u.tag).isSome (cacheKey u.component u.identifier) s t
          | .err e => (.err (.formatter e), cache)
          | .panic => (.panic, cache)
          | .ok f =>
            if ¬ caching then ((f.format L.fmt values).1.mapErr .formatter, cache)
            else cacheFormatter L.fmt cache (AMap.get cache u.tag).isSome u.tag (cacheKey u.component u.identifier) f
              values)
      (fetch L u.component u.identifier u.tag u.fallback >>= shown L values) := by
    cases hf : fetch L u.component u.identifier u.tag u.fallback with
    | err e => exact .inl ⟨rfl, .inr h⟩
    | panic => exact .inl ⟨rfl, .inl rfl⟩
    | ok r =>
      obtain ⟨s, t⟩ := r
      have hret : AsIs L s t → StepOk L uses
          (returnString (P := P) cache caching (AMap.get cache u.tag).isSome (cacheKey u.component u.identifier) s t)
          (shown L values (s, t)) := by
        intro ha
        rw [ha.shown]
        exact returnString_ok h _ hu hf ⟨rfl, u, hu, rfl, fetch_string hco hf, fun _ => ha⟩
      simp only [Outcome.bind_ok]
      by_cases hs : s = []
      · simp only [hs, if_true]
        rw [hs] at hret
        exact hret (.inl rfl)
      · simp only [hs, if_false]
        cases hx : Formatter.tryNew L.fmt s t (L.icuLanguage t) with
        | panic =>
          refine .inl ⟨?_, .inl rfl⟩
          simp only [shown, formatString, hs, if_false, hx]
          rfl
        | err e =>
          cases e with
          | noGrammar => exact hret (.inr hx)
          | _ =>
            refine .inl ⟨?_, .inr h⟩
            simp only [shown, formatString, hs, if_false, hx]
            rfl
        | ok f =>
          cases hlang : L.icuLanguage t with
          | none => rw [hlang] at hx; exact absurd hx tryNew_none
          | some lang =>
            have hx' := hx
            rw [hlang] at hx'
            obtain ⟨d, hd⟩ := tryNew_reads hx'
            cases caching with
            | false =>
              refine .inl ⟨?_, .inr h⟩
              simp [shown, formatString, hs, hx]
            | true =>
              have hentry : EntryOk L uses u.tag (cacheKey u.component u.identifier) (.formatter f) :=
                ⟨u, hu, hl, rfl, rfl, s, t, lang, f, d, [], hf, hs, hlang, hx', hd, rfl, by intro v hv; cases hv⟩
              have hgo : ∀ m, (∀ key e, AMap.get m key = some e → EntryOk L uses u.tag key e) →
                  m.get (cacheKey u.component u.identifier) = some (.formatter f) →
                  StepOk L uses (formatCached L.fmt (AMap.insert cache u.tag m) m u.tag
                    (cacheKey u.component u.identifier) f values) (shown L values (s, t)) := by
                intro m hm hg
                have := formatCached_ok hco ht (h.insert hm) hu hu hl hl rfl rfl rfl hf hs hlang hx' hd (f := f)
                  (history := []) rfl (by intro v hv; cases hv) hm values
                rw [hf] at this
                exact this
              unfold cacheFormatter
              simp only [not_true, if_false]
              cases hg : AMap.get cache u.tag with
              | none =>
                simp only [Option.isSome_none, Bool.false_eq_true, not_false_eq_true, if_true, AMap.get_insert_self]
                have : AMap.get [(cacheKey u.component u.identifier, CacheData.formatter f)]
                    (cacheKey u.component u.identifier) = some (.formatter f) := by simp [AMap.get_cons]
                rw [this]
                exact hgo _ (entries_single hentry) this
              | some m =>
                simp only [Option.isSome_some, not_true, if_false, AMap.get_insert_self]
                exact hgo _ (entries_insert (h _ _ hg) hentry) (AMap.get_insert_self _ _ _)
  cases hg : AMap.get cache u.tag with
  | none => rw [hg] at hmiss; exact hmiss
  | some m =>
    simp only [Option.bind_some]
    cases hk : m.get (cacheKey u.component u.identifier) with
    | none => rw [hg] at hmiss; exact hmiss
    | some e =>
      have he := h _ _ hg _ _ hk
      cases e with
      | localised s t =>
        obtain ⟨h1, v, hv, h2, h3, h4⟩ := he
        obtain ⟨e1, e2⟩ := cacheKey_inj h2 (ht.slash u hu) (ht.slash v hv)
        have has : AsIs L s t := by
          cases hlv : v.formatted with
          | true => exact h4 hlv
          | false =>
            refine Plain.asIs (ht.kinds u hu v hv e1 e2 hl hlv t s t ?_) t
            rw [e1, e2]; exact h3
        refine .inl ⟨?_, .inr h⟩
        simp only [Option.map_some]
        rw [h1, e1, e2, fetch_of_string h3, Outcome.bind_ok, has.shown]
      | formatter f =>
        obtain ⟨v, hv, h1, h2, h3, s, t, lang, f0, d, history, h4, h5, h6, h7, h8, h9, h10⟩ := he
        obtain ⟨e1, e2⟩ := cacheKey_inj h3 (ht.slash u hu) (ht.slash v hv)
        exact formatCached_ok hco ht h hu hv hl h1 h2 e1 e2 h4 h5 h6 h7 h8 h9 h10 (h _ _ hg) values

/-! ### Localisation data -/

mutual
theorem actualData_nil (L : LocEnv D F P) (tag : Str) (fb : Bool) (c i : Str)
    (values : Option (List (Str × PValue D F))) : (actualData L tag fb false c i values []).2 = [] := by
  match values with
  | none => simp [actualData, actualLiteral_nil]
  | some vs =>
    have h := resolveValues_nil L tag fb vs []
    simp only [actualData]
    generalize resolveValues L tag fb false vs [] [] = x at h ⊢
    match x, h with
    | (.ok m, _), rfl => simp [actualFormat_nil]
    | (.err e, _), rfl => rfl
    | (.panic, _), rfl => rfl

theorem resolveValues_nil (L : LocEnv D F P) (tag : Str) (fb : Bool) (values : List (Str × PValue D F))
    (acc : AMap Str (PValue D F)) : (resolveValues L tag fb false values acc []).2 = [] := by
  match values with
  | [] => simp [resolveValues]
  | (name, .localisationData c i vs) :: rest =>
    have h := actualData_nil L tag fb c i vs
    simp only [resolveValues]
    generalize actualData L tag fb false c i vs [] = x at h ⊢
    match x, h with
    | (.ok (s, t), _), rfl => exact resolveValues_nil L tag fb rest _
    | (.err e, _), rfl => rfl
    | (.panic, _), rfl => rfl
  | (name, .string _) :: rest => simp only [resolveValues]; exact resolveValues_nil L tag fb rest _
  | (name, .integer _) :: rest => simp only [resolveValues]; exact resolveValues_nil L tag fb rest _
  | (name, .unsigned _) :: rest => simp only [resolveValues]; exact resolveValues_nil L tag fb rest _
  | (name, .float _) :: rest => simp only [resolveValues]; exact resolveValues_nil L tag fb rest _
  | (name, .taggedString _ _) :: rest => simp only [resolveValues]; exact resolveValues_nil L tag fb rest _
  | (name, .localised _ _) :: rest => simp only [resolveValues]; exact resolveValues_nil L tag fb rest _
  | (name, .fixedDecimal _) :: rest => simp only [resolveValues]; exact resolveValues_nil L tag fb rest _
  | (name, .dateTime _ _) :: rest => simp only [resolveValues]; exact resolveValues_nil L tag fb rest _
  | (name, .date _) :: rest => simp only [resolveValues]; exact resolveValues_nil L tag fb rest _
  | (name, .time _) :: rest => simp only [resolveValues]; exact resolveValues_nil L tag fb rest _
end

mutual
theorem data_ok {L : LocEnv D F P} {uses : List Use} (hco : Coherent L.provider) (ht : Tame L uses) (tag : Str)
    (fb caching : Bool) (c i : Str) (values : Option (List (Str × PValue D F)))
    (hu : ∀ u ∈ dataUses tag fb c i values, u ∈ uses) (cache : Cache) (h : CacheOk L uses cache) :
    StepOk L uses (actualData L tag fb caching c i values cache) (actualData L tag fb false c i values []).1 := by
  match values with
  | none =>
    simp only [actualData, actualLiteral_nil]
    exact literal_ok hco ht h (u := ⟨c, i, tag, fb, false⟩) (hu _ (by simp [dataUses])) rfl caching
  | some vs =>
    have hv := values_ok hco ht tag fb caching vs (fun u hm => hu u (by simp [dataUses, hm])) [] cache h
    have hn := resolveValues_nil L tag fb vs []
    simp only [actualData]
    generalize resolveValues L tag fb false vs [] [] = y at hv hn ⊢
    generalize resolveValues L tag fb caching vs [] cache = x at hv ⊢
    obtain ⟨y1, y2⟩ := y
    obtain ⟨x1, x2⟩ := x
    simp only at hn
    subst hn
    rcases hv with ⟨hv, hc⟩ | ⟨hv, hx⟩
    rotate_left
    · simp only at hv; subst hv; exact .inr ⟨rfl, hx⟩
    · simp only at hv hc
      subst hv
      cases x1 with
      | ok m =>
        simp only [actualFormat_nil]
        exact format_ok hco ht (hc.resolve_left (by simp)) (u := ⟨c, i, tag, fb, true⟩) (hu _ (by simp [dataUses])) rfl m caching
      | err e => exact .inl ⟨rfl, .inr (hc.resolve_left (by simp))⟩
      | panic => exact .inl ⟨rfl, .inl rfl⟩

theorem values_ok {L : LocEnv D F P} {uses : List Use} (hco : Coherent L.provider) (ht : Tame L uses) (tag : Str)
    (fb caching : Bool) (values : List (Str × PValue D F)) (hu : ∀ u ∈ valueUses tag fb values, u ∈ uses)
    (acc : AMap Str (PValue D F)) (cache : Cache) (h : CacheOk L uses cache) :
    StepOk L uses (resolveValues L tag fb caching values acc cache) (resolveValues L tag fb false values acc []).1 := by
  match values with
  | [] => simp only [resolveValues]; exact .inl ⟨rfl, .inr h⟩
  | (name, .localisationData c i vs) :: rest =>
    have hd := data_ok hco ht tag fb caching c i vs (fun u hm => hu u (by simp [valueUses, hm])) cache h
    have hn := actualData_nil L tag fb c i vs
    simp only [resolveValues]
    generalize actualData L tag fb false c i vs [] = y at hd hn ⊢
    generalize actualData L tag fb caching c i vs cache = x at hd ⊢
    obtain ⟨y1, y2⟩ := y
    obtain ⟨x1, x2⟩ := x
    simp only at hn
    subst hn
    rcases hd with ⟨hd, hc⟩ | ⟨hd, hx⟩
    rotate_left
    · simp only at hd; subst hd; exact .inr ⟨rfl, hx⟩
    · simp only at hd hc
      subst hd
      cases x1 with
      | ok r =>
        obtain ⟨s, t⟩ := r
        exact values_ok hco ht tag fb caching rest (fun u hm => hu u (by simp [valueUses, hm])) _ _ (hc.resolve_left (by simp))
      | err e => exact .inl ⟨rfl, .inr (hc.resolve_left (by simp))⟩
      | panic => exact .inl ⟨rfl, .inl rfl⟩
  | (name, .string _) :: rest =>
    simp only [resolveValues]
    exact values_ok hco ht tag fb caching rest (fun u hm => hu u (by simp [valueUses, hm])) _ _ h
  | (name, .integer _) :: rest =>
    simp only [resolveValues]
    exact values_ok hco ht tag fb caching rest (fun u hm => hu u (by simp [valueUses, hm])) _ _ h
  | (name, .unsigned _) :: rest =>
    simp only [resolveValues]
    exact values_ok hco ht tag fb caching rest (fun u hm => hu u (by simp [valueUses, hm])) _ _ h
  | (name, .float _) :: rest =>
    simp only [resolveValues]
    exact values_ok hco ht tag fb caching rest (fun u hm => hu u (by simp [valueUses, hm])) _ _ h
  | (name, .taggedString _ _) :: rest =>
    simp only [resolveValues]
    exact values_ok hco ht tag fb caching rest (fun u hm => hu u (by simp [valueUses, hm])) _ _ h
  | (name, .localised _ _) :: rest =>
    simp only [resolveValues]
    exact values_ok hco ht tag fb caching rest (fun u hm => hu u (by simp [valueUses, hm])) _ _ h
  | (name, .fixedDecimal _) :: rest =>
    simp only [resolveValues]
    exact values_ok hco ht tag fb caching rest (fun u hm => hu u (by simp [valueUses, hm])) _ _ h
  | (name, .dateTime _ _) :: rest =>
    simp only [resolveValues]
    exact values_ok hco ht tag fb caching rest (fun u hm => hu u (by simp [valueUses, hm])) _ _ h
  | (name, .date _) :: rest =>
    simp only [resolveValues]
    exact values_ok hco ht tag fb caching rest (fun u hm => hu u (by simp [valueUses, hm])) _ _ h
  | (name, .time _) :: rest =>
    simp only [resolveValues]
    exact values_ok hco ht tag fb caching rest (fun u hm => hu u (by simp [valueUses, hm])) _ _ h
end

/-! ### Invariants of the cache -/

mutual
theorem data_inv {L : LocEnv D F P} (Q : Cache → Prop) (tag : Str) (fb caching : Bool) (uses : List Use)
    (hl : ∀ u ∈ uses, ∀ cache, Q cache → Q (actualLiteral L cache u.component u.identifier u.tag u.fallback caching).2)
    (hf : ∀ u ∈ uses, ∀ cache vs, Q cache →
      Q (actualFormat L cache u.component u.identifier vs u.tag u.fallback caching).2)
    (c i : Str) (values : Option (List (Str × PValue D F))) (hu : ∀ u ∈ dataUses tag fb c i values, u ∈ uses)
    (cache : Cache) (h : Q cache) : Q (actualData L tag fb caching c i values cache).2 := by
  match values with
  | none =>
    simp only [actualData]
    exact hl ⟨c, i, tag, fb, false⟩ (hu _ (by simp [dataUses])) cache h
  | some vs =>
    have hv := values_inv Q tag fb caching uses hl hf vs (fun u hm => hu u (by simp [dataUses, hm])) [] cache h
    simp only [actualData]
    generalize resolveValues L tag fb caching vs [] cache = x at hv ⊢
    obtain ⟨x1, x2⟩ := x
    cases x1 with
    | ok m => exact hf ⟨c, i, tag, fb, true⟩ (hu _ (by simp [dataUses])) x2 m hv
    | err e => exact hv
    | panic => exact hv

theorem values_inv {L : LocEnv D F P} (Q : Cache → Prop) (tag : Str) (fb caching : Bool) (uses : List Use)
    (hl : ∀ u ∈ uses, ∀ cache, Q cache → Q (actualLiteral L cache u.component u.identifier u.tag u.fallback caching).2)
    (hf : ∀ u ∈ uses, ∀ cache vs, Q cache →
      Q (actualFormat L cache u.component u.identifier vs u.tag u.fallback caching).2)
    (values : List (Str × PValue D F)) (hu : ∀ u ∈ valueUses tag fb values, u ∈ uses) (acc : AMap Str (PValue D F))
    (cache : Cache) (h : Q cache) : Q (resolveValues L tag fb caching values acc cache).2 := by
  match values with
  | [] => simp only [resolveValues]; exact h
  | (name, .localisationData c i vs) :: rest =>
    have hd := data_inv Q tag fb caching uses hl hf c i vs (fun u hm => hu u (by simp [valueUses, hm])) cache h
    simp only [resolveValues]
    generalize actualData L tag fb caching c i vs cache = x at hd ⊢
    obtain ⟨x1, x2⟩ := x
    cases x1 with
    | ok r =>
      obtain ⟨s, t⟩ := r
      exact values_inv Q tag fb caching uses hl hf rest (fun u hm => hu u (by simp [valueUses, hm])) _ _ hd
    | err e => exact hd
    | panic => exact hd
  | (name, .string _) :: rest =>
    simp only [resolveValues]
    exact values_inv Q tag fb caching uses hl hf rest (fun u hm => hu u (by simp [valueUses, hm])) _ _ h
  | (name, .integer _) :: rest =>
    simp only [resolveValues]
    exact values_inv Q tag fb caching uses hl hf rest (fun u hm => hu u (by simp [valueUses, hm])) _ _ h
  | (name, .unsigned _) :: rest =>
    simp only [resolveValues]
    exact values_inv Q tag fb caching uses hl hf rest (fun u hm => hu u (by simp [valueUses, hm])) _ _ h
  | (name, .float _) :: rest =>
    simp only [resolveValues]
    exact values_inv Q tag fb caching uses hl hf rest (fun u hm => hu u (by simp [valueUses, hm])) _ _ h
  | (name, .taggedString _ _) :: rest =>
    simp only [resolveValues]
    exact values_inv Q tag fb caching uses hl hf rest (fun u hm => hu u (by simp [valueUses, hm])) _ _ h
  | (name, .localised _ _) :: rest =>
    simp only [resolveValues]
    exact values_inv Q tag fb caching uses hl hf rest (fun u hm => hu u (by simp [valueUses, hm])) _ _ h
  | (name, .fixedDecimal _) :: rest =>
    simp only [resolveValues]
    exact values_inv Q tag fb caching uses hl hf rest (fun u hm => hu u (by simp [valueUses, hm])) _ _ h
  | (name, .dateTime _ _) :: rest =>
    simp only [resolveValues]
    exact values_inv Q tag fb caching uses hl hf rest (fun u hm => hu u (by simp [valueUses, hm])) _ _ h
  | (name, .date _) :: rest =>
    simp only [resolveValues]
    exact values_inv Q tag fb caching uses hl hf rest (fun u hm => hu u (by simp [valueUses, hm])) _ _ h
  | (name, .time _) :: rest =>
    simp only [resolveValues]
    exact values_inv Q tag fb caching uses hl hf rest (fun u hm => hu u (by simp [valueUses, hm])) _ _ h
end

/-- Every entry comes from a use with its key. -/
def Traced (L : LocEnv D F P) (uses : List Use) (cache : Cache) : Prop :=
  ∀ tag m, cache.get tag = some m → ∀ key e, m.get key = some e →
    ∃ u ∈ uses, key = cacheKey u.component u.identifier ∧ MadeFrom L u.component u.identifier e

theorem Traced.insert {L : LocEnv D F P} {uses : List Use} {cache : Cache} (h : Traced L uses cache) {u : Use}
    (hu : u ∈ uses) {e : CacheData} (he : MadeFrom L u.component u.identifier e) (tag : Str) (m : AMap Str CacheData)
    (hm : ∀ key e, m.get key = some e → ∃ u ∈ uses, key = cacheKey u.component u.identifier ∧
      MadeFrom L u.component u.identifier e) :
    Traced L uses (cache.insert tag (m.insert (cacheKey u.component u.identifier) e)) := by
  intro tag' m' h' key' e' hk
  rw [AMap.get_insert] at h'
  by_cases ht : tag = tag'
  · simp only [ht, if_true] at h'
    cases h'
    rw [AMap.get_insert] at hk
    by_cases hkk : cacheKey u.component u.identifier = key'
    · simp only [hkk, if_true] at hk
      cases hk
      exact ⟨u, hu, hkk.symm, he⟩
    · simp only [hkk, if_false] at hk
      exact hm _ _ hk
  · simp only [ht, if_false] at h'
    exact h _ _ h' _ _ hk

theorem returnString_traced {L : LocEnv D F P} {uses : List Use} {cache : Cache} (h : Traced L uses cache) {u : Use}
    (hu : u ∈ uses) (caching ex : Bool) {s t : Str} (he : MadeFrom L u.component u.identifier (.localised s t)) :
    Traced L uses (returnString (P := P) cache caching ex (cacheKey u.component u.identifier) s t).2 := by
  unfold returnString addStringToCache
  cases caching with
  | false => exact h
  | true =>
    cases ex with
    | false => exact h.insert hu he t [] (fun _ _ h => by cases h)
    | true =>
      simp only [not_true, if_false, if_true]
      cases hg : AMap.get cache t with
      | none => exact h
      | some m => exact h.insert hu he t m (h _ _ hg)

theorem literal_traced {L : LocEnv D F P} {uses : List Use} {cache : Cache} (h : Traced L uses cache) {u : Use}
    (hu : u ∈ uses) (caching : Bool) :
    Traced L uses (actualLiteral L cache u.component u.identifier u.tag u.fallback caching).2 := by
  unfold actualLiteral
  dsimp only
  split
  · exact h
  · exact h
  · have hf := fetch_found L u.component u.identifier u.tag u.fallback
    cases hx : fetch L u.component u.identifier u.tag u.fallback with
    | err e => exact h
    | panic => exact h
    | ok r => exact returnString_traced h hu _ _ (.localised (hx ▸ hf))

theorem after_one (E : FmtEnv D F) (f : Formatter) (v : AMap Str (PValue D F)) : (f.format E v).2 = after E f [v] := rfl

theorem after_append (E : FmtEnv D F) (f : Formatter) (h h' : List (AMap Str (PValue D F))) :
    after E (after E f h) h' = after E f (h ++ h') := by simp [after, List.foldl_append]

theorem format_traced {L : LocEnv D F P} {uses : List Use} (hs : ∀ u ∈ uses, '/' ∉ u.component) {cache : Cache}
    (h : Traced L uses cache) {u : Use} (hu : u ∈ uses) (values : AMap Str (PValue D F)) (caching : Bool) :
    Traced L uses (actualFormat L cache u.component u.identifier values u.tag u.fallback caching).2 := by
  have hcached : ∀ (m : AMap Str CacheData) f cache, Traced L uses cache →
      MadeFrom L u.component u.identifier (.formatter f) →
      (∀ key e, AMap.get m key = some e → ∃ u ∈ uses, key = cacheKey u.component u.identifier ∧
        MadeFrom L u.component u.identifier e) →
      Traced L uses (formatCached (P := P) L.fmt cache m u.tag (cacheKey u.component u.identifier) f values).2 := by
    intro m f cache hc he hm
    refine hc.insert hu ?_ u.tag m hm
    cases he with
    | formatter history h1 h2 =>
      rw [after_one, after_append]
      exact .formatter _ h1 h2
  unfold actualFormat
  dsimp only
  split
  · exact h
  · rename_i m f he
    cases hg : AMap.get cache u.tag with
    | none => rw [hg] at he; cases he
    | some m' =>
      rw [hg] at he
      simp only [Option.bind_some] at he
      cases hk : AMap.get m' (cacheKey u.component u.identifier) with
      | none => rw [hk] at he; cases he
      | some e =>
        rw [hk] at he
        simp only [Option.map_some, Option.some.injEq, Prod.mk.injEq] at he
        obtain ⟨rfl, rfl⟩ := he
        obtain ⟨v, hv, h1, h2⟩ := h _ _ hg _ _ hk
        obtain ⟨e1, e2⟩ := cacheKey_inj h1 (hs u hu) (hs v hv)
        refine hcached _ _ _ h ?_ (h _ _ hg)
        rw [e1, e2]
        exact h2
  · have hf := fetch_found L u.component u.identifier u.tag u.fallback
    cases hx : fetch L u.component u.identifier u.tag u.fallback with
    | err e => exact h
    | panic => exact h
    | ok r =>
      obtain ⟨s, t⟩ := r
      have hret := returnString_traced h hu caching (AMap.get cache u.tag).isSome (.localised (hx ▸ hf))
      simp only
      by_cases hse : s = []
      · simp only [hse, if_true]
        rw [hse] at hret
        exact hret
      · simp only [hse, if_false]
        cases hy : Formatter.tryNew L.fmt s t (L.icuLanguage t) with
        | panic => exact h
        | err e => cases e <;> first | exact h | exact hret
        | ok f =>
          have hmade : MadeFrom L u.component u.identifier (.formatter f) :=
            .formatter [] (hx ▸ hf) hy
          cases caching with
          | false => exact h
          | true =>
            simp only [not_true, if_false]
            unfold cacheFormatter
            cases hg : AMap.get cache u.tag with
            | none =>
              simp only [Option.isSome_none, Bool.false_eq_true, not_false_eq_true, if_true, AMap.get_insert_self]
              have hh : AMap.get [(cacheKey u.component u.identifier, CacheData.formatter f)]
                  (cacheKey u.component u.identifier) = some (.formatter f) := by simp [AMap.get_cons]
              rw [hh]
              refine hcached _ _ _ (h.insert hu hmade u.tag [] (fun _ _ h => by cases h)) hmade ?_
              intro key e he
              rw [AMap.get_cons] at he
              split at he
              · rename_i hk
                cases he
                exact ⟨u, hu, hk.symm, hmade⟩
              · cases he
            | some m =>
              simp only [Option.isSome_some, not_true, if_false, AMap.get_insert_self]
              refine hcached _ _ _ (h.insert hu hmade u.tag m (h _ _ hg)) hmade ?_
              intro key e he
              rw [AMap.get_insert] at he
              split at he
              · rename_i hk
                cases he
                exact ⟨u, hu, hk.symm, hmade⟩
              · exact h _ _ hg _ _ he

theorem call_traced {L : LocEnv D F P} {uses : List Use} (hs : ∀ u ∈ uses, '/' ∉ u.component) (scriptOf : Str → S)
    (l : Localiser S) (h : Traced L uses l.cache) (r : Request D F)
    (hu : ∀ u ∈ requestUses l.tag l.fallback r, u ∈ uses) : Traced L uses (l.call L scriptOf r).2.cache := by
  cases r with
  | format c i vs t fb ca =>
    exact format_traced hs h (u := ⟨c, i, t.getD l.tag, fb.getD l.fallback, true⟩) (hu _ (by simp [requestUses])) vs _
  | literal c i t fb ca =>
    exact literal_traced h (u := ⟨c, i, t.getD l.tag, fb.getD l.fallback, false⟩) (hu _ (by simp [requestUses])) _
  | data c i vs t fb ca =>
    exact data_inv (Traced L uses) _ _ _ uses (fun u hu cache h => literal_traced h hu _)
      (fun u hu cache vs h => format_traced hs h hu vs _) c i vs (fun u hm => hu u hm) l.cache h
  | defaults t fb ca =>
    have : (l.setDefaults scriptOf t fb ca).cache = l.cache := by
      unfold Localiser.setDefaults
      cases t <;> cases fb <;> cases ca <;> rfl
    simp only [Localiser.call, this]
    exact h

/-! ### Histories -/

theorem call_ok {L : LocEnv D F P} {uses : List Use} (hco : Coherent L.provider) (ht : Tame L uses)
    (scriptOf : Str → S) (l : Localiser S) (h : CacheOk L uses l.cache) (r : Request D F)
    (hu : ∀ u ∈ requestUses l.tag l.fallback r, u ∈ uses) :
    ((l.call L scriptOf r).1 = (({ l with cache := [] } : Localiser S).call L scriptOf (uncached r)).1 ∧
      ((l.call L scriptOf r).1 = some .panic ∨ CacheOk L uses (l.call L scriptOf r).2.cache)) ∨
    ((l.call L scriptOf r).1 = some .panic ∧ ¬ Exact L uses) := by
  have hstep : ∀ (x : LocM P (Str × Str) × Cache) (y : LocM P (Str × Str)), StepOk L uses x y →
      (some x.1 = some y ∧ (some x.1 = some .panic ∨ CacheOk L uses x.2)) ∨ (some x.1 = some .panic ∧ ¬ Exact L uses) := by
    rintro x y (⟨h, hc⟩ | ⟨h, hx⟩)
    · exact .inl ⟨by rw [h], hc.imp (fun h => by rw [h]) id⟩
    · exact .inr ⟨by rw [h], hx⟩
  cases r with
  | format c i vs t fb ca =>
    have := format_ok hco ht h (u := ⟨c, i, t.getD l.tag, fb.getD l.fallback, true⟩)
      (hu _ (by simp [requestUses])) rfl vs (ca.getD l.caching)
    simpa [Localiser.call, uncached, actualFormat_nil] using hstep _ _ this
  | literal c i t fb ca =>
    have := literal_ok hco ht h (u := ⟨c, i, t.getD l.tag, fb.getD l.fallback, false⟩)
      (hu _ (by simp [requestUses])) rfl (ca.getD l.caching)
    simpa [Localiser.call, uncached, actualLiteral_nil] using hstep _ _ this
  | data c i vs t fb ca =>
    have := data_ok hco ht (t.getD l.tag) (fb.getD l.fallback) (ca.getD l.caching) c i vs
      (fun u hm => hu u hm) l.cache h
    simpa [Localiser.call, uncached] using hstep _ _ this
  | defaults t fb ca =>
    refine .inl ⟨rfl, .inr ?_⟩
    have : (l.setDefaults scriptOf t fb ca).cache = l.cache := by
      unfold Localiser.setDefaults
      cases t <;> cases fb <;> cases ca <;> rfl
    simp only [Localiser.call, this]
    exact h

theorem call_defaults (L : LocEnv D F P) (scriptOf : Str → S) (l : Localiser S) (r : Request D F)
    (rest : List (Request D F)) :
    callsUses l.tag l.fallback (r :: rest) =
      requestUses l.tag l.fallback r ++ callsUses (l.call L scriptOf r).2.tag (l.call L scriptOf r).2.fallback rest := by
  cases r with
  | defaults t fb ca =>
    simp only [callsUses, requestUses, Localiser.call, Localiser.setDefaults]
    cases t <;> cases fb <;> cases ca <;> rfl
  | _ => rfl

theorem history_ok {L : LocEnv D F P} {uses : List Use} (hco : Coherent L.provider) (ht : Tame L uses)
    (scriptOf : Str → S) (r : Request D F) : ∀ (calls : List (Request D F)) (l : Localiser S),
    CacheOk L uses l.cache → (∀ u ∈ callsUses l.tag l.fallback (calls ++ [r]), u ∈ uses) → NoPanic L scriptOf l calls →
    CacheOk L uses (l.after L scriptOf calls).cache ∧
      ∀ u ∈ requestUses (l.after L scriptOf calls).tag (l.after L scriptOf calls).fallback r, u ∈ uses := by
  intro calls
  induction calls with
  | nil =>
    intro l h hu _
    refine ⟨h, fun u hm => hu u ?_⟩
    rw [List.nil_append, call_defaults L scriptOf]
    exact List.mem_append_left _ hm
  | cons q rest ih =>
    intro l h hu hp
    rw [List.cons_append, call_defaults L scriptOf] at hu
    rcases call_ok hco ht scriptOf l h q (fun u hm => hu u (List.mem_append_left _ hm)) with ⟨_, h1⟩ | ⟨h1, _⟩
    · exact ih _ (h1.resolve_left hp.1) (fun u hm => hu u (List.mem_append_right _ hm)) hp.2
    · exact absurd h1 hp.1

theorem history_traced {L : LocEnv D F P} {uses : List Use} (hs : ∀ u ∈ uses, '/' ∉ u.component) (scriptOf : Str → S) :
    ∀ (calls : List (Request D F)) (l : Localiser S), Traced L uses l.cache →
    (∀ u ∈ callsUses l.tag l.fallback calls, u ∈ uses) → Traced L uses (l.after L scriptOf calls).cache := by
  intro calls
  induction calls with
  | nil => intro l h _; exact h
  | cons q rest ih =>
    intro l h hu
    rw [call_defaults L scriptOf] at hu
    exact ih _ (call_traced hs scriptOf l h q (fun u hm => hu u (List.mem_append_left _ hm)))
      (fun u hm => hu u (List.mem_append_right _ hm))

end Verif.LocaliserLemmas
