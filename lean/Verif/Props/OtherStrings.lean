import Verif.Spec.OtherStrings
import Verif.Lemmas.ProviderUsable
import Verif.Props.Errors
import Verif.Props.Localiser
/-
Properties of what the answer to a request may depend on.
-/
namespace Verif.Props
open Verif Verif.Spec Verif.ProviderLemmas

variable {E D F P S : Type}

/-! ### The provider -/

theorem select_same {rows rows' : List PatternRow} {c i : Str}
    (h : rows.filter (fun r => For c i r) = rows'.filter (fun r => For c i r)) (onlyOne exact : Bool) (pattern : Str) :
    selectPattern rows onlyOne exact i pattern c = selectPattern rows' onlyOne exact i pattern c := by
  have key : ∀ rows : List PatternRow, (rows.filter fun r =>
      decide (r.identifier = i ∧ (if exact then r.tag = pattern else like pattern r.tag = true) ∧ r.component = c)) =
      (rows.filter (fun r => For c i r)).filter fun r => decide (if exact then r.tag = pattern else like pattern r.tag = true) := by
    intro rows
    rw [List.filter_filter]
    apply List.filter_congr
    intro r _
    rw [← Bool.decide_and, decide_eq_decide]
    exact ⟨fun h => ⟨h.2.1, h.2.2, h.1⟩, fun h => ⟨h.2.2, h.1, h.2.1⟩⟩
  unfold selectPattern
  rw [key rows, key rows', h]

theorem findLoop_same (canon : Str → Except E Str) {rows rows' : List PatternRow} {c i : Str}
    (h : rows.filter (fun r => For c i r) = rows'.filter (fun r => For c i r)) (onlyOne exact : Bool) :
    ∀ (n : Nat) (tag : Str), tag.length ≤ n →
      findLoop canon rows c i onlyOne exact tag = findLoop canon rows' c i onlyOne exact tag := by
  intro n
  induction n with
  | zero =>
    intro tag hn
    have : tag = [] := by simpa using hn
    subst this
    rw [findLoop, findLoop]
    simp
  | succ n ih =>
    intro tag hn
    rw [findLoop, findLoop]
    simp only [select_same h]
    by_cases hne : tag = []
    · simp [hne]
    simp only [hne, if_false]
    split
    · rfl
    · rfl
    · split
      · rfl
      · split
        · rfl
        · next b hb =>
          have hb' : rsplitBefore '-' tag = some b := by
            cases exact with
            | true => simpa using hb
            | false => exact (rsplitBefore_snoc (d := '%') (by decide)).symm.trans (by simpa using hb)
          have := rsplitBefore_length hb'
          exact ih b (by omega)

theorem find_same {canon : Str → Except E Str} {p : Sqlite} {st st' : Store} {c i : Str} {files : Bool × Bool}
    (h : p.components.get c = some files) (hs : SameStrings st st' c i (places files c)) (tag : Str) (aio one exact : Bool)
    (hf : if aio then files.1 = true else files.2 = true) :
    p.findStrings canon st c i tag aio one exact = p.findStrings canon st' c i tag aio one exact := by
  have key : ∀ name ∈ places files c, (readTable (E := E) (st name).pattern >>= fun rows => findLoop canon rows c i one exact tag) =
      (readTable (st' name).pattern >>= fun rows => findLoop canon rows c i one exact tag) := by
    intro name hn
    rcases hs name hn with ⟨code, h1, h2⟩ | ⟨rows, rows', h1, h2, h3⟩
    · rw [h1, h2]
    · rw [h1, h2]
      exact findLoop_same canon h3 one exact _ _ (Nat.le_refl _)
  unfold Sqlite.findStrings
  cases hcon : p.connection (E := E) c aio with
  | err e => rfl
  | panic => rfl
  | ok name =>
    simp only [Outcome.bind_ok]
    refine key name ?_
    unfold Sqlite.connection at hcon
    rw [h] at hcon
    obtain ⟨f1, f2⟩ := files
    cases aio with
    | true =>
      simp only [if_true] at hf
      subst hf
      simp only [Bool.and_self, if_true] at hcon
      obtain ⟨v, hv⟩ : ∃ v, p.connections.get allInOne = some v := by
        cases hg : p.connections.get allInOne with
        | none => rw [hg] at hcon; cases hcon
        | some v => exact ⟨v, rfl⟩
      rw [hv] at hcon
      cases hcon
      simp [places]
    | false =>
      simp only [Bool.false_eq_true, if_false] at hf
      subst hf
      simp only [Bool.false_and, Bool.false_eq_true, if_false, if_true] at hcon
      obtain ⟨v, hv⟩ : ∃ v, p.connections.get c = some v := by
        cases hg : p.connections.get c with
        | none => rw [hg] at hcon; cases hcon
        | some v => exact ⟨v, rfl⟩
      rw [hv] at hcon
      cases hcon
      simp [places]

theorem askIf_same {α : Type} {b : Bool} {x y : ProvM E α} {d : α} (h : b = true → x = y) : askIf b x d = askIf b y d := by
  cases b with
  | false => rfl
  | true => rw [h rfl]

/-- **C91** What the SQLite provider gives for a string depends only on the rows for that string in the places of its
component: neither on the rows for other strings nor on the other tables. -/
theorem C91_only_rows_of_the_string (canon : Str → Except E Str) (p : Sqlite) {st st' : Store} {c i : Str}
    (h : ∀ files, p.components.get c = some files → SameStrings st st' c i (places files c)) (tag : Str) :
    p.string canon st c i tag = p.string canon st' c i tag ∧
    p.stringExactMatch canon st c i tag = p.stringExactMatch canon st' c i tag ∧
    p.strings canon st c i tag = p.strings canon st' c i tag := by
  have one : ∀ exact, p.oneString canon st c i tag exact = p.oneString canon st' c i tag exact := by
    intro exact
    unfold Sqlite.oneString
    cases hg : p.components.get c with
    | none => rfl
    | some files =>
      simp only
      rw [askIf_same fun hf => find_same hg (h files hg) tag true true exact hf,
        askIf_same (b := files.2) fun hf => find_same hg (h files hg) tag false true exact hf]
  refine ⟨one false, one true, ?_⟩
  unfold Sqlite.strings
  cases hg : p.components.get c with
  | none => rfl
  | some files =>
    simp only
    rw [askIf_same fun hf => find_same hg (h files hg) tag true false false hf]
    congr 1
    funext first
    rw [askIf_same (b := files.2) fun hf => find_same hg (h files hg) tag false false false hf]

/-! ### The localiser -/

theorem fetch_same {L : LocEnv D F P} {q : Provider P} {c i tag : Str} {fallback : Bool}
    {formatted : Bool} (h : SameFor L.provider q ⟨c, i, tag, fallback, formatted⟩) :
    fetch L c i tag fallback = fetch { L with provider := q } c i tag fallback := by
  obtain ⟨h1, h2⟩ := h
  unfold fetch
  simp only at h1 h2 ⊢
  rw [← h1]
  cases hs : L.provider.string c i tag with
  | error e => rfl
  | ok x =>
    cases x with
    | some r => rfl
    | none =>
      cases fallback with
      | false => rfl
      | true =>
        obtain ⟨h3, h4⟩ := h2 rfl hs
        simp only [not_true_eq_false, if_false]
        rw [← h3]
        cases hd : L.provider.default c with
        | error e => rfl
        | ok d => simp only [h4 d hd]

theorem format_same {L : LocEnv D F P} {q : Provider P} {c i tag : Str} {fallback formatted : Bool}
    (h : SameFor L.provider q ⟨c, i, tag, fallback, formatted⟩) (cache : Cache) (values : AMap Str (PValue D F))
    (caching : Bool) : actualFormat L cache c i values tag fallback caching =
      actualFormat { L with provider := q } cache c i values tag fallback caching := by
  unfold actualFormat
  simp only [fetch_same h]

theorem literal_same {L : LocEnv D F P} {q : Provider P} {c i tag : Str} {fallback formatted : Bool}
    (h : SameFor L.provider q ⟨c, i, tag, fallback, formatted⟩) (cache : Cache) (caching : Bool) :
    actualLiteral L cache c i tag fallback caching = actualLiteral { L with provider := q } cache c i tag fallback caching := by
  unfold actualLiteral
  simp only [fetch_same h]

mutual
theorem data_same {L : LocEnv D F P} {q : Provider P} {tag : Str} {fallback : Bool} (caching : Bool) (c i : Str)
    (values : Option (List (Str × PValue D F))) (cache : Cache)
    (h : ∀ u ∈ dataUses tag fallback c i values, SameFor L.provider q u) :
    actualData L tag fallback caching c i values cache =
      actualData { L with provider := q } tag fallback caching c i values cache := by
  match values with
  | none =>
    rw [actualData, actualData]
    exact literal_same (formatted := false) (h _ (by simp [dataUses])) cache caching
  | some vs =>
    rw [actualData, actualData]
    rw [values_same caching vs [] cache fun u hu => h u (by simp [dataUses, hu])]
    split
    · exact format_same (formatted := true) (h _ (by simp [dataUses])) _ _ caching
    · rfl
    · rfl

theorem values_same {L : LocEnv D F P} {q : Provider P} {tag : Str} {fallback : Bool} (caching : Bool)
    (values : List (Str × PValue D F)) (acc : AMap Str (PValue D F)) (cache : Cache)
    (h : ∀ u ∈ valueUses tag fallback values, SameFor L.provider q u) :
    resolveValues L tag fallback caching values acc cache =
      resolveValues { L with provider := q } tag fallback caching values acc cache := by
  match values with
  | [] => rw [resolveValues, resolveValues]
  | (name, .localisationData c i vs) :: rest =>
    rw [resolveValues, resolveValues]
    rw [data_same caching c i vs cache fun u hu => h u (by simp [valueUses, hu])]
    split
    · exact values_same caching rest _ _ fun u hu => h u (by simp [valueUses, hu])
    · rfl
    · rfl
  | (name, .string _) :: rest | (name, .integer _) :: rest | (name, .unsigned _) :: rest | (name, .float _) :: rest
  | (name, .taggedString _ _) :: rest | (name, .localised _ _) :: rest | (name, .fixedDecimal _) :: rest
  | (name, .dateTime _ _) :: rest | (name, .date _) :: rest | (name, .time _) :: rest =>
    simp only [resolveValues]
    exact values_same caching rest _ _ fun u hu => h u (by simp [valueUses, hu])
end

theorem call_same {L : LocEnv D F P} {q : Provider P} (scriptOf : Str → S) (l : Localiser S) (r : Request D F)
    (h : ∀ u ∈ requestUses l.tag l.fallback r, SameFor L.provider q u) :
    l.call L scriptOf r = l.call { L with provider := q } scriptOf r := by
  cases r with
  | format c i vs t fb ca =>
    have := fun cache => format_same (L := L) (q := q) (formatted := true)
      (h ⟨c, i, t.getD l.tag, fb.getD l.fallback, true⟩ (by simp [requestUses])) cache vs (ca.getD l.caching)
    simp only [Localiser.call, this]
  | literal c i t fb ca =>
    have := fun cache => literal_same (L := L) (q := q) (formatted := false)
      (h ⟨c, i, t.getD l.tag, fb.getD l.fallback, false⟩ (by simp [requestUses])) cache (ca.getD l.caching)
    simp only [Localiser.call, this]
  | data c i vs t fb ca =>
    have := data_same (L := L) (q := q) (tag := t.getD l.tag) (fallback := fb.getD l.fallback) (ca.getD l.caching) c i vs
      l.cache h
    simp only [Localiser.call, this]
  | defaults t fb ca => rfl

/-- **C91** The answers of a localiser to any requests, one after the other, depend only on the strings that these requests
need: with another provider that gives the same for those, every answer is the same. -/
theorem C91_only_needed_strings (L : LocEnv D F P) (q : Provider P) (scriptOf : Str → S) (l : Localiser S)
    (calls : List (Request D F)) (r : Request D F)
    (h : ∀ u ∈ callsUses l.tag l.fallback (calls ++ [r]), SameFor L.provider q u) :
    (l.after L scriptOf calls).call L scriptOf r =
      (l.after { L with provider := q } scriptOf calls).call { L with provider := q } scriptOf r := by
  induction calls generalizing l with
  | nil =>
    rw [List.nil_append, LocaliserLemmas.call_defaults L scriptOf] at h
    exact call_same scriptOf l r fun u hu => h u (List.mem_append_left _ hu)
  | cons x rest ih =>
    rw [List.cons_append, LocaliserLemmas.call_defaults L scriptOf] at h
    have hx := call_same scriptOf l x fun u hu => h u (List.mem_append_left _ hu)
    have := ih (l.call L scriptOf x).2 fun u hu => h u (List.mem_append_right _ hu)
    simp only [Localiser.after, List.foldl_cons] at this ⊢
    rw [← hx]
    exact this

/-! ### The localiser with the provider -/

theorem defaultOf_same {canon : Str → Except E Str} {st st' : Verif.Store} {c t : Str} {names : List Str}
    (h : SameDefaults st st' c names) (hd : DefaultOf canon st c names t) : DefaultOf canon st' c names t := by
  induction hd with
  | @here name names rows r t h1 h2 h3 h4 =>
    obtain ⟨_, rows', e1, e2, e3⟩ := h name (by simp)
    cases h1.symm.trans e1
    refine .here e2 (fun x hx hid => ?_) (e3 ▸ h3) h4
    have : x ∈ rows'.filter fun r => r.identifier = c := List.mem_filter.2 ⟨hx, by simpa using hid⟩
    rw [← e3] at this
    exact h2 x (List.mem_filter.1 this).1 hid
  | @later name names t hn _ ih =>
    obtain ⟨rows, h1, h2⟩ := hn
    obtain ⟨_, rows', e1, e2, e3⟩ := h name (by simp)
    cases h1.symm.trans e1
    refine .later ⟨rows', e2, fun x hx hid => ?_⟩ (ih fun n hn => h n (by simp [hn]))
    have : x ∈ rows'.filter fun r => r.identifier = c := List.mem_filter.2 ⟨hx, by simpa using hid⟩
    rw [← e3] at this
    exact h2 x (List.mem_filter.1 this).1 hid

theorem details_default {canon : Str → Except E Str} {p : Sqlite} (hc : Connected p) (hk : p.components.keys.Nodup)
    {st : Verif.Store} {details : AMap Str ComponentDetails} {repo : RepositoryDetails}
    (h : p.buildCache canon st = .ok (details, repo)) (c : Str) :
    (p.components.get c = none ∧ details.get c = none) ∨
    ∃ files d, p.components.get c = some files ∧ details.get c = some d ∧
      DefaultOf canon st c (places files c) d.default := by
  obtain ⟨h1, h2, _⟩ := buildCache_ok hk h
  cases hg : p.components.get c with
  | none =>
    refine .inl ⟨rfl, ?_⟩
    rw [AMap.get_eq_none_iff] at hg ⊢
    rwa [h2]
  | some files =>
    cases hd : details.get c with
    | none =>
      rw [AMap.get_eq_none_iff, h2, ← AMap.get_eq_none_iff, hg] at hd
      cases hd
    | some d =>
      refine .inr ⟨files, d, rfl, rfl, ?_⟩
      obtain ⟨files', hmem, hb⟩ := h1.built _ (AMap.mem_of_get hd)
      have : files' = files := by
        have := AMap.get_of_mem hk hmem
        rw [hg] at this
        exact (Option.some.inj this).symm
      subst this
      obtain ⟨first, a1, a2⟩ := hb.defaultFrom
      refine (asked_ok (canon := canon) (st := st) hc hg (x := some d.default) ?_).2 _ rfl
      unfold Asked
      simp only at a1 a2
      rw [a1]
      exact a2

/-- **C91, what holds.** A localiser over the SQLite provider answers any requests, one after the other, the same from two
stores that have the same rows for the strings that the requests need, if, where fallback is asked for, both stores give
details and name the same default languages. Missing: faults of components that are not asked for (`C91_violated`). -/
theorem C91_other_strings_partial {canon : Str → Except E Str} {p : Sqlite} (hc : Connected p) (hk : p.components.keys.Nodup)
    {st st' : Verif.Store} (L : LocEnv D F (Option (ProvErr E))) (hL : L.provider = asProvider canon p st)
    (scriptOf : Str → S) (l : Localiser S) (calls : List (Request D F)) (r : Request D F)
    (h : ∀ u ∈ callsUses l.tag l.fallback (calls ++ [r]), ∀ files, p.components.get u.component = some files →
      SameStrings st st' u.component u.identifier (places files u.component) ∧
      (u.fallback = true → SameDefaults st st' u.component (places files u.component)))
    (hd : (∃ u ∈ callsUses l.tag l.fallback (calls ++ [r]), u.fallback = true) →
      ∀ c files, p.components.get c = some files → Usable canon st files c ∧ Usable canon st' files c) :
    let L' := { L with provider := asProvider canon p st' }
    (l.after L scriptOf calls).call L scriptOf r = (l.after L' scriptOf calls).call L' scriptOf r := by
  refine C91_only_needed_strings L _ scriptOf l calls r fun u hu => ?_
  have hs : ∀ tag, p.string canon st u.component u.identifier tag = p.string canon st' u.component u.identifier tag :=
    fun tag => (C91_only_rows_of_the_string canon p (fun files hg => (h u hu files hg).1) tag).1
  rw [hL]
  refine ⟨by simp only [asProvider, hs], fun hf _ => ⟨?_, fun d _ => by simp only [asProvider, hs]⟩⟩
  have hus := hd ⟨u, hu, hf⟩
  obtain ⟨⟨d1, r1⟩, e1⟩ := (buildCache_iff hc hk).2 fun c files hg => (hus c files hg).1
  obtain ⟨⟨d2, r2⟩, e2⟩ := (buildCache_iff hc hk).2 fun c files hg => (hus c files hg).2
  simp only [asProvider, e1, e2]
  rcases details_default hc hk e1 u.component with ⟨h1, h2⟩ | ⟨files, d, h1, h2, h3⟩
  · rcases details_default hc hk e2 u.component with ⟨h4, h5⟩ | ⟨files, d, h4, _⟩
    · rw [h2, h5]
    · rw [h1] at h4; cases h4
  · rcases details_default hc hk e2 u.component with ⟨h4, h5⟩ | ⟨files', d', h4, h5, h6⟩
    · rw [h1] at h4; cases h4
    · rw [h1] at h4
      cases h4
      rw [h2, h5]
      simp only
      rw [DefaultOf.unique (defaultOf_same ((h u hu files h1).2 hf) h3) h6]

/-- **C91, exactly.** The two stores have the same rows for the string and name the same default languages of its component,
nothing is cached for the request, and it gives a text with the first store. Then it gives the same text with the second if
and only if fallback is not asked for, or the string is found without, or every component has in the second store what its
details need. -/
theorem C91_exactly_partial {canon : Str → Except E Str} {p : Sqlite} (hc : Connected p) (hk : p.components.keys.Nodup)
    {st st' : Verif.Store} (L : LocEnv D F (Option (ProvErr E))) (hL : L.provider = asProvider canon p st)
    (scriptOf : Str → S) (l : Localiser S) {c i tag : Str} (hn : NotCached l.cache c i tag) {files : Bool × Bool}
    (hg : p.components.get c = some files) (hs : SameStrings st st' c i (places files c))
    (hd : SameDefaults st st' c (places files c)) (fb : Bool) {x : Str × Str}
    (hx : (l.call L scriptOf (.literal c i (some tag) (some fb) (some false))).1 = some (.ok x)) :
    let L' := { L with provider := asProvider canon p st' }
    (l.call L' scriptOf (.literal c i (some tag) (some fb) (some false))).1 = some (.ok x) ↔
      fb = false ∨ L.provider.string c i tag ≠ .ok none ∨
        ∀ c' files', p.components.get c' = some files' → Usable canon st' files' c' := by
  intro L'
  have key : ∀ (M : LocEnv D F (Option (ProvErr E))) (l : Localiser S), NotCached l.cache c i tag →
      (l.call M scriptOf (.literal c i (some tag) (some fb) (some false))).1 = some (fetch M c i tag fb) := by
    intro M l hn
    have e : (AMap.get l.cache tag).bind (fun m => m.get (cacheKey c i)) = none := by
      cases hm : AMap.get l.cache tag with
      | none => rfl
      | some m => exact hn m hm
    simp only [Localiser.call, actualLiteral, Option.getD_some, e]
    cases fetch M c i tag fb <;> simp [returnString]
  rw [key _ _ hn] at hx ⊢
  have hst : ∀ t, L'.provider.string c i t = L.provider.string c i t := by
    intro t
    have := (C91_only_rows_of_the_string canon p (i := i) (fun f h => by rw [hg] at h; cases h; exact hs) t).1
    simp only [L', hL, asProvider, this]
  have hx := Option.some.inj hx
  constructor
  · intro h
    by_cases hfb : fb = false
    · exact .inl hfb
    by_cases hnone : L.provider.string c i tag = .ok none
    · refine .inr (.inr ((buildCache_iff hc hk).1 ?_))
      have h := Option.some.inj h
      simp only [fetch, hst, hnone, hfb] at h
      cases hb : p.buildCache canon st' with
      | ok y => exact ⟨y, rfl⟩
      | err er => simp [L', asProvider, hb] at h
      | panic => simp [L', asProvider, hb] at h
    · exact .inr (.inl hnone)
  · intro h
    congr 1
    rw [← hx]
    by_cases hnone : L.provider.string c i tag = .ok none
    · rcases h with h | h | h
      · simp [fetch, hnone, h] at hx
      · exact absurd hnone h
      · have hus : ∃ y, p.buildCache canon st = .ok y := by
          have hdef : L.provider.default c = (asProvider canon p st).default c := by rw [hL]
          simp only [fetch, hnone, hdef] at hx
          cases hb : p.buildCache canon st with
          | ok y => exact ⟨y, rfl⟩
          | err er => cases fb <;> simp [asProvider, hb] at hx
          | panic => cases fb <;> simp [asProvider, hb] at hx
        have h1 := C91_other_strings_partial hc hk (st' := st') L hL scriptOf
          ({ l with cache := [] } : Localiser S) [] (.literal c i (some tag) (some fb) (some false)) (fun u hu f hf => by
            simp only [List.nil_append, callsUses, requestUses, List.append_nil, List.mem_singleton] at hu
            subst hu
            simp only at hf
            rw [hg] at hf
            cases hf
            exact ⟨hs, fun _ => hd⟩)
          fun _ c' f' hf' => ⟨(buildCache_iff hc hk).1 hus c' f' hf', h c' f' hf'⟩
        have h2 := congrArg Prod.fst h1
        simp only [Localiser.after, List.foldl_nil] at h2
        rw [key _ _ (fun m h => by cases h), key _ _ (fun m h => by cases h)] at h2
        exact (Option.some.inj h2).symm
    · unfold fetch
      rw [hst]
      cases hs' : L.provider.string c i tag with
      | error er => rfl
      | ok o =>
        cases o with
        | none => exact absurd hs' hnone
        | some r => rfl

/-! ### The violation, and an example -/

namespace DemoOthers
open DemoStore

def other : Str := "other".toList

/-- Two components, each with its own file. -/
def two : Sqlite := { components := [(app, (false, true)), (other, (false, true))],
                      connections := [(app, "1.0".toList), (other, "1.0".toList)] }

/-- The database of the other component. -/
def others (rows : List PatternRow) (defaults : List ComponentRow) : Database :=
  { pattern := .ok rows, contributor := .ok [{ component := other, tag := en, contributor := "Ann".toList }],
    component := .ok defaults }

/-- The database of the component of the requests is always the same. -/
def stores (o : Database) : Verif.Store := fun name =>
  if name = app then tables [row en hello] [writer en "Ann".toList] else o

def good : Database := others [] [{ identifier := other, tag := en }]
def more : Database := others [{ component := other, identifier := greeting, tag := enZA, string := howzit }]
  [{ identifier := other, tag := en }]
def bad : Database := others [] []

def loc (o : Database) : LocEnv Nat Unit (Option (ProvErr Unit)) where
  fmt := Demo.env
  provider := asProvider DemoStore.canon two (stores o)
  icuLanguage := some

def start : Localiser Unit := { cache := [], fallback := true, caching := true, tag := en, script := () }

/-- The string in a language that it is not in. -/
def want : Request Nat Unit := .literal app greeting (some "de".toList) (some true) none

def result (o : Database) : Option (Str × Str) ⊕ Option (ProvErr Unit) :=
  match (start.call (loc o) (fun _ => ()) want).1 with
  | some (.ok x) => .inl (some x)
  | some (.err (.provider e)) => .inr e
  | _ => .inl none

end DemoOthers

open DemoOthers DemoStore

/-- **C91 is violated**: the two stores differ only in the database of a component that is not asked for, which has no default
language in the second; there the request with fallback fails. -/
theorem C91_violated :
    (stores good app).pattern = (stores bad app).pattern ∧ result good = .inl (some (hello, en)) ∧
    result bad = .inr (some (.defaultLanguage other)) := by
  refine ⟨rfl, by decide +kernel, by decide +kernel⟩

theorem two_connected : Connected two := by
  refine ⟨fun c v h hv => ?_, fun c v h _ => ?_⟩
  · have := AMap.mem_of_get h
    simp only [two, List.mem_cons, Prod.mk.injEq, List.not_mem_nil, or_false] at this
    rcases this with ⟨_, rfl⟩ | ⟨_, rfl⟩ <;> cases hv
  · have := AMap.mem_of_get h
    simp only [two, List.mem_cons, Prod.mk.injEq, List.not_mem_nil, or_false] at this
    rcases this with ⟨rfl, _⟩ | ⟨rfl, _⟩ <;> decide

/-- The hypotheses are met by two stores that differ in a string of the other component. -/
example : (start.call (loc good) (fun _ => ()) want) = (start.call (loc more) (fun _ => ()) want) := by
  have hd : ∀ o, (match two.buildCache DemoStore.canon (stores o) with | .ok _ => true | _ => false) = true →
      ∀ c files, two.components.get c = some files → Usable DemoStore.canon (stores o) files c := by
    intro o h
    refine (buildCache_iff two_connected (by decide)).1 ?_
    split at h
    · exact ⟨_, by assumption⟩
    · cases h
  refine C91_other_strings_partial (st := stores good) (st' := stores more) two_connected (by decide) (loc good) rfl
    (fun _ => ()) start [] want ?_ fun _ c files hg =>
      ⟨hd good (by decide +kernel) c files hg, hd more (by decide +kernel) c files hg⟩
  intro u hu files hg
  simp only [want, List.nil_append, callsUses, requestUses, List.append_nil, List.mem_singleton] at hu
  subst hu
  have : files = (false, true) := by
    have : two.components.get app = some (false, true) := by decide
    rw [this] at hg
    exact (Option.some.inj hg).symm
  subst this
  have hp : places (false, true) app = [app] := rfl
  simp only [SameStrings, SameDefaults, hp, List.mem_singleton, forall_eq]
  exact ⟨.inr ⟨_, _, rfl, rfl, rfl⟩, fun _ => ⟨_, _, rfl, rfl, rfl⟩⟩

/-- `C91_exactly_partial` for the stores of `C91_violated`: the answers agree without fallback and for the language that the
string is in. -/
example (fb : Bool) (tag : Str) (htag : tag = en ∨ tag = "de".toList) (x : Str × Str)
    (hx : (start.call (loc good) (fun _ => ()) (.literal app greeting (some tag) (some fb) (some false))).1 = some (.ok x)) :
    (start.call (loc bad) (fun _ => ()) (.literal app greeting (some tag) (some fb) (some false))).1 = some (.ok x) ↔
      fb = false ∨ tag = en := by
  have hbad : ¬ ∀ c files, two.components.get c = some files → Usable DemoStore.canon (stores bad) files c := by
    intro h
    obtain ⟨y, hy⟩ := (buildCache_iff two_connected (by decide)).2 h
    have : (match two.buildCache DemoStore.canon (stores bad) with | .ok _ => true | _ => false) = false := by decide +kernel
    rw [hy] at this
    cases this
  have := C91_exactly_partial (st := stores good) (st' := stores bad) two_connected (by decide) (loc good) rfl (fun _ => ()) start
    (c := app) (i := greeting) (tag := tag) (fun m h => by cases h) (files := (false, true)) (by decide)
    (fun name hn => by
      have hn : name = app := List.mem_singleton.1 hn
      subst hn
      exact .inr ⟨_, _, rfl, rfl, rfl⟩)
    (fun name hn => by
      have hn : name = app := List.mem_singleton.1 hn
      subst hn
      exact ⟨_, _, rfl, rfl, rfl⟩) fb hx
  refine this.trans ?_
  have hs : (loc good).provider.string app greeting tag ≠ .ok none ↔ tag = en := by
    have key : ∀ tag, ((match (loc good).provider.string app greeting tag with | .ok none => true | _ => false) = true) ↔
        (loc good).provider.string app greeting tag = .ok none := by
      intro tag
      split <;> simp_all
    rw [Ne, ← key]
    rcases htag with rfl | rfl
    · exact ⟨fun _ => rfl, fun _ => by decide +kernel⟩
    · exact ⟨fun h => absurd (by decide +kernel) h, fun h => absurd h (by decide)⟩
  rw [hs]
  exact ⟨fun h => h.elim .inl fun h => h.elim .inr fun h => absurd h hbad, fun h => h.elim .inl fun h => .inr (.inl h)⟩

end Verif.Props
