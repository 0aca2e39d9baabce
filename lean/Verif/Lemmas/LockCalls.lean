import Verif.Lemmas.LockSync
import Verif.Lemmas.ReentrySafe
/-
Helper lemmas: the localiser takes its locks in order.
-/
namespace Verif.LockLemmas
open Verif Verif.Spec Verif.ReentryLemmas

variable {D F P S α β : Type} {again : Bool}

/-- Code that takes locks when allowed, ends with the locks it began with, keeps `J`, and whose values satisfy `Q`. -/
def Fine (again : Bool) (J : Localiser S → Prop) (held : List (Cell × Bool)) (Q : α → Prop) (x : LkM S α) : Prop :=
  Safe again (fun s : LkState S => J s.loc) held (fun r => ∀ a, r = .value a → Q a) held x

section
variable {J : Localiser S → Prop} {held : List (Cell × Bool)} {Q : α → Prop} {R : β → Prop}

theorem Fine.andThen {x : LkM S α} {k : α → LkM S β} (h : Fine again J held Q x) (hk : ∀ a, Q a → Fine again J held R (k a)) :
    Fine again J held R (x.andThen k) := by
  refine Safe.bind (fun r hr => ?_) h
  cases r with
  | value a => exact hk a (hr a rfl)
  | panic => exact ⟨rfl, fun _ h => nomatch h⟩
  | conflict => exact ⟨rfl, fun _ h => nomatch h⟩
  | deep => exact ⟨rfl, fun _ h => nomatch h⟩

theorem Fine.ret {a : α} (h : Q a) : Fine again J held Q (LkM.ret a) := ⟨rfl, fun _ e => by cases e; exact h⟩

theorem Fine.panic : Fine again J held Q (.done .panic) := ⟨rfl, fun _ h => nomatch h⟩

theorem Fine.deep : Fine again J held Q (.done .deep) := ⟨rfl, fun _ h => nomatch h⟩

theorem Fine.read {c : Cell} {body : LkM S α} (hc : Allowed again held c false) (h : Fine again J ((c, false) :: held) Q body) :
    Fine again J held Q (LkM.read c body) := by
  refine ⟨hc, fun s hs => ⟨hs, ?_⟩⟩
  refine Safe.bind (mid := (c, false) :: held) (Q := fun r : Run α => ∀ a, r = .value a → Q a) ?_ ?_
  · exact fun r hr => ⟨held, rfl, rfl, hr⟩
  · split
    · exact Fine.panic
    · exact h

theorem Fine.write {c : Cell} {body : LkM S α} (hc : Allowed again held c true) (h : Fine again J ((c, true) :: held) Q body) :
    Fine again J held Q (LkM.write c body) := by
  refine ⟨hc, fun s hs => ⟨hs, ?_⟩⟩
  refine Safe.bind (mid := (c, true) :: held) (Q := fun r : Run α => ∀ a, r = .value a → Q a) ?_ ?_
  · refine fun r hr s' hs' => ⟨?_, held, rfl, rfl, hr⟩
    cases r <;> exact hs'
  · split
    · exact Fine.panic
    · exact h

theorem Fine.get {f : Localiser S → α} (h : ∀ l, J l → Q (f l)) : Fine again J held Q (LkM.get f) :=
  fun s hs => ⟨hs, rfl, fun _ e => by cases e; exact h _ hs⟩

theorem Fine.set {f : Localiser S → Option (Localiser S)} {fresh : Str → Str → Bool}
    (h : ∀ l l', J l → f l = some l' → J l') : Fine again J held (fun _ => True) (LkM.set f fresh) := by
  intro s hs
  dsimp only
  cases hf : f s.loc with
  | none => exact ⟨hs, rfl, fun _ _ => trivial⟩
  | some l => exact ⟨h _ _ hs hf, rfl, fun _ _ => trivial⟩

theorem Fine.result {r : LocM P α} {Q : Except (LocErr P) α → Prop} (h : ∀ a, r = .ok a → Q (.ok a))
    (he : ∀ e, r = .err e → Q (.error e)) : Fine again J held Q (LkM.result r) := by
  cases r with
  | ok a => exact Fine.ret (h a rfl)
  | err e => exact Fine.ret (he e rfl)
  | panic => exact Fine.panic

theorem Fine.result' {r : LocM P α} : Fine again J held (fun _ => True) (LkM.result r) :=
  Fine.result (fun _ _ => trivial) fun _ _ => trivial

theorem Fine.forget {x : LkM S α} (h : Fine again J held Q x) : Fine again J held (fun _ => True) x :=
  Safe.weaken (fun _ _ _ _ => trivial) h

theorem Fine.converse {ask : Request D F → LkM S (Answer P)} {p : Request D F → Prop}
    (hask : ∀ r, p r → Fine again J held (fun _ => True) (ask r)) {t : Talk (Request D F) (Answer P) α}
    (ht : Converses p Q t) : Fine again J held Q (lkConverse ask t) := by
  induction t with
  | done a => exact Fine.ret ht
  | ask r next ih => exact Fine.andThen (hask r ht.1) fun a _ => ih a (ht.2 a)

end

/-! ### The localiser -/

theorem lower {held : List (Cell × Bool)} {c : Cell} {x : Bool} (h : ∀ h ∈ held, rank h.1 < rank c) : Allowed again held c x :=
  .inl h

/-- Formatters in the cache ask only for what satisfies `p`. -/
def Keeps (p : Request D F → Prop) (L : TalkLocEnv D F P) (l : Localiser S) : Prop :=
  ∀ tag m key f, l.cache.get tag = some m → m.get key = some (.formatter f) → Asks L.fmt p f

section
variable {p : Request D F → Prop} {L : TalkLocEnv D F P}

theorem Keeps.insert {l : Localiser S} {cache : Cache} {tag key : Str} {d : CacheData}
    {m : AMap Str CacheData} (h : ∀ k f, m.get k = some (.formatter f) → Asks L.fmt p f)
    (hc : ∀ tag m key f, cache.get tag = some m → m.get key = some (.formatter f) → Asks L.fmt p f)
    (hd : ∀ f, d = .formatter f → Asks L.fmt p f) :
    Keeps p L { l with cache := cache.insert tag (m.insert key d) } := by
  intro t' m' k' f ht hk
  dsimp only at ht
  rw [AMap.get_insert] at ht
  split at ht
  · cases ht
    rw [AMap.get_insert] at hk
    split at hk
    · exact hd f (Option.some.inj hk)
    · exact h k' f hk
  · exact hc t' m' k' f ht hk

theorem Keeps.found {l : Localiser S} (h : Keeps p L l) {tag key : Str} {f : Formatter}
    (he : ((l.cache.get tag).bind fun m => m.get key) = some (.formatter f)) : Asks L.fmt p f := by
  obtain ⟨m, hm, hk⟩ := Option.bind_eq_some_iff.1 he
  exact h tag m key f hm hk

theorem lkOptions_fine {J : Localiser S → Prop} {held : List (Cell × Bool)} (hh : ∀ h ∈ held, rank h.1 < 2) {tag : Option Str}
    {fallback caching : Option Bool} {body : Str → Bool → Bool → LkM S α} {Q : α → Prop}
    (hb : ∀ t fb ca, (caching = some false → ca = false) → Fine again J held Q (body t fb ca)) :
    Fine again J held Q (lkOptions tag fallback caching body) := by
  refine Fine.andThen (Q := fun _ => True) ?_ fun t _ => Fine.andThen (Q := fun _ => True) ?_ fun fb _ =>
    Fine.andThen (Q := fun ca => caching = some false → ca = false) ?_ fun ca hca => hb t fb ca hca
  · cases tag with
    | some t => exact Fine.ret trivial
    | none => exact Fine.read (lower hh) (Fine.get fun _ _ => trivial)
  · exact Fine.read (lower fun h hm => Nat.lt_succ_of_lt (hh h hm)) (Fine.get fun _ _ => trivial)
  · refine Fine.read (lower fun h hm => Nat.lt_succ_of_lt (hh h hm)) (Fine.get fun _ _ => ?_)
    rintro rfl
    rfl

theorem lkDefaults_fine {J : Localiser S → Prop} (hJ : ∀ l l' : Localiser S, J l → l'.cache = l.cache → J l')
    {held : List (Cell × Bool)} (hh : ∀ h ∈ held, rank h.1 < 2) (scriptOf : Str → S) (tag : Option Str)
    (fallback caching : Option Bool) : Fine again J held (fun _ => True) (lkDefaults scriptOf tag fallback caching) := by
  have h3 : ∀ h ∈ held, rank h.1 < 3 := fun h hm => Nat.lt_succ_of_lt (hh h hm)
  refine Fine.andThen (Q := fun _ => True) ?_ fun _ _ => Fine.andThen (Q := fun _ => True) ?_ fun _ _ => ?_
  · cases tag with
    | none => exact Fine.ret trivial
    | some t =>
      refine Fine.andThen (Fine.write (lower hh) (Fine.set fun l l' hl h => ?_)) fun _ _ =>
        Fine.read (lower hh) (Fine.andThen (Q := fun _ => True) (Fine.get fun _ _ => trivial) fun t _ =>
          Fine.write (lower ?_) (Fine.set fun l l' hl h => ?_))
      · cases h; exact hJ _ _ hl rfl
      · intro h hm
        rcases List.mem_cons.1 hm with rfl | hm
        · decide
        · exact h3 h hm
      · cases h; exact hJ _ _ hl rfl
  · cases fallback with
    | none => exact Fine.ret trivial
    | some b =>
      refine Fine.write (lower h3) (Fine.set fun l l' hl h => ?_)
      cases h; exact hJ _ _ hl rfl
  · cases caching with
    | none => exact Fine.ret trivial
    | some b =>
      refine Fine.write (lower h3) (Fine.set fun l l' hl h => ?_)
      cases h; exact hJ _ _ hl rfl

theorem keeps_cache (l l' : Localiser S) (h : Keeps p L l) (e : l'.cache = l.cache) : Keeps p L l' := by
  unfold Keeps; rw [e]; exact h

theorem lkLiteral_uncached {J : Localiser S → Prop} {held : List (Cell × Bool)} (hc : Allowed again held .cache false)
    (c i tag : Str) (fallback : Bool) : Fine again J held (fun _ => True) (lkLiteral L c i tag fallback false) := by
  refine Fine.andThen (Q := fun _ => True) (Fine.read hc (Fine.get fun _ _ => trivial)) ?_
  rintro ⟨exist, d⟩ _
  cases d with
  | some d => cases d <;> exact Fine.ret trivial
  | none =>
    refine Fine.andThen (Q := fun _ => True) Fine.result' fun r _ => ?_
    cases r with
    | error e => exact Fine.ret trivial
    | ok x => exact Fine.ret trivial

/-- What a delayed command may ask: to set the defaults, and if locks may be read again, what is harmless. -/
def Late (again : Bool) (r : Request D F) : Prop := Harmless r ∧ (again = true ∨ OnlyDefaults r)

theorem late_fine {J : Localiser S → Prop} (hJ : ∀ l l' : Localiser S, J l → l'.cache = l.cache → J l') (scriptOf : Str → S)
    (depth : Nat) {r : Request D F} (hr : Late again r) {held : List (Cell × Bool)} (hh : ∀ h ∈ held, rank h.1 < 2)
    (hc : (Cell.cache, false) ∈ held) : Fine again J held (fun _ => True) (lkRequest L scriptOf depth r) := by
  cases depth with
  | zero => exact Fine.deep
  | succ depth =>
    have ha : ∀ {q : Prop}, again = true ∨ q → ¬ q → Allowed again held .cache false :=
      fun h hq => .inr ⟨h.resolve_right hq, rfl, hc⟩
    cases r with
    | format _ _ _ _ _ _ => exact hr.1.elim
    | defaults tag fallback caching =>
      exact Fine.andThen (lkDefaults_fine hJ hh scriptOf tag fallback caching) fun _ _ => Fine.ret trivial
    | literal c i tag fallback caching =>
      refine lkOptions_fine hh fun t fb ca hca => ?_
      obtain rfl := hca hr.1
      exact Fine.andThen (lkLiteral_uncached (ha hr.2 id) c i t fb) fun _ _ => Fine.ret trivial
    | data c i values tag fallback caching =>
      obtain ⟨⟨rfl, hcach⟩, hr⟩ := hr
      refine lkOptions_fine hh fun t fb ca hca => ?_
      obtain rfl := hca hcach
      refine Fine.andThen (Q := fun _ => True) ?_ fun _ _ => Fine.ret trivial
      unfold lkData
      exact lkLiteral_uncached (ha hr id) c i t fb

theorem idle_allowed {c : Cell} {x : Bool} : Allowed again [] c x := .inl fun _ h => nomatch h

theorem cached_ranks (tag key : Str) : ∀ h ∈ [(Cell.formatter tag key, true), (Cell.cache, false)], rank h.1 < 2 := by
  intro h hm
  simp only [List.mem_cons, List.not_mem_nil, or_false] at hm
  rcases hm with rfl | rfl <;> simp [rank]

section
variable {scriptOf : Str → S} {R : Request D F → Prop} {K : Bool}
  (hlate : ∀ r, p r → Late again r)
  (hL : ∀ c i tag s t, L.provider.string c i tag = .ok (some (s, t)) →
    Converses R (IfOk fun f => (K = true → Asks L.fmt p f) ∧ Asks L.fmt R f) (talkNew L.fmt s t (L.icuLanguage t)))

include hlate in
theorem lkFormatter_fine (depth : Nat) {tag key : Str} {f : Formatter} (hf : Asks L.fmt p f) (values : AMap Str (PValue D F)) :
    Fine again (Keeps (S := S) p L) [(.cache, false)] (fun _ => True)
      (lkFormatter L (lkRequest L scriptOf depth) tag key f values) := by
  refine Fine.write (lower ?_) ?_
  · intro h hm
    rw [List.mem_singleton.1 hm]
    exact Nat.zero_lt_one
  · refine Fine.andThen (Q := fun f => Asks L.fmt p f) (Fine.get fun l hl => ?_) fun f hf => ?_
    · cases hc : cachedFormatter tag key l with
      | none => exact hf
      | some f' =>
        refine hl.found (tag := tag) (key := key) ?_
        unfold cachedFormatter at hc
        split at hc
        · next he => cases hc; exact he
        · cases hc
    · refine Fine.andThen (Fine.converse (fun r hr => late_fine keeps_cache scriptOf depth (hlate r hr)
        (cached_ranks tag key) (by simp)) (talkFormat_asks hf values)) ?_
      rintro ⟨r, f'⟩ ⟨ns, hf'⟩
      have hf' : f' = { f with numbers := ns } := hf'
      refine Fine.andThen (Fine.set fun l l' hl h => ?_) fun _ _ => Fine.result'
      cases h
      unfold putFormatter
      split
      · exact hl
      · next m hm =>
        refine Keeps.insert (fun k f h => hl tag m k f hm h) hl fun f'' h => ?_
        cases h
        rw [hf']
        exact hf

theorem lkString_fine (caching exist : Bool) (key string tag : Str) :
    Fine again (Keeps (S := S) p L) [] (fun _ => True) (lkString (P := P) caching exist key string tag) := by
  unfold lkString
  split
  · refine Fine.andThen (Fine.write idle_allowed (Fine.set fun l l' hl h => ?_)) fun _ _ => Fine.ret trivial
    obtain ⟨c, hc, rfl⟩ := Option.map_eq_some_iff.1 h
    unfold addStringToCache at hc
    split at hc
    · cases hc
      exact Keeps.insert (m := []) (fun _ _ h => nomatch h) hl fun _ h => nomatch h
    · split at hc
      · cases hc
      · next m hm =>
        cases hc
        exact Keeps.insert (fun k f h => hl tag m k f hm h) hl fun _ h => nomatch h
  · exact Fine.ret trivial

theorem fetch_string {c i tag : Str} {fallback : Bool} {s t : Str} (ha : fetch L.plain c i tag fallback = .ok (s, t)) :
    ∃ tag', L.provider.string c i tag' = .ok (some (s, t)) := by
  unfold fetch at ha
  cases h1 : L.provider.string c i tag with
  | error e => rw [show L.plain.provider = L.provider from rfl, h1] at ha; cases ha
  | ok x =>
    cases x with
    | some x =>
      rw [show L.plain.provider = L.provider from rfl, h1] at ha
      cases ha
      exact ⟨tag, h1⟩
    | none =>
      rw [show L.plain.provider = L.provider from rfl, h1] at ha
      dsimp only at ha
      split at ha
      · cases ha
      · cases h2 : L.provider.default c with
        | error e => rw [h2] at ha; cases ha
        | ok d =>
          rw [h2] at ha
          dsimp only at ha
          cases h3 : L.provider.string c i d with
          | error e => rw [h3] at ha; cases ha
          | ok x =>
            rw [h3] at ha
            cases x with
            | some x => cases ha; exact ⟨d, h3⟩
            | none => cases ha

include hlate hL in
theorem lkFormat_fine (depth : Nat) (ih : ∀ r, R r → Fine again (Keeps (S := S) p L) [] (fun _ => True) (lkRequest L scriptOf depth r))
    (c i : Str) (values : AMap Str (PValue D F)) (tag : Str) (fallback caching : Bool) (hk : caching = true → K = true) :
    Fine again (Keeps (S := S) p L) [] (fun _ => True)
      (lkFormat L (lkRequest L scriptOf depth) c i values tag fallback caching) := by
  unfold lkFormat
  generalize cacheKey c i = key
  dsimp only
  refine Fine.andThen (Q := fun _ => True) (Fine.read idle_allowed ?_) fun a _ => ?_
  · refine Fine.andThen (Q := fun x => ∀ f, x.2 = some (.formatter f) → Asks L.fmt p f) (Fine.get fun l hl f h => hl.found h) ?_
    rintro ⟨exist, d⟩ hd
    cases d with
    | none => exact Fine.ret trivial
    | some d =>
      cases d with
      | localised s t => exact Fine.ret trivial
      | formatter f => exact Fine.andThen (lkFormatter_fine hlate depth (hd f rfl) values) fun _ _ => Fine.ret trivial
  · cases a with
    | inl r => exact Fine.ret trivial
    | inr exist =>
      dsimp only
      refine Fine.andThen (Q := fun a => ∀ s t, a = .ok (s, t) → ∃ tag', L.provider.string c i tag' = .ok (some (s, t)))
        (Fine.result (fun a ha s t h => ?_) fun e _ _ _ h => nomatch h) fun a hs => ?_
      · cases h; exact fetch_string ha
      · cases a with
        | error e => exact Fine.ret trivial
        | ok x =>
          obtain ⟨s, t⟩ := x
          obtain ⟨tag', htag'⟩ := hs s t rfl
          dsimp only
          split
          · exact lkString_fine _ _ _ _ _
          · refine Fine.andThen (Fine.converse ih (hL c i tag' s t htag')) fun r hr => ?_
            cases r with
            | err e =>
              cases e with
              | noGrammar => exact lkString_fine _ _ _ _ _
              | _ => exact Fine.ret trivial
            | panic => exact Fine.panic
            | ok f =>
              have hf := hr f rfl
              dsimp only
              split
              · refine Fine.andThen (Fine.converse ih (talkFormat_asks hf.2 values)) ?_
                rintro ⟨r, _⟩ _
                exact Fine.result'
              · next hc =>
                have hf := hf.1 (hk (by simpa using hc))
                unfold lkCached
                refine Fine.andThen (Fine.write idle_allowed (Fine.set fun l l' hl h => ?_)) fun _ _ =>
                  Fine.read idle_allowed ?_
                · obtain ⟨c, hc, rfl⟩ := Option.map_eq_some_iff.1 h
                  unfold putNew at hc
                  split at hc
                  · cases hc
                    exact Keeps.insert (m := []) (fun _ _ h => nomatch h) hl fun _ h => by cases h; exact hf
                  · split at hc
                    · cases hc
                    · next m hm =>
                      cases hc
                      exact Keeps.insert (fun k f h => hl tag m k f hm h) hl fun _ h => by cases h; exact hf
                · refine Fine.andThen (Q := fun x => ∀ f, x = some (.formatter f) → Asks L.fmt p f)
                    (Fine.get fun l hl f h => hl.found h) fun d hd => ?_
                  cases d with
                  | none => exact Fine.panic
                  | some d =>
                    cases d with
                    | localised s t => exact Fine.ret trivial
                    | formatter f => exact lkFormatter_fine hlate depth (hd f rfl) values

theorem lkLiteral_fine (c i tag : Str) (fallback caching : Bool) :
    Fine again (Keeps (S := S) p L) [] (fun _ => True) (lkLiteral L c i tag fallback caching) := by
  refine Fine.andThen (Q := fun _ => True) (Fine.read idle_allowed (Fine.get fun _ _ => trivial)) ?_
  rintro ⟨exist, d⟩ _
  cases d with
  | some d => cases d <;> exact Fine.ret trivial
  | none =>
    refine Fine.andThen (Q := fun _ => True) Fine.result' fun r _ => ?_
    cases r with
    | error e => exact Fine.ret trivial
    | ok x => exact lkString_fine _ _ _ _ _

include hlate hL

set_option linter.unusedSectionVars false in
mutual
theorem lkData_fine (depth : Nat) (ih : ∀ r, R r → Fine again (Keeps (S := S) p L) [] (fun _ => True) (lkRequest L scriptOf depth r))
    (tag : Str) (fallback caching : Bool) (hk : caching = true → K = true) (c i : Str)
    (values : Option (List (Str × PValue D F))) :
    Fine again (Keeps (S := S) p L) [] (fun _ => True)
      (lkData L (lkRequest L scriptOf depth) tag fallback caching c i values) := by
  match values with
  | none => unfold lkData; exact lkLiteral_fine _ _ _ _ _
  | some vs =>
    unfold lkData
    refine Fine.andThen (lkValues_fine depth ih tag fallback caching hk vs []) fun r _ => ?_
    cases r with
    | error e => exact Fine.ret trivial
    | ok values => exact lkFormat_fine hlate hL depth ih _ _ _ _ _ _ hk

theorem lkValues_fine (depth : Nat)
    (ih : ∀ r, R r → Fine again (Keeps (S := S) p L) [] (fun _ => True) (lkRequest L scriptOf depth r))
    (tag : Str) (fallback caching : Bool) (hk : caching = true → K = true) (values : List (Str × PValue D F))
    (acc : AMap Str (PValue D F)) :
    Fine again (Keeps (S := S) p L) [] (fun _ => True)
      (lkValues L (lkRequest L scriptOf depth) tag fallback caching values acc) := by
  match values with
  | [] => unfold lkValues; exact Fine.ret trivial
  | (name, .localisationData c i vs) :: rest =>
    unfold lkValues
    refine Fine.andThen (lkData_fine depth ih tag fallback caching hk c i vs) fun r _ => ?_
    cases r with
    | error e => exact Fine.ret trivial
    | ok x => exact lkValues_fine depth ih tag fallback caching hk rest _
  | (name, .string s) :: rest => unfold lkValues; exact lkValues_fine depth ih tag fallback caching hk rest _
  | (name, .integer s) :: rest => unfold lkValues; exact lkValues_fine depth ih tag fallback caching hk rest _
  | (name, .unsigned s) :: rest => unfold lkValues; exact lkValues_fine depth ih tag fallback caching hk rest _
  | (name, .float s) :: rest => unfold lkValues; exact lkValues_fine depth ih tag fallback caching hk rest _
  | (name, .taggedString s t) :: rest => unfold lkValues; exact lkValues_fine depth ih tag fallback caching hk rest _
  | (name, .localised s t) :: rest => unfold lkValues; exact lkValues_fine depth ih tag fallback caching hk rest _
  | (name, .fixedDecimal s) :: rest => unfold lkValues; exact lkValues_fine depth ih tag fallback caching hk rest _
  | (name, .dateTime s t) :: rest => unfold lkValues; exact lkValues_fine depth ih tag fallback caching hk rest _
  | (name, .date s) :: rest => unfold lkValues; exact lkValues_fine depth ih tag fallback caching hk rest _
  | (name, .time s) :: rest => unfold lkValues; exact lkValues_fine depth ih tag fallback caching hk rest _
end

theorem lkRequest_fine (hK : K = true ∨ ∀ r, R r → Uncached r) (depth : Nat) : ∀ r, R r →
    Fine again (Keeps (S := S) p L) [] (fun _ => True) (lkRequest L scriptOf depth r) := by
  induction depth with
  | zero => intro r _; exact Fine.deep
  | succ depth ih =>
    intro r hr
    have idle : ∀ h ∈ ([] : List (Cell × Bool)), rank h.1 < 2 := fun _ h => nomatch h
    have hk : ∀ {caching : Option Bool} {ca : Bool}, (Uncached r → caching = some false) → (caching = some false → ca = false) →
        ca = true → K = true := by
      intro caching ca h1 h2 h3
      rcases hK with h | h
      · exact h
      · rw [h2 (h1 (h r hr))] at h3; cases h3
    cases r with
    | format c i vs tag fallback caching =>
      exact lkOptions_fine idle fun t fb ca h =>
        Fine.andThen (lkFormat_fine hlate hL depth ih _ _ _ _ _ _ (hk id h)) fun _ _ => Fine.ret trivial
    | literal c i tag fallback caching =>
      exact lkOptions_fine idle fun t fb ca h => Fine.andThen (lkLiteral_fine _ _ _ _ _) fun _ _ => Fine.ret trivial
    | data c i vs tag fallback caching =>
      exact lkOptions_fine idle fun t fb ca h =>
        Fine.andThen (lkData_fine hlate hL depth ih _ _ _ (hk id h) _ _ _) fun _ _ => Fine.ret trivial
    | defaults tag fallback caching =>
      exact Fine.andThen (lkDefaults_fine keeps_cache idle scriptOf tag fallback caching) fun _ _ => Fine.ret trivial

theorem lkThread_safe (hK : K = true ∨ ∀ r, R r → Uncached r) (depth : Nat) (requests : List (Request D F))
    (hr : ∀ r ∈ requests, R r) : ∀ answers : List (Run (Answer P)),
    Safe again (fun s : LkState S => Keeps p L s.loc) [] (fun _ => True) [] (lkThread L scriptOf depth requests answers) := by
  induction requests with
  | nil => intro answers; exact ⟨rfl, trivial⟩
  | cons r rest ih =>
    intro answers
    refine Safe.bind (fun a _ => ?_) (lkRequest_fine hlate hL hK depth r (hr r (List.mem_cons_self ..)))
    cases a with
    | value a => exact ih (fun r hm => hr r (List.mem_cons_of_mem _ hm)) _
    | _ => exact ⟨rfl, trivial⟩

theorem never_stuck (hK : K = true ∨ ∀ r, R r → Uncached r) (depth : Nat) {s : LkState S} (hs : s.loc.cache = [])
    (requests : List (List (Request D F))) (hr : ∀ rs ∈ requests, ∀ r ∈ rs, R r)
    {policy : List (LockThread (LkState S) (List (Run (Answer P)))) → Cell → Bool} (hpol : Suits again policy) :
    NeverStuck policy L scriptOf depth s requests := by
  have h : AllSafe again (fun s : LkState S => Keeps p L s.loc) s
      (requests.map fun rs => LockThread.start (lkThread L scriptOf depth rs [])) := by
    refine ⟨?_, fun t ht => ?_, fun t ht u hu c h1 h2 => ?_⟩
    · intro _ _ _ _ h
      rw [hs] at h
      cases h
    · obtain ⟨rs, hm, rfl⟩ := List.mem_map.1 ht
      exact lkThread_safe hlate hL hK depth rs (hr rs hm) []
    · obtain ⟨rs, hm, rfl⟩ := List.mem_map.1 ht
      cases h1
  exact ⟨fun schedule => no_deadlock hpol (lockRun_safe policy schedule h), fun schedule hf => all_end hpol h (by rw [List.length_map]; exact hf)⟩

end
end

end Verif.LockLemmas
