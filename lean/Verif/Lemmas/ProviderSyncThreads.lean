import Verif.Lemmas.ProviderSyncDetails
import Verif.Spec.ProviderSync
/-
Lemmas on threads that share a provider.
-/
namespace Verif.ProviderLemmas
open Verif Verif.Spec Verif.Act

variable {E : Type} {S : Store → Prop} {C : AMap Str ComponentDetails → Prop} {D : RepositoryDetails → Prop}
variable {canon : Str → Except E Str} {p : Sqlite} {st : Store}

theorem _root_.Verif.Spec.Replies.imp {ok ok' : ProvCall → ProvM E ProvReply → Prop} (h : ∀ c r, ok c r → ok' c r) :
    ∀ {cs rs}, Replies ok cs rs → Replies ok' cs rs := by
  intro cs rs hr
  induction hr with
  | nil => exact .nil
  | cons h1 _ ih => exact .cons (h _ _ h1) ih

theorem _root_.Verif.Spec.Replies.snoc {ok : ProvCall → ProvM E ProvReply → Prop} {c : ProvCall} {r : ProvM E ProvReply} (h : ok c r) :
    ∀ {cs rs}, Replies ok cs rs → Replies ok (cs ++ [c]) (rs ++ [r]) := by
  intro cs rs hr
  induction hr with
  | nil => exact .cons h .nil
  | cons h1 _ ih => exact .cons h1 ih

theorem _root_.Verif.Spec.Replies.get {ok : ProvCall → ProvM E ProvReply → Prop} {cs rs} (h : Replies ok cs rs) :
    ∀ {k : Nat} {call : ProvCall}, cs[k]? = some call → ∃ r, rs[k]? = some r ∧ ok call r := by
  induction h with
  | nil => intro k call hk; simp at hk
  | cons h1 h2 ih =>
    intro k call hk
    cases k with
    | zero => simp at hk; subst hk; exact ⟨_, rfl, h1⟩
    | succ k => exact ih (by simpa using hk)

theorem _root_.Verif.Spec.Replies.call {ok : ProvCall → ProvM E ProvReply → Prop} {cs rs} (h : Replies ok cs rs) {r : ProvM E ProvReply}
    (hr : r ∈ rs) : ∃ call ∈ cs, ok call r := by
  induction h with
  | nil => simp at hr
  | cons h1 h2 ih =>
    rcases List.mem_cons.1 hr with rfl | hr
    · exact ⟨_, by simp, h1⟩
    · obtain ⟨c, hc, ho⟩ := ih hr
      exact ⟨c, by simp [hc], ho⟩

/-- If each call leads to its reply, so does the thread. -/
theorem thread_leads {Pre : ProvState → Prop} {Q : ProvCall → ProvM E ProvReply → ProvState → Prop}
    (hPre : ∀ s s', Pre s → Rel s s' → Pre s') (hQ : ∀ c r s s', Q c r s → Rel s s' → Q c r s')
    (hnp : ∀ c r s, Q c r s → r ≠ .panic)
    (hcall : ∀ c s, Inv S C D s → Pre s → (p.callSync canon c).Leads (Inv S C D) Rel (Q c) s) :
    ∀ (calls before : List ProvCall) (replies : List (ProvM E ProvReply)) (s : ProvState), Inv S C D s → Pre s →
      Replies (fun c r => Q c r s) before replies →
      (p.thread canon calls replies).Leads (Inv S C D) Rel
        (fun rs s => Replies (fun c r => Q c r s) (before ++ calls) rs) s := by
  intro calls
  induction calls with
  | nil => intro before replies s _ _ h; simpa [Sqlite.thread, Leads] using h
  | cons c calls ih =>
    intro before replies s hi hp h
    refine Leads.bind Rel.trans Rel.refl (hcall c s hi hp) hi fun r s' hr hi' hq => ?_
    have hrs := Replies.snoc (ok := fun c r => Q c r s') hq (h.imp fun c r h => hQ c r s s' h hr)
    have := ih (before ++ [c]) (replies ++ [r]) s' hi' (hPre s s' hp hr) hrs
    rw [List.append_assoc] at this
    cases r with
    | panic => exact absurd rfl (hnp _ _ _ hq)
    | ok a => exact this
    | err e => exact this

theorem changes_leads {Q : List (ProvM E ProvReply) → ProvState → Prop} (hS : ∀ st, S st) (hQ : ∀ s, Q [] s)
    (change : Store → Store) (s : ProvState) :
    (changeFiles (E := E) change).Leads (Inv S C D) Rel Q s :=
  Leads.atomic fun _ _ hi => ⟨⟨hi.sound, hi.queries, hS _, hi.components, hi.repository⟩, ⟨fun _ h => h, fun _ h => h, fun _ h => h⟩, hQ _⟩

/-! ### Calls with a store that does not change -/

theorem componentCall_gives' (hv : Current p) (hD : ∀ m r, p.buildCache canon st = .ok (m, r) → D r) (c : Str) :
    Gives (· = st) (fun m => allOf canon p st = .ok m) D (reference canon p st (.componentDetails c))
      (p.callSync canon (.componentDetails c)) := by
  have := Gives.bind (componentDetails_gives hv hD c) (f := fun x => .ok (.component x))
    (g := fun x => pure (ProvReply.component x)) fun _ _ => gives_pure _
  refine cast (congrArg (fun z => Gives _ _ _ z _) ?_) this
  unfold allOf reference
  cases p.buildCache canon st with
  | ok x =>
    simp only [Outcome.bind_ok, detailsOf]
    cases x.1.get c <;> rfl
  | err e => rfl
  | panic => rfl

theorem componentCall_gives (hv : Current p) (c : Str) :
    Gives (· = st) (fun m => allOf canon p st = .ok m) (fun _ => True) (reference canon p st (.componentDetails c))
      (p.callSync canon (.componentDetails c)) := componentCall_gives' hv (fun _ _ _ => trivial) c

theorem repositoryCall_gives' (hv : Current p) (hC : ∀ m r, p.buildCache canon st = .ok (m, r) → C m) :
    Gives (· = st) C (fun r => repositoryOf canon p st = .ok r) (reference canon p st .repositoryDetails)
      (p.callSync canon .repositoryDetails) := by
  have := Gives.bind (repositoryDetails_gives hv hC) (f := fun x => .ok (.repository x))
    (g := fun x => pure (ProvReply.repository x)) fun _ _ => gives_pure _
  refine cast (congrArg (fun z => Gives _ _ _ z _) ?_) this
  unfold repositoryOf reference
  cases p.buildCache canon st with
  | ok x => rfl
  | err e => rfl
  | panic => rfl

theorem repositoryCall_gives (hv : Current p) :
    Gives (· = st) (fun _ => True) (fun r => repositoryOf canon p st = .ok r) (reference canon p st .repositoryDetails)
      (p.callSync canon .repositoryDetails) := repositoryCall_gives' hv fun _ _ _ => trivial

theorem call_gives (hv : Current p) (call : ProvCall) :
    Gives (· = st) (fun m => allOf canon p st = .ok m) (fun r => repositoryOf canon p st = .ok r)
      (reference canon p st call) (p.callSync canon call) := by
  have hC : ∀ m r, p.buildCache canon st = .ok (m, r) → allOf canon p st = .ok m := fun m r h => by rw [allOf, h]; rfl
  have hD : ∀ m r, p.buildCache canon st = .ok (m, r) → repositoryOf canon p st = .ok r :=
    fun m r h => by rw [repositoryOf, h]; rfl
  cases call with
  | string c i t => exact Gives.bind (oneString_gives hv c i t _) fun _ _ => gives_pure _
  | stringExactMatch c i t => exact Gives.bind (oneString_gives hv c i t _) fun _ _ => gives_pure _
  | strings c i t => exact Gives.bind (strings_gives hv c i t) fun _ _ => gives_pure _
  | identifierDetails c i =>
    have := Gives.bind (identifierDetails_gives hv hD c i) (f := fun x => .ok (.identifier x.1 x.2))
      (g := fun x => pure (ProvReply.identifier x.1 x.2)) fun _ _ => gives_pure _
    refine cast (congrArg (fun z => Gives _ _ _ z _) ?_) this
    unfold allOf reference
    cases p.buildCache canon st with
    | ok x => rfl
    | err e => rfl
    | panic => rfl
  | componentDetails c => exact componentCall_gives' hv hD c
  | repositoryDetails => exact repositoryCall_gives' hv hC

theorem reference_ne_panic (hc : Connected p) (hk : p.components.keys.Nodup) (call : ProvCall) :
    reference canon p st call ≠ .panic := by
  cases call with
  | string c i t => exact bind_ne_panic (oneString_ne_panic hc canon st c i t _) fun _ _ => by simp
  | stringExactMatch c i t => exact bind_ne_panic (oneString_ne_panic hc canon st c i t _) fun _ _ => by simp
  | strings c i t => exact bind_ne_panic (strings_ne_panic hc canon st c i t) fun _ _ => by simp
  | identifierDetails c i =>
    exact bind_ne_panic (buildCache_ne_panic hc hk st) fun x _ =>
      bind_ne_panic (identifierDetails_ne_panic hc canon st _ c i) fun _ _ => by simp
  | componentDetails c =>
    refine bind_ne_panic (buildCache_ne_panic hc hk st) fun x _ => ?_
    cases x.1.get c <;> simp
  | repositoryDetails => exact bind_ne_panic (buildCache_ne_panic hc hk st) fun x _ => by simp

/-! ### Calls with a store that changes -/

/-- The reply is no panic, and what it says of details is what the cells hold. -/
def Right (call : ProvCall) (r : ProvM E ProvReply) (s : ProvState) : Prop :=
  r ≠ .panic ∧ ∀ reply, r = .ok reply → match call, reply with
    | .string _ _ _, .string _ => True
    | .stringExactMatch _ _ _, .string _ => True
    | .strings _ _ _, .strings _ => True
    | .identifierDetails c _, .identifier _ default =>
      ∃ m d, s.components = some m ∧ m.get c = some d ∧ d.default = default
    | .componentDetails c, .component d => ∃ m, s.components = some m ∧ m.get c = some d
    | .repositoryDetails, .repository r => s.repository = some r
    | _, _ => False

theorem Right.stable {call : ProvCall} {r : ProvM E ProvReply} {s s' : ProvState} (h : Right call r s) (hr : Rel s s') :
    Right call r s' := by
  refine ⟨h.1, fun reply he => ?_⟩
  have := h.2 reply he
  cases call <;> cases reply <;> simp only at this ⊢
  · obtain ⟨m, d, h1, h2⟩ := this
    exact ⟨m, d, hr.components m h1, h2⟩
  · obtain ⟨m, h1, h2⟩ := this
    exact ⟨m, hr.components m h1, h2⟩
  · exact hr.repository _ this

theorem after_ok {α β : Type} {Q : ProvM E α → ProvState → Prop} {Q' : ProvM E β → ProvState → Prop} {a : Prog E α}
    {f : α → Prog E β} (h : Yields S C D Q a) (hp : ∀ s, ¬ Q .panic s) (he : ∀ e s, Q' (.err e) s)
    (hf : ∀ x s, Inv S C D s → Q (.ok x) s → (f x).Leads (Inv S C D) Rel Q' s) : Yields S C D Q' (a >>= f : Prog E β) := by
  refine yields_bind h fun r s hi hq => ?_
  cases r with
  | ok x => exact hf x s hi hq
  | err e => exact he e s
  | panic => exact absurd hq (hp s)

theorem call_right (hc : Connected p) (hv : Current p) (call : ProvCall) :
    Yields S (Complete p) DefaultListed (Right call) (p.callSync canon call) := by
  cases call with
  | string c i t =>
    exact after_ok (oneString_safe hc hv c i t false) (fun _ h => h.1 rfl) (fun _ _ => ⟨by simp, fun _ h => by cases h⟩)
      fun _ _ _ _ => ⟨by simp, fun _ h => by cases h; trivial⟩
  | stringExactMatch c i t =>
    exact after_ok (oneString_safe hc hv c i t true) (fun _ h => h.1 rfl) (fun _ _ => ⟨by simp, fun _ h => by cases h⟩)
      fun _ _ _ _ => ⟨by simp, fun _ h => by cases h; trivial⟩
  | strings c i t =>
    exact after_ok (strings_safe hc hv c i t) (fun _ h => h.1 rfl) (fun _ _ => ⟨by simp, fun _ h => by cases h⟩)
      fun _ _ _ _ => ⟨by simp, fun _ h => by cases h; trivial⟩
  | identifierDetails c i =>
    refine after_ok (Q := fun x s => x ≠ .panic ∧ ∀ y, x = .ok y → ∃ m d, s.components = some m ∧ m.get c = some d ∧ d.default = y.2)
      ?_ (fun _ h => h.1 rfl) (fun _ _ => ⟨by simp, fun _ h => by cases h⟩)
      fun x s _ hq => ⟨by simp, fun _ h => by cases h; exact hq.2 _ rfl⟩
    refine after_ok (allDetails_safe hc hv) (fun _ h => h.1 rfl) (fun _ _ => ⟨by simp, fun _ h => by cases h⟩) fun m s hi hq => ?_
    have hm := hq.2 m rfl
    cases hd : AMap.get m c with
    | none => exact ⟨by simp, fun _ h => by cases h⟩
    | some d =>
      simp only
      have keep : ∀ s', Rel s s' → s'.components = some m := fun s' hr => hr.components m hm
      refine Leads.bind Rel.trans Rel.refl (identifierLanguages_safe (canon := canon) hc hv c i true s hi) hi fun r s' hr hi' hq' => ?_
      cases r with
      | err e => exact ⟨by simp, fun _ h => by cases h⟩
      | panic => exact absurd rfl hq'.1
      | ok ls =>
        refine Leads.bind Rel.trans Rel.refl (safe_askIf (b := ls.isEmpty) (y := ls)
          (identifierLanguages_safe (canon := canon) hc hv c i false) trivial s' hi') hi' fun r2 s2 hr2 hi2 hq2 => ?_
        cases r2 with
        | err e => exact ⟨by simp, fun _ h => by cases h⟩
        | panic => exact absurd rfl hq2.1
        | ok ls2 =>
          exact ⟨by simp, fun _ h => by
            cases h; exact ⟨m, d, keep s2 (Rel.trans _ _ _ hr hr2), hd, rfl⟩⟩
  | componentDetails c =>
    refine after_ok (Q := fun x s => x ≠ .panic ∧ ∀ y, x = .ok y → ∃ m, s.components = some m ∧ m.get c = some y)
      ?_ (fun _ h => h.1 rfl) (fun _ _ => ⟨by simp, fun _ h => by cases h⟩)
      fun x s _ hq => ⟨by simp, fun _ h => by cases h; exact hq.2 _ rfl⟩
    refine after_ok (allDetails_safe hc hv) (fun _ h => h.1 rfl) (fun _ _ => ⟨by simp, fun _ h => by cases h⟩) fun m s hi hq => ?_
    have hm := hq.2 m rfl
    cases hd : AMap.get m c with
    | none => exact ⟨by simp, fun _ h => by cases h⟩
    | some d => exact ⟨by simp, fun _ h => by cases h; exact ⟨m, hm, hd⟩⟩
  | repositoryDetails =>
    exact after_ok (repositoryDetails_safe hc hv) (fun _ h => h.1 rfl) (fun _ _ => ⟨by simp, fun _ h => by cases h⟩)
      fun x s _ hq => ⟨by simp, fun _ h => by cases h; exact hq.2 _ rfl⟩

/-! ### Calls when the cells are set -/

theorem allDetails_set {s : ProvState} {m : AMap Str ComponentDetails} (h : s.components = some m) :
    (p.allDetails canon).Leads (Inv S C D) Rel (fun r _ => r = .ok m) s := by
  refine Leads.atomic fun t ht hi => ?_
  rw [ht.components m h]
  exact ⟨hi, Rel.refl _, rfl⟩

theorem componentDetails_set {s : ProvState} (hi : Inv S C D s) {m : AMap Str ComponentDetails} (h : s.components = some m)
    {c : Str} {d : ComponentDetails} (hd : m.get c = some d) :
    (p.callSync canon (.componentDetails c)).Leads (Inv S C D) Rel (fun r _ => r = .ok (.component d)) s := by
  refine Leads.bind Rel.trans Rel.refl (Q := fun r _ => r = .ok d) ?_ hi fun r s' _ _ hq => by subst hq; exact rfl
  refine Leads.bind Rel.trans Rel.refl (allDetails_set (canon := canon) (p := p) h) hi fun r s' _ _ hq => ?_
  subst hq
  simp only [hd]
  exact rfl

theorem repositoryDetails_set {s : ProvState} (hi : Inv S C D s) {r : RepositoryDetails} (h : s.repository = some r) :
    (p.callSync canon .repositoryDetails).Leads (Inv S C D) Rel (fun x _ => x = .ok (.repository r)) s := by
  refine Leads.bind Rel.trans Rel.refl (Q := fun x _ => x = .ok r) ?_ hi fun x s' _ _ hq => by subst hq; exact rfl
  refine Leads.atomic fun t ht hi => ?_
  rw [ht.repository r h]
  exact ⟨hi, Rel.refl _, rfl⟩

/-! ### Nobody waits -/

theorem now_free {α : Type} (x : ProvM E α) : (Prog.now x).Free := trivial

theorem after_free {α β : Type} {a : Prog E α} {f : α → Prog E β} (h : a.Free) (hf : ∀ x, (f x).Free) : (a >>= f).Free := by
  refine Free.bind h fun r => ?_
  cases r with
  | ok x => exact hf x
  | err e => exact trivial
  | panic => exact trivial

theorem askIf_free {α : Type} {b : Bool} {a : Prog E α} {y : α} (h : a.Free) : (Prog.askIf b a y).Free := by
  unfold Prog.askIf
  split
  · exact h
  · exact trivial

theorem query_free {α : Type} (name : Str) (run : Database → Except Nat α) : (Prog.query name run : Prog E α).Free :=
  Free.atomic fun _ => trivial

theorem queryText_free (key : Str) (x : ProvM E Str) : (queryText key x).Free := by
  refine Free.atomic fun s => ?_
  split
  · exact trivial
  · split
    · exact trivial
    · refine Free.atomic fun s => ?_
      split
      · exact trivial
      · split
        · refine Free.atomic fun s => ?_
          split <;> exact trivial
        · exact trivial

theorem languages_free (c : Str) (aio : Bool) : (p.languagesSync canon c aio).Free :=
  after_free (now_free _) fun _ => after_free (queryText_free _ _) fun _ => after_free (query_free _ _) fun _ => now_free _

theorem contributors_free (c t : Str) (aio : Bool) : (p.contributorsSync (E := E) c t aio).Free :=
  after_free (now_free _) fun _ => after_free (queryText_free _ _) fun _ => query_free _ _

theorem count_free (c t : Str) (aio : Bool) : (p.countSync (E := E) c t aio).Free :=
  after_free (now_free _) fun _ => after_free (queryText_free _ _) fun _ => query_free _ _

theorem defaultLanguage_free (c : Str) (aio : Bool) : (p.defaultLanguageSync canon c aio).Free :=
  after_free (now_free _) fun _ => after_free (queryText_free _ _) fun _ => after_free (query_free _ _) fun _ =>
    after_free (now_free _) fun _ => now_free _

theorem countLanguages_free (c : Str) (files : Bool × Bool) : ∀ tags own repo,
    (p.countLanguagesSync (E := E) c files tags own repo).Free := by
  intro tags
  induction tags with
  | nil => intro own repo; exact trivial
  | cons t tags ih =>
    intro own repo
    refine after_free (now_free _) fun _ => after_free ?_ fun _ => after_free (now_free _) fun _ => ih _ _
    exact after_free (askIf_free (contributors_free c t _)) fun _ => after_free (askIf_free (contributors_free c t _)) fun _ =>
      after_free (askIf_free (count_free c t _)) fun _ => after_free (askIf_free (count_free c t _)) fun _ => now_free _

theorem buildComponent_free (c : Str) (files : Bool × Bool) (repo : RepositoryDetails) :
    (p.buildComponentSync canon c files repo).Free := by
  refine after_free (now_free _) fun _ => after_free ?_ fun x => ?_
  · exact after_free (askIf_free (languages_free c _)) fun _ => after_free (askIf_free (languages_free c _)) fun _ => now_free _
  · refine after_free (askIf_free (defaultLanguage_free c _)) fun _ =>
      after_free (askIf_free (defaultLanguage_free c _)) fun d => ?_
    cases d with
    | none => exact trivial
    | some d =>
      simp only
      split
      · exact trivial
      · exact after_free (countLanguages_free c files _ _ _) fun _ => after_free (now_free _) fun _ => now_free _

theorem buildComponents_free : ∀ rest done repo, (p.buildComponentsSync canon rest done repo).Free := by
  intro rest
  induction rest with
  | nil => intro done repo; exact trivial
  | cons a rest ih => intro done repo; exact after_free (buildComponent_free a.1 a.2 repo) fun _ => ih _ _

theorem setDetails_free (m : AMap Str ComponentDetails) (r : RepositoryDetails) : (setDetails (E := E) m r).Free :=
  Free.atomic fun _ => Free.atomic fun _ => trivial

theorem buildCache_free : (p.buildCacheSync canon).Free := by
  refine after_free (buildComponents_free _ _ _) fun x => ?_
  obtain ⟨m, r⟩ := x
  simp only
  split
  · exact setDetails_free _ _
  · exact after_free (now_free _) fun _ => setDetails_free _ _

theorem allDetails_free : (p.allDetails canon).Free := by
  refine Free.atomic fun s => ?_
  split
  · exact trivial
  · exact after_free buildCache_free fun _ => Free.atomic fun _ => trivial

theorem componentCall_free (c : Str) : (p.callSync canon (.componentDetails c)).Free := by
  refine after_free (after_free allDetails_free fun m => ?_) fun _ => now_free _
  split
  · exact trivial
  · exact now_free _

theorem repositoryCall_free : (p.callSync canon .repositoryDetails).Free := by
  refine after_free (Free.atomic fun s => ?_) fun _ => now_free _
  split
  · exact trivial
  · exact after_free buildCache_free fun _ => Free.atomic fun _ => trivial

/-! ### What a run gives -/

/-- What holds of the thread with this number. -/
def Tells (parties : List Party) (i : Nat) (rs : List (ProvM E ProvReply)) (s : ProvState) : Prop :=
  ∀ calls, parties[i]? = some (.asks calls) → Replies (fun c r => Right c r s) calls rs

theorem tells_stable {parties : List Party} (i : Nat) (rs : List (ProvM E ProvReply)) (s s' : ProvState)
    (h : Tells parties i rs s) (hr : Rel s s') : Tells parties i rs s' :=
  fun calls hc => (h calls hc).imp fun _ _ h => h.stable hr

theorem started_inv (st : Store) : Inv (fun _ => True) (Complete p) DefaultListed (started st) :=
  ⟨rfl, fun k t h => by simp [started] at h, trivial, fun m h => by simp [started] at h,
    fun r h => by simp [started] at h⟩

theorem run_tells (hc : Connected p) (hv : Current p) (st : Store) (parties : List Party) (schedule : List Nat) :
    Inv (fun _ => True) (Complete p) DefaultListed
      (runThreads (started st) (parties.map (Party.program canon p)) schedule).1 ∧
    ∀ i (q : Act ProvState (List (ProvM E ProvReply))), (runThreads (started st) (parties.map (Party.program canon p)) schedule).2[i]? = some q →
      q.Leads (Inv (fun _ => True) (Complete p) DefaultListed) Rel (Tells parties i)
        (runThreads (started st) (parties.map (Party.program canon p)) schedule).1 := by
  have := Act.leads_run (I := Inv (fun _ => True) (Complete p) DefaultListed) Rel.trans Rel.refl
    (Q := Tells (E := E) parties) tells_stable schedule (started st) (parties.map (Party.program canon p)) (started_inv st)
    (fun i q hq => by
      simp only [List.getElem?_map, Option.map_eq_some_iff] at hq
      obtain ⟨party, hp, rfl⟩ := hq
      cases party with
      | changes f => exact changes_leads (fun _ => trivial) (fun s calls hcalls => by rw [hp] at hcalls; cases hcalls) f _
      | asks calls =>
        have := thread_leads (S := fun _ => True) (C := Complete p) (D := DefaultListed) (p := p) (canon := canon)
          (Pre := fun _ => True) (Q := Right) (fun _ _ _ _ => trivial) (fun _ _ _ _ h hr => h.stable hr)
          (fun _ _ _ h => h.1) (fun c s hi _ => call_right hc hv c s hi) calls [] [] (started st) (started_inv st)
          trivial .nil
        refine this.weaken fun rs s hrs calls' hcalls => ?_
        rw [hp] at hcalls
        cases hcalls
        exact hrs)
  exact ⟨this.1, this.2.2⟩

end Verif.ProviderLemmas
