import Verif.Lemmas.FormatReach
import Verif.Spec.DemoDoc
/-
Property theorems C13, C14, C18–C24 and C48: the formatter, /repo/crates/localiser/src/formatter.rs, and the use of it in
/repo/crates/localiser/src/localiser.rs.

A history is a list of values: the calls of `format` made before on the same formatter. A call that never ends cannot be
followed by another, hence the hypothesis `Ended`.
-/
namespace Verif.Props
open Verif Verif.Spec Verif.FormatLemmas
open Verif.TreeLemmas (complete)

variable {D F : Type}

theorem tagged_eq (o : Outcome Unit Str) (tag : Str) : (do let s ← o; pure (s, tag) : Outcome Unit (Str × Str)) = tagged o tag := by
  cases o <;> rfl

/-! ### C48: what is accepted and what a call gives -/

/-- **C48, acceptance.** A pattern string is accepted exactly if it is read as a syntax `d` that meets `DocOk`. -/
theorem C48_accepted_exactly (E : FmtEnv D F) (s tag lang : Str) :
    (∃ f, Formatter.tryNew E s tag (some lang) = .ok f) ↔ ∃ d, Reads E s d ∧ DocOk E d := by
  constructor
  · rintro ⟨f, hf⟩
    obtain ⟨d, hd⟩ := tryNew_reads hf
    obtain ⟨_, _, owners, hr, _⟩ := rep_of hd hf
    exact ⟨d, hd, hr.ok⟩
  · rintro ⟨d, hd, hok⟩
    have := tryNew_spec hd tag lang
    generalize Formatter.tryNew E s tag (some lang) = x at this ⊢
    match x, this with
    | .ok f, _ => exact ⟨f, rfl⟩
    | .err _, h => exact absurd hok h
    | .panic, h => exact absurd hok h.1

theorem accepted_ok {E : FmtEnv D F} {s tag lang : Str} {d : Doc} {f : Formatter} (hd : Reads E s d)
    (hf : Formatter.tryNew E s tag (some lang) = .ok f) : DocOk E d := by
  obtain ⟨_, _, owners, hr, _⟩ := rep_of hd hf
  exact hr.ok

/-- **C48, formatting.** Whatever was formatted before, a call gives the meaning of the pattern string: the text, a
failure or a panic as `Doc.eval` has it; where that has no result, the call never ends (no depth of recursion suffices). -/
theorem C48_format_gives_the_meaning (E : FmtEnv D F) {s tag lang : Str} {d : Doc} {f : Formatter} (hd : Reads E s d)
    (hf : Formatter.tryNew E s tag (some lang) = .ok f) (history : List (AMap Str (PValue D F)))
    (hh : Ended E lang d history) (values : AMap Str (PValue D F)) :
    (∀ o, (d.eval E lang values (d.storeAfter E lang history)).1 = some o →
      forget ((after E f history).format E values).1 = tagged o tag) ∧
    ((d.eval E lang values (d.storeAfter E lang history)).1 = none →
      ((after E f history).format E values).1 = .panic ∧
      ∀ depth, (formatPattern E (after E f history) values depth mainName (after E f history).numbers).1 = none) := by
  obtain ⟨rfl, rfl, owners, hr, hn⟩ := rep_of hd hf
  obtain ⟨hr', ht, hl, hp, _, hn'⟩ := rep_after history f Store.empty hr hn hh
  have := hr'.format_eq values _ hn'
  rw [hl, ht] at this
  change match d.eval E f.icuLanguage values (d.storeAfter E f.icuLanguage history) with
    | (some o, st') => _
    | (none, _) => _ at this
  generalize d.eval E f.icuLanguage values (d.storeAfter E f.icuLanguage history) = y at this ⊢
  obtain ⟨y1, y2⟩ := y
  match y1, this with
  | some o, h =>
    refine ⟨fun o' ho => ?_, fun h => by cases h⟩
    obtain rfl : o = o' := by simpa using ho
    rw [h.1, tagged_eq]
  | none, h =>
    obtain ⟨h1, _, _, h3⟩ := h
    exact ⟨fun o' ho => (by simp at ho), fun _ => ⟨h1, h3⟩⟩

/-- **C48, panics.** Preparing a pattern string panics only if the parser does (see C11) or a registered command does;
formatting panics only if a registered command does or if it never ends (see C20). -/
theorem C48_panics_only_from_parser_and_commands (E : FmtEnv D F) (s tag lang : Str) :
    (Formatter.tryNew E s tag (some lang) = .panic → Tree.tryNew E.icu E.grammar s = .panic ∨ CmdPanics E) ∧
    ∀ d f, Reads E s d → Formatter.tryNew E s tag (some lang) = .ok f → ∀ history, Ended E lang d history → ∀ values,
      ((after E f history).format E values).1 = .panic →
      CmdPanics E ∨ (d.eval E lang values Store.empty).1 = none := by
  refine ⟨tryNew_panic, fun d f hd hf history hh values hp => ?_⟩
  obtain ⟨h1, _⟩ := C48_format_gives_the_meaning E hd hf history hh values
  cases hy : (d.eval E lang values (d.storeAfter E lang history)).1 with
  | none => exact Or.inr (doc_none E lang values d _ _ hy)
  | some o =>
    have := h1 o hy
    rw [hp] at this
    cases o with
    | ok _ => simp [tagged, forget, Outcome.mapErr] at this
    | err _ => simp [tagged, forget, Outcome.mapErr] at this
    | panic => exact Or.inl (eval_panic hy)

/-- The example: `dogs` is read as `dogsDoc` and accepted. -/
theorem dogs_accepted : ∃ f, Formatter.tryNew Demo.env Demo.dogs "en".toList (some "en".toList) = .ok f := by
  have h : Demo.accepts (String.ofList Demo.dogs) = true := by decide +kernel
  unfold Demo.accepts at h
  rw [String.toList_ofList] at h
  generalize Formatter.tryNew Demo.env Demo.dogs "en".toList (some "en".toList) = x at h ⊢
  match x, h with
  | .ok f, _ => exact ⟨f, rfl⟩

example : ∃ f, Formatter.tryNew Demo.env Demo.dogs "en".toList (some "en".toList) = .ok f ∧
    Reads Demo.env Demo.dogs Demo.dogsDoc ∧ Ended Demo.env "en".toList Demo.dogsDoc [Demo.vals [("n", .inr 1)]] ∧
    forget ((after Demo.env f [Demo.vals [("n", .inr 1)]]).format Demo.env (Demo.vals [("n", .inr 42)])).1 =
      .ok ("42 dogs".toList, "en".toList) := by
  obtain ⟨f, hf⟩ := dogs_accepted
  have hh : Ended Demo.env "en".toList Demo.dogsDoc [Demo.vals [("n", .inr 1)]] := by
    intro v hv
    simp only [List.mem_singleton] at hv
    subst hv
    decide +kernel
  refine ⟨f, hf, Demo.dogs_reads, hh, ?_⟩
  exact (C48_format_gives_the_meaning Demo.env Demo.dogs_reads hf _ hh _).1 (.ok "42 dogs".toList) (by decide +kernel)

/-! ### C13, C14: texts and placeholders -/

/-- **C14.** A template of texts (written with a backtick before each grammar character) and placeholders with pairwise
different identifiers gives the texts and the values, in order and unchanged. -/
theorem C14_placeholders_are_substituted (E : FmtEnv D F) (hE : Standard E) (segs : List Seg) (tag lang : Str)
    (values : AMap Str (PValue D F)) (val : Str → Str) (hn : (holes segs).Nodup)
    (hid : ∀ id ∈ holes segs, IsIdentifier E.icu id ∧ ∃ v, values.get id = some v ∧ Shows v (val id)) :
    formatString E (source segs) tag (some lang) values = .ok (fill val segs, tag) := by
  unfold formatString
  split
  · rename_i hs
    rw [fill_source val segs (by rw [hs]; simp), hs]
  · rename_i hs
    obtain ⟨ts, items, hl, htoks, hcat, hsen, hpn, hok, hev⟩ := template hE segs lang values val hid hs
    by_cases hg : ∃ t ∈ ts, t.tokenType = .grammar
    · have hr : Reads E (source segs) ⟨items, none⟩ := ⟨ts, hl, hsen, by rw [hpn]; exact hn, by simp [Doc.namedNames], hg⟩
      obtain ⟨f, hf⟩ := (C48_accepted_exactly E (source segs) tag lang).2 ⟨_, hr, hok⟩
      rw [hf]
      have := (C48_format_gives_the_meaning E hr hf [] (fun v hv => by simp at hv) values).1 (.ok (fill val segs))
        (by rw [hev])
      change forget (f.format E values).1 = _ at this
      simp only
      generalize (f.format E values).1 = x at this ⊢
      cases x with
      | ok a => simpa [forget, Outcome.mapErr, tagged] using this
      | err e => simp [forget, Outcome.mapErr, tagged] at this
      | panic => simp [forget, Outcome.mapErr, tagged] at this
    · have hc : ∀ c ∈ source segs, c ∉ patternGrammar := by
        intro c hc hcg
        rw [← hcat] at hc
        obtain ⟨w, hw, hcw⟩ := List.mem_flatten.1 hc
        obtain ⟨t, ht, rfl⟩ := List.mem_map.1 hw
        have h1 := htoks.uniform t ht c hcw
        have h2 := class_of_grammar hE.syn hcg
        exact hg ⟨t, ht, HasClass.unique h1 h2⟩
      have ht : ∃ t, Tree.tryNew E.icu E.grammar (source segs) = .ok t ∧ t.hasGrammar = TreeLemmas.anyGr ts :=
        ⟨_, by rw [Tree.tryNew, hl]; exact complete hsen (by rw [hpn]; exact hn) (by simp [Doc.namedNames]), rfl⟩
      obtain ⟨t, ht, htg⟩ := ht
      have hgr : TreeLemmas.anyGr ts = false := by
        cases h : TreeLemmas.anyGr ts with
        | false => rfl
        | true => exact absurd ((anyGr_iff ts).1 h) hg
      have : Formatter.tryNew E (source segs) tag (some lang) = .err .noGrammar := by
        unfold Formatter.tryNew
        rw [ht]
        simp only [Outcome.mapErr, Outcome.bind_ok, Formatter.ofTree]
        rw [if_pos (by simp [htg, hgr])]
      rw [this, fill_source val segs hc]

/-- The text of an escaped text is that text. -/
theorem source_text (s : Str) : source [.text s] = escape s := by simp [source, Seg.source]

/-- **C13.** Escaping each grammar character of a text and formatting gives back the text, with any values. -/
theorem C13_escaped_text_round_trips (E : FmtEnv D F) (hE : Standard E) (s tag lang : Str)
    (values : AMap Str (PValue D F)) : formatString E (escape s) tag (some lang) values = .ok (s, tag) := by
  have := C14_placeholders_are_substituted E hE [.text s] tag lang values (fun _ => []) (by simp [holes])
    (by simp [holes])
  rw [source_text] at this
  simpa [fill, Seg.fill] using this

theorem demo_standard : Standard Demo.env := ⟨rfl, by decide +kernel⟩

example : formatString Demo.env "a `{b`} `` c `#".toList "en".toList (some "en".toList) [] =
    .ok ("a {b} ` c #".toList, "en".toList) :=
  C13_escaped_text_round_trips Demo.env demo_standard "a {b} ` c #".toList _ _ _

example : formatString Demo.env "`{a`}{x} b{y}".toList "en".toList (some "en".toList)
    (Demo.vals [("y", .inl "{x}"), ("x", .inl "`")]) = .ok ("{a}` b{x}".toList, "en".toList) :=
  C14_placeholders_are_substituted Demo.env demo_standard
    [.text "{a}".toList, .hole "x".toList, .text " b".toList, .hole "y".toList] _ _ _
    (fun id => if id = "x".toList then "`".toList else "{x}".toList) (by decide +kernel) (by
      intro id hid
      have : id = "x".toList ∨ id = "y".toList := by simpa [holes] using hid
      rcases this with rfl | rfl
      · exact ⟨⟨by decide, by decide +kernel⟩, _, rfl, .string _⟩
      · exact ⟨⟨by decide, by decide +kernel⟩, _, rfl, .string _⟩)

/-! ### C23: number signs -/

/-- **C23.** Whatever was formatted before, a call gives the meaning in which the number signs of a named string selected
by a plural or ordinal pattern stand for the number that selected it (`Doc.evalP byCategory` hands that number down,
`evalPluralP`, and does not look at stored numbers there, `evalItemP`). -/
theorem C23_number_sign_shows_selecting_number (E : FmtEnv D F) {s tag lang : Str} {d : Doc} {f : Formatter}
    (hd : Reads E s d) (hf : Formatter.tryNew E s tag (some lang) = .ok f) (history : List (AMap Str (PValue D F)))
    (hh : Ended E lang d history) (values : AMap Str (PValue D F)) :
    ∀ o, (d.evalP byCategory E lang values (d.storeAfter E lang history)).1 = some o →
      forget ((after E f history).format E values).1 = tagged o tag := by
  rw [eval_lexical (accepted_ok hd hf)]
  exact (C48_format_gives_the_meaning E hd hf history hh values).1

example : (Demo.dogsDoc.evalP byCategory Demo.env "en".toList (Demo.vals [("n", .inr 42)]) fun _ => "7".toList).1 =
    some (.ok "42 dogs".toList) := by decide +kernel

/-! ### C18: branches -/

/-- **C18 is violated**: the documented example is rejected, and a select pattern formats the string named by the
category `a`, not the one named by the branch `b`. -/
theorem C18_violated :
    Demo.accepts
      "There {dogs_number plural one#one_dog other#dogs} in the park.#{dogs are # dogs}{one_dog is 1 dog}" = false ∧
    Demo.format "{s select a#b}# {a x}{b y}" [[("s", .inl "a")]] = some [some "x".toList] := by decide +kernel

/-- **C18, what holds.** If each branch has the name of its category, a call gives the meaning in which the branch is
formatted. Missing: other branches, for which the claim is false. -/
theorem C18_branch_named_as_category_partial (E : FmtEnv D F) {s tag lang : Str} {d : Doc} {f : Formatter}
    (hd : Reads E s d) (hf : Formatter.tryNew E s tag (some lang) = .ok f) (hb : BranchIsCategory d)
    (history : List (AMap Str (PValue D F))) (hh : Ended E lang d history) (values : AMap Str (PValue D F)) :
    ∀ o, (d.evalP byBranch E lang values (d.storeAfter E lang history)).1 = some o →
      forget ((after E f history).format E values).1 = tagged o tag := by
  rw [← evalP_congr (agree_branch hb)]
  exact C23_number_sign_shows_selecting_number E hd hf history hh values

theorem docOk_item {E : FmtEnv D F} {d : Doc} (h : DocOk E d) {it : Item} (hit : it ∈ d.items) :
    ItemOk E (mainName :: d.named.map Named.name) it := by
  simp only [Doc.items, List.mem_append, List.mem_flatMap] at hit
  rcases hit with hit | ⟨n, hn, hit⟩
  · exact h.2 it hit
  · have key : ∀ (ns : List Named) (known : List Str), GroupOk E known ns → n ∈ ns →
        ItemOk E (known ++ ns.map Named.name) it := by
      intro ns
      induction ns with
      | nil => intro _ _ hn; simp at hn
      | cons m ns ih =>
        intro known hg hn
        rcases List.mem_cons.1 hn with rfl | hn
        · exact itemOk_mono (fun x hx => by simp [hx]) (hg.2.1 it hit)
        · exact itemOk_mono (fun x hx => by simpa using hx) (ih _ hg.2.2 hn)
    exact key d.named [mainName] h.1 hn

/-- **C18, how it fails.** A pattern string with a plural, ordinal or select pattern is accepted only if every category
of the pattern (not the branch) is the name of a named string or `_`. -/
theorem C18_category_must_be_named_partial (E : FmtEnv D F) {s tag lang : Str} {d : Doc} (hd : Reads E s d)
    {id k sels} (hi : Item.pat id (some (k, sels)) ∈ d.items) {c : Leaf × Leaf} (hc : c ∈ sels)
    (hn : c.1.str ≠ mainName) (hm : ∀ n ∈ d.named, n.name ≠ c.1.str) :
    ¬ ∃ f, Formatter.tryNew E s tag (some lang) = .ok f := by
  rintro ⟨f, hf⟩
  have hok := docOk_item (accepted_ok hd hf) hi
  have hck : c.1.str ∈ keysOf sels := List.mem_map.2 ⟨c, hc, rfl⟩
  have hno : c.1.str ∉ d.named.map Named.name := fun h => by
    obtain ⟨n, hn, e⟩ := List.mem_map.1 h
    exact hm n hn e
  rcases ItemOk.keyword hok with ⟨_, rfl⟩ | ⟨_, rfl⟩ | ⟨_, _, h⟩ | ⟨_, h⟩
  · simp at hc
  · simp at hc
  · exact hno (h _ hck)
  · rcases h _ hck with h | h
    · exact hn h
    · exact hno h

theorem dogs_item {id k sels} (hi : Item.pat id (some (k, sels)) ∈ Demo.dogsDoc.items) :
    id = Demo.lf 1 ∧ k = Demo.lf 3 ∧ sels = [(Demo.lf 5, Demo.lf 7), (Demo.lf 9, Demo.lf 11)] := by
  simp only [Doc.items, Demo.dogsDoc, Doc.named, Option.getD, List.flatMap_cons, List.flatMap_nil, List.mem_append,
    List.mem_cons, List.not_mem_nil, or_false, reduceCtorEq, or_self] at hi
  injection hi with h1 hi
  injection hi with hi
  injection hi with h2 h3
  exact ⟨h1, h2, h3⟩

theorem dogs_branch : BranchIsCategory Demo.dogsDoc := by
  intro id k sels hi s hs
  obtain ⟨_, _, rfl⟩ := dogs_item hi
  simp only [List.mem_cons, List.not_mem_nil, or_false] at hs
  rcases hs with rfl | rfl <;> decide +kernel

example : BranchIsCategory Demo.dogsDoc ∧
    (Demo.dogsDoc.evalP byBranch Demo.env "en".toList (Demo.vals [("n", .inr 1)]) Store.empty).1 =
      some (.ok "a dog".toList) := ⟨dogs_branch, by decide +kernel⟩

/-! ### C19: options -/

/-- **C19 is violated**: a documented option makes the pattern string invalid. -/
theorem C19_violated : Demo.accepts "{n decimal sign#always}" = false ∧ Demo.accepts "{n decimal group#min_2}" = false ∧
    Demo.accepts "{d date_time date#long}" = false ∧ Demo.accepts "{d date_time time#short calendar#buddhist}" = false ∧
    Demo.accepts "{n decimal}" = true ∧ Demo.accepts "{d date_time}" = true := by decide +kernel

/-- **C19, how it fails.** Every pattern string with a decimal or date_time pattern with at least one option, anywhere, is
rejected. -/
theorem C19_every_option_rejected_partial (E : FmtEnv D F) {s tag lang : Str} {d : Doc} (hd : Reads E s d)
    {id k sels} (hi : Item.pat id (some (k, sels)) ∈ d.items)
    (hk : k.str = "decimal".toList ∨ k.str = "date_time".toList) (hs : sels ≠ []) :
    ¬ ∃ f, Formatter.tryNew E s tag (some lang) = .ok f := by
  rintro ⟨f, hf⟩
  obtain ⟨_, k2, k3, k4, k5, _, k7, k8, _, _⟩ := kw_ne
  rcases ItemOk.keyword (docOk_item (accepted_ok hd hf) hi) with ⟨_, h⟩ | ⟨_, h⟩ | ⟨h | h, _⟩ | ⟨h, _⟩
  · exact hs h
  · exact hs h
  · rcases hk with hk | hk
    · exact k2 (h.symm.trans hk)
    · exact k3 (h.symm.trans hk)
  · rcases hk with hk | hk
    · exact k4 (h.symm.trans hk)
    · exact k5 (h.symm.trans hk)
  · rcases hk with hk | hk
    · exact k7 (h.symm.trans hk)
    · exact k8 (h.symm.trans hk)

/-- **C19, what holds.** A pattern string of texts, plain placeholders and decimal and date_time patterns without options
is accepted, and a call gives the texts and values with ICU's default formatting. Missing: options, for which the claim is
false. -/
theorem C19_without_options_partial (E : FmtEnv D F) {s tag lang : Str} {items : List Item}
    (hd : Reads E s ⟨items, none⟩)
    (hi : ∀ it ∈ items, Plain it ∨ ∃ id k, it = .pat id (some (k, [])) ∧
      (k.str = "decimal".toList ∨ k.str = "date_time".toList)) :
    ∃ f, Formatter.tryNew E s tag (some lang) = .ok f ∧ ∀ values o,
      (evalItems E lang values mainName (fun _ st => (some (.err ()), st)) items Store.empty).1 = some o →
      forget (f.format E values).1 = tagged o tag := by
  have hok : DocOk E ⟨items, none⟩ := by
    refine ⟨trivial, fun it hit => ?_⟩
    rcases hi it hit with h | ⟨id, k, rfl, h⟩
    · exact plain_ok h
    · exact Or.inl ⟨h, rfl⟩
  obtain ⟨f, hf⟩ := (C48_accepted_exactly E s tag lang).2 ⟨_, hd, hok⟩
  refine ⟨f, hf, fun values o ho => ?_⟩
  exact (C48_format_gives_the_meaning E hd hf [] (fun v hv => by simp at hv) values).1 o ho

/-! ### C20: ending -/

/-- The formatter of `{s select _#_}`. -/
def loop : Formatter where
  languageTag := "en".toList
  icuLanguage := "en".toList
  patterns := [(mainName, [.patternComplex "s".toList .select 0])]
  numbers := []
  selectors := [[(mainName, mainName)]]

/-- **C20 is violated**: this pattern string is accepted and with `s = "_"` formatting never ends: no depth of recursion
suffices. -/
theorem C20_violated : Formatter.tryNew Demo.env "{s select _#_}".toList "en".toList (some "en".toList) = .ok loop ∧
    ∀ depth, (formatPattern Demo.env loop (Demo.vals [("s", .inl "_")]) depth mainName loop.numbers).1 = none := by
  refine ⟨by decide +kernel, fun depth => ?_⟩
  induction depth with
  | zero => rfl
  | succ depth ih =>
    have h : formatPattern Demo.env loop (Demo.vals [("s", .inl "_")]) (depth + 1) mainName loop.numbers =
        (match formatPattern Demo.env loop (Demo.vals [("s", .inl "_")]) depth mainName loop.numbers with
          | (some (.ok s), numbers) => (some (.ok ([] ++ s)), numbers)
          | r => r) := rfl
    rw [h]
    generalize formatPattern Demo.env loop (Demo.vals [("s", .inl "_")]) depth mainName loop.numbers = y at ih ⊢
    obtain ⟨y1, y2⟩ := y
    simp only at ih
    subst ih
    rfl

/-- **C20, what holds.** If no select pattern lists `_`, every call ends, whatever was formatted before: there is one
result for every depth of recursion beyond the number of strings. Missing: select patterns that list `_`, for which the
claim is false. -/
theorem C20_ends_partial (E : FmtEnv D F) {s tag lang : Str} {d : Doc} {f : Formatter} (hd : Reads E s d)
    (hf : Formatter.tryNew E s tag (some lang) = .ok f) (hm : NoMainSelected d)
    (history : List (AMap Str (PValue D F))) (values : AMap Str (PValue D F)) :
    ∃ r numbers, ∀ depth, d.named.length + 2 ≤ depth →
      formatPattern E (after E f history) values depth mainName (after E f history).numbers = (some r, numbers) := by
  have hok := accepted_ok hd hf
  obtain ⟨rfl, rfl, owners, hr, hn⟩ := rep_of hd hf
  have hh : Ended E f.icuLanguage d history := fun v _ => eval_ends hok hm _
  obtain ⟨hr', _, hl, hp, _, hn'⟩ := rep_after history f Store.empty hr hn hh
  have hg := hr'.main_complete values (d.storeAfter E f.icuLanguage history)
  rw [hl] at hg
  have he := eval_ends (lang := f.icuLanguage) (values := values) hok hm (d.storeAfter E f.icuLanguage history)
  have hsome : ∃ r numbers, formatPattern E (after E f history) values ((after E f history).patterns.length + 1) mainName
      (after E f history).numbers = (some r, numbers) := by
    rw [hn']
    change ∃ r numbers, formatPattern E (after E f history) values ((after E f history).patterns.length + 1) mainName
      (owners.map (d.storeAfter E f.icuLanguage history)) = (some r, numbers)
    generalize formatPattern E (after E f history) values ((after E f history).patterns.length + 1) mainName
      (owners.map (d.storeAfter E f.icuLanguage history)) = x at hg ⊢
    generalize d.eval E f.icuLanguage values (d.storeAfter E f.icuLanguage history) = y at hg he
    obtain ⟨x1, x2⟩ := x
    match x1 with
    | some r => exact ⟨r, x2, rfl⟩
    | none =>
      rcases hg with ⟨_, _, h, _⟩ | h
      · cases h
      · exact absurd h he
  obtain ⟨r, numbers, h⟩ := hsome
  refine ⟨r, numbers, fun depth hdepth => formatPattern_depth ?_ h⟩
  have := hr'.len
  omega

example : NoMainSelected Demo.dogsDoc := by
  intro id k sels hi hk
  obtain ⟨_, rfl, _⟩ := dogs_item hi
  exact absurd hk (by decide +kernel)

/-! ### C21: plural fallback -/

/-- **C21 is violated**: the pattern is accepted but fails for 1, whose category `one` is not listed. -/
theorem C21_violated : Demo.format "{n plural other#other}# {other # x}" [[("n", .inr 1)], [("n", .inr 2)]] =
    some [none, some "2 x".toList] := by decide +kernel

/-- **C21, what holds.** If the categories of the values are listed, a call gives the meaning with the fallback to
`other`. Missing: categories that are not listed, for which the claim is false. -/
theorem C21_listed_categories_partial (E : FmtEnv D F) {s tag lang : Str} {d : Doc} {f : Formatter}
    (hd : Reads E s d) (hf : Formatter.tryNew E s tag (some lang) = .ok f) (values : AMap Str (PValue D F))
    (hc : CategoriesListed E lang values d) (history : List (AMap Str (PValue D F))) (hh : Ended E lang d history) :
    ∀ o, (d.evalP withFallback E lang values (d.storeAfter E lang history)).1 = some o →
      forget ((after E f history).format E values).1 = tagged o tag := by
  rw [← evalP_congr (agree_fallback hc)]
  exact C23_number_sign_shows_selecting_number E hd hf history hh values

/-- **C21, how it fails.** If a plural, ordinal or select pattern is reached whose category is not listed, no text
results, although `other` is listed. -/
theorem C21_missing_category_fails_partial (E : FmtEnv D F) {s tag lang : Str} {d : Doc} {f : Formatter}
    (hd : Reads E s d) (hf : Formatter.tryNew E s tag (some lang) = .ok f) (values : AMap Str (PValue D F))
    (history : List (AMap Str (PValue D F))) (hh : Ended E lang d history) {id k sels name}
    (hr : Reached E lang values d (.pat id (some (k, sels))))
    (hs : Selects E lang values (.pat id (some (k, sels))) name) (hn : ∀ c ∈ sels, c.1.str ≠ name) (r : Str × Str) :
    ((after E f history).format E values).1 ≠ .ok r := by
  intro h
  obtain ⟨h1, h2⟩ := C48_format_gives_the_meaning E hd hf history hh values
  cases hy : (d.eval E lang values (d.storeAfter E lang history)).1 with
  | none => have := (h2 hy).1; rw [h] at this; cases this
  | some o =>
    have := h1 o hy
    rw [h] at this
    cases o with
    | ok t =>
      obtain ⟨c, hc, e⟩ := List.mem_map.1 (eval_reached_listed (accepted_ok hd hf) hy hr hs)
      exact hn c hc e
    | err _ => simp [tagged, forget, Outcome.mapErr] at this
    | panic => simp [tagged, forget, Outcome.mapErr] at this

example (n : Nat) : CategoriesListed Demo.env "en".toList (Demo.vals [("n", .inr n)]) Demo.dogsDoc := by
  intro id k sels hi
  obtain ⟨rfl, rfl, rfl⟩ := dogs_item hi
  have hk : (pairs [(Demo.lf 5, Demo.lf 7), (Demo.lf 9, Demo.lf 11)]).map Prod.fst = ["one".toList, "other".toList] := by
    decide +kernel
  have hx : ∀ c : Bool, categoryName (if c then .one else .other) ∈ ["one".toList, "other".toList] := by decide
  refine ⟨fun _ v m category _ _ hc => ?_, fun h => absurd h (by decide +kernel)⟩
  rw [hk]
  have hc' : (Except.ok (fun n => if n = 1 then .one else .other) : Except FormatterError (Nat → PluralCategory)) =
    .ok category := hc
  injection hc' with hc'
  subst hc'
  have := hx (decide (m = 1))
  simpa using this

/-! ### C22: histories -/

/-- **C22 is violated**: the same call twice gives `5` and then `55`. -/
theorem C22_violated : Demo.format "{s select other#other}{n plural other#other}# {other #}"
    [[("s", .inl "other"), ("n", .inr 5)], [("s", .inl "other"), ("n", .inr 5)]] =
    some [some "5".toList, some "55".toList] := by decide +kernel

/-- **C22, what holds.** If no select pattern lists a named string with number signs, the result of a call (text or exact
error) is the same after any two histories. Missing: such select patterns, for which the claim is false. -/
theorem C22_history_is_irrelevant_partial (E : FmtEnv D F) {s tag lang : Str} {d : Doc} {f : Formatter}
    (hd : Reads E s d) (hf : Formatter.tryNew E s tag (some lang) = .ok f) (hs : SelectsWithoutNumbers d)
    (history history' : List (AMap Str (PValue D F))) (hh : Ended E lang d history) (hh' : Ended E lang d history')
    (values : AMap Str (PValue D F)) :
    ((after E f history).format E values).1 = ((after E f history').format E values).1 := by
  have hok := accepted_ok hd hf
  have hnum : NoNumbers d.main := by
    obtain ⟨ts, _, h, _⟩ := hd
    exact sentence_numbers h
  obtain ⟨a1, a2⟩ := C48_format_gives_the_meaning E hd hf history hh values
  obtain ⟨b1, b2⟩ := C48_format_gives_the_meaning E hd hf history' hh' values
  have he := eval_pure (lang := lang) (values := values) hok hs hnum (d.storeAfter E lang history)
    (d.storeAfter E lang history')
  obtain ⟨rfl, rfl, owners, hr, hn⟩ := rep_of hd hf
  obtain ⟨_, ht, hl, hp, hsel, hn1⟩ := rep_after history f Store.empty hr hn hh
  obtain ⟨_, ht', hl', hp', hsel', hn1'⟩ := rep_after history' f Store.empty hr hn hh'
  refine format_sameEnd ⟨by rw [hl, hl'], by rw [hp, hp'], by rw [hsel, hsel']⟩ (by rw [hn1, hn1']; simp) values ?_
  cases hy : (d.eval E f.icuLanguage values (d.storeAfter E f.icuLanguage history)).1 with
  | none => rw [(a2 hy).1, (b2 (he ▸ hy)).1]
  | some o => rw [a1 o hy, b1 o (he ▸ hy)]

example : SelectsWithoutNumbers Demo.dogsDoc := by
  intro id k sels hi hk
  obtain ⟨_, rfl, _⟩ := dogs_item hi
  exact absurd hk (by decide +kernel)

/-! ### C24: values -/

/-- **C24, extra values.** Maps of values that agree on the identifiers occurring in the pattern string give the same
result (text or exact error) and the same later behaviour, after any history. -/
theorem C24_only_mentioned_values_matter (E : FmtEnv D F) {s tag lang : Str} {d : Doc} {f : Formatter}
    (hd : Reads E s d) (hf : Formatter.tryNew E s tag (some lang) = .ok f)
    (history : List (AMap Str (PValue D F))) (hh : Ended E lang d history) (values values' : AMap Str (PValue D F))
    (h : ∀ x ∈ d.mentions, values.get x = values'.get x) :
    (after E f history).format E values = (after E f history).format E values' := by
  obtain ⟨rfl, rfl, owners, hr, hn⟩ := rep_of hd hf
  obtain ⟨hr', _⟩ := rep_after history f Store.empty hr hn hh
  unfold Formatter.format
  rw [formatPattern_values fun name ps hg p hp x hx => h x (hr'.mentions name ps hg p hp x hx)]

/-- **C24, missing values.** If a call gives a text, every placeholder reached (in the main string and in selected
strings) has a value. -/
theorem C24_missing_value_is_an_error (E : FmtEnv D F) {s tag lang : Str} {d : Doc} {f : Formatter}
    (hd : Reads E s d) (hf : Formatter.tryNew E s tag (some lang) = .ok f)
    (history : List (AMap Str (PValue D F))) (hh : Ended E lang d history) (values : AMap Str (PValue D F)) (r : Str × Str)
    (h : ((after E f history).format E values).1 = .ok r) {id k} (hr : Reached E lang values d (.pat id k)) :
    ∃ v, values.get id.str = some v := by
  obtain ⟨h1, h2⟩ := C48_format_gives_the_meaning E hd hf history hh values
  cases hy : (d.eval E lang values (d.storeAfter E lang history)).1 with
  | none => have := (h2 hy).1; rw [h] at this; cases this
  | some o =>
    have := h1 o hy
    rw [h] at this
    cases o with
    | ok t => exact eval_reached_value (accepted_ok hd hf) hy hr
    | err _ => simp [tagged, forget, Outcome.mapErr] at this
    | panic => simp [tagged, forget, Outcome.mapErr] at this

example : Demo.dogsDoc.mentions = ["n".toList] ∧
    Reached Demo.env "en".toList [] Demo.dogsDoc (.pat (Demo.lf 1) (some (Demo.lf 3,
      [(Demo.lf 5, Demo.lf 7), (Demo.lf 9, Demo.lf 11)]))) ∧
    Demo.format (String.ofList Demo.dogs) [[("m", .inr 1)]] = some [none] :=
  ⟨by decide +kernel, .main (by simp [Demo.dogsDoc]), by decide +kernel⟩

end Verif.Props
