import Verif.Lemmas.FormatMore
import Verif.Lemmas.Messages
import Verif.Spec.Blame
import Verif.Props.Lexer
/-
Helper lemmas: the texts in the errors about pattern strings.
-/
namespace Verif.MessageLemmas
open Verif Verif.Spec

variable {D F : Type}

/-- The identifiers of an item that errors quote have a property. -/
def Idents (q : Token → Prop) : Item → Prop
  | .pat id none => q id.tok
  | .pat id (some (k, sels)) => q id.tok ∧ q k.tok ∧ ∀ p ∈ sels, q p.1.tok
  | _ => True

theorem Idents.mono {q q' : Token → Prop} (h : ∀ t, q t → q' t) : ∀ {it : Item}, Idents q it → Idents q' it
  | .pat _ none, hi => h _ hi
  | .pat _ (some (_, _)), hi => ⟨h _ hi.1, h _ hi.2.1, fun p hp => h _ (hi.2.2 p hp)⟩
  | .text _, _ => trivial
  | .number _, _ => trivial
  | .cmd _, _ => trivial

/-- An identifier among the tokens. -/
def Ident (ts : List Token) (t : Token) : Prop := t.tokenType = .identifier ∧ t ∈ ts

theorem kw_idents {n : Nat} {sels : List (Leaf × Leaf)} {ts : List Token} (h : KwBody n sels ts) :
    ∀ p ∈ sels, Ident ts p.1.tok := by
  induction h with
  | nil => intro p hp; cases hp
  | skip _ _ ih => exact fun p hp => ⟨(ih p hp).1, List.mem_append_left _ (ih p hp).2⟩
  | selector _ ha _ _ ih =>
    intro p hp
    rcases List.mem_append.1 hp with hp | hp
    · exact ⟨(ih p hp).1, List.mem_append_left _ (ih p hp).2⟩
    · rw [List.mem_singleton.1 hp]
      exact ⟨ha, List.mem_append_right _ (List.mem_cons_self ..)⟩

theorem pattern_idents {n : Nat} {it : Item} {ts : List Token} (h : Pattern n it ts) : Idents (Ident ts) it := by
  cases h with
  | simple _ hid _ _ => exact ⟨hid, by simp⟩
  | keyword _ hid _ hk hb _ =>
    refine ⟨⟨hid, by simp⟩, ⟨hk, by simp⟩, fun p hp => ⟨(kw_idents hb p hp).1, ?_⟩⟩
    have := (kw_idents hb p hp).2
    simp [this]
  | command _ _ _ _ _ _ => trivial

theorem push_mem {items : List Item} {l : Leaf} {it : Item} (h : it ∈ pushText items l) : it ∈ items ∨ ∃ toks, it = .text toks := by
  unfold pushText at h
  split at h
  · rcases List.mem_append.1 h with h | h
    · exact .inl (List.dropLast_subset _ h)
    · exact .inr ⟨_, List.mem_singleton.1 h⟩
  · rcases List.mem_append.1 h with h | h
    · exact .inl h
    · exact .inr ⟨_, List.mem_singleton.1 h⟩

theorem content_idents {sub : Bool} {n : Nat} {items : List Item} {ts : List Token} (h : Content sub n items ts) :
    ∀ it ∈ items, Idents (Ident ts) it := by
  have grow : ∀ {ts ts' : List Token} {it : Item}, Idents (Ident ts) it → Idents (Ident (ts ++ ts')) it :=
    fun h => h.mono fun t ht => ⟨ht.1, List.mem_append_left _ ht.2⟩
  induction h with
  | nil => intro it hi; cases hi
  | plain _ _ ih =>
    intro it hi
    rcases push_mem hi with hi | ⟨_, rfl⟩
    · exact grow (ih it hi)
    · trivial
  | escaped _ _ ih =>
    intro it hi
    rcases push_mem hi with hi | ⟨_, rfl⟩
    · exact grow (ih it hi)
    · trivial
  | number _ _ _ _ ih =>
    intro it hi
    rcases List.mem_append.1 hi with hi | hi
    · exact grow (ih it hi)
    · rw [List.mem_singleton.1 hi]; trivial
  | pattern _ hp ih =>
    intro it hi
    rcases List.mem_append.1 hi with hi | hi
    · exact grow (ih it hi)
    · rw [List.mem_singleton.1 hi]
      exact (pattern_idents hp).mono fun t ht => ⟨ht.1, List.mem_append_right _ ht.2⟩

theorem group_idents {n : Nat} {ns : List Named} {ts : List Token} (h : Group n ns ts) :
    ∀ x ∈ ns, ∀ it ∈ x.items, Idents (Ident ts) it := by
  induction h with
  | nil => intro x hx; cases hx
  | blank _ _ ih => exact fun x hx it hi => (ih x hx it hi).mono fun t ht => ⟨ht.1, List.mem_append_left _ ht.2⟩
  | named _ _ _ _ _ _ hc _ ih =>
    intro x hx it hi
    rcases List.mem_append.1 hx with hx | hx
    · refine (ih x hx it hi).mono fun t ht => ⟨ht.1, ?_⟩
      simp [ht.2]
    · rw [List.mem_singleton.1 hx] at hi
      refine (content_idents hc it hi).mono fun t ht => ⟨ht.1, ?_⟩
      simp [ht.2]

theorem sentence_idents {d : Doc} {ts : List Token} (h : Sentence d ts) :
    (∀ it ∈ d.main, Idents (Ident ts) it) ∧ ∀ x ∈ d.named, ∀ it ∈ x.items, Idents (Ident ts) it := by
  cases h with
  | plain hc => exact ⟨content_idents hc, fun x hx => nomatch hx⟩
  | group hc _ hg =>
    exact ⟨fun it hi => (content_idents hc it hi).mono fun t ht => ⟨ht.1, List.mem_append_left _ ht.2⟩,
      fun x hx it hi => (group_idents hg x hx it hi).mono fun t ht =>
        ⟨ht.1, List.mem_append_right _ (List.mem_cons_of_mem _ ht.2)⟩⟩

/-- Identifiers have no syntax characters. -/
theorem lex_ident {icu : Icu} {grammar s : Str} {ts : List Token} (h : lex icu grammar s = .ok ts) {t : Token} (ht : Ident ts t)
    {c : Char} (hc : c ∈ t.string) : icu.syn c = false := by
  have hs : s ≠ [] ∧ grammar ≠ [] := by
    unfold lex LexerIterator.tryNew at h
    constructor
    · rintro rfl
      by_cases hg : grammar = [] <;> simp [hg, charIndices] at h
    · rintro rfl
      by_cases hg : s = [] <;> simp [hg] at h
  obtain ⟨ts', h1, h2, _⟩ := Props.C03_maximal_runs icu grammar s hs.2 hs.1
  rw [h] at h1
  cases h1
  have := h2.uniform _ (List.mem_map_of_mem ht.2) c hc
  dsimp only at this
  rw [ht.1] at this
  cases this with
  | id _ h => exact h

/-- A text without quotation mark, if the identifiers are such. -/
def Clean (t : Token) : Prop := NoQuote t.string

theorem item_clean {E : FmtEnv D F} {known : List Str} {it : Item} {e : FormatterError} (hi : Idents Clean it)
    (h : ItemError E known it e) (hc : ∀ code, e ≠ .command (.custom code)) (library : Str) (custom : Nat → Errors.Custom D F) :
    Quoted (e.told library custom) := by
  have sel : ∀ {sels : List (Leaf × Leaf)} {key : Str}, (∀ p ∈ sels, Clean p.1.tok) → key ∈ sels.map (fun s => s.1.str) →
      NoQuote key := by
    intro sels key hs hk
    obtain ⟨p, hp, rfl⟩ := List.mem_map.1 hk
    exact hs p hp
  have com : ∀ {c : CommandError}, (∀ code, c ≠ .custom code) → Quoted ((FormatterError.command c).told library custom) := by
    intro c hc
    cases c with
    | custom code => exact (hc code rfl).elim
    | _ => trivial
  cases h with
  | decimal id k sels key _ hk =>
    have := sel hi.2.2 hk
    unfold decimalBlame
    split
    · exact ⟨this, this⟩
    · exact ⟨this, by decide +kernel⟩
  | dateTime id k sels key _ hk =>
    have := sel hi.2.2 hk
    unfold dateTimeBlame
    split
    · exact ⟨this, this⟩
    · split
      · exact ⟨this, by decide +kernel⟩
      · exact ⟨this, by decide +kernel⟩
  | category id k sels key _ hk _ => exact ⟨sel hi.2.2 hk, hi.2.1⟩
  | unknown id k sels key _ hk _ _ => exact ⟨sel hi.2.2 hk, sel hi.2.2 hk⟩
  | other id k sels _ _ _ => exact hi.2.1
  | keyword id k sels _ => exact hi.2.1
  | noCommand n ps _ _ => trivial
  | command n ps f c _ _ _ => exact com fun code h => hc code (by rw [h])

theorem group_clean {E : FmtEnv D F} {known : List Str} {ns : List Named} {e : FormatterError} (h : GroupError E known ns e)
    (hi : ∀ x ∈ ns, ∀ it ∈ x.items, Idents Clean it) (hc : ∀ code, e ≠ .command (.custom code)) (library : Str)
    (custom : Nat → Errors.Custom D F) : Quoted (e.told library custom) := by
  induction h with
  | twice _ _ _ _ => trivial
  | items known n rest e _ h =>
    obtain ⟨front, it, back, e1, _, h⟩ := h
    exact item_clean (hi n (List.mem_cons_self ..) it (by rw [e1]; simp)) h hc library custom
  | later known n rest e _ _ _ ih => exact ih (fun x hx => hi x (List.mem_cons_of_mem _ hx)) hc

/-- The texts quoted in the errors about a pattern string. -/
theorem doc_clean {E : FmtEnv D F} (hq : E.icu.syn '’' = true) {s : Str} {d : Doc} {e : FormatterError} (hr : Reads E s d)
    (h : DocError E d e) (hc : ∀ code, e ≠ .command (.custom code)) (library : Str) (custom : Nat → Errors.Custom D F) :
    Quoted (e.told library custom) := by
  obtain ⟨ts, hl, hs, _⟩ := hr
  have hclean : ∀ t, Ident ts t → Clean t := fun t ht hm => by
    rw [lex_ident hl ht hm] at hq
    cases hq
  obtain ⟨h1, h2⟩ := sentence_idents hs
  rcases h with h | ⟨_, front, it, back, e1, _, h⟩
  · exact group_clean h (fun x hx it hi => (h2 x hx it hi).mono hclean) hc library custom
  · exact item_clean ((h1 it (by rw [e1]; simp)).mono hclean) h hc library custom

/-! ### Formatting -/

theorem library_clean {e : FormatterError} (h : FromLibrary e) (library : Str) (custom : Nat → Errors.Custom D F) :
    Quoted (e.told library custom) := by
  rcases h with rfl | rfl | rfl | rfl | rfl | rfl | rfl <;> trivial

theorem number_clean {X : Icu4x D F} (hX : LibraryOnly X) {what : Str} {v : PValue D F} {e : FormatterError}
    (h : NumberError X what v e) (library : Str) (custom : Nat → Errors.Custom D F) : Quoted (e.told library custom) := by
  cases h with
  | float x e h => exact library_clean (hX.ofFloat x e h) library custom
  | other v _ _ => trivial

theorem show_clean {X : Icu4x D F} (hX : LibraryOnly X) {lang : Str} {d : Option IsoDate} {t : Option IsoTime} {e : FormatterError}
    (h : ShowError X lang d t e) (library : Str) (custom : Nat → Errors.Custom D F) : Quoted (e.told library custom) := by
  refine library_clean ?_ library custom
  cases h with
  | noDateTime d t e h => exact hX.dateTime _ _ _ _ h
  | dateTime d t f e h h' => exact hX.showDateTime _ _ _ _ _ _ _ h h'
  | noDate d e h => exact hX.date _ _ _ h
  | date d f e h h' => exact hX.showDate _ _ _ _ _ h h'
  | noTime t e h => exact hX.time _ _ _ h

theorem moment_clean {X : Icu4x D F} (hX : LibraryOnly X) {lang : Str} {v : PValue D F} {e : FormatterError}
    (h : MomentError X lang v e) (library : Str) (custom : Nat → Errors.Custom D F) : Quoted (e.told library custom) := by
  have iso : ∀ i, Quoted ((isoBlame i).told library custom) := fun i => by cases i <;> trivial
  cases h with
  | both _ _ _ h => exact show_clean hX h library custom
  | date _ _ h => exact show_clean hX h library custom
  | time _ _ h => exact show_clean hX h library custom
  | isoTime _ i _ _ _ => exact iso i
  | isoTimeShow _ _ _ _ _ _ h => exact show_clean hX h library custom
  | isoDate _ i _ _ => exact iso i
  | isoDateShow _ _ _ _ _ h => exact show_clean hX h library custom
  | isoBoth _ _ i _ _ _ _ => exact iso i
  | isoBothShow _ _ _ _ _ _ _ _ h => exact show_clean hX h library custom
  | other _ _ _ _ _ => trivial

theorem kindName_clean (k : Option (Leaf × List (Leaf × Leaf))) : NoQuote (kindName k) := by
  unfold kindName
  split
  · decide +kernel
  · split
    · decide +kernel
    · split <;> decide +kernel

theorem direct_clean {E : FmtEnv D F} (hX : LibraryOnly E.icu4x) {lang : Str} {values : AMap Str (PValue D F)} {it : Item}
    {e : FormatterError} (h : Direct E lang values it e) (hc : ∀ code, e ≠ .command (.custom code)) (library : Str)
    (custom : Nat → Errors.Custom D F) : Quoted (e.told library custom) := by
  cases h with
  | missing id k _ => exact kindName_clean k
  | noText _ _ _ _ => trivial
  | noDecimals _ _ _ _ _ _ _ h => exact library_clean (hX.decimal _ _ _ h) library custom
  | noNumber _ _ _ _ _ _ _ _ _ h => exact number_clean hX h library custom
  | noMoment _ _ _ _ _ _ _ h => exact moment_clean hX h library custom
  | noRules _ _ _ _ _ _ _ h =>
    refine library_clean ?_ library custom
    unfold rulesOf at h
    split at h
    · exact hX.ordinal _ _ h
    · exact hX.cardinal _ _ h
  | noCount _ _ _ _ _ _ _ _ _ h => exact number_clean hX h library custom
  | noOrdinal _ _ _ _ _ _ _ _ _ => trivial
  | noDigits _ _ _ _ _ _ _ _ _ _ _ h => exact library_clean (hX.decimal _ _ _ h) library custom
  | category => trivial
  | noChoice _ _ _ _ _ _ _ => trivial
  | choice => trivial
  | noCommand _ _ _ _ => trivial
  | command n h ps f c _ _ =>
    cases c with
    | custom code => exact (hc code rfl).elim
    | _ => trivial

theorem blamed_clean {E : FmtEnv D F} (hX : LibraryOnly E.icu4x) {lang : Str} {values : AMap Str (PValue D F)} {before : List Named}
    {self : Str} {items : List Item} {e : FormatterError} (h : Blamed E lang values before self items e)
    (hc : ∀ code, e ≠ .command (.custom code)) (library : Str) (custom : Nat → Errors.Custom D F) :
    Quoted (e.told library custom) := by
  induction h with
  | here _ _ _ _ _ _ _ h => exact direct_clean hX h hc library custom
  | inside _ _ _ _ _ _ _ _ _ _ _ _ _ ih => exact ih hc

end Verif.MessageLemmas
