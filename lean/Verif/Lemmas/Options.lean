import Verif.Spec.Options
import Verif.Lemmas.LanguageTag
/-
Helper lemmas for the options of patterns.
-/
namespace Verif.OptionsLemmas
open Verif Verif.Spec Verif.TagLemmas

variable {D F : Type}

theorem sign_iff (s : Str) (a : SignDisplay) : signDisplay s = .ok a ↔ (s, a) ∈ signs := by
  unfold signDisplay signs
  constructor
  · intro h
    repeat' split at h
    all_goals first | (next e => cases h; subst e; simp) | cases h
  · intro h
    simp only [List.mem_cons, Prod.mk.injEq, List.not_mem_nil, or_false] at h
    rcases h with ⟨rfl, rfl⟩ | ⟨rfl, rfl⟩ | ⟨rfl, rfl⟩ | ⟨rfl, rfl⟩ | ⟨rfl, rfl⟩ <;> decide

theorem group_iff (s : Str) (a : Grouping) : decimalGrouping s = .ok a ↔ (s, a) ∈ groupings := by
  unfold decimalGrouping groupings
  constructor
  · intro h
    repeat' split at h
    all_goals first | (next e => cases h; subst e; simp) | cases h
  · intro h
    simp only [List.mem_cons, Prod.mk.injEq, List.not_mem_nil, or_false] at h
    rcases h with ⟨rfl, rfl⟩ | ⟨rfl, rfl⟩ | ⟨rfl, rfl⟩ | ⟨rfl, rfl⟩ <;> decide

theorem length_iff (o s : Str) (a : FmtLength) : fmtLength o s = .ok a ↔ (s, a) ∈ lengths := by
  unfold fmtLength lengths
  constructor
  · intro h
    repeat' split at h
    all_goals first | (next e => cases h; subst e; simp) | cases h
  · intro h
    simp only [List.mem_cons, Prod.mk.injEq, List.not_mem_nil, or_false] at h
    rcases h with ⟨rfl, rfl⟩ | ⟨rfl, rfl⟩ | ⟨rfl, rfl⟩ | ⟨rfl, rfl⟩ <;> simp <;> decide

/-- As `Chosen`, with a value for an absent option. -/
def ChosenOr {α : Type} (table : List (Str × α)) (options : AMap Str Str) (name : Str) (old choice : Option α) : Prop :=
  match options.get name with
  | none => choice = old
  | some v => ∃ a, choice = some a ∧ (v, a) ∈ table

section
variable {α : Type} {table : List (Str × α)} {key value name : Str} {rest : AMap Str Str} {old choice : Option α}

theorem chosenOr_nil : ChosenOr table [] name old choice ↔ choice = old := Iff.rfl

theorem chosenOr_ne (h : key ≠ name) :
    ChosenOr table ((key, value) :: rest) name old choice ↔ ChosenOr table rest name old choice := by
  unfold ChosenOr
  rw [AMap.get_cons, if_neg h]

theorem chosenOr_self (hr : rest.get name = none) :
    ChosenOr table ((name, value) :: rest) name old choice ↔
      ∃ a, (value, a) ∈ table ∧ ChosenOr table rest name (some a) choice := by
  unfold ChosenOr
  rw [AMap.get_cons, if_pos rfl, hr]
  exact ⟨fun ⟨a, h1, h2⟩ => ⟨a, h2, h1⟩, fun ⟨a, h1, h2⟩ => ⟨a, h2, h1⟩⟩

theorem contains_cons : AMap.contains ((key, value) :: rest) name = true ↔ key = name ∨ rest.contains name = true := by
  unfold AMap.contains
  rw [AMap.get_cons]
  split <;> simp_all

theorem get_none_of_nodup (h : (AMap.keys ((key, value) :: rest)).Nodup) : rest.get key = none :=
  (AMap.get_eq_none_iff _ _).2 (List.nodup_cons.1 h).1

end

theorem bind_ok {ε α β : Type} {x : Outcome ε α} {k : α → Outcome ε β} {b : β} :
    (x >>= k) = .ok b ↔ ∃ a, x = .ok a ∧ k a = .ok b := by
  cases x with
  | ok a => exact ⟨fun h => ⟨a, rfl, h⟩, fun ⟨a', h, h'⟩ => by cases h; exact h'⟩
  | err e => exact ⟨fun h => (nomatch h), fun ⟨a', h, h'⟩ => (nomatch h)⟩
  | panic => exact ⟨fun h => (nomatch h), fun ⟨a', h, h'⟩ => (nomatch h)⟩

theorem decimalOptions_iff (p : Str) (options : AMap Str Str) : options.keys.Nodup → ∀ s g s' g',
    decimalOptions p options s g = .ok (s', g') ↔
      (∀ name, options.contains name = true → name = "sign".toList ∨ name = "group".toList) ∧
      ChosenOr signs options "sign".toList s s' ∧ ChosenOr groupings options "group".toList g g' := by
  have hne : "sign".toList ≠ "group".toList := by decide
  induction options with
  | nil =>
    intro _ s g s' g'
    simp only [decimalOptions, chosenOr_nil]
    constructor
    · intro h; cases h; exact ⟨fun _ h => (nomatch h), rfl, rfl⟩
    · rintro ⟨_, rfl, rfl⟩; rfl
  | cons o rest ih =>
    obtain ⟨key, value⟩ := o
    intro hn s g s' g'
    have hg := get_none_of_nodup hn
    have ih := ih (List.nodup_cons.1 hn).2
    unfold decimalOptions
    by_cases h1 : key = "sign".toList
    · subst h1
      rw [if_pos rfl, bind_ok, chosenOr_self hg, chosenOr_ne hne]
      simp only [ih, sign_iff, contains_cons]
      constructor
      · rintro ⟨a, h1, h2, h3, h4⟩
        exact ⟨fun n h => h.elim (fun e => .inl e.symm) (h2 n), ⟨a, h1, h3⟩, h4⟩
      · rintro ⟨h1, ⟨a, h2, h3⟩, h4⟩
        exact ⟨a, h2, fun n h => h1 n (.inr h), h3, h4⟩
    · rw [if_neg h1]
      by_cases h2 : key = "group".toList
      · subst h2
        rw [if_pos rfl, bind_ok, chosenOr_self hg, chosenOr_ne hne.symm]
        simp only [ih, group_iff, contains_cons]
        constructor
        · rintro ⟨a, h1, h2, h3, h4⟩
          exact ⟨fun n h => h.elim (fun e => .inr e.symm) (h2 n), h3, a, h1, h4⟩
        · rintro ⟨h1, h4, ⟨a, h2, h3⟩⟩
          exact ⟨a, h2, fun n h => h1 n (.inr h), h4, h3⟩
      · rw [if_neg h2]
        constructor
        · intro h; cases h
        · rintro ⟨h, _⟩
          rcases h key (contains_cons.2 (.inl rfl)) with h | h
          · exact absurd h h1
          · exact absurd h h2

/-- What the code does with a calendar. -/
def calendarCode (X : Icu4x D F) (lang : Str) (options : AMap Str Str) (old choice : Option Str) : Prop :=
  match options.get "calendar".toList with
  | none => choice = old
  | some v => calendars.contains v = true ∧ ∃ l, X.parseLocale (calendarLocale lang v) = .ok l ∧ choice = some l

theorem liftE_ok {ε α : Type} {x : Except ε α} {a : α} : liftE x = .ok a ↔ x = .ok a := by
  cases x with
  | ok b => simp [liftE]
  | error e => simp [liftE]

theorem dateTimeOptions_iff (X : Icu4x D F) (lang p : Str) (options : AMap Str Str) : options.keys.Nodup → ∀ d t c d' t' c',
    dateTimeOptions X lang p options d t c = .ok (d', t', c') ↔
      (∀ name, options.contains name = true → name = "date".toList ∨ name = "time".toList ∨ name = "calendar".toList) ∧
      ChosenOr lengths options "date".toList d d' ∧ ChosenOr lengths options "time".toList t t' ∧
      calendarCode X lang options c c' := by
  have n1 : "date".toList ≠ "time".toList := by decide
  have n2 : "date".toList ≠ "calendar".toList := by decide
  have n3 : "time".toList ≠ "calendar".toList := by decide
  have cne : ∀ {key value : Str} {rest : AMap Str Str} {old choice}, key ≠ "calendar".toList →
      (calendarCode X lang ((key, value) :: rest) old choice ↔ calendarCode X lang rest old choice) := by
    intro key value rest old choice h
    unfold calendarCode
    rw [AMap.get_cons, if_neg h]
  induction options with
  | nil =>
    intro _ d t c d' t' c'
    simp only [dateTimeOptions, chosenOr_nil]
    constructor
    · intro h; cases h; exact ⟨fun _ h => (nomatch h), rfl, rfl, rfl⟩
    · rintro ⟨_, rfl, rfl, h⟩
      cases (h : c' = c)
      rfl
  | cons o rest ih =>
    obtain ⟨key, value⟩ := o
    intro hn d t c d' t' c'
    have hg := get_none_of_nodup hn
    have ih := ih (List.nodup_cons.1 hn).2
    unfold dateTimeOptions
    by_cases h1 : key = "date".toList
    · subst h1
      rw [if_pos rfl, bind_ok, chosenOr_self hg, chosenOr_ne n1, cne n2]
      simp only [ih, length_iff, contains_cons]
      constructor
      · rintro ⟨a, h1, h2, h3, h4⟩
        exact ⟨fun n h => h.elim (fun e => .inl e.symm) (h2 n), ⟨a, h1, h3⟩, h4⟩
      · rintro ⟨h1, ⟨a, h2, h3⟩, h4⟩
        exact ⟨a, h2, fun n h => h1 n (.inr h), h3, h4⟩
    · rw [if_neg h1]
      by_cases h2 : key = "time".toList
      · subst h2
        rw [if_pos rfl, bind_ok, chosenOr_self hg, chosenOr_ne n1.symm, cne n3]
        simp only [ih, length_iff, contains_cons]
        constructor
        · rintro ⟨a, h1, h2, h3, h4, h5⟩
          exact ⟨fun n h => h.elim (fun e => .inr (.inl e.symm)) (h2 n), h3, ⟨a, h1, h4⟩, h5⟩
        · rintro ⟨h1, h4, ⟨a, h2, h3⟩, h5⟩
          exact ⟨a, h2, fun n h => h1 n (.inr h), h4, h3, h5⟩
      · rw [if_neg h2]
        by_cases h3 : key = "calendar".toList
        · subst h3
          rw [if_pos rfl, chosenOr_ne n2.symm, chosenOr_ne n3.symm]
          have hc : ∀ old, calendarCode X lang rest old c' ↔ c' = old := by
            intro old
            unfold calendarCode
            rw [hg]
          have hc' : calendarCode X lang (("calendar".toList, value) :: rest) c c' ↔ calendars.contains value = true ∧
              ∃ l, X.parseLocale (calendarLocale lang value) = .ok l ∧ c' = some l := by
            unfold calendarCode
            rw [AMap.get_cons, if_pos rfl]
          rw [hc']
          split
          · next h =>
            constructor
            · intro h; cases h
            · rintro ⟨_, _, _, h', _⟩; exact absurd h' h
          · next h =>
            rw [bind_ok]
            simp only [ih, liftE_ok, contains_cons, hc]
            have h : calendars.contains value = true := by simpa using h
            constructor
            · rintro ⟨a, h1, h2, h3, h4, h5⟩
              exact ⟨fun n h => h.elim (fun e => .inr (.inr e.symm)) (h2 n), h3, h4, h, a, h1, h5⟩
            · rintro ⟨h1, h4, h3, _, a, h2, h5⟩
              exact ⟨a, h2, fun n h => h1 n (.inr h), h4, h3, h5⟩
        · rw [if_neg h3]
          constructor
          · intro h; cases h
          · rintro ⟨h, _⟩
            rcases h key (contains_cons.2 (.inl rfl)) with h | h | h
            · exact absurd h h1
            · exact absurd h h2
            · exact absurd h h3

/-! ### The locale for a calendar -/

theorem isPrefixOf_iff {a b : Str} : a.isPrefixOf b = true ↔ ∃ c, b = a ++ c := by
  rw [List.isPrefixOf_iff_prefix]
  exact ⟨fun ⟨c, h⟩ => ⟨c, h.symm⟩, fun ⟨c, h⟩ => ⟨c, h.symm⟩⟩

theorem findSub_none {pat s : Str} (h : ∀ a, ¬ After pat a s) : findSub pat s = none := by
  cases hf : findSub pat s with
  | none => rfl
  | some n =>
    obtain ⟨a, b, e⟩ := findSub_some hf
    exact absurd ⟨b, e⟩ (h a)

theorem findSub_first {pat b : Str} : ∀ {a : Str}, (∀ a', After pat a' (a ++ pat ++ b) → a'.length ≥ a.length) →
    findSub pat (a ++ pat ++ b) = some a.length := by
  intro a
  induction a with
  | nil =>
    intro _
    cases hp : pat ++ b with
    | nil =>
      have : pat = [] := (List.append_eq_nil_iff.1 hp).1
      simp only [List.nil_append, hp]
      unfold findSub
      rw [if_pos this]
      rfl
    | cons c cs =>
      simp only [List.nil_append, hp]
      unfold findSub
      rw [if_pos (isPrefixOf_iff.2 ⟨b, hp.symm⟩)]
      rfl
  | cons c cs ih =>
    intro h
    have hc : (c :: cs) ++ pat ++ b = c :: (cs ++ pat ++ b) := rfl
    rw [hc]
    unfold findSub
    rw [if_neg, ih]
    · rfl
    · rintro a' ⟨b', e⟩
      have := h (c :: a') ⟨b', by rw [hc, e]; rfl⟩
      simpa using this
    · rw [isPrefixOf_iff]
      rintro ⟨b', e⟩
      have := h [] ⟨b', by rw [hc, e]; rfl⟩
      simp at this

theorem replaceAll_none {old new : Str} : ∀ {s : Str}, (∀ a, ¬ After old a s) → replaceAll old new s = s := by
  intro s
  induction s with
  | nil => intro _; unfold replaceAll; rfl
  | cons c cs ih =>
    intro h
    unfold replaceAll
    rw [if_neg, ih]
    · rintro a ⟨b, e⟩
      exact h (c :: a) ⟨b, by rw [e]; rfl⟩
    · rintro ⟨h1, _⟩
      obtain ⟨b, e⟩ := isPrefixOf_iff.1 h1
      exact h [] ⟨b, by rw [e]; rfl⟩

theorem replaceAll_one {old new b : Str} (ho : old ≠ []) : ∀ {a : Str}, (∀ a', After old a' (a ++ old ++ b) → a' = a) →
    replaceAll old new (a ++ old ++ b) = a ++ new ++ b := by
  intro a
  induction a with
  | nil =>
    intro h
    obtain ⟨c, cs, rfl⟩ := List.exists_cons_of_ne_nil ho
    have hc : [] ++ (c :: cs) ++ b = c :: (cs ++ b) := rfl
    rw [hc]
    unfold replaceAll
    rw [if_pos ⟨isPrefixOf_iff.2 ⟨b, rfl⟩, ho⟩]
    have hd : (c :: (cs ++ b)).drop (c :: cs).length = b := by simp
    rw [hd, replaceAll_none]
    · rfl
    · rintro a' ⟨b', e⟩
      have := h ((c :: cs) ++ a') ⟨b', by rw [e]; simp⟩
      simp at this
  | cons c cs ih =>
    intro h
    have hc : (c :: cs) ++ old ++ b = c :: (cs ++ old ++ b) := rfl
    rw [hc]
    unfold replaceAll
    rw [if_neg, ih]
    · rfl
    · rintro a' ⟨b', e⟩
      have := h (c :: a') ⟨b', by rw [hc, e]; rfl⟩
      simpa using this
    · rintro ⟨h1, _⟩
      obtain ⟨b', e⟩ := isPrefixOf_iff.1 h1
      have := h [] ⟨b', by rw [hc, e]; rfl⟩
      cases this

theorem findSub_hyphen {a b : Str} (h : '-' ∉ a) : findSub ['-'] (a ++ '-' :: b) = some a.length := by
  have := findSub_first (pat := ['-']) (b := b) (a := a) ?_
  · simpa using this
  · rintro a' ⟨b', e⟩
    refine Nat.not_lt.1 fun hl => ?_
    have he : a ++ ('-' :: b) = a' ++ ('-' :: b') := by simpa using e
    have h1 : (a ++ ('-' :: b))[a'.length]? = some '-' := by rw [he]; simp
    rw [List.getElem?_append_left hl] at h1
    exact h (List.mem_of_getElem? h1)

theorem findSub_no_hyphen {a : Str} (h : '-' ∉ a) : findSub ['-'] a = none := by
  refine findSub_none ?_
  rintro a' ⟨b, e⟩
  exact h (by rw [e]; simp)

theorem calendarLocale_append {locale : Str} (h : ∀ a, ¬ After "-u-ca-".toList a locale) (value : Str) :
    calendarLocale locale value = locale ++ "-u-ca-".toList ++ value := by
  unfold calendarLocale
  rw [findSub_none h]
  simp

theorem calendarLocale_replace {a old rest : Str} (hold : '-' ∉ old) (hrest : rest = [] ∨ ∃ r, rest = '-' :: r)
    (hu : ∀ a', After "-u-ca-".toList a' (a ++ "-u-ca-".toList ++ old ++ rest) → a' = a) (value : Str) :
    calendarLocale (a ++ "-u-ca-".toList ++ old ++ rest) value = a ++ "-u-ca-".toList ++ value ++ rest := by
  have hu' : ∀ z a', After ("-u-ca-".toList ++ z) a' (a ++ "-u-ca-".toList ++ old ++ rest) → a' = a := by
    rintro z a' ⟨b, e⟩
    exact hu a' ⟨z ++ b, by rw [e]; simp⟩
  unfold calendarLocale
  have hf : findSub "-u-ca-".toList (a ++ "-u-ca-".toList ++ old ++ rest) = some a.length := by
    rw [List.append_assoc]
    refine findSub_first fun a' h => ?_
    rw [← List.append_assoc] at h
    rw [hu a' h]
    exact Nat.le_refl _
  have hd : (a ++ "-u-ca-".toList ++ old ++ rest).drop a.length = "-u-ca-".toList ++ old ++ rest := by
    simp [List.append_assoc]
  have hd2 : ("-u-ca-".toList ++ old ++ rest).drop 6 = old ++ rest := rfl
  rw [hf]
  dsimp only
  rw [hd, hd2]
  rcases hrest with rfl | ⟨r, rfl⟩
  · rw [List.append_nil, findSub_no_hyphen hold]
    dsimp only
    have := replaceAll_one (old := "-u-ca-".toList ++ old) (new := "-u-ca-".toList ++ value) (b := []) (by simp) (a := a)
      (fun a' h => hu' old a' (by simpa [List.append_assoc] using h))
    simpa [List.append_assoc] using this
  · rw [findSub_hyphen hold]
    dsimp only
    have ht : ("-u-ca-".toList ++ old ++ '-' :: r).take (6 + old.length + 1) = "-u-ca-".toList ++ old ++ ['-'] := by
      have : "-u-ca-".toList ++ old ++ '-' :: r = ("-u-ca-".toList ++ old ++ ['-']) ++ r := by simp
      rw [this, List.take_append_of_le_length (by simp; omega), List.take_of_length_le (by simp; omega)]
    rw [ht]
    have := replaceAll_one (old := "-u-ca-".toList ++ old ++ ['-']) (new := "-u-ca-".toList ++ value ++ ['-']) (b := r)
      (by simp) (a := a) (fun a' h => hu' (old ++ ['-']) a' (by simpa [List.append_assoc] using h))
    simpa [List.append_assoc] using this

end Verif.OptionsLemmas
