import Verif.Lemmas.Messages
/-
Helper lemmas: reading the messages of the localiser and the providers.
-/
namespace Verif.MessageLemmas
open Verif Verif.Spec Verif.Errors

variable {D F : Type}

theorem registry_display {e e' : RegistryError} (h : e.display = e'.display) : e = e' := by
  have hh : ∀ (e : RegistryError), ∃ h,
      ["RegistryError::LanguageIdentifier: [".toList, "RegistryError::Locale: [".toList][e.ctorIdx]? = some h ∧ h <+: e.display := by
    intro e
    cases e with
    | languageIdentifier error =>
      refine ⟨"RegistryError::LanguageIdentifier: [".toList, rfl, ?_⟩
      show _ <+: "RegistryError::LanguageIdentifier: [".toList ++ error ++ "].".toList
      rw [List.append_assoc]
      exact List.prefix_append _ _
    | locale error =>
      refine ⟨"RegistryError::Locale: [".toList, rfl, ?_⟩
      show _ <+: "RegistryError::Locale: [".toList ++ error ++ "].".toList
      rw [List.append_assoc]
      exact List.prefix_append _ _
  have hi : e.ctorIdx = e'.ctorIdx := heads_inj (by decide +kernel) (by decide +kernel) (hh e) (by rw [h]; exact hh e')
  cases e with
  | languageIdentifier x => cases e' with
    | languageIdentifier y =>
      have h : "RegistryError::LanguageIdentifier: [".toList ++ x ++ "].".toList =
        "RegistryError::LanguageIdentifier: [".toList ++ y ++ "].".toList := h
      rw [between h]
    | _ => cases hi
  | locale x => cases e' with
    | locale y =>
      have h : "RegistryError::Locale: [".toList ++ x ++ "].".toList = "RegistryError::Locale: [".toList ++ y ++ "].".toList := h
      rw [between h]
    | _ => cases hi

def providerHeads : List Str :=
  ["ProviderError::ComponentNotFound: The component ‘".toList,
   "ProviderError::LanguageTagRegistry: [".toList,
   "ProviderError::DefaultLanguage: The default language tag is missing for the component ‘".toList,
   "ProviderError::InvalidDefaultLanguage: The default language tag is invalid for the component ‘".toList,
   "ProviderError::DefaultLanguageCount: There are no localisation strings in the component ‘".toList,
   "ProviderError::Custom: [".toList]

theorem provider_head (e : Errors.ProviderError D F) : ∃ h, providerHeads[e.ctorIdx]? = some h ∧ h <+: e.display := by
  cases e with
  | componentNotFound component =>
    refine ⟨"ProviderError::ComponentNotFound: The component ‘".toList, rfl, ?_⟩
    show _ <+: "ProviderError::ComponentNotFound: The component ‘".toList ++ component ++ "’ could not found.".toList
    rw [List.append_assoc]
    exact List.prefix_append _ _
  | languageTagRegistry error =>
    refine ⟨"ProviderError::LanguageTagRegistry: [".toList, rfl, ?_⟩
    show _ <+: "ProviderError::LanguageTagRegistry: [".toList ++ error.display ++ "].".toList
    rw [List.append_assoc]
    exact List.prefix_append _ _
  | defaultLanguage component =>
    refine ⟨"ProviderError::DefaultLanguage: The default language tag is missing for the component ‘".toList, rfl, ?_⟩
    show _ <+: "ProviderError::DefaultLanguage: The default language tag is missing for the component ‘".toList ++ component ++ "’.".toList
    rw [List.append_assoc]
    exact List.prefix_append _ _
  | invalidDefaultLanguage component =>
    refine ⟨"ProviderError::InvalidDefaultLanguage: The default language tag is invalid for the component ‘".toList, rfl, ?_⟩
    show _ <+: "ProviderError::InvalidDefaultLanguage: The default language tag is invalid for the component ‘".toList ++ component ++ "’.".toList
    rw [List.append_assoc]
    exact List.prefix_append _ _
  | defaultLanguageCount component language =>
    refine ⟨"ProviderError::DefaultLanguageCount: There are no localisation strings in the component ‘".toList, rfl, ?_⟩
    show _ <+: "ProviderError::DefaultLanguageCount: There are no localisation strings in the component ‘".toList ++ component ++ "’ for the default language tag ‘".toList ++ language ++ "’.".toList
    rw [List.append_assoc, List.append_assoc, List.append_assoc]
    exact List.prefix_append _ _
  | custom error =>
    refine ⟨"ProviderError::Custom: [".toList, rfl, ?_⟩
    show _ <+: "ProviderError::Custom: [".toList ++ error.display ++ "].".toList
    rw [List.append_assoc]
    exact List.prefix_append _ _

theorem provider_ctor {e e' : Errors.ProviderError D F} (h : e.display = e'.display) : e.ctorIdx = e'.ctorIdx :=
  heads_inj (heads := providerHeads) (by decide +kernel) (by decide +kernel) (provider_head e) (by rw [h]; exact provider_head e')

theorem provider_display {e e' : Errors.ProviderError D F} (he : QuotedProvider e) (he' : QuotedProvider e')
    (h : e.display = e'.display) : e = e' := by
  have hi := provider_ctor h
  cases e with
  | componentNotFound component => cases e' with
    | componentNotFound component' =>
      have h : "ProviderError::ComponentNotFound: The component ‘".toList ++ component ++ "’ could not found.".toList =
        "ProviderError::ComponentNotFound: The component ‘".toList ++ component' ++ "’ could not found.".toList := h
      rw [between h]
    | _ => cases hi
  | languageTagRegistry error => cases e' with
    | languageTagRegistry error' =>
      have h : "ProviderError::LanguageTagRegistry: [".toList ++ error.display ++ "].".toList =
        "ProviderError::LanguageTagRegistry: [".toList ++ error'.display ++ "].".toList := h
      rw [registry_display (between h)]
    | _ => cases hi
  | defaultLanguage component => cases e' with
    | defaultLanguage component' =>
      have h : "ProviderError::DefaultLanguage: The default language tag is missing for the component ‘".toList ++ component ++ "’.".toList =
        "ProviderError::DefaultLanguage: The default language tag is missing for the component ‘".toList ++ component' ++ "’.".toList := h
      rw [between h]
    | _ => cases hi
  | invalidDefaultLanguage component => cases e' with
    | invalidDefaultLanguage component' =>
      have h : "ProviderError::InvalidDefaultLanguage: The default language tag is invalid for the component ‘".toList ++ component ++ "’.".toList =
        "ProviderError::InvalidDefaultLanguage: The default language tag is invalid for the component ‘".toList ++ component' ++ "’.".toList := h
      rw [between h]
    | _ => cases hi
  | defaultLanguageCount component language => cases e' with
    | defaultLanguageCount component' language' =>
      have h : "ProviderError::DefaultLanguageCount: There are no localisation strings in the component ‘".toList ++ component ++ "’ for the default language tag ‘".toList ++ language ++ "’.".toList =
        "ProviderError::DefaultLanguageCount: There are no localisation strings in the component ‘".toList ++ component' ++ "’ for the default language tag ‘".toList ++ language' ++ "’.".toList := h
      obtain ⟨h1, h2⟩ := two_texts (p := "’ for the default language tag ‘".toList) (by decide +kernel) he he' h
      rw [h1, h2]
    | _ => cases hi
  | custom error => exact he.elim

/-- Whether it was used, at the end. -/
theorem flag_inj {x x' : Str} {b b' : Bool}
    (h : x ++ ("’. Fallback was used: ".toList ++ (flagDisplay b ++ ".".toList)) =
      x' ++ ("’. Fallback was used: ".toList ++ (flagDisplay b' ++ ".".toList))) : x = x' ∧ b = b' := by
  have hb : b = b' := by
    have h := congrArg (fun s => s.reverse.take 5) h
    simp only [List.reverse_append, List.append_assoc] at h
    have ht : ∀ (y : Str), List.take 5 (".".toList.reverse ++ ((flagDisplay true).reverse ++ y)) = ".eurT".toList := fun _ => rfl
    have hf : ∀ (y : Str), List.take 5 (".".toList.reverse ++ ((flagDisplay false).reverse ++ y)) = ".esla".toList := fun _ => rfl
    cases b <;> cases b'
    · rfl
    · rw [ht, hf] at h
      exact absurd h (by decide +kernel)
    · rw [ht, hf] at h
      exact absurd h (by decide +kernel)
    · rfl
  subst hb
  exact ⟨List.append_cancel_right h, rfl⟩

def localiserHeads : List Str :=
  ["LocaliserError::Registry: [".toList,
   "LocaliserError::Formatter: [".toList,
   "LocaliserError::Provider: [".toList,
   "LocaliserError::StringNotFound: No string was found for the component ‘".toList,
   "LocaliserError::CacheEntry: Unable to get the string for the component ‘".toList,
   "LocaliserError::NeverReached: Build error: Should never have reached this match branch.".toList]

theorem localiser_head (e : Errors.LocaliserError D F) : ∃ h, localiserHeads[e.ctorIdx]? = some h ∧ h <+: e.display := by
  cases e with
  | registry error =>
    refine ⟨"LocaliserError::Registry: [".toList, rfl, ?_⟩
    show _ <+: "LocaliserError::Registry: [".toList ++ error.display ++ "].".toList
    rw [List.append_assoc]
    exact List.prefix_append _ _
  | formatter error =>
    refine ⟨"LocaliserError::Formatter: [".toList, rfl, ?_⟩
    show _ <+: "LocaliserError::Formatter: [".toList ++ error.display ++ "].".toList
    rw [List.append_assoc]
    exact List.prefix_append _ _
  | provider error =>
    refine ⟨"LocaliserError::Provider: [".toList, rfl, ?_⟩
    show _ <+: "LocaliserError::Provider: [".toList ++ error.display ++ "].".toList
    rw [List.append_assoc]
    exact List.prefix_append _ _
  | stringNotFound component identifier languageTag fallback =>
    refine ⟨"LocaliserError::StringNotFound: No string was found for the component ‘".toList, rfl, ?_⟩
    show _ <+: "LocaliserError::StringNotFound: No string was found for the component ‘".toList ++ component ++ "’ with identifier ‘".toList ++ identifier ++ "’ for the language tag ‘".toList ++ languageTag ++ "’. Fallback was used: ".toList ++ flagDisplay fallback ++ ".".toList
    rw [List.append_assoc, List.append_assoc, List.append_assoc, List.append_assoc, List.append_assoc, List.append_assoc, List.append_assoc]
    exact List.prefix_append _ _
  | cacheEntry component identifier =>
    refine ⟨"LocaliserError::CacheEntry: Unable to get the string for the component ‘".toList, rfl, ?_⟩
    show _ <+: "LocaliserError::CacheEntry: Unable to get the string for the component ‘".toList ++ component ++ "’ with the identifier\n                ‘".toList ++ identifier ++ "’ as the cache entry requires values for formatting.".toList
    rw [List.append_assoc, List.append_assoc, List.append_assoc]
    exact List.prefix_append _ _
  | neverReached => exact ⟨_, rfl, List.prefix_rfl⟩

theorem localiser_ctor {e e' : Errors.LocaliserError D F} (h : e.display = e'.display) : e.ctorIdx = e'.ctorIdx :=
  heads_inj (heads := localiserHeads) (by decide +kernel) (by decide +kernel) (localiser_head e) (by rw [h]; exact localiser_head e')

theorem localiser_display {e e' : Errors.LocaliserError D F} (he : QuotedLocaliser e) (he' : QuotedLocaliser e')
    (h : e.display = e'.display) : e = e' := by
  have hi := localiser_ctor h
  cases e with
  | registry error => cases e' with
    | registry error' =>
      have h : "LocaliserError::Registry: [".toList ++ error.display ++ "].".toList =
        "LocaliserError::Registry: [".toList ++ error'.display ++ "].".toList := h
      rw [registry_display (between h)]
    | _ => cases hi
  | formatter error => cases e' with
    | formatter error' =>
      have h : "LocaliserError::Formatter: [".toList ++ error.display ++ "].".toList =
        "LocaliserError::Formatter: [".toList ++ error'.display ++ "].".toList := h
      rw [formatter_display he he' (between h)]
    | _ => cases hi
  | provider error => cases e' with
    | provider error' =>
      have h : "LocaliserError::Provider: [".toList ++ error.display ++ "].".toList =
        "LocaliserError::Provider: [".toList ++ error'.display ++ "].".toList := h
      rw [provider_display he he' (between h)]
    | _ => cases hi
  | stringNotFound component identifier languageTag fallback => cases e' with
    | stringNotFound component' identifier' languageTag' fallback' =>
      have h : "LocaliserError::StringNotFound: No string was found for the component ‘".toList ++ component ++ "’ with identifier ‘".toList ++ identifier ++ "’ for the language tag ‘".toList ++ languageTag ++ "’. Fallback was used: ".toList ++ flagDisplay fallback ++ ".".toList =
        "LocaliserError::StringNotFound: No string was found for the component ‘".toList ++ component' ++ "’ with identifier ‘".toList ++ identifier' ++ "’ for the language tag ‘".toList ++ languageTag' ++ "’. Fallback was used: ".toList ++ flagDisplay fallback' ++ ".".toList := h
      simp only [List.append_assoc, List.append_cancel_left_eq] at h
      obtain ⟨h1, h⟩ := part_inj (c := '’') (by decide +kernel) he.1 he'.1 h
      obtain ⟨h2, h⟩ := part_inj (c := '’') (by decide +kernel) he.2 he'.2 h
      obtain ⟨h3, h4⟩ := flag_inj h
      rw [h1, h2, h3, h4]
    | _ => cases hi
  | cacheEntry component identifier => cases e' with
    | cacheEntry component' identifier' =>
      have h : "LocaliserError::CacheEntry: Unable to get the string for the component ‘".toList ++ component ++ "’ with the identifier\n                ‘".toList ++ identifier ++ "’ as the cache entry requires values for formatting.".toList =
        "LocaliserError::CacheEntry: Unable to get the string for the component ‘".toList ++ component' ++ "’ with the identifier\n                ‘".toList ++ identifier' ++ "’ as the cache entry requires values for formatting.".toList := h
      obtain ⟨h1, h2⟩ := two_texts (p := "’ with the identifier\n                ‘".toList) (by decide +kernel) he he' h
      rw [h1, h2]
    | _ => cases hi
  | neverReached => cases e' with
    | neverReached => rfl
    | _ => cases hi

end Verif.MessageLemmas
