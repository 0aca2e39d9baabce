import Verif.Spec.DemoFormat
import Verif.Spec.Documented
/-
A pattern string and its syntax, used as the example that meets the hypotheses of the theorems on formatting.
-/
namespace Verif.Demo
open Verif Verif.Spec

/-- The pattern string. -/
def dogs : Str := "{n plural one#one other#other}# {one a dog}{other # dogs}".toList

def dogsTokens : List Token :=
  match lex env.icu env.grammar dogs with
  | .ok ts => ts
  | .error _ => []

/-- Token at a position. -/
def tk (i : Nat) : Token := dogsTokens.getD i ⟨[], .syn, 0, 0, 0, 0, 0, 0, 0⟩

def lf (i : Nat) : Leaf := ⟨i, tk i⟩

/-- The syntax of `dogs`. -/
def dogsDoc : Doc where
  main := [.pat (lf 1) (some (lf 3, [(lf 5, lf 7), (lf 9, lf 11)]))]
  group := some [⟨lf 16, [.text [lf 18, lf 19, lf 20]]⟩, ⟨lf 23, [.number (lf 25), .text [lf 26, lf 27]]⟩]

theorem dogs_lex : lex env.icu env.grammar dogs = .ok dogsTokens := by
  have h : (match lex env.icu env.grammar dogs with | .ok _ => true | .error _ => false) = true := by decide +kernel
  unfold dogsTokens
  cases hl : lex env.icu env.grammar dogs with
  | ok ts => rfl
  | error e => rw [hl] at h; cases h

theorem dogs_tokens : dogsTokens = (List.range 29).map tk := by decide +kernel

theorem dogs_reads : Reads env dogs dogsDoc := by
  refine ⟨dogsTokens, dogs_lex, ?_, by decide +kernel, by decide +kernel, tk 0, by decide +kernel, by decide +kernel⟩
  have main : Content false 0 dogsDoc.main ((List.range 13).map tk) := by
    have hs : KwBody 4 [(lf 5, lf 7), (lf 9, lf 11)] ((List.range' 4 8).map tk) := by
      have h0 : KwBody 4 [] [] := .nil
      have h1 := KwBody.skip h0 (t := tk 4) (Or.inl (by decide +kernel))
      have h2 := KwBody.selector h1 (a := tk 5) (h := tk 6) (b := tk 7) (by decide +kernel) (by decide +kernel)
        (by decide +kernel)
      have h3 := KwBody.skip h2 (t := tk 8) (Or.inl (by decide +kernel))
      exact KwBody.selector h3 (a := tk 9) (h := tk 10) (b := tk 11) (by decide +kernel) (by decide +kernel)
        (by decide +kernel)
    have hp : Pattern 0 (.pat (lf 1) (some (lf 3, [(lf 5, lf 7), (lf 9, lf 11)]))) ((List.range 13).map tk) :=
      Pattern.keyword (o := tk 0) (id := tk 1) (ws := [tk 2]) (k := tk 3) (c := tk 12) ⟨by decide +kernel, by decide +kernel⟩
        (by decide +kernel) (fun t ht => by
          simp only [List.mem_singleton] at ht
          subst ht
          decide +kernel) (by decide +kernel) hs ⟨by decide +kernel, by decide +kernel⟩
    exact Content.pattern (ts := []) .nil hp
  have one : Content true 18 [.text [lf 18, lf 19, lf 20]] [tk 18, tk 19, tk 20] := by
    have h0 : Content true 18 [] [] := .nil
    have h1 := Content.plain h0 (t := tk 18) (by decide +kernel)
    have h2 := Content.plain h1 (t := tk 19) (by decide +kernel)
    exact Content.plain h2 (t := tk 20) (by decide +kernel)
  have other : Content true 25 [.number (lf 25), .text [lf 26, lf 27]] [tk 25, tk 26, tk 27] := by
    have h0 : Content true 25 [] [] := .nil
    have h1 := Content.number h0 (t := tk 25) rfl rfl ⟨by decide +kernel, by decide +kernel⟩
    have h2 := Content.plain h1 (t := tk 26) (by decide +kernel)
    exact Content.plain h2 (t := tk 27) (by decide +kernel)
  have group : Group 14 [⟨lf 16, [.text [lf 18, lf 19, lf 20]]⟩, ⟨lf 23, [.number (lf 25), .text [lf 26, lf 27]]⟩]
      ((List.range' 14 15).map tk) := by
    have s1 : Starts [tk 18, tk 19, tk 20] := Or.inl (by decide +kernel)
    have s2 : Starts [tk 25, tk 26, tk 27] := Or.inr ⟨by decide +kernel, by decide +kernel⟩
    have h0 : Group 14 [] [] := .nil
    have h1 := Group.blank h0 (t := tk 14) (by decide +kernel)
    have h2 := Group.named h1 (o := tk 15) (id := tk 16) (w := tk 17) (ws := []) (c := tk 21)
      ⟨by decide +kernel, by decide +kernel⟩ (by decide +kernel) (by decide +kernel) (fun t ht => by simp at ht)
      s1 one ⟨by decide +kernel, by decide +kernel⟩
    exact Group.named h2 (o := tk 22) (id := tk 23) (w := tk 24) (ws := []) (c := tk 28)
      ⟨by decide +kernel, by decide +kernel⟩ (by decide +kernel) (by decide +kernel) (fun t ht => by simp at ht)
      s2 other ⟨by decide +kernel, by decide +kernel⟩
  rw [dogs_tokens]
  exact Sentence.group main (h := tk 13) ⟨by decide +kernel, by decide +kernel⟩ group

/-! ### A pattern string with a select pattern -/

/-- The pattern string. -/
def tale : Str := "{s select a#a other#b}{n plural other#other}# {a x}{other #}{b y}".toList

def taleTokens : List Token :=
  match lex env.icu env.grammar tale with
  | .ok ts => ts
  | .error _ => []

/-- Token at a position. -/
def ta (i : Nat) : Token := taleTokens.getD i ⟨[], .syn, 0, 0, 0, 0, 0, 0, 0⟩

def la (i : Nat) : Leaf := ⟨i, ta i⟩

/-- The syntax of `tale`. -/
def taleDoc : Doc where
  main := [.pat (la 1) (some (la 3, [(la 5, la 7), (la 9, la 11)])), .pat (la 14) (some (la 16, [(la 18, la 20)]))]
  group := some [⟨la 25, [.text [la 27]]⟩, ⟨la 30, [.number (la 32)]⟩, ⟨la 35, [.text [la 37]]⟩]

theorem tale_lex : lex env.icu env.grammar tale = .ok taleTokens := by
  have h : (match lex env.icu env.grammar tale with | .ok _ => true | .error _ => false) = true := by decide +kernel
  unfold taleTokens
  cases hl : lex env.icu env.grammar tale with
  | ok ts => rfl
  | error e => rw [hl] at h; cases h

theorem tale_tokens : taleTokens = (List.range 39).map ta := by decide +kernel

theorem tale_reads : Reads env tale taleDoc := by
  refine ⟨taleTokens, tale_lex, ?_, by decide +kernel, by decide +kernel, ta 0, by decide +kernel, by decide +kernel⟩
  have main : Content false 0 taleDoc.main ((List.range 22).map ta) := by
    have hs : KwBody 4 [(la 5, la 7), (la 9, la 11)] ((List.range' 4 8).map ta) := by
      have h0 : KwBody 4 [] [] := .nil
      have h1 := KwBody.skip h0 (t := ta 4) (Or.inl (by decide +kernel))
      have h2 := KwBody.selector h1 (a := ta 5) (h := ta 6) (b := ta 7) (by decide +kernel) (by decide +kernel)
        (by decide +kernel)
      have h3 := KwBody.skip h2 (t := ta 8) (Or.inl (by decide +kernel))
      exact KwBody.selector h3 (a := ta 9) (h := ta 10) (b := ta 11) (by decide +kernel) (by decide +kernel)
        (by decide +kernel)
    have hp : Pattern 0 (.pat (la 1) (some (la 3, [(la 5, la 7), (la 9, la 11)]))) ((List.range 13).map ta) :=
      Pattern.keyword (o := ta 0) (id := ta 1) (ws := [ta 2]) (k := ta 3) (c := ta 12) ⟨by decide +kernel, by decide +kernel⟩
        (by decide +kernel) (fun t ht => by
          simp only [List.mem_singleton] at ht
          subst ht
          decide +kernel) (by decide +kernel) hs ⟨by decide +kernel, by decide +kernel⟩
    have hs' : KwBody 17 [(la 18, la 20)] ((List.range' 17 4).map ta) := by
      have h0 : KwBody 17 [] [] := .nil
      have h1 := KwBody.skip h0 (t := ta 17) (Or.inl (by decide +kernel))
      exact KwBody.selector h1 (a := ta 18) (h := ta 19) (b := ta 20) (by decide +kernel) (by decide +kernel)
        (by decide +kernel)
    have hp' : Pattern 13 (.pat (la 14) (some (la 16, [(la 18, la 20)]))) ((List.range' 13 9).map ta) :=
      Pattern.keyword (o := ta 13) (id := ta 14) (ws := [ta 15]) (k := ta 16) (c := ta 21) ⟨by decide +kernel, by decide +kernel⟩
        (by decide +kernel) (fun t ht => by
          simp only [List.mem_singleton] at ht
          subst ht
          decide +kernel) (by decide +kernel) hs' ⟨by decide +kernel, by decide +kernel⟩
    exact Content.pattern (Content.pattern (ts := []) .nil hp) hp'
  have a : Content true 27 [.text [la 27]] [ta 27] := Content.plain (ts := []) .nil (t := ta 27) (by decide +kernel)
  have other : Content true 32 [.number (la 32)] [ta 32] :=
    Content.number (ts := []) .nil (t := ta 32) rfl rfl ⟨by decide +kernel, by decide +kernel⟩
  have b : Content true 37 [.text [la 37]] [ta 37] := Content.plain (ts := []) .nil (t := ta 37) (by decide +kernel)
  have group : Group 23 [⟨la 25, [.text [la 27]]⟩, ⟨la 30, [.number (la 32)]⟩, ⟨la 35, [.text [la 37]]⟩]
      ((List.range' 23 16).map ta) := by
    have s1 : Starts [ta 27] := Or.inl (by decide +kernel)
    have s2 : Starts [ta 32] := Or.inr ⟨by decide +kernel, by decide +kernel⟩
    have s3 : Starts [ta 37] := Or.inl (by decide +kernel)
    have h0 : Group 23 [] [] := .nil
    have h1 := Group.blank h0 (t := ta 23) (by decide +kernel)
    have h2 := Group.named h1 (o := ta 24) (id := ta 25) (w := ta 26) (ws := []) (c := ta 28)
      ⟨by decide +kernel, by decide +kernel⟩ (by decide +kernel) (by decide +kernel) (fun t ht => by simp at ht)
      s1 a ⟨by decide +kernel, by decide +kernel⟩
    have h3 := Group.named h2 (o := ta 29) (id := ta 30) (w := ta 31) (ws := []) (c := ta 33)
      ⟨by decide +kernel, by decide +kernel⟩ (by decide +kernel) (by decide +kernel) (fun t ht => by simp at ht)
      s2 other ⟨by decide +kernel, by decide +kernel⟩
    exact Group.named h3 (o := ta 34) (id := ta 35) (w := ta 36) (ws := []) (c := ta 38)
      ⟨by decide +kernel, by decide +kernel⟩ (by decide +kernel) (by decide +kernel) (fun t ht => by simp at ht)
      s3 b ⟨by decide +kernel, by decide +kernel⟩
  rw [tale_tokens]
  exact Sentence.group main (h := ta 22) ⟨by decide +kernel, by decide +kernel⟩ group

end Verif.Demo
