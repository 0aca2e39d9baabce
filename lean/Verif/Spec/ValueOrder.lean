import Verif.Spec.Localiser
/-
The same localisation data, with the values of the hash maps listed in different orders.
-/
namespace Verif.Spec
open Verif

variable {D F : Type}

mutual
/-- The same value; nested hash maps may be listed in another order. A hash map has each name once. -/
inductive SameValue : PValue D F → PValue D F → Prop
  | same (v : PValue D F) : SameValue v v
  | data {c i : Str} {vs vs' : List (Str × PValue D F)} : (vs.map Prod.fst).Nodup → SameValues vs vs' →
      SameValue (.localisationData c i (some vs)) (.localisationData c i (some vs'))

/-- The same hash map, listed in another order. -/
inductive SameValues : List (Str × PValue D F) → List (Str × PValue D F) → Prop
  | nil : SameValues [] []
  | cons {name : Str} {v v' : PValue D F} {rest rest' : List (Str × PValue D F)} : SameValue v v' → SameValues rest rest' →
      SameValues ((name, v) :: rest) ((name, v') :: rest')
  | swap (x y : Str × PValue D F) (rest : List (Str × PValue D F)) : SameValues (x :: y :: rest) (y :: x :: rest)
  | trans {a b c : List (Str × PValue D F)} : SameValues a b → SameValues b c → SameValues a c
end

/-- A hash map in localisation data, at any depth. -/
inductive Inside : List (Str × PValue D F) → List (Str × PValue D F) → Prop
  | self (vs : List (Str × PValue D F)) : Inside vs vs
  | deeper {vs w u : List (Str × PValue D F)} {name c i : Str} :
      (name, PValue.localisationData c i (some w)) ∈ vs → Inside w u → Inside vs u

/-- Who can spoil it, without caching: a string that is wanted as it is and fails; some nested localisation data,
whatever the others are; or, if all the nested ones have texts, the string itself with these texts as values. -/
inductive MaySpoil {P : Type} (L : LocEnv D F P) (tag : Str) (fallback : Bool) :
    Str → Str → Option (List (Str × PValue D F)) → LocM P (Str × Str) → Prop
  | literal {c i : Str} {r : LocM P (Str × Str)} : (actualLiteral L [] c i tag fallback false).1 = r →
      MaySpoil L tag fallback c i none r
  | nested {c i name c' i' : Str} {vs : List (Str × PValue D F)} {w : Option (List (Str × PValue D F))}
      {r : LocM P (Str × Str)} : (name, PValue.localisationData c' i' w) ∈ vs → MaySpoil L tag fallback c' i' w r →
      MaySpoil L tag fallback c i (some vs) r
  | itself {c i : Str} {vs ws : List (Str × PValue D F)} {r : LocM P (Str × Str)} : AllReplaced L tag fallback vs ws →
      (actualFormat L [] c i (ws.foldl (fun m x => m.insert x.1 x.2) []) tag fallback false).1 = r →
      MaySpoil L tag fallback c i (some vs) r

end Verif.Spec
