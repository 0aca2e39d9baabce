/-
Results of Rust functions: `Ok`, `Err`, or a panic (unwrap of `None`, index out of range, stack exhaustion).
-/
namespace Verif

/-- `Result<α, ε>` extended with an explicit panic. -/
inductive Outcome (ε α : Type) where
  | ok (a : α)
  | err (e : ε)
  | panic
  deriving DecidableEq, Repr

namespace Outcome
variable {ε α β : Type}

/-- Sequencing; the `?` operator stops at the first error, a panic stops everything. -/
protected def bind (x : Outcome ε α) (f : α → Outcome ε β) : Outcome ε β :=
  match x with
  | .ok a => f a
  | .err e => .err e
  | .panic => .panic

instance : Monad (Outcome ε) where
  pure := .ok
  bind := Outcome.bind

@[simp] theorem bind_ok (a : α) (f : α → Outcome ε β) : (Outcome.ok a >>= f) = f a := rfl
@[simp] theorem bind_err (e : ε) (f : α → Outcome ε β) : ((Outcome.err e : Outcome ε α) >>= f) = .err e := rfl
@[simp] theorem bind_panic (f : α → Outcome ε β) : ((Outcome.panic : Outcome ε α) >>= f) = .panic := rfl
@[simp] theorem pure_eq (a : α) : (pure a : Outcome ε α) = .ok a := rfl

/-- `Option::unwrap`, and indexing a vector: `None` panics. -/
def unwrap (x : Option α) : Outcome ε α :=
  match x with
  | some a => .ok a
  | none => .panic

/-- `Option::ok_or`: `let Some(x) = … else { return Err(e) }`. -/
def okOr (e : ε) (x : Option α) : Outcome ε α :=
  match x with
  | some a => .ok a
  | none => .err e

@[simp] theorem unwrap_some (a : α) : (unwrap (some a) : Outcome ε α) = .ok a := rfl
@[simp] theorem unwrap_none : (unwrap (none : Option α) : Outcome ε α) = .panic := rfl
@[simp] theorem okOr_some (e : ε) (a : α) : (okOr e (some a) : Outcome ε α) = .ok a := rfl
@[simp] theorem okOr_none (e : ε) : (okOr e (none : Option α) : Outcome ε α) = .err e := rfl

/-- Change the error type, as the `From` conversions of `?` do. -/
def mapErr {ε' : Type} (f : ε → ε') : Outcome ε α → Outcome ε' α
  | .ok a => .ok a
  | .err e => .err (f e)
  | .panic => .panic

end Outcome
end Verif
