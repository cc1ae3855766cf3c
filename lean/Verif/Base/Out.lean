/-!
# Outcomes of a Rust call

A Rust function returning `Result<T, E>` can return `Ok`, return `Err`, or panic.
`Out E T` makes the three cases explicit, so that "never panics" is a statement one can
state and refute.
-/

namespace Swrs

/-- Outcome of a Rust call returning `Result<α, ε>`: a value, an error value or a panic. -/
inductive Out (ε α : Type) where
  | ok (a : α)
  | err (e : ε)
  | panic
deriving Repr, DecidableEq

namespace Out
variable {ε ε' α β γ : Type}

/-- The `?` operator: stop at the first error or panic. -/
def bind (x : Out ε α) (f : α → Out ε β) : Out ε β :=
  match x with
  | ok a => f a
  | err e => err e
  | panic => panic

/-- The `?` operator, used throughout /repo/src: the first error or panic ends the computation. -/
instance : Monad (Out ε) where
  pure := Out.ok
  bind := Out.bind

@[simp] theorem pure_eq (a : α) : (pure a : Out ε α) = ok a := rfl
@[simp] theorem ok_bind (a : α) (f : α → Out ε β) : (Out.ok a >>= f) = f a := rfl
@[simp] theorem err_bind (e : ε) (f : α → Out ε β) : (Out.err e >>= f) = Out.err e := rfl
@[simp] theorem panic_bind (f : α → Out ε β) : ((Out.panic : Out ε α) >>= f) = Out.panic := rfl

@[simp] theorem map_ok (a : α) (f : α → β) : (f <$> (Out.ok a : Out ε α)) = ok (f a) := rfl
@[simp] theorem map_err (e : ε) (f : α → β) : (f <$> (Out.err e : Out ε α)) = err e := rfl
@[simp] theorem map_panic (f : α → β) : (f <$> (Out.panic : Out ε α)) = panic := rfl

/-- `Result::map_err`. -/
def mapErr (f : ε → ε') : Out ε α → Out ε' α
  | ok a => ok a
  | err e => err (f e)
  | panic => panic

@[simp] theorem mapErr_ok (f : ε → ε') (a : α) : mapErr f (ok a : Out ε α) = ok a := rfl
@[simp] theorem mapErr_err (f : ε → ε') (e : ε) : mapErr f (err e : Out ε α) = err (f e) := rfl
@[simp] theorem mapErr_panic (f : ε → ε') : mapErr f (panic : Out ε α) = panic := rfl

/-- `Option::ok_or_else`. -/
def ofOption (e : ε) : Option α → Out ε α
  | some a => ok a
  | none => err e

@[simp] theorem ofOption_some (e : ε) (a : α) : ofOption e (some a) = ok a := rfl
@[simp] theorem ofOption_none (e : ε) : ofOption e (none : Option α) = err e := rfl

/-- `Option::unwrap`, or an out-of-range slice: `none` is a panic. -/
def unwrap : Option α → Out ε α
  | some a => ok a
  | none => panic

@[simp] theorem unwrap_some (a : α) : (unwrap (some a) : Out ε α) = ok a := rfl
@[simp] theorem unwrap_none : (unwrap (none : Option α) : Out ε α) = panic := rfl

/-- `Result::ok`; a panic is still a panic, so the caller must treat it separately. -/
def toOption : Out ε α → Option α
  | ok a => some a
  | _ => none

@[simp] theorem toOption_ok (a : α) : toOption (ok a : Out ε α) = some a := rfl
@[simp] theorem toOption_err (e : ε) : toOption (err e : Out ε α) = none := rfl

theorem bind_eq_ok {x : Out ε α} {f : α → Out ε β} {b : β} :
    (x >>= f) = .ok b ↔ ∃ a, x = .ok a ∧ f a = .ok b := by
  cases x <;> simp

theorem bind_eq_panic {x : Out ε α} {f : α → Out ε β} :
    (x >>= f) = .panic ↔ x = .panic ∨ ∃ a, x = .ok a ∧ f a = .panic := by
  cases x <;> simp

theorem bind_eq_err {x : Out ε α} {f : α → Out ε β} {e : ε} :
    (x >>= f) = .err e ↔ x = .err e ∨ ∃ a, x = .ok a ∧ f a = .err e := by
  cases x <;> simp

theorem unwrap_eq_ok {o : Option α} {a : α} : (unwrap o : Out ε α) = .ok a ↔ o = some a := by
  cases o <;> simp

theorem ofOption_eq_ok {o : Option α} {e : ε} {a : α} : ofOption e o = .ok a ↔ o = some a := by
  cases o <;> simp

@[simp] theorem ofOption_ne_panic {o : Option α} {e : ε} : ofOption e o ≠ .panic := by
  cases o <;> simp

theorem mapErr_eq_ok {x : Out ε α} {f : ε → ε'} {a : α} : mapErr f x = .ok a ↔ x = .ok a := by
  cases x <;> simp

theorem mapErr_eq_panic {x : Out ε α} {f : ε → ε'} : mapErr f x = .panic ↔ x = .panic := by
  cases x <;> simp

end Out
end Swrs
