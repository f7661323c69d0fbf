/-!
# Results, errors and panics

`Outcome α` is the value of a Rust call that may return normally, return
`Err(_)` (`/repo/src/error.rs` 1-11, types `Error`, `Result`) or panic.  The three cases
are kept apart so that theorems can say which of them happens.
-/

namespace Verif

/-- The error variants of the crate that the modelled functions can return
(`/repo/src/error.rs` 2-9).  The payload strings are not modelled. -/
inductive Err where
  | periodOutOfBounds
  | tradeExpired
  | invalidData
  deriving DecidableEq, Repr

/-- Result of running a Rust function: `ok a` (returned `a` / `Ok(a)`), `fail e`
(returned `Err(e)`), or `panic`. -/
inductive Outcome (α : Type) where
  | ok (a : α)
  | fail (e : Err)
  | panic
  deriving DecidableEq, Repr

namespace Outcome

variable {α β γ : Type}

/-- Sequencing: Rust's `?` together with propagation of panics. -/
def bind : Outcome α → (α → Outcome β) → Outcome β
  | ok a, f => f a
  | fail e, _ => fail e
  | panic, _ => panic

instance : Monad Outcome where
  pure := ok
  bind := bind

@[simp] theorem ok_bind (a : α) (f : α → Outcome β) : (ok a >>= f) = f a := rfl
@[simp] theorem fail_bind (e : Err) (f : α → Outcome β) :
    ((fail e : Outcome α) >>= f) = fail e := rfl
@[simp] theorem panic_bind (f : α → Outcome β) :
    ((panic : Outcome α) >>= f) = panic := rfl
@[simp] theorem pure_eq (a : α) : (pure a : Outcome α) = ok a := rfl
@[simp] theorem map_ok (f : α → β) (a : α) : f <$> (ok a) = ok (f a) := rfl
@[simp] theorem map_fail (f : α → β) (e : Err) : f <$> (fail e : Outcome α) = fail e := rfl
@[simp] theorem map_panic (f : α → β) : f <$> (panic : Outcome α) = panic := rfl

theorem bind_eq_ok {x : Outcome α} {f : α → Outcome β} {b : β} :
    (x >>= f) = ok b ↔ ∃ a, x = ok a ∧ f a = ok b := by
  cases x <;> simp

theorem map_eq_ok {x : Outcome α} {f : α → β} {b : β} :
    (f <$> x) = ok b ↔ ∃ a, x = ok a ∧ f a = b := by
  cases x <;> simp

end Outcome
end Verif
