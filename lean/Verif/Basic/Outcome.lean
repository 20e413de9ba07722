/-!
# Outcomes of a C++ call

A call returns normally, throws one of the standard exception classes used in /repo, or has undefined
behaviour. `Outcome` is the (error) monad of these three outcomes; undefined behaviour is kept apart from
every other outcome so that a theorem `f x = .ok y` also says that `f x` is free of undefined behaviour.
-/
namespace StdNN

/-- Exception classes thrown by /repo:
`std::invalid_argument` (include/ttl/nn/bits/traits/filter.hpp:30, ops/std_function.hpp:33, ops/io_tar.hpp:55),
`std::runtime_error` (include/experimental/bits/contract.hpp:9, kernels/cpu/io.hpp:115, ops/io_tar.hpp:75),
`std::logic_error` (ops/shape_algo.hpp:44), `std::out_of_range` (thrown by `std::stoll`, ops/io_tar.hpp:37).
The message strings are not modelled. -/
inductive Err
  | invalidArgument
  | runtimeError
  | logicError
  | outOfRange
  deriving DecidableEq, Repr

/-- Outcome of a C++ call. -/
inductive Outcome (α : Type u)
  | ok (a : α)
  | throw (e : Err)
  | ub
  deriving DecidableEq, Repr

namespace Outcome

/-- Sequencing: an exception or undefined behaviour ends the computation (C++ semantics; for instance a failed
`contract_assert` at ops/bias.hpp:18 ends the operator). -/
protected def bind {α : Type u} {β : Type v} : Outcome α → (α → Outcome β) → Outcome β
  | ok a, f => f a
  | throw e, _ => throw e
  | ub, _ => ub

instance : Monad Outcome where
  pure := ok
  bind := Outcome.bind

variable {α : Type u} {β : Type u}

@[simp] theorem pure_eq (a : α) : (pure a : Outcome α) = ok a := rfl
@[simp] theorem ok_bind (a : α) (f : α → Outcome β) : (ok a >>= f) = f a := by exact id rfl
@[simp] theorem throw_bind (e : Err) (f : α → Outcome β) : (throw e >>= f) = throw e := by exact id rfl
@[simp] theorem ub_bind (f : α → Outcome β) : ((ub : Outcome α) >>= f) = ub := by exact id rfl
@[simp] theorem map_ok (a : α) (f : α → β) : f <$> (ok a) = ok (f a) := rfl
@[simp] theorem map_throw (e : Err) (f : α → β) : f <$> (throw e : Outcome α) = throw e := rfl
@[simp] theorem map_ub (f : α → β) : f <$> (ub : Outcome α) = ub := rfl

theorem bind_eq_ok {x : Outcome α} {f : α → Outcome β} {b : β} :
    (x >>= f) = ok b ↔ ∃ a, x = ok a ∧ f a = ok b := by
  cases x <;> simp

instance : LawfulMonad Outcome := LawfulMonad.mk'
  (id_map := by intro α x; cases x <;> rfl)
  (pure_bind := by intros; rfl)
  (bind_assoc := by intro α β γ x f g; cases x <;> rfl)

/-- `contract_assert` (include/experimental/bits/contract.hpp:6-25): throw `std::runtime_error` unless the
condition holds. -/
def contractAssert (p : Prop) [Decidable p] : Outcome PUnit :=
  if p then ok ⟨⟩ else throw .runtimeError

@[simp] theorem contractAssert_pos {p : Prop} [Decidable p] (h : p) : contractAssert p = ok ⟨⟩ := by
  simp [contractAssert, h]

@[simp] theorem contractAssert_neg {p : Prop} [Decidable p] (h : ¬ p) :
    contractAssert p = throw .runtimeError := by
  simp [contractAssert, h]

end Outcome
end StdNN
