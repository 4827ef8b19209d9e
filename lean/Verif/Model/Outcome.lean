/-!
# Outcomes of a C++ call

`ok a`  – the call returns normally with `a`,
`err`   – it raises an exception / fails a `SCAI_ASSERT…`,
`ub`    – it runs into undefined behaviour (out-of-bounds access, division by zero,
          uninitialised read, signed overflow after a loop that never finds its exit).
-/
namespace Verif

/-- Result of a modelled C++ call. -/
inductive Out (α : Type) where
  | ok (a : α)
  | err
  | ub
  deriving DecidableEq, Repr

namespace Out

/-- Sequencing: errors and undefined behaviour propagate. -/
def bind {α β : Type} (x : Out α) (f : α → Out β) : Out β :=
  match x with
  | ok a => f a
  | err => err
  | ub => ub

instance : Monad Out where
  pure := Out.ok
  bind := Out.bind

@[simp] theorem bind_ok {α β : Type} (a : α) (f : α → Out β) : (Out.ok a >>= f) = f a := rfl
@[simp] theorem bind_err {α β : Type} (f : α → Out β) : ((Out.err : Out α) >>= f) = .err := rfl
@[simp] theorem bind_ub {α β : Type} (f : α → Out β) : ((Out.ub : Out α) >>= f) = .ub := rfl
@[simp] theorem pure_eq {α : Type} (a : α) : (pure a : Out α) = .ok a := rfl

/-- Does the call return normally? -/
def isOk {α : Type} : Out α → Bool
  | ok _ => true
  | _ => false

end Out
end Verif
