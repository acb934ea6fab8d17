/-!
# Common definitions

Outcome type of modelled C functions, byte strings, 64 bit arithmetic.
-/

namespace Dyna

/-- Outcome of a modelled C function.
* `ok a`: the call returns `a`;
* `err`: the call reports an error through its documented channel;
* `ub`: the C program executes undefined behaviour (out of bounds access, use of
  freed memory, ...), so nothing is promised about it;
* `abort`: an `assert` fails. Auxiliary of the model, no code of its own. -/
inductive Res (α : Type) where
  | ok (a : α)
  | err
  | ub
  | abort
deriving DecidableEq, Repr

namespace Res

/-- Auxiliary of the model, no code of its own. -/
def bind {α β : Type} : Res α → (α → Res β) → Res β
  | ok a, f => f a
  | err, _ => err
  | ub, _ => ub
  | abort, _ => abort

instance : Monad Res where
  pure := ok
  bind := bind

@[simp] theorem bind_ok {α β : Type} (a : α) (f : α → Res β) : (Res.ok a >>= f) = f a := rfl
@[simp] theorem bind_err {α β : Type} (f : α → Res β) : ((Res.err : Res α) >>= f) = .err := rfl
@[simp] theorem bind_ub {α β : Type} (f : α → Res β) : ((Res.ub : Res α) >>= f) = .ub := rfl
@[simp] theorem bind_abort {α β : Type} (f : α → Res β) :
    ((Res.abort : Res α) >>= f) = .abort := rfl
@[simp] theorem pure_eq {α : Type} (a : α) : (pure a : Res α) = .ok a := rfl

/-- The call neither executes undefined behaviour nor fails an assertion.
Part of the specification, models no code. -/
def Safe {α : Type} : Res α → Prop
  | ok _ => True
  | err => True
  | ub => False
  | abort => False

/-- Turn a checked array access into an outcome: a missing element is undefined behaviour.
Auxiliary of the model, no code of its own. -/
def ofOption {α : Type} : Option α → Res α
  | some a => ok a
  | none => ub

@[simp] theorem ofOption_some {α : Type} (a : α) : ofOption (some a) = .ok a := rfl
@[simp] theorem ofOption_none {α : Type} : ofOption (none : Option α) = .ub := rfl

end Res

/-- Bytes are natural numbers (values from 0 to 255 in the program; where the bound
matters it is a hypothesis). Auxiliary of the model, no code of its own. -/
abbrev Byte := Nat

/-- A C string without its terminator. Auxiliary of the model, no code of its own. -/
abbrev Bytes := List Nat

/-- Text literal to bytes (only used for literals and examples).
Auxiliary of the model, no code of its own. -/
def bs (s : String) : Bytes := s.toList.map Char.toNat

/-- Number of distinct values of `size_t`/`uint64_t` on the modelled platform.
Auxiliary of the model, no code of its own. -/
def u64 : Nat := 18446744073709551616

/-- `uint64_t` subtraction with wrap-around. Auxiliary of the model, no code of its own. -/
def sub64 (a b : Nat) : Nat := (a % u64 + u64 - b % u64) % u64

/-- `uint64_t` addition with wrap-around. Auxiliary of the model, no code of its own. -/
def add64 (a b : Nat) : Nat := (a + b) % u64

end Dyna
