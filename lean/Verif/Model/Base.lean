/-!
# Base definitions

C facts used everywhere: 32-bit unsigned wrap-around, undefined behaviour as an explicit
outcome, bytes.
-/
namespace Nk

/-- `nkuint32_t` is 32 bits wide (`src/nktypes.h`); this is 2^32. -/
def U32 : Nat := 4294967296

/-- `NK_UINT_MAX` and `NK_INVALID_VALUE`, `src/nktypes.h` / `src/nkvalue.h`: all ones. -/
def UINT_MAX : Nat := 4294967295

/-- Conversion to `nkuint32_t` (C unsigned arithmetic is modulo 2^32). -/
def u32 (n : Nat) : Nat := n % U32

/-- C byte strings.  The terminating NUL is not part of the list. -/
abbrev Bytes := List UInt8

/-- The kinds of undefined behaviour the model distinguishes. -/
inductive UB where
  /-- read or write outside an allocation, or through a dangling pointer -/
  | oob
  /-- dereference of NULL -/
  | null
  /-- signed integer overflow -/
  | overflow
  /-- float to int conversion out of range -/
  | cast
  /-- integer division by zero -/
  | div
  /-- a failing `assert` -/
  | assert
  /-- not undefined behaviour: control left through `longjmp` after a catastrophic failure
  (`NK_CATASTROPHE`, `src/nkfail.h`).  The VM model uses it for host callbacks that end that way; the
  `Fail` model treats the mechanism itself. -/
  | longjmp
  /-- not C behaviour: the iteration bound the model gives to a `while` loop ran out.  Theorems show
  that it never does for the loops concerned. -/
  | fuel
deriving DecidableEq, Repr

/-- Outcome of a C function: a result, or undefined behaviour. -/
inductive Res (α : Type u) where
  | ok (a : α)
  | ub (k : UB)
deriving Repr, DecidableEq

namespace Res

/-- Sequencing of C computations that may be undefined. -/
def bind {α : Type u} {β : Type v} (x : Res α) (f : α → Res β) : Res β :=
  match x with
  | ok a => f a
  | ub k => ub k

/-- Does the computation complete with a result satisfying the test?  (For concrete examples.) -/
def test {α : Type u} (r : Res α) (p : α → Bool) : Bool :=
  match r with
  | ok a => p a
  | ub _ => false

instance : Monad Res where
  pure := ok
  bind := bind

@[simp] theorem pure_eq {α : Type u} (a : α) : (pure a : Res α) = ok a := rfl
@[simp] theorem ok_bind {α β : Type u} (a : α) (f : α → Res β) : (ok a >>= f) = f a := rfl
@[simp] theorem ub_bind {α β : Type u} (k : UB) (f : α → Res β) : ((ub k : Res α) >>= f) = ub k := rfl

end Res

end Nk
