import Verif.Model.Base
/-!
# Catastrophic failure and the public API wrapper: `src/nkfail.h`, used by every `nkx` function

The body of an API function is an arbitrary program over an arbitrary VM state `σ`: it may read and
update the state, allocate (each allocation may fail), hand control to host callbacks (which in turn
call API functions, to any depth), and use `NK_CHECK_CATASTROPHE`.  `setjmp`/`longjmp` are modelled
by frames: every wrapped call creates a frame, `vm->catastrophicFailureJmpBuf` is a pointer to a
frame, and a `longjmp` to a frame whose function has already returned is undefined behaviour.
-/
namespace Nk.Fail

/-- What an API function body can do.  Host callbacks are part of the body: they are just more
nodes, including `call` nodes for nested API calls.  `α` is the C return type. -/
inductive Prog (σ : Type) (α : Type) where
  /-- `return a;` -/
  | ret (a : α)
  /-- a state update that does not allocate, with the continuation seeing the old state -/
  | upd (f : σ → σ) (k : σ → Prog σ α)
  /-- `nkiMalloc` and friends: granted or not according to `grant` -/
  | alloc (grant : σ → Bool) (k : Prog σ α)
  /-- `if(NK_CHECK_CATASTROPHE()) NK_CATASTROPHE();`, `src/nkopcode.c:755-757` -/
  | check (k : Prog σ α)
  /-- a nested public API call with failure value `dflt` -/
  | call (dflt : α) (body : Prog σ α) (k : α → Prog σ α)

/-- Machine configuration. -/
structure Conf (σ : Type) where
  st : σ
  /-- `vm->errorState.allocationFailure` -/
  failed : Bool
  /-- `vm->catastrophicFailureJmpBuf`; `none` is NULL -/
  jmp : Option Nat
  /-- frames (`jmp_buf` locals) of API functions that have not returned, innermost first -/
  frames : List Nat
  /-- next fresh frame identity -/
  nextFrame : Nat

/-- Outcome of running C code. -/
inductive Out (σ α : Type) where
  | ret (a : α) (c : Conf σ)
  /-- control has left through `longjmp` to a live frame -/
  | jump (frame : Nat) (c : Conf σ)
  | ub (k : UB)

/-- `NK_CATASTROPHE`, `src/nkfail.h:94-98`: set the flag, `longjmp(*vm->catastrophicFailureJmpBuf)`. -/
def catastrophe {σ α : Type} (c : Conf σ) : Out σ α :=
  let c := { c with failed := true }
  match c.jmp with
  | none => .ub .null
  | some f => if f ∈ c.frames then .jump f c else .ub .oob

/-- Entering an API function: `NK_SET_FAILURE_RECOVERY_BASE`, `src/nkfail.h:54-60`: install this
function's `jmp_buf` (a fresh frame). -/
def enter {σ : Type} (c : Conf σ) : Conf σ :=
  { c with jmp := some c.nextFrame, frames := c.nextFrame :: c.frames, nextFrame := c.nextFrame + 1 }

/-- Leaving an API function: `NK_CLEAR_FAILURE_RECOVERY` (`src/nkfail.h:62-66`) restores the saved
pointer, and the function's `jmp_buf` dies. -/
def leave {σ : Type} (c : Conf σ) (saved : Option Nat) (frames : List Nat) : Conf σ :=
  { c with jmp := saved, frames }

/-- Run a program.  `call` is `NK_SET_FAILURE_RECOVERY`, `src/nkfail.h:54-86`: save the old pointer,
install this frame, return the failure value if the flag is already set or when `longjmp` arrives
here. -/
def exec {σ α : Type} : Prog σ α → Conf σ → Out σ α
  | .ret a, c => .ret a c
  | .upd f k, c => exec (k c.st) { c with st := f c.st }
  | .alloc grant k, c =>
    -- `assert(vm->catastrophicFailureJmpBuf)`, `src/nkmem.c:121`
    match c.jmp with
    | none => .ub .assert
    | some _ => if grant c.st then exec k c else catastrophe c
  | .check k, c => if c.failed then catastrophe c else exec k c
  | .call dflt body k, c =>
    if (enter c).failed then exec (k dflt) (leave (enter c) c.jmp c.frames)
    else match exec body (enter c) with
      | .ret a c2 => exec (k a) (leave c2 c.jmp c.frames)
      | .jump f c2 =>
        if f = c.nextFrame then exec (k dflt) (leave c2 c.jmp c.frames)
        else .jump f { c2 with frames := c.frames }
      | .ub u => .ub u

/-- One public API call made by the host program at top level. -/
def api {σ α : Type} (dflt : α) (body : Prog σ α) (c : Conf σ) : Out σ α :=
  exec (.call dflt body .ret) c

/-- The configuration right after VM creation (`src/nkx.c:79-86`). -/
def init {σ : Type} (st : σ) : Conf σ :=
  { st, failed := false, jmp := none, frames := [], nextFrame := 0 }

/-- `nkxGetErrorCount`, `src/nkx.c:119-127`, over the recorded errors: the wrapper's failure value
is 1; otherwise `nkiGetErrorCount` (`src/nkerror.c:165-180`) counts the list, plus one if the flag is
set. -/
def getErrorCount {ε : Type} (errors : List ε) (failed : Bool) : Nat :=
  if failed then 1 else errors.length + (if failed then 1 else 0)

/-- `nkxSerializeData` called outside serialization, `src/nkx.c:977-981`: `nkiAddError` allocates
without any recovery wrapper. -/
def serializeDataOutside {σ : Type} (addError : σ → σ) : Prog σ Bool :=
  .alloc (fun _ => true) (.upd addError (fun _ => .ret false))

end Nk.Fail
