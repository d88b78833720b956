import Verif.Model.Mem
/-!
# Specification of memory accounting

Everything is defined from the trace of calls the VM makes to the system allocator; the VM's own
bookkeeping is not mentioned.
-/
namespace Nk.MemSpec
open Nk.Mem (Ev)

/-- Blocks (address, bytes) obtained from the system and not yet given back, newest first. -/
def outStep (acc : List (Nat × Nat)) : Ev → List (Nat × Nat)
  | .alloc a b _ => (a, b) :: acc
  | .free a _ => acc.filter (fun p => p.1 ≠ a)
  | .libcFree a => acc.filter (fun p => p.1 ≠ a)

/-- Outstanding blocks after a trace. -/
def outstanding (tr : List Ev) : List (Nat × Nat) := tr.foldl outStep []

/-- Total bytes of a list of blocks. -/
def total (l : List (Nat × Nat)) : Nat := (l.map (·.2)).sum

/-- Bytes outstanding after a trace. -/
def usage (tr : List Ev) : Nat := total (outstanding tr)

/-- `p` is the largest number of bytes outstanding after any prefix of the trace. -/
def IsPeak (tr : List Ev) (p : Nat) : Prop :=
  (∀ n, usage (tr.take n) ≤ p) ∧ ∃ n, usage (tr.take n) = p

/-- Number of times the block at `a` is released in a trace. -/
def frees (a : Nat) (tr : List Ev) : Nat :=
  (tr.filter (fun e => match e with
    | .free b _ => b = a
    | .libcFree b => b = a
    | .alloc _ _ _ => false)).length

/-- What a caller of the public memory functions must guarantee for a call to be legal C, given the
trace so far: pointers passed in are NULL or outstanding blocks, sizes and limits are 32-bit,
array element sizes are not zero; and what the system allocator guarantees: a new block does not
overlap an outstanding one (address fresh) and is as long as requested. -/
def legal (tr : List Ev) : Nk.Mem.Op → Prop
  | .malloc size sys junk => size < U32 ∧ fresh tr sys ∧ junk.length = size
  | .mallocArray size count sys junk =>
    size < U32 ∧ count < U32 ∧ size ≠ 0 ∧ fresh tr sys ∧ (size * count < U32 → junk.length = size * count)
  | .realloc p size sys junk => size < U32 ∧ fresh tr sys ∧ junk.length = size ∧ liveOrNull tr p
  | .reallocArray p size count sys junk =>
    size < U32 ∧ count < U32 ∧ size ≠ 0 ∧ fresh tr sys ∧ (size * count < U32 → junk.length = size * count) ∧
      liveOrNull tr p
  | .free p => liveOrNull tr p
  | .setLimit n => n < U32
  | .forceFailure => True
where
  fresh (tr : List Ev) : Option Nat → Prop
    | none => True
    | some a => ∀ b, (a, b) ∉ outstanding tr
  liveOrNull (tr : List Ev) : Option Nat → Prop
    | none => True
    | some a => ∃ b, (a, b) ∈ outstanding tr

/-- Address `a` is an outstanding block. -/
def isLive (tr : List Ev) (a : Nat) : Prop := ∃ b, (a, b) ∈ outstanding tr

/-- Contents of the block at `a` in the host heap. -/
def contents (s : Nk.Mem.State) (a : Nat) : Option Bytes := (s.heap a).map (·.data)

/-- User data that accompanies a call to the host's allocator (`none` for libc `free`, which is not the
host's). -/
def evUser : Ev → Option Nat
  | .alloc _ _ u => some u
  | .free _ u => some u
  | .libcFree _ => none

/-- The property C58 for a trace of system calls: everything goes to the host's functions with the
host's user data. -/
def HostAllocatorOnly (ud : Nat) (tr : List Ev) : Prop := ∀ e ∈ tr, evUser e = some ud

end Nk.MemSpec
