import Verif.Model.Base
/-!
# The allocator: `src/nkmem.c`, wrappers of `src/nkx.c`, catastrophic cleanup of `src/nkvm.c`

Headers are kept at pointer level: `vm->allocations` is a singly linked list threaded through
`nextAllocation`, with back pointers `prevAllocationPtr` that hold the *address of the pointer*
that points to the header.  The host's `mallocReplacement` is an oracle: every call that reaches it
carries the answer the host gives (`none` for NULL).  All calls made to the host's allocator, and to
libc `free`, are recorded in `trace`.
-/
namespace Nk.Mem

/-- What a `struct NKMemoryHeader **` can point at: the `vm->allocations` field or the
`nextAllocation` field of a header.  `src/nkmem.h:67-78`. -/
inductive Loc where
  | head
  | next (a : Nat)
deriving DecidableEq, Repr

/-- `struct NKMemoryHeader`, `src/nkmem.h:67-78`, together with the payload that follows it.
The debugging field `stackTrace` and the back pointer `vm` are not modelled. -/
structure Header where
  size : Nat
  next : Option Nat
  prev : Loc
  data : Bytes
deriving DecidableEq, Repr

/-- Calls made to the system, oldest first. -/
inductive Ev where
  /-- `mallocReplacement(bytes, userData)` returned the block at `addr` -/
  | alloc (addr bytes : Nat) (userData : Nat)
  /-- `freeReplacement(addr, userData)` -/
  | free (addr : Nat) (userData : Nat)
  /-- libc `free(addr)`, `src/nkvm.c:293` -/
  | libcFree (addr : Nat)
deriving DecidableEq, Repr

/-- The allocator related fields of `struct NKVM` (`src/nkvm.h`). -/
structure State where
  /-- `sizeof(struct NKMemoryHeader)` -/
  hdr : Nat
  /-- the host heap: header and payload of each block the VM owns -/
  heap : Nat → Option Header
  /-- `vm->allocations` -/
  head : Option Nat
  /-- `vm->currentMemoryUsage` -/
  cur : Nat
  /-- `vm->peakMemoryUsage` -/
  peak : Nat
  /-- `vm->limits.maxAllocatedMemory` -/
  limit : Nat
  /-- `vm->errorState.allocationFailure` -/
  failed : Bool
  /-- `vm->mallocAndFreeReplacementUserData` -/
  userData : Nat
  trace : List Ev

/-- `src/nkx.c:64-89` and `src/nkvm.c:184-202`: a fresh VM has usage 0, no allocations, limit
`NK_UINT_MAX`.  `nkiMemset(vm, 0, ...)` at `nkx.c:79` leaves the user data 0 and `nkxVmCreateEx`
never copies `params->mallocAndFreeReplacementUserData` into it. -/
def create (hdr : Nat) (_paramsUserData : Nat) : State :=
  { hdr, heap := fun _ => none, head := none, cur := 0, peak := 0, limit := UINT_MAX,
    failed := false, userData := 0, trace := [] }

/-- Outcome of an internal (`nki`) allocator function: it returns, or it does
`NK_CATASTROPHE()` (`src/nkfail.h`), i.e. sets the flag and longjmps out. -/
inductive Out (α : Type) where
  | ret (a : α) (s : State)
  | catastrophe (s : State)
  | ub (k : UB)

/-- `NK_CATASTROPHE`, `src/nkfail.h:94-98`. -/
def catastrophe {α : Type} (s : State) : Out α := .catastrophe { s with failed := true }

/-- Write a header. -/
def setHeap (s : State) (a : Nat) (h : Option Header) : State :=
  { s with heap := fun b => if b = a then h else s.heap b }

/-- `*loc = v` for a `struct NKMemoryHeader **loc`. -/
def storeLoc (s : State) (loc : Loc) (v : Option Nat) : Res State :=
  match loc with
  | .head => .ok { s with head := v }
  | .next a =>
    match s.heap a with
    | some h => .ok (setHeap s a (some { h with next := v }))
    | none => .ub .oob

/-- `header->prevAllocationPtr = loc` for the header at `a`. -/
def storePrev (s : State) (a : Nat) (loc : Loc) : Res State :=
  match s.heap a with
  | some h => .ok (setHeap s a (some { h with prev := loc }))
  | none => .ub .oob

/-- `src/nkmem.c:159-174`: account for a new block and push it on the allocation list. -/
def linkNew (s : State) (a size : Nat) (junk : Bytes) : Res State := do
  -- 159-161
  let s := setHeap s a (some { size, next := none, prev := .head, data := junk })
  let s := { s with cur := u32 (s.cur + u32 (size + s.hdr)) }
  -- 163-165
  let s := { s with peak := if s.peak < s.cur then s.cur else s.peak }
  -- 168-169
  let s := setHeap s a (some { size, next := s.head, prev := .head, data := junk })
  -- 170-173
  let s ← match s.head with
    | some o => storePrev s o (.next a)
    | none => .ok s
  -- 174
  .ok { s with head := some a }

/-- `nkiMalloc_real`, `src/nkmem.c:103-226`.  `sys` is the answer of the host allocator in case it
is asked, `junk` the (uninitialised) contents of the new block.  Returns the payload address, which
the model identifies with the header address (`header + 1` in C).  The test-only failure injection
at 107-117 and leak tracking are not modelled. -/
def malloc (s : State) (size : Nat) (sys : Option Nat) (junk : Bytes) : Out (Option Nat) :=
  -- 125
  if size > UINT_MAX - s.hdr then catastrophe s
  -- 132
  else if size ≠ 0 then
    -- 137
    let newChunkSize := u32 (size + s.hdr)
    -- 138-140 (short-circuit || makes the subtraction safe)
    if newChunkSize < size ∨ s.cur > s.limit ∨ newChunkSize > s.limit - s.cur then catastrophe s
    else
      -- 149
      match sys with
      | none => catastrophe s
      | some a =>
        let s := { s with trace := s.trace ++ [.alloc a newChunkSize s.userData] }
        match linkNew s a size junk with
        | .ok s => .ret (some a) s
        | .ub k => .ub k
  -- 225
  else .ret none s

/-- The list surgery and accounting of `nkiFree`, `src/nkmem.c:231-248`. -/
def unlink (s : State) (a : Nat) : Res State :=
  match s.heap a with
  | none => .ub .oob
  | some h => do
    -- 232
    let s := { s with cur := u32 (s.cur + U32 - u32 (h.size + s.hdr)) }
    -- 239-242
    let s ← match h.next with
      | some n => storePrev s n h.prev
      | none => .ok s
    -- 243
    let s ← storeLoc s h.prev h.next
    -- 248
    .ok { setHeap s a none with trace := s.trace ++ [.free a s.userData] }

/-- `nkiFree`, `src/nkmem.c:228-254`. -/
def free (s : State) (p : Option Nat) : Out Unit :=
  match p with
  | none => .ret () s
  | some a =>
    match unlink s a with
    | .ok s => .ret () s
    | .ub k => .ub k

/-- `nkiMemcpy(newData, data, copySize)` into the block at `a`, `src/nkstring.c:309-319`.
Fails if either side is too short. -/
def memcpyTo (s : State) (a : Nat) (src : Bytes) (n : Nat) : Res State :=
  match s.heap a with
  | none => .ub .oob
  | some h =>
    if n ≤ src.length ∧ n ≤ h.data.length then
      .ok (setHeap s a (some { h with data := src.take n ++ h.data.drop n }))
    else .ub .oob

/-- `nkiRealloc`, `src/nkmem.c:256-271`. -/
def realloc (s : State) (p : Option Nat) (size : Nat) (sys : Option Nat) (junk : Bytes) :
    Out (Option Nat) :=
  match p with
  | none => malloc s size sys junk
  | some a =>
    match s.heap a with
    | none => .ub .oob
    | some h =>
      let copySize := if size < h.size then size else h.size
      match malloc s size sys junk with
      | .catastrophe s => .catastrophe s
      | .ub k => .ub k
      | .ret newData s =>
        let copied : Res State := match newData with
          | some b => memcpyTo s b h.data copySize
          | none => .ok s
        match copied with
        | .ub k => .ub k
        | .ok s =>
          match free s (some a) with
          | .ret _ s => .ret newData s
          | .catastrophe s => .catastrophe s
          | .ub k => .ub k

/-- `nkiMallocArray`, `src/nkmem.c:291-301`.  Element size 0 divides by zero. -/
def mallocArray (s : State) (size count : Nat) (sys : Option Nat) (junk : Bytes) :
    Out (Option Nat) :=
  if size = 0 then .ub .div
  else if count ≥ UINT_MAX / size then catastrophe s
  else malloc s (u32 (size * count)) sys junk

/-- `nkiReallocArray`, `src/nkmem.c:304-314`. -/
def reallocArray (s : State) (p : Option Nat) (size count : Nat) (sys : Option Nat)
    (junk : Bytes) : Out (Option Nat) :=
  if size = 0 then .ub .div
  else if count ≥ UINT_MAX / size then catastrophe s
  else realloc s p (u32 (size * count)) sys junk

/-- The failure-recovery wrapper every public (`nkx`) function uses, `src/nkfail.h:66-77`: if the
flag is already set return the default, otherwise run the body and turn a longjmp into the
default. -/
def wrapped {α : Type} (s : State) (default : α) (body : State → Out α) : Res (α × State) :=
  if s.failed then .ok (default, s)
  else match body s with
    | .ret a s => .ok (a, s)
    | .catastrophe s => .ok (default, s)
    | .ub k => .ub k

/-- Public memory calls, `src/nkx.c:1138-1197`, `nkxSetMaxAllocatedMemory` `src/nkx.c:705-708`
and `nkxForceCatastrophicFailure` `src/nkx.c:370-376`. -/
inductive Op where
  | malloc (size : Nat) (sys : Option Nat) (junk : Bytes)
  | mallocArray (size count : Nat) (sys : Option Nat) (junk : Bytes)
  | realloc (p : Option Nat) (size : Nat) (sys : Option Nat) (junk : Bytes)
  | reallocArray (p : Option Nat) (size count : Nat) (sys : Option Nat) (junk : Bytes)
  | free (p : Option Nat)
  | setLimit (n : Nat)
  | forceFailure

/-- One public call; the returned pointer is `none` for NULL or a void function. -/
def step (s : State) (op : Op) : Res (Option Nat × State) :=
  match op with
  | .malloc size sys junk => wrapped s none (fun s => malloc s size sys junk)
  | .mallocArray size count sys junk => wrapped s none (fun s => mallocArray s size count sys junk)
  | .realloc p size sys junk => wrapped s none (fun s => realloc s p size sys junk)
  | .reallocArray p size count sys junk =>
    wrapped s none (fun s => reallocArray s p size count sys junk)
  | .free p => wrapped s none (fun s => match free s p with
      | .ret _ s => .ret none s
      | .catastrophe s => .catastrophe s
      | .ub k => .ub k)
  | .setLimit n => .ok (none, { s with limit := n })
  | .forceFailure => wrapped s none (fun s => catastrophe s)

/-- A history of public calls. -/
def run (s : State) : List Op → Res State
  | [] => .ok s
  | op :: ops =>
    match step s op with
    | .ok (_, s) => run s ops
    | .ub k => .ub k

/-- `nkiVmDestroy` in catastrophic mode, `src/nkvm.c:288-295`: `while(vm->allocations)` read
`next`, `free()` the header, advance.  `fuel` bounds the loop; running out of it means the loop did
not end. -/
def destroyLoop : Nat → State → Option (Res State)
  | 0, s => match s.head with
    | none => some (.ok s)
    | some _ => none
  | fuel + 1, s =>
    match s.head with
    | none => some (.ok s)
    | some a =>
      match s.heap a with
      | none => some (.ub .oob)
      | some h =>
        destroyLoop fuel
          { setHeap s a none with head := h.next, trace := s.trace ++ [.libcFree a] }

/-- `nkiFree` on each of a list of blocks. -/
def freeAll (s : State) : List Nat → Res State
  | [] => .ok s
  | a :: l =>
    match unlink s a with
    | .ok s => freeAll s l
    | .ub k => .ub k

/-- `nkiVmDestroy` of a VM whose failure flag is set, `src/nkvm.c:262-299`: the names and records of
the registered subsystems are released with `nkiFree` (266-280; `subs` lists their blocks; the
cleanup callbacks themselves are the host's), then everything left on the allocation list
(288-295). -/
def destroyFailed (fuel : Nat) (s : State) (subs : List Nat) : Option (Res State) :=
  match freeAll s subs with
  | .ok s => destroyLoop fuel s
  | .ub k => some (.ub k)

end Nk.Mem
