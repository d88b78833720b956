import Verif.Model.GC
import Verif.Model.Registry
/-!
# Running out of memory in the middle of an operation on the object table

The operations of `Model/Table`, creating objects (`Model/VM`) and sweeping (`Model/GC`) once more, now with allocations that can fail.
A failed allocation ends the operation by `longjmp` (`NK_CATASTROPHE`, `src/nkmem.c:105-147`); the VM is then in the state it had at that
point.  `k` is the number of allocations that still succeed, which covers every way in which memory can run out, since nothing is
executed after the first failure.  Freeing cannot fail.
-/
namespace Nk

/-- What becomes of an operation: it is done, with `k` more allocations to succeed; or an allocation failed, in the given state. -/
inductive Att (σ α : Type) where
  | done (k : Nat) (a : α) (s : σ)
  | failed (s : σ)
  | ub (u : UB)
deriving DecidableEq

namespace Table
variable {α : Type}

/-- `nkiTableCreateHole`, `src/nktable.c:93-105`: the allocation comes first. -/
def createHoleF (t : Table α) (i : Nat) : Nat → Att (Table α) Unit
  | 0 => .failed t
  | k + 1 => match t.createHole i with
    | .ok t => .done k () t
    | .ub u => .ub u

/-- The loop that creates the holes of the new space, `src/nktable.c:239-241`. -/
def makeHolesF (t : Table α) (lo : Nat) : Nat → Nat → Att (Table α) Unit
  | 0, k => .done k () t
  | n + 1, k => match t.createHoleF (lo + n) k with
    | .done k _ t => t.makeHolesF lo n k
    | .failed t => .failed t
    | .ub u => .ub u

/-- `nkiTableAddEntry`, `src/nktable.c:170-247`: first the larger array is allocated (`nkiRealloc` allocates, copies and frees), then
its new part is cleared, then the holes are allocated one by one, and at last the entry is written.  Simplified: the overflow check of
`nkiReallocArray` is one more way for the allocation to fail; the error for an exhausted address space is added by the caller. -/
def addF (t : Table α) (x : α) (k : Nat) : Att (Table α) (Option Nat) :=
  match t.holes with
  | i :: hs => match ({ t with holes := hs } : Table α).write i (some x) with
    | .ok t => .done k (some i) t
    | .ub u => .ub u
  | [] =>
    let newCap := u32 (t.cap * 2)
    if newCap = 0 then .done k none t
    else match k with
      | 0 => .failed t
      | k + 1 =>
        let t1 : Table α := { t with slots := t.slots.take t.cap ++ List.replicate (newCap - t.cap) none, cap := newCap }
        match t1.makeHolesF (t.cap + 1) (newCap - (t.cap + 1)) k with
        | .failed t => .failed t
        | .ub u => .ub u
        | .done k _ t2 => match t2.write t.cap (some x) with
          | .ok t3 => .done k (some t.cap) t3
          | .ub u => .ub u

/-- `nkiTableEraseEntry`, `src/nktable.c:107-113`: the entry is gone before the hole is allocated. -/
def eraseF (t : Table α) (i : Nat) (k : Nat) : Att (Table α) Unit :=
  if i < t.cap then
    match t.read i with
    | .ok (some _) => match t.write i none with
      | .ok t => t.createHoleF i k
      | .ub u => .ub u
    | .ok none => .ub .assert
    | .ub u => .ub u
  else .ub .assert

/-- The loop of `nkiTableResetHoles`, `src/nktable.c:127-131`. -/
def resetLoopF (t : Table α) : Nat → Nat → Att (Table α) Unit
  | 0, k => .done k () t
  | n + 1, k =>
    match t.read n with
    | .ok none => match t.createHoleF n k with
      | .done k _ t => t.resetLoopF n k
      | .failed t => .failed t
      | .ub u => .ub u
    | .ok (some _) => t.resetLoopF n k
    | .ub u => .ub u

/-- `nkiTableShrink`, `src/nktable.c:134-168`: the smaller array is allocated only if there is a difference. -/
def shrinkF (t : Table α) (k : Nat) : Att (Table α) Unit :=
  let newCap := halve (t.highest t.cap) t.cap
  if newCap ≠ t.cap then
    match k with
    | 0 => .failed t
    | k + 1 => ({ slots := t.slots.take newCap, cap := newCap, holes := [] } : Table α).resetLoopF newCap k
  else ({ t with holes := [] } : Table α).resetLoopF t.cap k

end Table

/-- `nkiAddError`, `src/nkerror.c:76-166`: the error is in the list before its text is allocated. -/
def addErrorF (s : String) (vm : VM) : Nat → Att VM Unit
  | 0 => .failed vm
  | 1 => .failed { vm with errors := vm.errors ++ [s] }
  | k + 2 => .done k () { vm with errors := vm.errors ++ [s] }

/-- `nkiVmObjectTableCreateObject`, `src/nkobjs.c:103-130`: the object is allocated before the table is touched.  Its contents are
written after it was put in the table (line 112), without an allocation in between. -/
def createObjectF (vm : VM) : Nat → Att VM Nat
  | 0 => .failed vm
  | k + 1 => match vm.objects.addF Obj.init k with
    | .failed t => .failed { vm with objects := t }
    | .ub u => .ub u
    | .done k none _ => match addErrorF "Address space exhaustion when adding item to table." vm k with
      | .done k _ vm => .done k UINT_MAX vm
      | .failed vm => .failed vm
      | .ub u => .ub u
    | .done k (some i) t => .done k i { vm with
        objects := t
        gc := { vm.gc with newObjCountdown := vm.gc.newObjCountdown - 1 } }

/-- `nkiVmObjectTableCleanupObject`, `src/nkobjs.c:132-168`: nothing is allocated but for the error.  Cleanup callbacks of the host are
recorded and do nothing to the VM, as in `Model/GC`. -/
def cleanupObjectF (id : Nat) (o : Obj) (vm : VM) (k : Nat) : Att VM Unit :=
  if o.extType ≠ UINT_MAX ∧ vm.extTypes[o.extType]? = none then addErrorF "External type value out of range." vm k
  else match cleanupObject id o vm with
    | .ok (_, vm) => .done k () vm
    | .ub u => .ub u

/-- `nkiVmObjectTableCleanOldObjects`, `src/nkobjs.c:183-199`. -/
def cleanOldObjectsF (pass : Nat) (i : Nat) : Nat → Nat → VM → Att VM Unit
  | 0, k, vm => .done k () vm
  | n + 1, k, vm =>
    match vm.objects.slots[i]? with
    | none => .ub .oob
    | some none => cleanOldObjectsF pass (i + 1) n k vm
    | some (some o) =>
      if pass ≠ o.lastGCPass then
        match cleanupObjectF i o vm k with
        | .failed vm => .failed vm
        | .ub u => .ub u
        | .done k _ vm => match vm.objects.eraseF i k with
          | .failed t => .failed { vm with objects := t }
          | .ub u => .ub u
          | .done k _ t => cleanOldObjectsF pass (i + 1) n k { vm with objects := t }
      else cleanOldObjectsF pass (i + 1) n k vm

/-- `nkxInitSubsystem`, `src/nkx.c:988-1021`, with `nkiFindExternalSubsystemData`, `src/nkvm.c:527-555`: a new element and its name are
allocated before the element is put in the table. -/
def initSubsystemF (s : Subsystem) (vm : VM) (k : Nat) : Att VM Bool :=
  if vm.errors ≠ [] then
    match addErrorF "Attempting to initialize a subsystem on a broken VM." vm k with
    | .done k _ vm => .done k false vm
    | .failed vm => .failed vm
    | .ub u => .ub u
  else
    match vm.subsystems[subBucket s.name]? with
    | none => .ub .oob
    | some b =>
      match findSub s.name b with
      | some _ => .done k true { vm with subsystems := vm.subsystems.set (subBucket s.name) (setSub s b) }
      | none => match k with
        | 0 => .failed vm
        | 1 => .failed vm
        | k + 2 => .done k true { vm with subsystems := vm.subsystems.set (subBucket s.name) (s :: b) }

end Nk
