import Verif.Model.GC
/-!
# Deleting a VM: `nkiVmDestroy`, `src/nkvm.c:262-385`

Only what can be observed through callbacks is modelled; the frees after the objects are gone are left
out (`Model.Mem` and `Props.Mem` treat the allocator).
-/
namespace Nk

/-- The calls of subsystem cleanup callbacks, `src/nkvm.c:266-279`: bucket by bucket, in list order. -/
def subsystemCalls (vm : VM) : List (Bytes × Nat) :=
  vm.subsystems.flatten.filterMap (fun s => if s.hasCleanup then some (s.name, s.data) else none)

/-- `nkiVmStackClear(vm, &vm->rootExecutionContext.stack, nkfalse)`, `src/nkstack.c:217-231`. -/
def clearRootStack : M Unit := fun vm =>
  match ctxAt vm 0 with
  | .ok c =>
    if c.stack.cap ≤ c.stack.vals.length then
      .ok ((), { vm with ctxs := vm.ctxs.set 0 (some { c with stack := { c.stack with
        vals := List.replicate c.stack.cap Value.zero ++ c.stack.vals.drop c.stack.cap, size := 0 } }) })
    else .ub .oob
  | .ub k => .ub k

/-- `nkiMemset(vm->staticSpace, 0, (vm->staticAddressMask + 1) * sizeof(struct NKValue))`,
`src/nkvm.c:319-321`. -/
def clearStatics : M Unit := fun vm =>
  if vm.staticMask < vm.statics.length then
    .ok ((), { vm with
      statics := List.replicate (vm.staticMask + 1) Value.zero ++ vm.statics.drop (vm.staticMask + 1) })
  else .ub .oob

/-- `nkiVmObjectTableCleanAllObjects`, `src/nkobjs.c:170-181`: slots `i` .. `i+n-1`. -/
def cleanAllObjects (i : Nat) : Nat → M Unit
  | 0 => return ()
  | n + 1 => do
    let vm ← get
    match vm.objects.slots[i]? with
    | none => liftR (.ub .oob)
    | some none => cleanAllObjects (i + 1) n
    | some (some o) => do
      cleanupObject i o
      modify fun vm => { vm with objects := { vm.objects with slots := vm.objects.slots.set i none } }
      cleanAllObjects (i + 1) n

/-- `nkiVmDestroy`, `src/nkvm.c:262-385`.  `failed` is `errorState.allocationFailure`; in that case only
memory blocks are freed (lines 281-299).  Returns the subsystem cleanup calls. -/
def destroy (H : Host) (failed : Bool) : M (List (Bytes × Nat)) := do
  let vm ← get
  let calls := subsystemCalls vm
  modify fun vm => { vm with subsystems := List.replicate 16 [] }
  if failed then return calls
  else do
    clearRootStack
    clearStatics
    garbageCollect H
    let vm ← get
    cleanAllObjects 0 vm.objects.cap
    return calls

end Nk
