import Verif.Model.Fault
/-!
# Running out of memory anywhere in a collection

The functions of `Model/GC` once more, with the allocations that can fail (see `Model/Fault`).
-/
namespace Nk

/-- An operation on the VM in which memory can run out; the number is how many allocations still succeed. -/
def FM (α : Type) := Nat → VM → Att VM α

namespace FM
variable {α β : Type}

/-- Nothing happens. -/
def pure (a : α) : FM α := fun k vm => .done k a vm

/-- One operation after the other: a failed allocation ends both (`longjmp`). -/
def bind (x : FM α) (f : α → FM β) : FM β := fun k vm =>
  match x k vm with
  | .done k a vm => f a k vm
  | .failed vm => .failed vm
  | .ub u => .ub u

instance : Monad FM where
  pure := pure
  bind := bind

/-- An operation that allocates nothing. -/
def lift (m : M α) : FM α := fun k vm => match m vm with
  | .ok (a, vm) => .done k a vm
  | .ub u => .ub u

end FM

/-- `nkiMalloc`, `src/nkmem.c:105-147`, of memory that the VM itself has no reference to. -/
def allocF : FM Unit := fun k vm => match k with
  | 0 => .failed vm
  | k + 1 => .done k () vm

/-- `nkiVmGarbageCollect_markString`, `src/nkgc.c:79-94`: only the error is allocated. -/
def markStringF (pass id : Nat) : FM Unit := do
  let e ← FM.lift (getStrEntry id)
  match e with
  | some e => FM.lift fun vm => match vm.strings.write id (some { e with lastGCPass := pass }) with
    | .ok t => .ok ((), { vm with strings := t })
    | .ub k => .ub k
  | none => fun k vm => addErrorF "GC error: Bad string table index." vm k

/-- `nkiVmGarbageCollect_addObject`, `src/nkgc.c:96-114`, with `nkiVmGcStateMakeEntry`, `src/nkgc.c:62-78`.  Simplified: an entry is always
allocated here, in the code only if there is none to use again; so the model has all points of failure that the code has, and more. -/
def gcAddObjectF (pass id : Nat) (opn : List Nat) : FM (List Nat) := do
  let o ← FM.lift (getObj id)
  match o with
  | some o =>
    if o.lastGCPass ≠ pass then do
      allocF
      return id :: opn
    else return opn
  | none => do
    (fun k vm => addErrorF "Bad object reference in garbage collector." vm k : FM Unit)
    return opn

/-- `nkiVmGarbageCollect_markValue`, `src/nkgc.c:116-133`. -/
def markValueF (pass : Nat) (opn : List Nat) (v : Value) : FM (List Nat) :=
  match v with
  | .obj id => gcAddObjectF pass id opn
  | .str id => do
    markStringF pass id
    return opn
  | _ => return opn

/-- A loop of `markValueF`. -/
def markValuesF (pass : Nat) (opn : List Nat) : List Value → FM (List Nat)
  | [] => return opn
  | v :: vs => do
    let opn ← markValueF pass opn v
    markValuesF pass opn vs

/-- `nkiVmGarbageCollect_markObject`, `src/nkgc.c:135-188`, on the live object `id`. -/
def markObjectF (H : Host) (pass id : Nat) (opn : List Nat) : FM (List Nat) := do
  let vm ← FM.lift get
  match vm.objects.slots[id]? with
  | some (some o) =>
    if o.lastGCPass = pass then return opn
    else do
      FM.lift (setObj id { o with lastGCPass := pass })
      let refs ← FM.lift (liftR (objectRefs H vm o))
      markValuesF pass opn refs
  | _ => FM.lift (liftR (.ub .oob))

/-- `nkiVmGarbageCollect_markReferenced`, `src/nkgc.c:190-204`.  `fuel` bounds the iterations. -/
def markReferencedF (H : Host) (pass : Nat) : Nat → List Nat → FM Unit
  | _, [] => return ()
  | 0, _ :: _ => FM.lift (liftR (.ub .fuel))
  | fuel + 1, id :: opn => do
    let opn ← markObjectF H pass id opn
    markReferencedF H pass fuel opn

/-- Marking of the objects with external handles, `src/nkgc.c:227-234`. -/
def markHandlesF (H : Host) (pass : Nat) (opn : List Nat) : List Nat → FM (List Nat)
  | [] => return opn
  | id :: ids => do
    let opn ← markObjectF H pass id opn
    markHandlesF H pass opn ids

/-- The marking half of `nkiVmGarbageCollect`, `src/nkgc.c:218-265`, for pass number `pass`. -/
def gcMarkF (H : Host) (pass : Nat) : FM Unit := do
  let vm ← FM.lift get
  let opn ← markHandlesF H pass [] vm.handles
  let rootVals ← FM.lift (liftR (rootStackValues vm))
  let opn ← markValuesF pass opn rootVals
  let c ← FM.lift curCtx
  let opn ← markValueF pass opn c.coObj
  let statics ← FM.lift (liftR (staticValues vm))
  let opn ← markValuesF pass opn statics
  let vm ← FM.lift get
  markReferencedF H pass (gcFuel H vm opn) opn

/-- `nkiTableEraseEntry` on the string table, `src/nkstring.c:199`. -/
def eraseStringF (id : Nat) : FM Unit := fun k vm => match vm.strings.eraseF id k with
  | .done k _ t => .done k () { vm with strings := t }
  | .failed t => .failed { vm with strings := t }
  | .ub u => .ub u

/-- One bucket of `nkiVmStringTableCleanOldStrings`, `src/nkstring.c:183-211`; as `sweepStrings`.  Simplified: the bucket is written when
it is done, so after a failure it still lists the strings deleted from it. -/
def sweepStringsF (pass : Nat) : List Nat → FM (List Nat)
  | [] => return []
  | id :: ids => do
    let vm ← FM.lift get
    match vm.strings.slots[id]? with
    | some (some e) =>
      if pass ≠ e.lastGCPass ∧ e.dontGC = false then do
        eraseStringF id
        sweepStringsF pass ids
      else do
        let rest ← sweepStringsF pass ids
        return id :: rest
    | _ => FM.lift (liftR (.ub .oob))

/-- `nkiVmStringTableCleanOldStrings`, `src/nkstring.c:176-212`: the buckets from `i` on, `n` of them. -/
def cleanOldStringsF (pass : Nat) (i : Nat) : Nat → FM Unit
  | 0 => return ()
  | n + 1 => do
    let vm ← FM.lift get
    match vm.sbuckets[i]? with
    | none => FM.lift (liftR (.ub .oob))
    | some ids => do
      let ids' ← sweepStringsF pass ids
      FM.lift (modify fun vm => { vm with sbuckets := vm.sbuckets.set i ids' })
      cleanOldStringsF pass (i + 1) n

/-- `nkiVmGarbageCollect`, `src/nkgc.c:218-284`. -/
def garbageCollectF (H : Host) : FM Unit := do
  FM.lift (modify fun vm => { vm with gc := { vm.gc with lastGCPass := u32 (vm.gc.lastGCPass + 1) } })
  let vm ← FM.lift get
  gcMarkF H vm.gc.lastGCPass
  cleanOldStringsF vm.gc.lastGCPass 0 256
  let vm' ← FM.lift get
  fun k vm'' => cleanOldObjectsF vm.gc.lastGCPass 0 vm'.objects.cap k vm''

end Nk
