import Verif.Model.VM
/-!
# Compacting a VM: `src/nkshrink.c`

Simplified throughout: reallocations succeed.  An object or string that moves keeps its address in C, so that the
pointers of the lists of objects with handles and of the string hash buckets need no change; here those lists hold ids,
and `moveString` renames the one in its hash bucket.  (Objects with handles do not move.)
-/
namespace Nk

/-- A reference to the object `old` becomes one to `new`; the tests of `src/nkshrink.c:62-66`, `71-75`, `87-92`. -/
def reObj (old new : Nat) : Value → Value
  | .obj i => if i = old then .obj new else .obj i
  | v => v

/-- A reference to the string `old` becomes one to `new`; the tests of `src/nkshrink.c:115-119`, `124-128`, `140-145`. -/
def reStr (old new : Nat) : Value → Value
  | .str i => if i = old then .str new else .str i
  | v => v

/-- The loop over the stack of the current context, `src/nkshrink.c:61-67` and `114-120`. -/
def rewriteStack (f : Value → Value) (s : Stack) : Res Stack :=
  if s.size ≤ s.vals.length then .ok { s with vals := (s.vals.take s.size).map f ++ s.vals.drop s.size } else .ub .oob

/-- The loop over the static space, `src/nkshrink.c:70-76` and `123-129`. -/
def rewriteStatics (f : Value → Value) (vm : VM) : Res (List Value) :=
  if vm.staticMask + 1 ≤ vm.statics.length then
    .ok ((vm.statics.take (vm.staticMask + 1)).map f ++ vm.statics.drop (vm.staticMask + 1))
  else .ub .oob

/-- The loops over the elements of one object, `src/nkshrink.c:82-94` and `135-147`. -/
def rewriteObj (f : Value → Value) (o : Obj) : Obj :=
  { o with buckets := o.buckets.map fun es => es.map fun e => (f e.1, f e.2) }

/-- The loop over the object table, `src/nkshrink.c:79-95` and `132-148`. -/
def rewriteObjs (f : Value → Value) (t : Table Obj) : Res (Table Obj) :=
  if t.cap ≤ t.slots.length then
    .ok { t with slots := (t.slots.take t.cap).map (Option.map (rewriteObj f)) ++ t.slots.drop t.cap }
  else .ub .oob

/-- All three loops, in their order. -/
def rewriteAll (f : Value → Value) (vm : VM) : Res VM :=
  match ctxAt vm vm.cur with
  | .ub k => .ub k
  | .ok c => match rewriteStack f c.stack with
    | .ub k => .ub k
    | .ok st => match rewriteStatics f vm with
      | .ub k => .ub k
      | .ok ss => match rewriteObjs f vm.objects with
        | .ub k => .ub k
        | .ok t => .ok { vm with ctxs := vm.ctxs.set vm.cur (some { c with stack := st }), statics := ss, objects := t }

/-- The assertions and the move within the table, `src/nkshrink.c:48-55` and `103-111`. -/
def Table.move {α : Type} (t : Table α) (old new : Nat) : Res (Table α) :=
  if new < t.cap ∧ old < t.cap then
    match t.read new with
    | .ub k => .ub k
    | .ok (some _) => .ub .assert
    | .ok none => match t.read old with
      | .ub k => .ub k
      | .ok none => .ub .assert
      | .ok (some x) => do
        let t ← t.write new (some x)
        t.write old none
  else .ub .assert

/-- `nkiVmMoveObject`, `src/nkshrink.c:46-97`. -/
def moveObject (old new : Nat) (vm : VM) : Res VM :=
  match vm.objects.move old new with
  | .ub k => .ub k
  | .ok t => rewriteAll (reObj old new) { vm with objects := t }

/-- `nkiVmMoveString`, `src/nkshrink.c:99-149`. -/
def moveString (old new : Nat) (vm : VM) : Res VM :=
  match vm.strings.move old new with
  | .ub k => .ub k
  | .ok t => rewriteAll (reStr old new)
      { vm with strings := t, sbuckets := vm.sbuckets.map fun ids => ids.map fun i => if i = old then new else i }

/-- The inner loop of a compaction, `src/nkshrink.c:204-224` and `243-252`: the first entry from `j` on that may be moved;
`n` bounds the iterations. -/
def findMovable {α : Type} (may : α → Bool) (t : Table α) (j : Nat) : Nat → Res (Option Nat)
  | 0 => .ok none
  | n + 1 =>
    if j < t.cap then
      match t.read j with
      | .ub k => .ub k
      | .ok none => findMovable may t (j + 1) n
      | .ok (some x) => if may x then .ok (some j) else findMovable may t (j + 1) n
    else .ok none

/-- The outer loop of a compaction, `src/nkshrink.c:194-228` and `233-256`, from the slot `hole` with the search at `j`;
`n` bounds the iterations. -/
def compact {α : Type} (tab : VM → Table α) (may : VM → α → Bool) (move : Nat → Nat → VM → Res VM) (hole j : Nat) :
    Nat → VM → Res VM
  | 0, vm => .ok vm
  | n + 1, vm =>
    if hole < (tab vm).cap then
      match (tab vm).read hole with
      | .ub k => .ub k
      | .ok (some _) => compact tab may move (hole + 1) j n vm
      | .ok none =>
        let j := if j < hole then hole + 1 else j
        match findMovable (may vm) (tab vm) j (tab vm).cap with
        | .ub k => .ub k
        | .ok none => compact tab may move (hole + 1) (max j (tab vm).cap) n vm
        | .ok (some i) => match move i hole vm with
          | .ub k => .ub k
          | .ok vm => compact tab may move (hole + 1) i n vm
    else .ok vm

/-- Objects without external handles that are not coroutines may be moved, `src/nkshrink.c:215-217`. -/
def mayMoveObj (vm : VM) (o : Obj) : Bool := o.handleCount == 0 && o.extType != vm.coType

/-- Strings that are not pinned may be moved, `src/nkshrink.c:245`. -/
def mayMoveStr (_ : VM) (e : Str) : Bool := !e.dontGC

/-- `nkiVmShrinkStack`, `src/nkshrink.c:151-176`.  The loop is that of `nkiTableShrink`. -/
def shrinkStack (s : Stack) : Stack :=
  let n := max (Table.halve s.size s.cap) 1
  if n ≠ s.cap then { s with vals := s.vals.take n, cap := n, mask := n - 1 } else s

/-- Shrink the stack of a context. -/
def shrinkCtx (i : Nat) (vm : VM) : Res VM :=
  match ctxAt vm i with
  | .ub k => .ub k
  | .ok c => .ok { vm with ctxs := vm.ctxs.set i (some { c with stack := shrinkStack c.stack }) }

/-- The loop over the coroutines, `src/nkshrink.c:264-274`: `n` slots are left, from `i` on. -/
def shrinkCos (i : Nat) : Nat → VM → Res VM
  | 0, vm => .ok vm
  | n + 1, vm =>
    match vm.objects.read i with
    | .ub k => .ub k
    | .ok none => shrinkCos (i + 1) n vm
    | .ok (some o) =>
      if o.extType = vm.coType then
        match o.extData with
        | none => .ub .null
        | some j => match shrinkCtx j vm with
          | .ub k => .ub k
          | .ok vm => shrinkCos (i + 1) n vm
      else shrinkCos (i + 1) n vm

/-- `nkiVmShrink`, `src/nkshrink.c:178-275`; the whole of `nkxVmShrink`, `src/nkx.c:742-748`, but for the memory limit. -/
def shrinkVM (vm : VM) : Res VM :=
  if vm.errors ≠ [] then .ok vm
  else
    match compact (·.objects) mayMoveObj moveObject 0 0 vm.objects.cap vm with
    | .ub k => .ub k
    | .ok vm => match compact (·.strings) mayMoveStr moveString 0 0 vm.strings.cap vm with
      | .ub k => .ub k
      | .ok vm => match vm.objects.shrink with
        | .ub k => .ub k
        | .ok t => match vm.strings.shrink with
          | .ub k => .ub k
          | .ok u => match shrinkCtx 0 { vm with objects := t, strings := u } with
            | .ub k => .ub k
            | .ok vm => shrinkCos 0 vm.objects.cap vm

end Nk
