import Verif.Model.Base
/-!
# The handle table: `src/nktable.c`

`struct NKVMTable` is an array of pointers with a list of free slots.  A slot holds `none` for NULL.
`slots.length` is the size of the allocation, `cap` is the `capacity` field; they are kept apart so
that the bounds check of the code is visible.
-/
namespace Nk

/-- `struct NKVMTable`, `src/nktable.h:55-66`. -/
structure Table (α : Type) where
  slots : List (Option α)
  cap : Nat
  /-- `tableHoles`, head first -/
  holes : List Nat
deriving Repr, DecidableEq

namespace Table
variable {α : Type}

/-- `nkiTableInit`, `src/nktable.c:46-58`. -/
def init : Table α := { slots := [none], cap := 1, holes := [0] }

/-- Read `data[i]` without a bounds check. -/
def read (t : Table α) (i : Nat) : Res (Option α) :=
  match t.slots[i]? with
  | some x => .ok x
  | none => .ub .oob

/-- Write `data[i]`. -/
def write (t : Table α) (i : Nat) (x : Option α) : Res (Table α) :=
  if i < t.slots.length then .ok { t with slots := t.slots.set i x } else .ub .oob

/-- The lookup used by both tables: `nkiVmObjectTableGetEntryById`, `src/nkobjs.c:82-91`, and
`nkiVmStringTableGetEntryById`, `src/nkstring.c:86-95`. -/
def get (t : Table α) (i : Nat) : Res (Option α) :=
  if i ≥ t.cap then .ok none else t.read i

/-- `nkiTableCreateHole`, `src/nktable.c:93-105`. -/
def createHole (t : Table α) (i : Nat) : Res (Table α) :=
  if i < t.cap then
    match t.read i with
    | .ok none => .ok { t with holes := i :: t.holes }
    | .ok (some _) => .ub .assert
    | .ub k => .ub k
  else .ub .assert

/-- `nkiTableEraseEntry`, `src/nktable.c:107-113`. -/
def erase (t : Table α) (i : Nat) : Res (Table α) :=
  if i < t.cap then
    match t.read i with
    | .ok (some _) => do
      let t ← t.write i none
      t.createHole i
    | .ok none => .ub .assert
    | .ub k => .ub k
  else .ub .assert

/-- The loop `for(i = hi - 1; i >= lo; i--) nkiTableCreateHole(vm, table, i)`,
`src/nktable.c:239-241`: `n` iterations, the last one creating hole `lo`. -/
def makeHoles (t : Table α) (lo : Nat) : Nat → Res (Table α)
  | 0 => .ok t
  | n + 1 => do
    let t ← t.createHole (lo + n)
    t.makeHoles lo n

/-- `nkiTableAddEntry`, `src/nktable.c:170-247`; `none` is `NK_INVALID_VALUE` (with an error added by
the caller of this function in the model).  Simplified: the allocation succeeds. -/
def add (t : Table α) (x : α) : Res (Option Nat × Table α) :=
  match t.holes with
  | i :: hs => do
    let t ← ({ t with holes := hs } : Table α).write i (some x)
    .ok (some i, t)
  | [] =>
    let newCap := u32 (t.cap * 2)
    if newCap = 0 then .ok (none, t)
    else do
      let t1 : Table α :=
        { t with slots := t.slots.take t.cap ++ List.replicate (newCap - t.cap) none, cap := newCap }
      let t2 ← t1.makeHoles (t.cap + 1) (newCap - (t.cap + 1))
      let t3 ← t2.write t.cap (some x)
      .ok (some t.cap, t3)

/-- The loop of `nkiTableResetHoles`, `src/nktable.c:127-131`: indices `n-1` down to 0. -/
def resetLoop (t : Table α) : Nat → Res (Table α)
  | 0 => .ok t
  | n + 1 =>
    match t.read n with
    | .ok none => do
      let t ← t.createHole n
      t.resetLoop n
    | .ok (some _) => t.resetLoop n
    | .ub k => .ub k

/-- `nkiTableResetHoles`, `src/nktable.c:115-132`. -/
def resetHoles (t : Table α) : Res (Table α) := ({ t with holes := [] } : Table α).resetLoop t.cap

/-- Highest index below `n` holding an entry, 0 if none; `src/nktable.c:141-145`. -/
def highest (t : Table α) : Nat → Nat
  | 0 => 0
  | n + 1 => match t.slots[n]? with
    | some (some _) => n
    | _ => t.highest n

/-- The loop `while((newCapacity >> 1) > highestObject) newCapacity >>= 1;`, `src/nktable.c:149-151`. -/
def halve (hi : Nat) (c : Nat) : Nat :=
  if h : c / 2 > hi then halve hi (c / 2) else c
termination_by c
decreasing_by omega

/-- `nkiTableShrink`, `src/nktable.c:134-168`. -/
def shrink (t : Table α) : Res (Table α) :=
  let newCap := halve (t.highest t.cap) t.cap
  ({ t with slots := t.slots.take newCap, cap := newCap } : Table α).resetHoles

end Table
end Nk
