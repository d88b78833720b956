import Verif.Model.Base
/-!
# The list of objects with external handles, at the level of pointers

`struct NKVM::objectsWithExternalHandles`, `NKVMObject::nextObjectWithExternalHandles` and
`NKVMObject::previousExternalHandleListPtr` (`src/nkvm.h`, `src/nkobjs.h`).  Objects are named by their
ids.  `Props.Handles` shows that this list is what `VM.handles` in `Model.VM` says.
-/
namespace Nk

/-- A pointer to a link: `&vm->objectsWithExternalHandles` or `&ob->nextObjectWithExternalHandles`. -/
inductive PPtr where
  | head
  | next (id : Nat)
deriving Repr, DecidableEq

/-- The list head and the two link fields of every object. -/
structure HList where
  head : Option Nat
  next : Nat → Option Nat
  prev : Nat → Option PPtr

namespace HList

/-- A list without members. -/
def empty : HList := { head := none, next := fun _ => none, prev := fun _ => none }

/-- `*p = v`. -/
def store (l : HList) (p : PPtr) (v : Option Nat) : HList :=
  match p with
  | .head => { l with head := v }
  | .next i => { l with next := fun j => if j = i then v else l.next j }

/-- `ob->previousExternalHandleListPtr = p`. -/
def setPrev (l : HList) (id : Nat) (p : Option PPtr) : HList :=
  { l with prev := fun j => if j = id then p else l.prev j }

/-- The end of `nkiVmObjectAcquireHandle`, `src/nkobjs.c:319-331`. -/
def link (l : HList) (id : Nat) : Res HList :=
  if l.next id ≠ none then .ub .assert
  else if l.prev id ≠ none then .ub .assert
  else
    let h := l.head
    let l := l.store (.next id) h
    let l := l.setPrev id (some .head)
    let l := match h with
      | some f => l.setPrev f (some (.next id))
      | none => l
    .ok { l with head := some id }

/-- The end of `nkiVmObjectReleaseHandle`, `src/nkobjs.c:356-366`. -/
def unlink (l : HList) (id : Nat) : Res HList :=
  match l.prev id with
  | none => .ub .assert
  | some p =>
    let l := l.store p (l.next id)
    let l := match l.next id with
      | some n => l.setPrev n (l.prev id)
      | none => l
    let l := l.setPrev id none
    .ok (l.store (.next id) none)

end HList
end Nk
