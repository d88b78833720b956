import Verif.Spec.Machine
/-!
# What objects mean to a script: fields as a log of assignments
-/
namespace Nk

/-- What a field is addressed by: identical values (in the sense of `===`) are the same key. -/
inductive Key where
  | int (i : BitVec 32)
  /-- a number, in units of 2^-149 -/
  | float (n : Int)
  | str (s : Bytes)
  | fn (n : Nat)
  | obj (n : Nat)
  | nil
deriving DecidableEq

/-- The key a value stands for; NaN, released strings and unknown tags have none. -/
def keyOf (vm : VM) : Value → Option Key
  | .int i => some (.int i)
  | .float b => if isNaN b then none else some (.float (fval b))
  | .str id => (vm.strings.entry id).map (fun e => .str e.str)
  | .fn n => some (.fn n)
  | .obj n => some (.obj n)
  | .nil => some .nil
  | .bad _ _ => none

/-- The assignments made so far, newest first: object id, key, value. -/
abbrev Log := List (Nat × Key × Value)

/-- The value of a field: the most recent assignment to the key on the object, nil if there is none. -/
def current : Log → Nat → Key → Value
  | [], _, _ => .nil
  | (i, k, v) :: w, id, key => if i = id ∧ k = key then v else current w id key

/-- The number of fields of an object: how many keys have a value other than nil. -/
def FieldCount (w : Log) (id n : Nat) : Prop :=
  ∃ ks : List Key, ks.Nodup ∧ (∀ k, k ∈ ks ↔ current w id k ≠ .nil) ∧ n = ks.length

/-- The object is in use. -/
def Live (vm : VM) (id : Nat) : Prop := ∃ o, vm.objects.entry id = some o

/-- Bucket of a value. -/
def slot (vm : VM) : Value → Nat
  | .int i => i.toNat &&& 15
  | .float b => b.toNat &&& 15
  | .fn n => n &&& 15
  | .obj n => n &&& 15
  | .str id => match vm.strings.entry id with
    | some e => e.hash &&& 15
    | none => 0
  | _ => 0

/-- Every element is in the bucket of its key, keys are distinct, `size` counts the elements, and no
element is nil. -/
structure OWF (vm : VM) (o : Obj) : Prop where
  len : o.buckets.length = 16
  key : ∀ (b : Nat) (es : List (Value × Value)), o.buckets[b]? = some es → ∀ e ∈ es,
    (∃ k, keyOf vm e.1 = some k) ∧ slot vm e.1 = b ∧ e.2 ≠ .nil
  nodup : ∀ (b : Nat) (es : List (Value × Value)), o.buckets[b]? = some es →
    es.Pairwise (fun x y => keyOf vm x.1 ≠ keyOf vm y.1)
  size : o.size = (o.buckets.map List.length).sum
  lt : o.size < 4294967296

/-- The object has the field. -/
def Has (vm : VM) (o : Obj) (k : Key) (v : Value) : Prop :=
  ∃ (b : Nat) (es : List (Value × Value)), o.buckets[b]? = some es ∧
    ∃ e ∈ es, keyOf vm e.1 = some k ∧ e.2 = v

/-- Replace a live object. -/
def VM.setO (vm : VM) (id : Nat) (o : Obj) : VM :=
  { vm with objects := { vm.objects with slots := vm.objects.slots.set id (some o) } }

end Nk
