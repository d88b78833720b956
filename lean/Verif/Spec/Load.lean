import Verif.Spec.Save
/-!
# Loading arbitrary bytes: what is needed of the VM and what is known of one that was filled
-/
namespace Nk.Save

/-- The mask of an array and its length. -/
def Masked (len mask : Nat) : Prop := len = mask + 1 ∧ ∃ k, k ≤ 31 ∧ len = 2 ^ k

/-- A stack with storage for its capacity, a power of two within the limit. -/
structure StackShape (max : Nat) (s : Stack) : Prop where
  pow : ∃ k, k ≤ 31 ∧ s.cap = 2 ^ k
  len : s.vals.length = s.cap
  mask : s.mask + 1 = s.cap
  limit : s.cap ≤ max

/-- A table after loading: the array has `cap` slots, `cap` is 0 or a power of two, the hole list has every empty slot
exactly once. -/
structure TabShape {α : Type} (t : Table α) : Prop where
  len : t.slots.length = t.cap
  pow : t.cap = 0 ∨ ∃ k, k ≤ 31 ∧ t.cap = 2 ^ k
  nodup : t.holes.Nodup
  holes : ∀ i, i ∈ t.holes ↔ t.slots[i]? = some none

/-- Strings and their buckets. -/
structure StrSlots (slots : List (Option Str)) (bs : List (List Nat)) : Prop where
  len : bs.length = 256
  nodup : ∀ (b : Nat) (ids : List Nat), bs[b]? = some ids → ids.Nodup
  mem : ∀ (b : Nat) (ids : List Nat), bs[b]? = some ids → ∀ id ∈ ids,
    ∃ e, slots[id]? = some (some e) ∧ e.hash &&& 255 = b
  bucket : ∀ (id : Nat) (e : Str), slots[id]? = some (some e) →
    e.hash = stringHash e.str ∧ Spec.NoNul e.str ∧ ∃ ids, bs[e.hash &&& 255]? = some ids ∧ id ∈ ids

/-- The error recorded for a coroutine that could not be loaded. -/
def coFailed : String := "Coroutine serialization failed."

/-- What the loader needs of the VM it fills. -/
structure Ready (v : VM) : Prop where
  handles : v.handles = []
  root : ∃ r : Ctx, v.ctxs[0]? = some (some r) ∧ r.stack.cap ≤ r.stack.vals.length
  names : (v.extTypes.map (·.name)).Nodup
  subs : v.subsystems.length = 16
  coType : ∃ t : ExtType, v.extTypes[v.coType]? = some t ∧ t.hasSerialize = true
  coMax : v.coType ≠ UINT_MAX

/-- What is known of a VM filled from arbitrary bytes. -/
structure Accepted (v v' : VM) : Prop where
  instrs : Masked v'.instrs.length v'.instrMask
  statics : Masked v'.statics.length v'.staticMask
  root : ∃ c : Ctx, v'.ctxs[0]? = some (some c) ∧ StackShape v.limits.maxStackSize c.stack ∧ c.stack.size ≤ c.stack.cap
  coroutine : ∀ (j : Nat), v.ctxs.length ≤ j → j < v'.ctxs.length → ∃ c : Ctx, v'.ctxs[j]? = some (some c) ∧
    (StackShape v.limits.maxStackSize c.stack ∧ c.stack.size ≤ c.stack.cap ∨
      coFailed ∈ v'.errors ∧ (c.stack = Stack.init ∨ StackShape v.limits.maxStackSize c.stack))
  strings : TabShape v'.strings ∧ StrSlots v'.strings.slots v'.sbuckets
  objects : TabShape v'.objects
  object : ∀ (i : Nat) (o : Obj), v'.objects.slots[i]? = some (some o) → o.buckets.length = 16 ∧
    (o.extType = UINT_MAX ∨ o.extType < v'.extTypes.length) ∧
    (o.extData = none ∨ ∃ (j : Nat) (c : Ctx), o.extData = some j ∧ v'.ctxs[j]? = some (some c))
  handles : ∀ i ∈ v'.handles, ∃ o, v'.objects.slots[i]? = some (some o)
  functions : v'.functions ≠ [] ∧ ∀ g ∈ v'.functions, g.extId = UINT_MAX ∨ g.extId < v'.extFuncs.length
  natives : v'.extFuncs.map (fun f : ExtFunc => { f with internalId := 0 }) =
    v.extFuncs.map fun f : ExtFunc => { f with internalId := 0 }
  interval : v'.gc.interval ≤ 65536
  current : ∃ c : Ctx, v'.ctxs[v'.cur]? = some (some c)
  same : v'.extTypes = v.extTypes ∧ v'.subsystems = v.subsystems ∧ v'.limits = v.limits ∧ v'.coType = v.coType ∧
    v'.cleanupLog = v.cleanupLog ∧ v'.instrLeft = v.instrLeft

end Nk.Save
