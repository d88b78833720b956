import Verif.Model.VM
/-!
# Vocabulary for talking about machine states

Predicates on VM states used in the statements of the properties.  `StrWF`, `Stack.WF` and `Table.WF` say
that the data structures are in order; that every state reached by executing bytecode satisfies them is proved in
`Props.Sandbox` (`run_inv`).
-/
namespace Nk

/-! ## Tables -/

namespace Table
variable {α : Type}

/-- The entry stored under an id, as a partial map. -/
def entry (t : Table α) (i : Nat) : Option α := (t.slots[i]?).join

/-- Consistency of a table: the array has `cap` slots, `cap` is a power of two, the hole list has
every empty slot exactly once. -/
structure WF (t : Table α) : Prop where
  len : t.slots.length = t.cap
  pow : ∃ k, k ≤ 31 ∧ t.cap = 2 ^ k
  nodup : t.holes.Nodup
  holes : ∀ i, i ∈ t.holes ↔ t.slots[i]? = some none

end Table

/-! ## The stack -/

/-- The shape of a stack: the capacity is a power of two, the storage has that many slots, the mask
selects exactly the slots, and the size does not exceed the capacity. -/
structure Stack.WF (s : Stack) : Prop where
  pow : ∃ k, k ≤ 31 ∧ s.cap = 2 ^ k
  len : s.vals.length = s.cap
  mask : s.mask + 1 = s.cap
  size : s.size ≤ s.cap

/-- The used part, bottom first. -/
def Stack.used (s : Stack) : List Value := s.vals.take s.size

/-- `c` is the current context. -/
def VM.At (vm : VM) (c : Ctx) : Prop := vm.ctxs[vm.cur]? = some (some c)

/-- The current context is `c`, its stack is well formed and holds the values `l`, bottom first. -/
structure VM.Stk (vm : VM) (c : Ctx) (l : List Value) : Prop where
  at_ : vm.At c
  wf : c.stack.WF
  used : c.stack.used = l

/-- There is room for one more value: no growth needed, or growth allowed. -/
def Room (vm : VM) (s : Stack) : Prop :=
  s.size < s.cap ∨ (s.cap ≤ 65535 ∧ s.cap * 2 ≤ vm.limits.maxStackSize)

/-- Replace the current context. -/
def VM.setC (vm : VM) (c : Ctx) : VM := { vm with ctxs := vm.ctxs.set vm.cur (some c) }

/-- Record an error. -/
def VM.addErr (vm : VM) (e : String) : VM := { vm with errors := vm.errors ++ [e] }

/-! ## Strings -/

/-- The string table and its hash buckets describe the same set of strings, each text once. -/
structure StrWF (vm : VM) : Prop where
  tab : vm.strings.WF
  blen : vm.sbuckets.length = 256
  nodup : ∀ (b : Nat) (ids : List Nat), vm.sbuckets[b]? = some ids → ids.Nodup
  mem : ∀ (b : Nat) (ids : List Nat), vm.sbuckets[b]? = some ids → ∀ id ∈ ids,
    ∃ e, vm.strings.entry id = some e ∧ e.hash &&& 255 = b
  hash : ∀ id e, vm.strings.entry id = some e → e.hash = stringHash e.str
  bucket : ∀ id e, vm.strings.entry id = some e →
    ∃ ids, vm.sbuckets[e.hash &&& 255]? = some ids ∧ id ∈ ids
  inj : ∀ i j e e', vm.strings.entry i = some e → vm.strings.entry j = some e' →
    e.str = e'.str → i = j

/-! ## Values -/

/-- A value that is neither NaN, nor a released string, nor an unknown tag. -/
def Proper (vm : VM) : Value → Prop
  | .float b => isNaN b = false
  | .str id => ∃ e, vm.strings.entry id = some e
  | .bad _ _ => False
  | _ => True

/-- Magnitude of a binary32 pattern as a multiple of 2^-149 (infinity reads as 2^277 such units). -/
def fmag (n : Nat) : Nat :=
  if n / 8388608 = 0 then n % 8388608 else (8388608 + n % 8388608) * 2 ^ (n / 8388608 - 1)

/-- The number a non-NaN pattern stands for, in units of 2^-149. -/
def fval (b : BitVec 32) : Int :=
  if b.toNat < 2147483648 then (fmag (b.toNat % 2147483648) : Int) else -(fmag (b.toNat % 2147483648) : Int)

/-- The text of a string value. -/
def TextIs (vm : VM) (id : Nat) (s : Bytes) : Prop := ∃ e, vm.strings.entry id = some e ∧ e.str = s

/-- Identity of values, as a user understands `===`: same type and same integer, same number, same text,
same function, same object, or both nil. -/
inductive Same (vm : VM) : Value → Value → Prop
  | int (i : BitVec 32) : Same vm (.int i) (.int i)
  | float {a b : BitVec 32} : isNaN a = false → isNaN b = false → fval a = fval b →
      Same vm (.float a) (.float b)
  | str {i j : Nat} {s : Bytes} : TextIs vm i s → TextIs vm j s → Same vm (.str i) (.str j)
  | fn (n : Nat) : Same vm (.fn n) (.fn n)
  | obj (n : Nat) : Same vm (.obj n) (.obj n)
  | nil : Same vm .nil .nil

/-- `vm'` is `vm` except that the current stack, which held `l ++ consumed`, now holds `l ++ [v]`:
in particular no error was recorded and nothing else changed. -/
def Yields (vm : VM) (l : List Value) (v : Value) (vm' : VM) : Prop :=
  ∃ c s, vm.At c ∧ vm' = vm.setC { c with stack := s } ∧ vm'.Stk { c with stack := s } (l ++ [v])

/-- `vm'` differs from `vm` only by added strings and errors. -/
structure SExt (vm vm' : VM) : Prop where
  frame : vm' = { vm with strings := vm'.strings, sbuckets := vm'.sbuckets, errors := vm'.errors }
  wf : StrWF vm'
  keep : ∀ j e, vm.strings.entry j = some e → vm'.strings.entry j = some e
  errs : vm.errors <+: vm'.errors
  fresh : ∀ j e, vm'.strings.entry j = some e → vm.strings.entry j = some e ∨ e.lastGCPass = 0

end Nk
