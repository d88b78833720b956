import Verif.Spec.Exec
import Verif.Spec.Objects
/-!
# What a native function may be called with, and what calling an object means
-/
namespace Nk

/-- Argument number `i` is of the declared type: a declared type of nil (5) admits anything; a declared object (4)
must be in use and, if an external type is declared too, have it. -/
def Fits (vm : VM) (f : ExtFunc) (i : Nat) (v : Value) : Prop :=
  ∃ t, f.argTypes[i]? = some t ∧ (t = 5 ∨ (v.ty = t ∧ (t = 4 →
    ∃ e o, f.argExtTypes[i]? = some e ∧ vm.objects.entry v.raw = some o ∧ (e = UINT_MAX ∨ e = o.extType))))

/-- The arguments are as declared; a declared count of `UINT_MAX` admits anything. -/
def ArgsFit (vm : VM) (f : ExtFunc) (args : List Value) : Prop :=
  f.argc = UINT_MAX ∨ (args.length = f.argc ∧ ∀ i v, args[i]? = some v → Fits vm f i v)

/-- The callback is registered and the arguments are as declared with it. -/
def Admissible (vm : VM) (cb : Nat) (args : List Value) : Prop :=
  ∃ f ∈ vm.extFuncs, f.callback = some cb ∧ ArgsFit vm f args

/-! ## Callable objects -/

/-- The object `id` has a field with this name and value. -/
def FieldIs (vm : VM) (id : Nat) (name : Bytes) (v : Value) : Prop :=
  ∃ o es e, vm.objects.entry id = some o ∧ es ∈ o.buckets ∧ e ∈ es ∧ keyOf vm e.1 = some (.str name) ∧ e.2 = v

/-- The object is in use and has no such field. -/
def NoField (vm : VM) (id : Nat) (name : Bytes) : Prop :=
  (∃ o, vm.objects.entry id = some o) ∧ ∀ v, ¬ FieldIs vm id name v

/-- Following `_exec` fields for `n` steps leads from `v` to `w`; `ds` are the values of the `_data` fields on the way,
the one of the last object first (each is put before the arguments collected so far). -/
inductive Leads (vm : VM) : Nat → Value → Value → List Value → Prop
  | here (v : Value) : Leads vm 0 v v []
  | plain {id n : Nat} {f w : Value} {ds : List Value} : FieldIs vm id (cs "_exec") f → NoField vm id (cs "_data") →
      Leads vm n f w ds → Leads vm (n + 1) (.obj id) w ds
  | data {id n : Nat} {f w d : Value} {ds : List Value} : FieldIs vm id (cs "_exec") f → FieldIs vm id (cs "_data") d →
      Leads vm n f w ds → Leads vm (n + 1) (.obj id) w (ds ++ [d])

/-- There is room for `k` more values on the stack. -/
def RoomFor (vm : VM) (s : Stack) (k : Nat) : Prop :=
  s.size + k ≤ s.cap ∨ (s.size + k ≤ 65536 ∧ 2 * (s.size + k) ≤ vm.limits.maxStackSize)

/-- The text is in the string table. -/
def Interned (vm : VM) (s : Bytes) : Prop := ∃ id e, vm.strings.entry id = some e ∧ e.str = s

/-- The names of the two fields are in the string table, or two of its 2^31 places are free. -/
def NamesFit (vm : VM) : Prop :=
  (Interned vm (cs "_exec") ∧ Interned vm (cs "_data")) ∨
  ∃ i j, i ≠ j ∧ i < 2147483648 ∧ j < 2147483648 ∧ vm.strings.entry i = none ∧ vm.strings.entry j = none

/-- `w` is reached from `v` by `k` instructions, with no error recorded and without coming to the position
`UINT_MAX`, which only the return to the host leads to. -/
inductive Body (F : FloatOps) (H : Host) (v : VM) : Nat → VM → Prop
  | here : Body F H v 0 v
  | step {k : Nat} {w w' : VM} {c : Ctx} : Body F H v k w → w.errors = [] → w.At c → c.ip ≠ UINT_MAX →
      iterate F H w = .ok ((), w') → Body F H v (k + 1) w'

end Nk
