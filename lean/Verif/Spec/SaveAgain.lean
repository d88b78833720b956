import Verif.Spec.Save
/-!
# Saving and loading many times

A program may be moved on and on: saved, loaded into a new VM, saved there, loaded into the next one, and so on.
-/
namespace Nk.Save

/-- What the host has registered in a VM can be written: not too many native functions, names that are texts. -/
structure Equipped (v : VM) : Prop where
  natives : v.extFuncs.length < UINT_MAX / 4
  names : ∀ f ∈ v.extFuncs, Text f.name
  ids : ∀ f ∈ v.extFuncs, f.internalId < 4294967296
  subs : ∀ s ∈ v.subsystems.flatten, Text s.name
  subCount : v.subsystems.flatten.length < 4294967296

/-- All subsystems of `a` are also subsystems of `b`. -/
def SubsOf (a b : VM) : Prop :=
  ∀ s ∈ a.subsystems.flatten, ∃ l t, b.subsystems[subBucket s.name]? = some l ∧ findSub s.name l = some t

/-- The new VMs `ws` are all set up by the host like `vm`, with the native functions that `vm` uses and with the same
subsystems. -/
structure Prepared (vm : VM) (ws : List VM) : Prop where
  target : ∀ w ∈ ws, Target vm w
  natives : ∀ w ∈ ws, Registered vm w.extFuncs
  equipped : ∀ w ∈ ws, Equipped w
  subs : ∀ a ∈ ws, ∀ b ∈ ws, SubsOf a b

/-- `x` is what comes out when `vm` is saved and loaded into the first of the VMs, the result saved and loaded into the
second, and so on: every save and every load reports success, and every load reads its image completely. -/
inductive Moved (F : FloatOps) : VM → List VM → VM → Prop
  | done (vm : VM) : Moved F vm [] vm
  | step {vm vm' w v x : VM} {img : Bytes} {ws : List VM} : save vm = .ok ((true, img), vm') →
      load F img w = .ok ((some (), []), v) → Moved F v ws x → Moved F vm (w :: ws) x

end Nk.Save
