import Verif.Lemmas.ApiPres
import Verif.Lemmas.Clock
/-!
# Native functions that do not execute anything
-/
namespace Nk

/-- The program calls no functions and executes no instructions. -/
def Api.Quiet : Api → Prop
  | .done _ => True
  | .look k => ∀ x, (k x).Quiet
  | .error _ k => k.Quiet
  | .string _ k => ∀ x, (k x).Quiet
  | .toInt _ k => ∀ x, (k x).Quiet
  | .toFloat _ k => ∀ x, (k x).Quiet
  | .toText _ k => ∀ x, (k x).Quiet
  | .create k => ∀ x, (k x).Quiet
  | .clear _ _ k => k.Quiet
  | .find _ _ k => ∀ x, (k x).Quiet
  | .store _ _ _ k => ∀ x, (k x).Quiet
  | .size _ k => ∀ x, (k x).Quiet
  | .acquire _ k => k.Quiet
  | .release _ k => k.Quiet
  | .setType _ _ k => ∀ x, (k x).Quiet
  | .setData _ _ k => ∀ x, (k x).Quiet
  | .type _ k => ∀ x, (k x).Quiet
  | .setup _ _ _ k => ∀ x, (k x).Quiet
  | .function _ k => ∀ x, (k x).Quiet
  | .limits _ k => k.Quiet
  | .left _ k => k.Quiet
  | .interval _ k => k.Quiet
  | .newInterval _ k => k.Quiet
  | .collect k => k.Quiet
  | .call _ _ _ => False
  | .iterate _ _ => False

/-- Moreover it leaves the instruction limit and collections alone, and does not depend on the instruction counters. -/
def Api.Still : Api → Prop
  | .done _ => True
  | .look k => (∀ vm c l, k (VM.clock vm c l) = k vm) ∧ ∀ x, (k x).Still
  | .error _ k => k.Still
  | .string _ k => ∀ x, (k x).Still
  | .toInt _ k => ∀ x, (k x).Still
  | .toFloat _ k => ∀ x, (k x).Still
  | .toText _ k => ∀ x, (k x).Still
  | .create k => ∀ x, (k x).Still
  | .clear _ _ k => k.Still
  | .find _ _ k => ∀ x, (k x).Still
  | .store _ _ _ k => ∀ x, (k x).Still
  | .size _ k => ∀ x, (k x).Still
  | .acquire _ k => k.Still
  | .release _ k => k.Still
  | .setType _ _ k => ∀ x, (k x).Still
  | .setData _ _ k => ∀ x, (k x).Still
  | .type _ k => ∀ x, (k x).Still
  | .setup _ _ _ k => ∀ x, (k x).Still
  | .function _ k => ∀ x, (k x).Still
  | .limits _ k => k.Still
  | .newInterval _ k => k.Still
  | .left _ _ => False
  | .interval _ _ => False
  | .collect _ => False
  | .call _ _ _ => False
  | .iterate _ _ => False

/-! ## Other contexts -/

/-- Closed under what such programs do. -/
structure QuietFrame (P : VM → Prop) : Prop extends Frame P where
  gc : GCFrame P
  hand : ∀ vm l, P vm → P { vm with handles := l }
  lim : ∀ vm l, P vm → P { vm with limits := l }
  left : ∀ vm n, P vm → P (setInstructionLimit n vm)
  int : ∀ vm n, P vm → P (setGCInterval n vm)
  new : ∀ vm n, P vm → P (setNewObjInterval n vm)
  reg : RegFrame P

theorem Api.run_quiet {P : VM → Prop} (f : QuietFrame P) (F : FloatOps) (H : Host) (fuel : Nat) (p : Api) (hp : p.Quiet) :
    Pres P (p.run F H fuel) := by
  have g := f.toFrame
  induction p with
  | done r => exact .pure
  | look k ih => exact Pres.bind .get fun x => ih _ (hp x)
  | error msg k ih => exact Pres.bind (addError_pres g) fun _ => ih hp
  | string s k ih => exact Pres.bind (findOrAddString_pres g) fun _ => ih _ (hp _)
  | toInt v k ih => exact Pres.bind (valueToInt_pres g) fun _ => ih _ (hp _)
  | toFloat v k ih => exact Pres.bind (valueToFloat_pres g) fun _ => ih _ (hp _)
  | toText v k ih => exact Pres.bind (valueToString_pres g) fun _ => ih _ (hp _)
  | create k ih => exact Pres.bind (createObject_pres g) fun _ => ih _ (hp _)
  | clear o key k ih => exact Pres.bind (clearPublic_pres g) fun _ => ih hp
  | find o key k ih => exact Pres.bind (lookupPublic_pres g) fun _ => ih _ (hp _)
  | store o key v k ih => exact Pres.bind (storePublic_pres g) fun _ => ih _ (hp _)
  | size o k ih => exact Pres.bind (objectSize_pres g) fun _ => ih _ (hp _)
  | acquire o k ih => exact Pres.bind (acquireHandle_pres g f.hand) fun _ => ih hp
  | release o k ih => exact Pres.bind (releaseHandle_pres g f.hand) fun _ => ih hp
  | setType o t k ih => exact Pres.bind (setTypeApi_pres g) fun _ => ih _ (hp _)
  | setData o d k ih => exact Pres.bind (setDataApi_pres g) fun _ => ih _ (hp _)
  | type t k ih => exact Pres.bind f.reg.type fun _ => ih _ (hp _)
  | setup name cb args k ih =>
    exact Pres.bind (setupNative_pres (fun _ _ => f.reg.native) fun _ _ _ _ => f.reg.decl) fun _ => ih _ (hp _)
  | function e k ih => exact Pres.bind f.reg.value fun _ => ih _ (hp _)
  | limits l k ih => exact Pres.bind (.modify fun v => f.lim v l) fun _ => ih hp
  | left n k ih => exact Pres.bind (.modify fun v => f.left v n) fun _ => ih hp
  | interval n k ih => exact Pres.bind (.modify fun v => f.int v n) fun _ => ih hp
  | newInterval n k ih => exact Pres.bind (.modify fun v => f.new v n) fun _ => ih hp
  | collect k ih => exact Pres.bind (garbageCollect_pres f.gc).guard fun _ => ih hp
  | call fv args k ih => exact hp.elim
  | iterate n k ih => exact hp.elim

/-- The current context is `k0`, and the others of `vs` are as they were, or freed. -/
def Here (k0 : Nat) (vs : List (Option Ctx)) (v : VM) : Prop :=
  v.cur = k0 ∧ vs.length ≤ v.ctxs.length ∧ ∀ i, i < vs.length → i ≠ k0 → v.ctxs[i]? = vs[i]? ∨ v.ctxs[i]? = some none

variable {k0 : Nat} {vs : List (Option Ctx)}

theorem here_set {v : VM} (h : Here k0 vs v) (j : Nat) (x : Option Ctx) (hj : j = k0 ∨ x = none) :
    Here k0 vs { v with ctxs := v.ctxs.set j x } := by
  refine ⟨h.1, by rw [List.length_set]; exact h.2.1, fun i hi hk => ?_⟩
  show (v.ctxs.set j x)[i]? = _ ∨ (v.ctxs.set j x)[i]? = _
  by_cases hij : j = i
  · subst hij
    rcases hj with rfl | rfl
    · exact absurd rfl hk
    · right; rw [List.getElem?_set_self (by have := h.2.1; omega)]
  · rw [List.getElem?_set_ne hij]; exact h.2.2 i hi hk

theorem here_quiet : QuietFrame (Here k0 vs) where
  err := fun _ _ h => h
  str := fun _ _ _ _ h => h
  obj := fun _ _ h => h
  newo := fun _ _ _ h => h
  stat := fun _ _ h => h
  ctx := fun v c c' _ _ _ _ h => here_set h v.cur (some c') (.inl h.1)
  gc := ⟨fun _ _ h => h, fun _ _ _ _ h => h, fun _ _ h => h, fun _ _ _ h => h, fun v k h => here_set h k none (.inr rfl),
    fun _ _ h => h, fun _ _ h => h⟩
  hand := fun _ _ h => h
  lim := fun _ _ h => h
  left := fun _ _ h => h
  int := fun _ _ h => h
  new := fun _ _ h => h
  reg := ⟨fun _ _ h => h, fun _ _ h => h, fun _ _ h => h, fun _ _ _ _ h => h⟩

/-! ## Counters -/

theorem clearPublic_clk {F : FloatOps} {v key : Value} : Clk (clearPublic F v key) := by unfold clearPublic; clk
theorem storePublic_clk {F : FloatOps} {v key x : Value} : Clk (storePublic F v key x) := by unfold storePublic; clk
theorem setTypeApi_clk {v : Value} {t : Nat} : Clk (setTypeApi v t) := by unfold setTypeApi; clk
theorem setDataApi_clk {v : Value} {t : Nat} : Clk (setDataApi v t) := by unfold setDataApi; clk
theorem acquireHandle_clk {v : Value} : Clk (acquireHandle v) := by unfold acquireHandle; clk
theorem releaseHandle_clk {v : Value} : Clk (releaseHandle v) := by unfold releaseHandle; clk
theorem registerType_clk {t : ExtType} : Clk (registerExternalType t) := by unfold registerExternalType; clk
theorem registerNative_clk {n : Bytes} {cb : Option Nat} : Clk (registerNative n cb) := by
  unfold registerNative registerNativeNoSearch; clk
theorem declareArgs_clk {e n : Nat} {ts xs : List Nat} : Clk (declareArgs e n ts xs) := by unfold declareArgs; clk
theorem internalFor_clk {e : Nat} : Clk (internalFor e) := by unfold internalFor createFunction; clk
macro_rules | `(tactic| clk_step) => `(tactic| with_reducible exact registerNative_clk)
macro_rules | `(tactic| clk_step) => `(tactic| with_reducible exact declareArgs_clk)
theorem setupNative_clk {n : Bytes} {cb : Option Nat} {args : Option (List (Nat × Nat))} : Clk (setupNative n cb args) := by
  unfold setupNative; clk

theorem Api.run_still (F : FloatOps) (H : Host) (fuel : Nat) (p : Api) (hp : p.Still) : Clk (p.run F H fuel) := by
  induction p with
  | done r => exact .pure
  | look k ih => exact Clk.get (fun w c l => by rw [hp.1]) fun x => ih _ (hp.2 x)
  | error msg k ih => exact Clk.bind addError_clk fun _ => ih hp
  | string s k ih => exact Clk.bind findOrAddString_clk fun _ => ih _ (hp _)
  | toInt v k ih => exact Clk.bind valueToInt_clk fun _ => ih _ (hp _)
  | toFloat v k ih => exact Clk.bind valueToFloat_clk fun _ => ih _ (hp _)
  | toText v k ih => exact Clk.bind valueToString_clk fun _ => ih _ (hp _)
  | create k ih => exact Clk.bind createObject_clk fun _ => ih _ (hp _)
  | clear o key k ih => exact Clk.bind clearPublic_clk fun _ => ih hp
  | find o key k ih => exact Clk.bind lookupPublic_clk fun _ => ih _ (hp _)
  | store o key v k ih => exact Clk.bind storePublic_clk fun _ => ih _ (hp _)
  | size o k ih => exact Clk.bind objectSize_clk fun _ => ih _ (hp _)
  | acquire o k ih => exact Clk.bind acquireHandle_clk fun _ => ih hp
  | release o k ih => exact Clk.bind releaseHandle_clk fun _ => ih hp
  | setType o t k ih => exact Clk.bind setTypeApi_clk fun _ => ih _ (hp _)
  | setData o d k ih => exact Clk.bind setDataApi_clk fun _ => ih _ (hp _)
  | type t k ih => exact Clk.bind registerType_clk fun _ => ih _ (hp _)
  | setup name cb args k ih => exact Clk.bind setupNative_clk fun _ => ih _ (hp _)
  | function e k ih => exact Clk.bind internalFor_clk fun _ => ih _ (hp _)
  | limits l k ih => exact Clk.bind (.modify (fun _ _ _ => rfl) fun _ => Nat.le_refl _) fun _ => ih hp
  | newInterval n k ih =>
    refine Clk.bind (.modify (fun _ _ _ => rfl) fun vm => ?_) fun _ => ih hp
    show (if vm.gc.newObjCountdown > n then n else vm.gc.newObjCountdown) ≤ _
    split <;> omega
  | left n k ih => exact hp.elim
  | interval n k ih => exact hp.elim
  | collect k ih => exact hp.elim
  | call fv args k ih => exact hp.elim
  | iterate n k ih => exact hp.elim

end Nk
