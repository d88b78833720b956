import Verif.Lemmas.Api
import Verif.Lemmas.Exec
import Verif.Lemmas.Switch
import Verif.Props.Life
import Verif.Props.Find
/-!
# What native functions that use the API leave alone
-/
namespace Nk

/-- The program sets the instruction limit or the collection interval only if `A`. -/
def Api.Limits (A : Prop) : Api → Prop
  | .done _ => True
  | .look k => ∀ x, (k x).Limits A
  | .error _ k => k.Limits A
  | .string _ k => ∀ x, (k x).Limits A
  | .toInt _ k => ∀ x, (k x).Limits A
  | .toFloat _ k => ∀ x, (k x).Limits A
  | .toText _ k => ∀ x, (k x).Limits A
  | .create k => ∀ x, (k x).Limits A
  | .clear _ _ k => k.Limits A
  | .find _ _ k => ∀ x, (k x).Limits A
  | .store _ _ _ k => ∀ x, (k x).Limits A
  | .size _ k => ∀ x, (k x).Limits A
  | .acquire _ k => k.Limits A
  | .release _ k => k.Limits A
  | .setType _ _ k => ∀ x, (k x).Limits A
  | .setData _ _ k => ∀ x, (k x).Limits A
  | .type _ k => ∀ x, (k x).Limits A
  | .setup _ _ _ k => ∀ x, (k x).Limits A
  | .function _ k => ∀ x, (k x).Limits A
  | .limits _ k => k.Limits A
  | .left _ k => A ∧ k.Limits A
  | .interval _ k => A ∧ k.Limits A
  | .newInterval _ k => k.Limits A
  | .collect k => k.Limits A
  | .call _ _ k => ∀ x, (k x).Limits A
  | .iterate _ k => k.Limits A

theorem Api.limits_true (p : Api) : p.Limits True := by
  induction p <;> unfold Api.Limits <;> first | trivial | assumption | exact ⟨trivial, by assumption⟩

/-- Closed under what the API does; under changes of the instruction limit and the collection interval only if `A`. -/
structure ApiFrame (A : Prop) (P : VM → Prop) : Prop extends CoFrame P where
  hand : ∀ vm l, P vm → P { vm with handles := l }
  lim : ∀ vm l, P vm → P { vm with limits := l }
  left : A → ∀ vm n, P vm → P (setInstructionLimit n vm)
  int : A → ∀ vm n, P vm → P (setGCInterval n vm)
  new : ∀ vm n, P vm → P (setNewObjInterval n vm)
  type : ∀ t, Pres P (registerExternalType t)
  native : ∀ name cb, Pres P (registerNative name cb)
  decl : ∀ e n ts xs, Pres P (declareArgs e n ts xs)
  value : ∀ e, Pres P (internalFor e)

variable {A : Prop} {P : VM → Prop} {F : FloatOps} {H : Host}

theorem Pres.guard {α : Type} {m : M α} (h : Pres P m) : Pres P (guarded m) := ⟨fun vm a vm' hp e => by
  unfold guarded at e
  split at e
  · exact h.run vm a vm' hp e
  · cases e⟩

section
variable (g : Frame P)
include g

theorem clearPublic_pres {v key : Value} : Pres P (clearPublic F v key) := by
  unfold clearPublic
  refine Pres.bind (objFromValue_pres g) fun o => ?_
  split
  · exact clearEntry_pres g
  · exact addError_pres g

theorem storePublic_pres {v key x : Value} : Pres P (storePublic F v key x) := by
  unfold storePublic
  refine Pres.bind (objFromValue_pres g) fun o => ?_
  split
  · refine Pres.bind (findOrAddEntry_pres g) fun p => ?_
    split
    · exact Pres.bind (writeElem_pres g) fun _ => .pure
    · exact .pure
  · exact Pres.bind (addError_pres g) fun _ => .pure

theorem setTypeApi_pres {v : Value} {t : Nat} : Pres P (setTypeApi v t) := by
  unfold setTypeApi
  refine Pres.bind .get fun vm => ?_
  split
  · exact .lift
  · exact setExtType_pres g

theorem setDataApi_pres {v : Value} {t : Nat} : Pres P (setDataApi v t) := by
  unfold setDataApi
  refine Pres.bind .get fun vm => ?_
  split
  · exact .lift
  · exact setExtData_pres g

variable (hand : ∀ vm l, P vm → P { vm with handles := l })
include hand

theorem acquireHandle_pres {v : Value} : Pres P (acquireHandle v) := by
  unfold acquireHandle
  refine Pres.bind (objFromValue_pres g) fun o => ?_
  split
  · exact addError_pres g
  · dsimp only
    split
    · exact setObj_pres g
    · split
      · exact Pres.bind (setObj_pres g) fun _ => addError_pres g
      · refine Pres.bind .get fun vm => ?_
        split
        · exact .lift
        · exact Pres.bind (setObj_pres g) fun _ => .modify fun v => hand v _

theorem releaseHandle_pres {v : Value} : Pres P (releaseHandle v) := by
  unfold releaseHandle
  refine Pres.bind (objFromValue_pres g) fun o => ?_
  split
  · exact addError_pres g
  · next id o =>
    have rest : ∀ k : Nat, Pres P (do
          setObj id { o with handleCount := k }
          if k > 0 then return ()
          else do
            let vm ← get
            if id ∈ vm.handles then modify fun vm => { vm with handles := vm.handles.erase id }
            else liftR (.ub .assert)) := by
      intro k
      refine Pres.bind (setObj_pres g) fun _ => ?_
      split
      · exact .pure
      · refine Pres.bind .get fun vm => ?_
        split
        · exact .modify fun v => hand v _
        · exact .lift
    dsimp only
    split
    · exact Pres.bind (addError_pres g) fun _ => rest (usub o.handleCount 1)
    · exact rest (usub o.handleCount 1)

omit g hand in
theorem setupNative_pres (native : ∀ name cb, Pres P (registerNative name cb))
    (decl : ∀ e n ts xs, Pres P (declareArgs e n ts xs)) {name : Bytes} {cb : Option Nat} {args : Option (List (Nat × Nat))} :
    Pres P (setupNative name cb args) := by
  unfold setupNative
  refine Pres.bind (native _ _) fun e => ?_
  split
  · exact .pure
  · refine Pres.bind .get fun vm => ?_
    cases args with
    | some l => exact Pres.bind (decl _ _ _ _) fun _ => .pure
    | none =>
      dsimp only
      split
      · exact Pres.bind (decl _ _ _ _) fun _ => .pure
      · exact Pres.bind .lift fun _ => .pure

end

section
variable (f : ApiFrame A P)
include f

theorem callApi_pres (hH : ∀ cb args, Pres P (H.call cb args)) (h : Pres P (iterate F H)) (n : Nat) (fv : Value)
    (args : List Value) : Pres P (callApi F H n fv args) := by
  have g := f.toFrame
  have hl : ∀ n, Pres P (callLoopApi F H n) := by
    intro n
    induction n with
    | zero => exact Pres.bind .curCtx fun _ => Pres.bind .get fun _ => .pure
    | succ n ih =>
      rw [callLoopApi]
      refine Pres.bind .curCtx fun _ => Pres.bind .get fun _ => ?_
      split
      · exact .pure
      · exact Pres.bind h.guard fun _ => ih
  have hm : ∀ i : Ctx → Nat, Pres P (modCur fun c => { c with ip := i c }) :=
    fun i => modCur_pres g (fun _ => rfl) (fun _ => rfl) fun _ => rfl
  unfold callApi
  split
  · refine Pres.bind .curCtx fun c => Pres.bind (Pres.guard ?_) fun b => ?_
    · unfold callEnter
      refine Pres.bind (push_pres g) fun _ => Pres.bind (pushAll_pres g) fun _ => Pres.bind (pushInt_pres g) fun _ =>
        Pres.bind (hm fun _ => _) fun _ => Pres.bind (opCall_pres g hH) fun _ => Pres.bind .get fun _ => ?_
      split
      · exact .pure
      · exact Pres.bind (hm fun c => u32 (c.ip + 1)) fun _ => .pure
    · split
      · refine Pres.bind (hl n) fun b => ?_
        split
        · exact Pres.bind (pop_pres g) fun _ => Pres.bind (hm fun _ => c.ip) fun _ => .pure
        · exact .lift
      · exact .pure
  · exact Pres.bind (addError_pres g) fun _ => .pure

omit f in
theorem iterateApi_pres (h : Pres P (iterate F H)) (n : Nat) : Pres P (iterateApi F H n) := by
  induction n with
  | zero => exact .pure
  | succ n ih =>
    rw [iterateApi]
    refine Pres.bind ?_ fun b => ?_
    · exact Pres.bind .curCtx fun _ => Pres.bind .get fun _ => Pres.bind .lift fun _ => .pure
    · split
      · exact h.guard
      · refine Pres.bind .get fun v => ?_
        split
        · exact .pure
        · exact Pres.bind h.guard fun _ => ih

theorem Api.run_pres (hH : ∀ cb args, Pres P (H.call cb args)) (hI : Pres P (Nk.iterate F H)) (fuel : Nat) (p : Api)
    (hp : p.Limits A) : Pres P (p.run F H fuel) := by
  have g := f.toFrame
  induction p with
  | done r => exact .pure
  | look k ih => exact Pres.bind .get fun x => ih _ (hp x)
  | error msg k ih => exact Pres.bind (addError_pres g) fun _ => ih hp
  | string s k ih => exact Pres.bind (findOrAddString_pres g) fun _ => ih _ (hp _)
  | toInt v k ih => exact Pres.bind (valueToInt_pres g) fun _ => ih _ (hp _)
  | toFloat v k ih => exact Pres.bind (valueToFloat_pres g) fun _ => ih _ (hp _)
  | toText v k ih => exact Pres.bind (valueToString_pres g) fun _ => ih _ (hp _)
  | create k ih => exact Pres.bind (createObject_pres g) fun _ => ih _ (hp _)
  | clear o key k ih => exact Pres.bind (clearPublic_pres g) fun _ => ih hp
  | find o key k ih => exact Pres.bind (lookupPublic_pres g) fun _ => ih _ (hp _)
  | store o key v k ih => exact Pres.bind (storePublic_pres g) fun _ => ih _ (hp _)
  | size o k ih => exact Pres.bind (objectSize_pres g) fun _ => ih _ (hp _)
  | acquire o k ih => exact Pres.bind (acquireHandle_pres g f.hand) fun _ => ih hp
  | release o k ih => exact Pres.bind (releaseHandle_pres g f.hand) fun _ => ih hp
  | setType o t k ih => exact Pres.bind (setTypeApi_pres g) fun _ => ih _ (hp _)
  | setData o d k ih => exact Pres.bind (setDataApi_pres g) fun _ => ih _ (hp _)
  | type t k ih => exact Pres.bind (f.type t) fun _ => ih _ (hp _)
  | setup name cb args k ih => exact Pres.bind (setupNative_pres f.native f.decl) fun _ => ih _ (hp _)
  | function e k ih => exact Pres.bind (f.value e) fun _ => ih _ (hp _)
  | limits l k ih => exact Pres.bind (.modify fun v => f.lim v l) fun _ => ih hp
  | left n k ih => exact Pres.bind (.modify fun v => f.left hp.1 v n) fun _ => ih hp.2
  | interval n k ih => exact Pres.bind (.modify fun v => f.int hp.1 v n) fun _ => ih hp.2
  | newInterval n k ih => exact Pres.bind (.modify fun v => f.new v n) fun _ => ih hp
  | collect k ih => exact Pres.bind (garbageCollect_pres f.gc).guard fun _ => ih hp
  | call fv args k ih => exact Pres.bind (callApi_pres f hH hI fuel fv args) fun _ => ih _ (hp _)
  | iterate n k ih => exact Pres.bind (iterateApi_pres hI n) fun _ => ih hp

end

/-! ## The registering functions -/

/-- Changes of the registries other than subsystems and source files. -/
structure RegFrame (P : VM → Prop) : Prop where
  err : ∀ vm e, P vm → P { vm with errors := vm.errors ++ [e] }
  types : ∀ vm l, P vm → P { vm with extTypes := l }
  natives : ∀ vm l, P vm → P { vm with extFuncs := l }
  fn : ∀ vm f l, f.first = 0 → P vm → P { vm with functions := vm.functions ++ [f], extFuncs := l }

section
variable (f : RegFrame P)
include f

theorem RegFrame.error {e : String} : Pres P (addError e) := .modify fun vm => f.err vm e

theorem RegFrame.type {t : ExtType} : Pres P (registerExternalType t) := by
  unfold registerExternalType
  refine Pres.bind .get fun vm => ?_
  split
  · exact Pres.bind f.error fun _ => .pure
  · split
    · exact Pres.bind f.error fun _ => .pure
    · exact Pres.bind (.modify fun v => f.types v _) fun _ => .pure

theorem RegFrame.native {name : Bytes} {cb : Option Nat} : Pres P (registerNative name cb) := by
  unfold registerNative
  refine Pres.bind .get fun vm => ?_
  dsimp only
  split
  · unfold registerNativeNoSearch
    refine Pres.bind .get fun vm => ?_
    split
    · exact Pres.bind f.error fun _ => .pure
    · exact Pres.bind (.modify fun v => f.natives v _) fun _ => .pure
  · exact .pure

theorem RegFrame.decl {e n : Nat} {ts xs : List Nat} : Pres P (declareArgs e n ts xs) := by
  unfold declareArgs
  refine Pres.bind .get fun vm => ?_
  split
  · exact .lift
  · exact .modify fun v => f.natives v _

theorem RegFrame.value {e : Nat} : Pres P (internalFor e) := by
  unfold internalFor
  refine Pres.bind .get fun vm => ?_
  split
  · exact Pres.bind f.error fun _ => .pure
  · next g _ =>
    split
    · refine ⟨fun v a v' hp he => ?_⟩
      replace he : M.bind createFunction _ v = .ok (a, v') := he
      unfold M.bind at he
      by_cases hn : v.functions.length + 1 ≥ UINT_MAX / 12
      · rw [show createFunction v = .ub .longjmp by
          show (if v.functions.length + 1 ≥ UINT_MAX / 12 then liftR (.ub .longjmp) else _ : M Nat) v = _
          rw [if_pos hn]; rfl] at he
        cases he
      · rw [show createFunction v = .ok (v.functions.length,
            { v with functions := v.functions ++ [{ argc := 0, first := 0, extId := UINT_MAX }] }) by
          show (if v.functions.length + 1 ≥ UINT_MAX / 12 then liftR (.ub .longjmp) else _ : M Nat) v = _
          rw [if_neg hn]; rfl] at he
        cases he
        have := f.fn v { argc := UINT_MAX, first := 0, extId := e } (v.extFuncs.set e { g with internalId := v.functions.length }) rfl hp
        show P { v with functions := (v.functions ++ _).set v.functions.length _, extFuncs := _ }
        rw [List.set_append_right _ _ (Nat.le_refl _), Nat.sub_self]
        exact this
    · exact .pure

end

/-! ## The frames -/

theorem errs_api (l : List String) : ApiFrame True fun vm => l <+: vm.errors := by
  have r : RegFrame fun vm => l <+: vm.errors := ⟨(errs_frame l).err, fun _ _ h => h, fun _ _ h => h, fun _ _ _ _ h => h⟩
  exact { errs_frame l with
    hand := fun _ _ h => h, lim := fun _ _ h => h, left := fun _ _ _ h => h, int := fun _ _ _ h => h, new := fun _ _ h => h
    type := fun _ => r.type, native := fun _ _ => r.native, decl := fun _ _ _ _ => r.decl, value := fun _ => r.value }

theorem names_api (a : VM) : ApiFrame True (Props.SameNames a) := by
  have r : RegFrame (Props.SameNames a) :=
    ⟨(Props.names_frame a).err, fun _ _ h => h, fun _ _ h => h, fun _ _ _ _ h => h⟩
  exact { Props.names_frame a with
    hand := fun _ _ h => h, lim := fun _ _ h => h, left := fun _ _ _ h => h, int := fun _ _ _ h => h, new := fun _ _ h => h
    type := fun _ => r.type, native := fun _ _ => r.native, decl := fun _ _ _ _ => r.decl, value := fun _ => r.value }

theorem code_api (a : VM) : ApiFrame True (Props.SameCode a) := by
  have r : RegFrame (Props.SameCode a) := by
    refine ⟨(Props.same_frame a).err, fun _ _ h => h.of rfl rfl rfl rfl rfl, fun _ _ h => h.of rfl rfl rfl rfl rfl, fun vm g l hz h => ?_⟩
    refine ⟨h.instrs, h.mask, h.lines, h.size, fun x hx => ?_, h.kept.trans (List.prefix_append _ _)⟩
    rcases List.mem_append.mp hx with hx | hx
    · exact h.fns x hx
    · rw [List.mem_singleton] at hx; subst hx; exact .inr hz
  exact { Props.same_frame a with
    hand := fun _ _ h => h.of rfl rfl rfl rfl rfl, lim := fun _ _ h => h.of rfl rfl rfl rfl rfl
    left := fun _ _ _ h => h.of rfl rfl rfl rfl rfl, int := fun _ _ _ h => h.of rfl rfl rfl rfl rfl
    new := fun _ _ h => h.of rfl rfl rfl rfl rfl
    type := fun _ => r.type, native := fun _ _ => r.native, decl := fun _ _ _ _ => r.decl, value := fun _ => r.value }

theorem gone_api {k : Nat} {c : Ctx} (hf : c.state = .finished ∨ c.state = .invalid) : ApiFrame True (Gone k c) := by
  have r : RegFrame (Gone k c) := ⟨(gone_frame hf).err, fun _ _ h => gone_same h rfl rfl, fun _ _ h => gone_same h rfl rfl,
    fun _ _ _ _ h => gone_same h rfl rfl⟩
  exact { gone_frame hf with
    hand := fun _ _ h => gone_same h rfl rfl, lim := fun _ _ h => gone_same h rfl rfl, left := fun _ _ _ h => gone_same h rfl rfl
    int := fun _ _ _ h => gone_same h rfl rfl, new := fun _ _ h => gone_same h rfl rfl
    type := fun _ => r.type, native := fun _ _ => r.native, decl := fun _ _ _ _ => r.decl, value := fun _ => r.value }

theorem reg_api (a : VM) : ApiFrame True fun vm => ∃ w, RegHist a vm w :=
  { regHist_frame a with
    hand := fun _ _ h => RegHist.same h ⟨rfl, rfl, rfl, rfl, rfl⟩, lim := fun _ _ h => RegHist.same h ⟨rfl, rfl, rfl, rfl, rfl⟩
    left := fun _ _ _ h => RegHist.same h ⟨rfl, rfl, rfl, rfl, rfl⟩, int := fun _ _ _ h => RegHist.same h ⟨rfl, rfl, rfl, rfl, rfl⟩
    new := fun _ _ h => RegHist.same h ⟨rfl, rfl, rfl, rfl, rfl⟩
    type := fun _ => ⟨fun _ _ _ ⟨w, h⟩ e => ⟨w, .type h e⟩⟩
    native := fun _ _ => ⟨fun _ _ _ ⟨w, h⟩ e => ⟨w, .native h e⟩⟩
    decl := fun _ _ _ _ => ⟨fun _ _ _ ⟨w, h⟩ e => ⟨w, .declare h e⟩⟩
    value := fun _ => ⟨fun _ _ _ ⟨w, h⟩ e => ⟨w, .value h e⟩⟩ }

theorem within_api (g b : Nat) : ApiFrame False fun vm => vm.errors ≠ [] ∨ Within g b vm := by
  have r : RegFrame fun vm => vm.errors ≠ [] ∨ Within g b vm :=
    ⟨(within_frame g b).err, fun _ _ h => h, fun _ _ h => h, fun _ _ _ _ h => h⟩
  exact { within_frame g b with
    hand := fun _ _ h => h, lim := fun _ _ h => h, left := False.elim, int := False.elim, new := fun _ _ h => h
    type := fun _ => r.type, native := fun _ _ => r.native, decl := fun _ _ _ _ => r.decl, value := fun _ => r.value }

end Nk
