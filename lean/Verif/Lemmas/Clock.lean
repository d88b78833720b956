import Verif.Lemmas.Pres
import Verif.Spec.Script
/-!
# Instructions do not look at the counters

`Clk m` (`Spec/Script`): `m` does the same whatever the instruction counters of `nkiVmIterate` are, leaves them alone, and never raises the
number of objects that may be created before the next collection.
-/
namespace Nk

variable {α β : Type}

namespace Clk

theorem bind {m : M α} {f : α → M β} (h : Clk m) (hf : ∀ a, Clk (f a)) : Clk (m >>= f) := by
  refine ⟨fun c l vm => ?_, fun vm b vm' e => ?_⟩
  · cases hm : m vm with
    | ub k =>
      have h1 := h.run c l vm
      rw [hm] at h1
      rw [M.bind_ub hm, M.bind_ub h1]; rfl
    | ok p =>
      obtain ⟨a, v1⟩ := p
      have h1 := h.run c l vm
      rw [hm] at h1
      rw [M.bind_ok hm, M.bind_ok h1]
      exact (hf a).run c l v1
  · rw [M.bind_eq] at e
    cases hm : m vm with
    | ub k => rw [hm] at e; cases e
    | ok p =>
      obtain ⟨a, v1⟩ := p
      rw [hm] at e
      exact Nat.le_trans ((hf a).mono v1 b vm' e) (h.mono vm a v1 hm)

theorem pure {a : α} : Clk (Pure.pure a : M α) := ⟨fun _ _ _ => rfl, fun vm b vm' e => by cases e; exact Nat.le_refl _⟩
theorem lift {r : Res α} : Clk (liftR r) := ⟨fun c l vm => by cases r <;> rfl, fun vm b vm' e => by
  cases r with
  | ok a => cases e; exact Nat.le_refl _
  | ub k => cases e⟩
theorem modify {g : VM → VM} (h : ∀ c l vm, g (vm.clock c l) = (g vm).clock c l)
    (hm : ∀ vm, (g vm).gc.newObjCountdown ≤ vm.gc.newObjCountdown) : Clk (Nk.modify g) :=
  ⟨fun c l vm => by show Res.ok ((), g (vm.clock c l)) = _; rw [h]; rfl, fun vm b vm' e => by cases e; exact hm vm⟩
theorem curCtx : Clk Nk.curCtx := ⟨fun c l vm => by
  unfold Nk.curCtx
  show (match ctxAt vm vm.cur with | .ok d => Res.ok (d, vm.clock c l) | .ub k => .ub k) = _
  cases ctxAt vm vm.cur <;> rfl, fun vm b vm' e => by
  unfold Nk.curCtx at e
  split at e <;> cases e
  exact Nat.le_refl _⟩
theorem curStack : Clk Nk.curStack := bind curCtx fun _ => pure
theorem getStrEntry {i : Nat} : Clk (getStrEntry i) := ⟨fun c l vm => by
  unfold Nk.getStrEntry
  show (match vm.strings.get i with | .ok d => Res.ok (d, vm.clock c l) | .ub k => .ub k) = _
  cases vm.strings.get i <;> rfl, fun vm b vm' e => by
  unfold Nk.getStrEntry at e
  split at e <;> cases e
  exact Nat.le_refl _⟩
theorem getObj {i : Nat} : Clk (getObj i) := ⟨fun c l vm => by
  unfold Nk.getObj
  show (match vm.objects.get i with | .ok d => Res.ok (d, vm.clock c l) | .ub k => .ub k) = _
  cases vm.objects.get i <;> rfl, fun vm b vm' e => by
  unfold Nk.getObj at e
  split at e <;> cases e
  exact Nat.le_refl _⟩
/-- Reading the VM: what is done with it must not depend on the counters. -/
theorem get {f : VM → M β} (hk : ∀ w c l, f (VM.clock w c l) = f w) (h : ∀ v, Clk (f v)) : Clk (Nk.get >>= f) := by
  refine ⟨fun c l vm => ?_, fun vm b vm' e => ?_⟩
  · rw [M.bind_ok (get_run _), M.bind_ok (get_run _), hk]
    exact (h vm).run c l vm
  · rw [M.bind_ok (get_run _)] at e
    exact (h vm).mono vm b vm' e

end Clk

/-- One step of the `clk` tactic; extended below. -/
syntax "clk_step" : tactic
macro_rules | `(tactic| clk_step) => `(tactic| with_reducible exact Clk.pure)
macro_rules | `(tactic| clk_step) => `(tactic| with_reducible exact Clk.lift)
macro_rules | `(tactic| clk_step) => `(tactic| with_reducible exact Clk.curCtx)
macro_rules | `(tactic| clk_step) => `(tactic| with_reducible exact Clk.curStack)
macro_rules | `(tactic| clk_step) => `(tactic| with_reducible exact Clk.getStrEntry)
macro_rules | `(tactic| clk_step) => `(tactic| with_reducible exact Clk.getObj)

/-- Proves `Clk` goals by following the structure of the program. -/
macro "clk" : tactic => `(tactic| repeat' (first | clk_step | intro _ | with_reducible refine Clk.get (fun _ _ _ => rfl) ?_ | with_reducible refine Clk.bind ?_ ?_ | assumption | split | dsimp only))

macro_rules | `(tactic| clk_step) => `(tactic| with_reducible exact Clk.modify (fun _ _ _ => rfl) (fun _ => Nat.le_refl _))

theorem addError_clk {e : String} : Clk (addError e) := Clk.modify (fun _ _ _ => rfl) fun _ => Nat.le_refl _
macro_rules | `(tactic| clk_step) => `(tactic| with_reducible exact addError_clk)

theorem setCtx_clk {i : Nat} {d : Ctx} : Clk (setCtx i d) := ⟨fun c l vm => by
  unfold setCtx
  show (match ctxAt vm i with | .ok _ => Res.ok ((), ({ vm with ctxs := vm.ctxs.set i (some d) } : VM).clock c l) | .ub k => .ub k) = _
  cases ctxAt vm i <;> rfl, fun vm a vm' e => by
  unfold setCtx at e
  split at e
  · cases e; exact Nat.le_refl _
  · cases e⟩
macro_rules | `(tactic| clk_step) => `(tactic| with_reducible exact setCtx_clk)

theorem modCur_clk {g : Ctx → Ctx} : Clk (modCur g) := ⟨fun c l vm => by
  unfold modCur
  show (match ctxAt vm vm.cur with | .ok d => Res.ok ((), ({ vm with ctxs := vm.ctxs.set vm.cur (some (g d)) } : VM).clock c l) | .ub k => .ub k) = _
  cases ctxAt vm vm.cur <;> rfl, fun vm a vm' e => by
  unfold modCur at e
  split at e
  · cases e; exact Nat.le_refl _
  · cases e⟩
macro_rules | `(tactic| clk_step) => `(tactic| with_reducible exact modCur_clk)

theorem modStack_clk {g : Stack → Stack} : Clk (modStack g) := by unfold modStack; clk
macro_rules | `(tactic| clk_step) => `(tactic| with_reducible exact modStack_clk)

theorem pushSlot_clk : Clk pushSlot := by unfold pushSlot; clk
macro_rules | `(tactic| clk_step) => `(tactic| with_reducible exact pushSlot_clk)
theorem pokeAt_clk {i : Nat} {v : Value} : Clk (pokeAt i v) := by unfold pokeAt; clk
macro_rules | `(tactic| clk_step) => `(tactic| with_reducible exact pokeAt_clk)
theorem peekAt_clk {i : Nat} : Clk (peekAt i) := by unfold peekAt; clk
macro_rules | `(tactic| clk_step) => `(tactic| with_reducible exact peekAt_clk)
theorem push_clk {v : Value} : Clk (push v) := by unfold push; clk
macro_rules | `(tactic| clk_step) => `(tactic| with_reducible exact push_clk)
theorem pushInt_clk {v : BitVec 32} : Clk (pushInt v) := by unfold pushInt; clk
macro_rules | `(tactic| clk_step) => `(tactic| with_reducible exact pushInt_clk)
theorem pop_clk : Clk pop := by unfold pop; clk
macro_rules | `(tactic| clk_step) => `(tactic| with_reducible exact pop_clk)
theorem popN_clk {n : Nat} : Clk (popN n) := by unfold popN; clk
macro_rules | `(tactic| clk_step) => `(tactic| with_reducible exact popN_clk)
theorem peekIdx_clk {n : Nat} : Clk (peekIdx n) := by unfold peekIdx; clk
macro_rules | `(tactic| clk_step) => `(tactic| with_reducible exact peekIdx_clk)
theorem peek_clk {n : Nat} : Clk (peek n) := by unfold peek; clk
macro_rules | `(tactic| clk_step) => `(tactic| with_reducible exact peek_clk)
theorem poke_clk {n : Nat} {v : Value} : Clk (poke n v) := by unfold poke; clk
macro_rules | `(tactic| clk_step) => `(tactic| with_reducible exact poke_clk)
theorem getString_clk {n : Nat} : Clk (getString n) := by unfold getString; clk
macro_rules | `(tactic| clk_step) => `(tactic| with_reducible exact getString_clk)

theorem findInBucket_clock {vm : VM} {c l : Nat} {s : Bytes} {ids : List Nat} : findInBucket (vm.clock c l) s ids = findInBucket vm s ids := by
  induction ids with
  | nil => rfl
  | cons id ids ih =>
    rw [findInBucket, findInBucket, ih]; rfl

theorem findOrAddString_clk {s : Bytes} : Clk (findOrAddString s) := by
  unfold findOrAddString
  refine Clk.get (fun w c l => ?_) fun vm => ?_
  · dsimp only
    simp only [findInBucket_clock]
    rfl
  · clk
macro_rules | `(tactic| clk_step) => `(tactic| with_reducible exact findOrAddString_clk)
theorem pushString_clk {s : Bytes} : Clk (pushString s) := by unfold pushString; clk
macro_rules | `(tactic| clk_step) => `(tactic| with_reducible exact pushString_clk)
theorem valueHash_clk {v : Value} : Clk (valueHash v) := by
  cases v with
  | str id =>
    show Clk (getStrEntry id >>= fun e => match e with | some e => Pure.pure e.hash | none => Pure.pure 0)
    clk
  | _ => exact .pure
macro_rules | `(tactic| clk_step) => `(tactic| with_reducible exact valueHash_clk)
theorem valueToString_clk {F : FloatOps} {v : Value} : Clk (valueToString F v) := by
  have h : ∀ s : Bytes, Clk (findOrAddString s >>= fun id => getString id) := fun s => by clk
  cases v with
  | str id => exact getString_clk
  | int i => exact h _
  | float i => exact h _
  | fn i => exact Clk.bind (valueHash_clk) fun _ => h _
  | obj i => exact Clk.bind (valueHash_clk) fun _ => h _
  | nil => exact Clk.bind (valueHash_clk) fun _ => h _
  | bad i j => exact Clk.bind (valueHash_clk) fun _ => h _
macro_rules | `(tactic| clk_step) => `(tactic| with_reducible exact valueToString_clk)
theorem valueToInt_clk {v : Value} : Clk (valueToInt v) := by
  cases v with
  | int i => exact .pure
  | float i => exact .lift
  | str id =>
    show Clk (getString id >>= fun s => match s with | some s => Pure.pure (atoi32 s) | none => Pure.pure 0)
    clk
  | obj i => exact .pure
  | nil => exact .pure
  | fn i => exact Clk.bind (addError_clk) fun _ => .pure
  | bad i j => exact Clk.bind (addError_clk) fun _ => .pure
macro_rules | `(tactic| clk_step) => `(tactic| with_reducible exact valueToInt_clk)
theorem valueToFloat_clk {F : FloatOps} {v : Value} : Clk (valueToFloat F v) := by
  cases v with
  | int i => exact .pure
  | float i => exact .pure
  | str id =>
    show Clk (getString id >>= fun s => match s with | some s => Pure.pure (F.atof s) | none => Pure.pure 0)
    clk
  | nil => exact .pure
  | obj i => exact Clk.bind (addError_clk) fun _ => .pure
  | fn i => exact Clk.bind (addError_clk) fun _ => .pure
  | bad i j => exact Clk.bind (addError_clk) fun _ => .pure
macro_rules | `(tactic| clk_step) => `(tactic| with_reducible exact valueToFloat_clk)
theorem compareBody_clk {F : FloatOps} {a b : Value} : Clk (compareBody F a b) := by unfold compareBody; clk
macro_rules | `(tactic| clk_step) => `(tactic| with_reducible exact compareBody_clk)
theorem valueCompare_clk {F : FloatOps} {a b : Value} {s : Bool} : Clk (valueCompare F a b s) := by
  unfold valueCompare; clk
macro_rules | `(tactic| clk_step) => `(tactic| with_reducible exact valueCompare_clk)

theorem setObj_clk {i : Nat} {o : Obj} : Clk (setObj i o) := ⟨fun c l vm => by
  unfold setObj
  show (match vm.objects.write i (some o) with | .ok t => Res.ok ((), ({ vm with objects := t } : VM).clock c l) | .ub k => .ub k) = _
  cases vm.objects.write i (some o) <;> rfl, fun vm a vm' e => by
  unfold setObj at e
  split at e
  · cases e; exact Nat.le_refl _
  · cases e⟩
macro_rules | `(tactic| clk_step) => `(tactic| with_reducible exact setObj_clk)
theorem createObject_clk : Clk createObject := by
  unfold createObject
  refine Clk.get (fun _ _ _ => rfl) fun vm => ?_
  refine Clk.bind .lift fun r => ?_
  dsimp only
  split
  · clk
  · exact Clk.bind (Clk.modify (fun _ _ _ => rfl) fun _ => Nat.sub_le _ _) fun _ => .pure
macro_rules | `(tactic| clk_step) => `(tactic| with_reducible exact createObject_clk)
theorem findElem_clk {F : FloatOps} {key : Value} {l : List (Value × Value)} {n : Nat} :
    Clk (findElem F key l n) := by
  induction l generalizing n with
  | nil => exact .pure
  | cons e es ih =>
    obtain ⟨a, b⟩ := e
    unfold findElem
    refine Clk.bind (valueCompare_clk) fun c => ?_
    split
    · exact .pure
    · exact ih
macro_rules | `(tactic| clk_step) => `(tactic| with_reducible exact findElem_clk)
theorem bucketOf_clk {key : Value} : Clk (bucketOf key) := by unfold bucketOf; clk
macro_rules | `(tactic| clk_step) => `(tactic| with_reducible exact bucketOf_clk)
theorem clearEntry_clk {F : FloatOps} {id : Nat} {key : Value} : Clk (clearEntry F id key) := by
  unfold clearEntry; clk
macro_rules | `(tactic| clk_step) => `(tactic| with_reducible exact clearEntry_clk)
theorem findOrAddEntry_clk {F : FloatOps} {id : Nat} {key : Value} {b : Bool} :
    Clk (findOrAddEntry F id key b) := by
  unfold findOrAddEntry; clk
macro_rules | `(tactic| clk_step) => `(tactic| with_reducible exact findOrAddEntry_clk)
theorem readElem_clk {id : Nat} {p : Nat × Nat} : Clk (readElem id p) := by unfold readElem; clk
macro_rules | `(tactic| clk_step) => `(tactic| with_reducible exact readElem_clk)
theorem writeElem_clk {id : Nat} {p : Nat × Nat} {v : Value} : Clk (writeElem id p v) := by unfold writeElem; clk
macro_rules | `(tactic| clk_step) => `(tactic| with_reducible exact writeElem_clk)
theorem lookupField_clk {F : FloatOps} {id : Nat} {key : Value} : Clk (lookupField F id key) := by
  unfold lookupField; clk
macro_rules | `(tactic| clk_step) => `(tactic| with_reducible exact lookupField_clk)
theorem storeField_clk {F : FloatOps} {id : Nat} {key v : Value} : Clk (storeField F id key v) := by
  unfold storeField; clk
macro_rules | `(tactic| clk_step) => `(tactic| with_reducible exact storeField_clk)
theorem objFromValue_clk {v : Value} : Clk (objFromValue v) := by unfold objFromValue; clk
macro_rules | `(tactic| clk_step) => `(tactic| with_reducible exact objFromValue_clk)
theorem lookupPublic_clk {F : FloatOps} {v k : Value} : Clk (lookupPublic F v k) := by unfold lookupPublic; clk
macro_rules | `(tactic| clk_step) => `(tactic| with_reducible exact lookupPublic_clk)
theorem objectSize_clk {v : Value} : Clk (objectSize v) := by unfold objectSize; clk
macro_rules | `(tactic| clk_step) => `(tactic| with_reducible exact objectSize_clk)
theorem getExtType_clk {v : Value} : Clk (getExtType v) := by unfold getExtType; clk
macro_rules | `(tactic| clk_step) => `(tactic| with_reducible exact getExtType_clk)
theorem getExtData_clk {v : Value} : Clk (getExtData v) := by unfold getExtData; clk
macro_rules | `(tactic| clk_step) => `(tactic| with_reducible exact getExtData_clk)
theorem setExtType_clk {v : Value} {t : Nat} : Clk (setExtType v t) := by unfold setExtType; clk
macro_rules | `(tactic| clk_step) => `(tactic| with_reducible exact setExtType_clk)
theorem setExtData_clk {v : Value} {t : Nat} : Clk (setExtData v t) := by unfold setExtData; clk
macro_rules | `(tactic| clk_step) => `(tactic| with_reducible exact setExtData_clk)
theorem clearExt_clk {v : Value} : Clk (clearExt v) := by unfold clearExt; clk
macro_rules | `(tactic| clk_step) => `(tactic| with_reducible exact clearExt_clk)

/-! ## Instructions -/

theorem intOp_clk {g : Int → Int → Int} {a b : BitVec 32} : Clk (intOp g a b) := by unfold intOp; clk
macro_rules | `(tactic| clk_step) => `(tactic| with_reducible exact intOp_clk)

variable {F : FloatOps} {H : Host}

theorem opAdd_clk : Clk (opAdd F) := by unfold opAdd; clk
theorem opSub_clk : Clk (opSub F) := by unfold opSub; clk
theorem opMul_clk : Clk (opMul F) := by unfold opMul; clk
theorem opDiv_clk : Clk (opDiv F) := by unfold opDiv; clk
theorem opMod_clk : Clk opMod := by unfold opMod; clk
theorem opNeg_clk : Clk opNeg := by unfold opNeg; clk
theorem opPushLiteral_clk {mk : BitVec 32 → Value} : Clk (opPushLiteral mk) := by unfold opPushLiteral; clk
theorem opPopN_clk : Clk opPopN := by unfold opPopN; clk
theorem opStackPeek_clk : Clk opStackPeek := by unfold opStackPeek; clk
theorem opStackPoke_clk : Clk opStackPoke := by unfold opStackPoke; clk
theorem opStaticPeek_clk : Clk opStaticPeek := by unfold opStaticPeek; clk
theorem opStaticPoke_clk : Clk opStaticPoke := by
  unfold opStaticPoke
  refine Clk.bind (pop_clk) fun v => ?_
  split
  · refine Clk.bind .curStack fun s => Clk.bind (peek_clk) fun x => Clk.get (fun _ _ _ => rfl) fun vm => ?_
    dsimp only
    split
    · exact Clk.modify (fun _ _ _ => rfl) fun _ => Nat.le_refl _
    · exact .lift
  · clk
theorem opJump_clk : Clk opJump := by unfold opJump; clk
theorem opJz_clk : Clk opJz := by unfold opJz; clk
theorem shiftArgs_clk {b n : Nat} : Clk (shiftArgs b n) := by
  induction n with
  | zero => exact .pure
  | succ n ih => unfold shiftArgs; clk
macro_rules | `(tactic| clk_step) => `(tactic| with_reducible exact shiftArgs_clk)
theorem resolveCallable_clk {r n : Nat} {v : Value} : Clk (resolveCallable F r n v) := by
  induction r generalizing n v with
  | zero => unfold resolveCallable; split <;> clk
  | succ r ih =>
    cases v with
    | obj id =>
      rw [resolveCallable]
      refine Clk.bind (findOrAddString_clk) fun _ => Clk.bind (lookupPublic_clk) fun a =>
        Clk.bind (findOrAddString_clk) fun _ => Clk.bind (lookupPublic_clk) fun b => ?_
      split
      · split
        · exact .pure
        · exact ih
      · split
        · clk
        · refine Clk.bind (pushSlot_clk) fun _ => Clk.bind .curStack fun _ => Clk.bind (shiftArgs_clk) fun _ =>
            Clk.bind (poke_clk) fun _ => Clk.bind (poke_clk) fun _ => ?_
          split
          · exact .pure
          · exact ih
    | _ => exact .pure
macro_rules | `(tactic| clk_step) => `(tactic| with_reducible exact resolveCallable_clk)
theorem copyArgs_clk {b i n : Nat} : Clk (copyArgs b i n) := by
  induction n generalizing i with
  | zero => exact .pure
  | succ n ih => rw [copyArgs]; exact Clk.bind (peek_clk) fun _ => Clk.bind ih fun _ => .pure
macro_rules | `(tactic| clk_step) => `(tactic| with_reducible exact copyArgs_clk)
theorem checkArgs_clk {e : ExtFunc} {i : Nat} {l : List Value} : Clk (checkArgs e i l) := by
  induction l generalizing i with
  | nil => exact .pure
  | cons v l ih =>
    rw [checkArgs]
    split
    · exact .lift
    · split
      · exact ih
      · split
        · clk
        · split
          · split
            · exact .lift
            · refine Clk.bind .getObj fun o => ?_
              split
              · clk
              · split
                · clk
                · exact ih
          · exact ih
macro_rules | `(tactic| clk_step) => `(tactic| with_reducible exact checkArgs_clk)
theorem callNative_clk (hH : ∀ cb args, Clk (H.call cb args)) {e n : Nat} : Clk (callNative H e n) := by
  unfold callNative
  refine Clk.get (fun _ _ _ => rfl) fun vm => ?_
  split
  · clk
  · split
    · clk
    · refine Clk.bind .curStack fun s => Clk.bind (copyArgs_clk) fun args => Clk.bind ?_ fun b => ?_
      · clk
      · split
        · exact Clk.bind (hH _ _) fun r => Clk.bind (popN_clk) fun _ => push_clk
        · exact .pure
theorem opCall_clk (hH : ∀ cb args, Clk (H.call cb args)) : Clk (opCall F H) := by
  unfold opCall
  refine Clk.bind .curStack fun s => Clk.bind (peek_clk) fun _ => Clk.bind (valueToInt_clk) fun _ =>
    Clk.bind (peek_clk) fun _ => Clk.bind (resolveCallable_clk) fun r => ?_
  split
  · exact .pure
  · refine Clk.get (fun _ _ _ => rfl) fun vm => ?_
    split
    · clk
    · split
      · clk
      · split
        · exact callNative_clk hH
        · clk
  · clk
theorem opEnd_clk : Clk opEnd := by unfold opEnd; clk
theorem popCompare_clk : Clk (popCompare F) := by unfold popCompare; clk
macro_rules | `(tactic| clk_step) => `(tactic| with_reducible exact popCompare_clk)
theorem opCompare_clk {p : Int → Bool} : Clk (opCompare F p) := by unfold opCompare; clk
theorem opEqSameType_clk : Clk (opEqSameType F) := by unfold opEqSameType; clk
theorem opNot_clk : Clk opNot := by unfold opNot; clk
theorem opAnd_clk : Clk opAnd := by unfold opAnd; clk
theorem opOr_clk : Clk opOr := by unfold opOr; clk
theorem opCreateObject_clk : Clk opCreateObject := by unfold opCreateObject; clk
theorem opFieldGet_clk {b : Bool} : Clk (opFieldGet F b) := by unfold opFieldGet; clk
theorem opFieldSet_clk : Clk (opFieldSet F) := by unfold opFieldSet; clk
theorem opPrepareSelfCall_clk : Clk opPrepareSelfCall := by unfold opPrepareSelfCall; clk
theorem opLen_clk : Clk opLen := by unfold opLen; clk
theorem opIsFinished_clk : Clk opIsFinished := by unfold opIsFinished; clk
theorem pushAll_clk {l : List Value} : Clk (pushAll l) := by
  induction l with
  | nil => exact .pure
  | cons v l ih => exact Clk.bind (push_clk) fun _ => ih

/-! ## Switching contexts -/

theorem popContext_clk : Clk popContext := by unfold popContext; clk
macro_rules | `(tactic| clk_step) => `(tactic| with_reducible exact popContext_clk)
theorem pushContext_clk {k : Nat} : Clk (pushContext k) := by unfold pushContext; clk
macro_rules | `(tactic| clk_step) => `(tactic| with_reducible exact pushContext_clk)
theorem freeCtx_clk {d : Option Nat} : Clk (freeCtx d) := by
  cases d with
  | none => exact ⟨fun _ _ _ => rfl, fun _ _ _ e => by cases e; exact Nat.le_refl _⟩
  | some k =>
    refine ⟨fun c l vm => ?_, fun vm a vm' e => ?_⟩
    · unfold freeCtx
      show (match ctxAt vm k with | .ok _ => Res.ok ((), ({ vm with ctxs := vm.ctxs.set k none } : VM).clock c l) | .ub k => .ub k) = _
      dsimp only
      cases ctxAt vm k <;> rfl
    · unfold freeCtx at e
      dsimp only at e
      split at e
      · cases e; exact Nat.le_refl _
      · cases e
theorem setIp_clk {k : Nat} : Clk (fun vm => match ctxAt vm k with
    | .ok c => .ok ((), { vm with ctxs := vm.ctxs.set k (some { c with ip := UINT_MAX }) })
    | .ub e => .ub e) := ⟨fun c l vm => by
  show (match ctxAt vm k with
    | .ok d => Res.ok ((), ({ vm with ctxs := vm.ctxs.set k (some { d with ip := UINT_MAX }) } : VM).clock c l) | .ub k => .ub k) = _
  cases ctxAt vm k <;> rfl, fun vm a vm' e => by
  split at e
  · cases e; exact Nat.le_refl _
  · cases e⟩
macro_rules | `(tactic| clk_step) => `(tactic| with_reducible exact setIp_clk)
macro_rules | `(tactic| clk_step) => `(tactic| with_reducible exact pushAll_clk)
macro_rules | `(tactic| clk_step) => `(tactic| with_reducible exact freeCtx_clk)
theorem opReturn_clk : Clk opReturn := by unfold opReturn; clk
theorem opYield_clk : Clk opYield := by unfold opYield; clk
theorem resumeCtx_clk {k : Nat} {v : Value} : Clk (resumeCtx k v) := by unfold resumeCtx; clk
macro_rules | `(tactic| clk_step) => `(tactic| with_reducible exact resumeCtx_clk)
theorem opResume_clk : Clk opResume := by unfold opResume; clk
theorem opCoroutineCreate_clk (hH : ∀ cb args, Clk (H.call cb args)) : Clk (opCoroutineCreate F H) := by
  have := opCall_clk (F := F) hH
  unfold opCoroutineCreate
  clk
  exact Clk.bind setIp_clk fun _ => Clk.bind this fun _ => popContext_clk

/-- Every instruction preserves what the elementary changes preserve. -/
theorem dispatch_clk (hH : ∀ cb args, Clk (H.call cb args)) (op : Nat) : Clk (dispatch F H op) := by
  unfold dispatch
  split
  · exact opAdd_clk
  · exact opSub_clk
  · exact opMul_clk
  · exact opDiv_clk
  · exact opNeg_clk
  · exact opMod_clk
  · exact opPushLiteral_clk
  · exact opPushLiteral_clk
  · exact opPushLiteral_clk
  · exact opPushLiteral_clk
  · exact Clk.bind (pop_clk) fun _ => .pure
  · exact opPopN_clk
  · exact opStackPeek_clk
  · exact opStackPoke_clk
  · exact opStaticPoke_clk
  · exact opStaticPeek_clk
  · exact opJump_clk
  · exact opCall_clk hH
  · exact opReturn_clk
  · exact opEnd_clk
  · exact opJz_clk
  · exact opCompare_clk
  · exact opCompare_clk
  · exact opCompare_clk
  · exact opCompare_clk
  · exact opCompare_clk
  · exact opCompare_clk
  · exact opEqSameType_clk
  · exact opNot_clk
  · exact opAnd_clk
  · exact opOr_clk
  · exact opCreateObject_clk
  · exact opFieldGet_clk
  · exact opFieldSet_clk
  · exact opFieldGet_clk
  · exact opPrepareSelfCall_clk
  · exact push_clk
  · exact opCoroutineCreate_clk hH
  · exact opYield_clk
  · exact opResume_clk
  · exact opIsFinished_clk
  · exact opLen_clk
  · exact .pure

theorem execute_clk (hH : ∀ cb args, Clk (H.call cb args)) (op : Nat) : Clk (execute F H op) :=
  Clk.bind (dispatch_clk hH op) fun _ => modCur_clk

end Nk
