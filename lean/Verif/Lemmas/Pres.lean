import Verif.Lemmas.SafeOps
import Verif.Lemmas.Coroutine
/-!
# What instructions leave alone

`Pres P m`: whenever `m` returns, it preserves `P`.  `Frame P` lists the elementary changes that instructions
other than those switching contexts are made of; a property closed under them is preserved by all of them.
-/
namespace Nk

/-- `m` preserves `P` when it returns. -/
structure Pres {α : Type} (P : VM → Prop) (m : M α) : Prop where
  run : ∀ vm a vm', P vm → m vm = .ok (a, vm') → P vm'

variable {α β : Type} {P : VM → Prop}

namespace Pres

theorem bind {m : M α} {f : α → M β} (h : Pres P m) (hf : ∀ a, Pres P (f a)) : Pres P (m >>= f) := by
  refine ⟨fun vm b vm' hp e => ?_⟩
  rw [M.bind_eq] at e
  cases hm : m vm with
  | ub k => rw [hm] at e; cases e
  | ok p =>
    obtain ⟨a, v1⟩ := p
    rw [hm] at e
    exact (hf a).run v1 b vm' (h.run vm a v1 hp hm) e

theorem pure {a : α} : Pres P (Pure.pure a) := ⟨fun vm b vm' hp e => by cases e; exact hp⟩
theorem get : Pres P Nk.get := ⟨fun vm b vm' hp e => by cases e; exact hp⟩
theorem lift {r : Res α} : Pres P (liftR r) := ⟨fun vm b vm' hp e => by
  cases r with
  | ok a => cases e; exact hp
  | ub k => cases e⟩
theorem modify {g : VM → VM} (h : ∀ vm, P vm → P (g vm)) : Pres P (Nk.modify g) :=
  ⟨fun vm b vm' hp e => by cases e; exact h vm hp⟩
theorem curCtx : Pres P Nk.curCtx := ⟨fun vm b vm' hp e => by
  unfold Nk.curCtx at e
  split at e <;> cases e
  exact hp⟩
theorem curStack : Pres P Nk.curStack := bind curCtx fun _ => pure
theorem getStrEntry {i : Nat} : Pres P (getStrEntry i) := ⟨fun vm b vm' hp e => by
  unfold Nk.getStrEntry at e
  split at e <;> cases e
  exact hp⟩
theorem getObj {i : Nat} : Pres P (getObj i) := ⟨fun vm b vm' hp e => by
  unfold Nk.getObj at e
  split at e <;> cases e
  exact hp⟩
/-- Reading the VM, with the value read known. -/
theorem get_bind {f : VM → M β} (h : ∀ v, Pres (fun vm => P vm) (f v)) : Pres P (Nk.get >>= f) := bind get h

/-- Reading the VM, with the value read known to be the VM. -/
theorem get_at {f : VM → M β} (h : ∀ v b v', P v → f v v = .ok (b, v') → P v') : Pres P (Nk.get >>= f) :=
  ⟨fun vm b vm' hp e => h vm b vm' hp (by rw [M.bind_eq] at e; exact e)⟩

end Pres

/-- A change of the string table that keeps it in order and keeps the strings that are protected from collection. -/
def StrStep (t t' : Table Str) : Prop := t.WF → t'.WF ∧
  ∀ id e, t.entry id = some e → e.dontGC = true → ∃ e', t'.entry id = some e' ∧ e'.str = e.str ∧ e'.dontGC = true

theorem StrStep.refl (t : Table Str) : StrStep t t := fun h => ⟨h, fun _ e h1 h2 => ⟨e, h1, rfl, h2⟩⟩

/-- Closed under the elementary changes of instructions that do not switch contexts. -/
structure Frame (P : VM → Prop) : Prop where
  err : ∀ vm e, P vm → P { vm with errors := vm.errors ++ [e] }
  str : ∀ vm t b, StrStep vm.strings t → P vm → P { vm with strings := t, sbuckets := b }
  obj : ∀ vm t, P vm → P { vm with objects := t }
  newo : ∀ vm t g, P vm → P { vm with objects := t, gc := { vm.gc with newObjCountdown := g } }
  ctx : ∀ vm c c', ctxAt vm vm.cur = .ok c → c'.parent = c.parent → c'.coObj = c.coObj → c'.state = c.state →
    P vm → P { vm with ctxs := vm.ctxs.set vm.cur (some c') }
  stat : ∀ vm l, P vm → P { vm with statics := l }

/-- One step of the `pres` tactic; extended below. -/
syntax "pres_step" : tactic
macro_rules | `(tactic| pres_step) => `(tactic| with_reducible exact Pres.pure)
macro_rules | `(tactic| pres_step) => `(tactic| with_reducible exact Pres.get)
macro_rules | `(tactic| pres_step) => `(tactic| with_reducible exact Pres.lift)
macro_rules | `(tactic| pres_step) => `(tactic| with_reducible exact Pres.curCtx)
macro_rules | `(tactic| pres_step) => `(tactic| with_reducible exact Pres.curStack)
macro_rules | `(tactic| pres_step) => `(tactic| with_reducible exact Pres.getStrEntry)
macro_rules | `(tactic| pres_step) => `(tactic| with_reducible exact Pres.getObj)

/-- Proves `Pres` goals by following the structure of the program. -/
macro "pres" : tactic => `(tactic| repeat' (first | pres_step | intro _ | with_reducible refine Pres.bind ?_ ?_ | assumption | split | dsimp only))

section
variable (f : Frame P)
include f

theorem addError_pres {e : String} : Pres P (addError e) := Pres.modify fun vm => f.err vm e
macro_rules | `(tactic| pres_step) => `(tactic| with_reducible exact addError_pres ‹_›)

theorem modCur_pres {g : Ctx → Ctx} (h1 : ∀ c, (g c).parent = c.parent) (h2 : ∀ c, (g c).coObj = c.coObj)
    (h3 : ∀ c, (g c).state = c.state) : Pres P (modCur g) := ⟨fun vm a vm' hp e => by
  unfold modCur at e
  split at e
  · next c hc => cases e; exact f.ctx vm c _ hc (h1 c) (h2 c) (h3 c) hp
  · cases e⟩
macro_rules | `(tactic| pres_step) => `(tactic| ((with_reducible refine modCur_pres ‹_› ?_ ?_ ?_) <;> (intro; rfl)))

theorem modStack_pres {g : Stack → Stack} : Pres P (modStack g) := by unfold modStack; pres
macro_rules | `(tactic| pres_step) => `(tactic| with_reducible exact modStack_pres ‹_›)

theorem pushSlot_pres : Pres P pushSlot := by unfold pushSlot; pres
macro_rules | `(tactic| pres_step) => `(tactic| with_reducible exact pushSlot_pres ‹_›)
theorem pokeAt_pres {i : Nat} {v : Value} : Pres P (pokeAt i v) := by unfold pokeAt; pres
macro_rules | `(tactic| pres_step) => `(tactic| with_reducible exact pokeAt_pres ‹_›)
theorem peekAt_pres {i : Nat} : Pres P (peekAt i) := by unfold peekAt; pres
macro_rules | `(tactic| pres_step) => `(tactic| with_reducible exact peekAt_pres ‹_›)
theorem push_pres {v : Value} : Pres P (push v) := by unfold push; pres
macro_rules | `(tactic| pres_step) => `(tactic| with_reducible exact push_pres ‹_›)
theorem pushInt_pres {v : BitVec 32} : Pres P (pushInt v) := by unfold pushInt; pres
macro_rules | `(tactic| pres_step) => `(tactic| with_reducible exact pushInt_pres ‹_›)
theorem pop_pres : Pres P pop := by unfold pop; pres
macro_rules | `(tactic| pres_step) => `(tactic| with_reducible exact pop_pres ‹_›)
theorem popN_pres {n : Nat} : Pres P (popN n) := by unfold popN; pres
macro_rules | `(tactic| pres_step) => `(tactic| with_reducible exact popN_pres ‹_›)
theorem peekIdx_pres {n : Nat} : Pres P (peekIdx n) := by unfold peekIdx; pres
macro_rules | `(tactic| pres_step) => `(tactic| with_reducible exact peekIdx_pres ‹_›)
theorem peek_pres {n : Nat} : Pres P (peek n) := by unfold peek; pres
macro_rules | `(tactic| pres_step) => `(tactic| with_reducible exact peek_pres ‹_›)
theorem poke_pres {n : Nat} {v : Value} : Pres P (poke n v) := by unfold poke; pres
macro_rules | `(tactic| pres_step) => `(tactic| with_reducible exact poke_pres ‹_›)
theorem getString_pres {n : Nat} : Pres P (getString n) := by unfold getString; pres
macro_rules | `(tactic| pres_step) => `(tactic| with_reducible exact getString_pres ‹_›)

theorem findOrAddString_pres {s : Bytes} : Pres P (findOrAddString s) := by
  unfold findOrAddString
  refine Pres.get_at fun vm a vm' hp e => ?_
  dsimp only at e
  cases hb : vm.sbuckets[stringHash s &&& 255]? with
  | none => rw [hb] at e; cases e
  | some ids =>
    rw [hb] at e
    dsimp only at e
    cases hf : findInBucket vm s ids with
    | ub k => rw [hf] at e; cases e
    | ok r =>
      rw [hf] at e
      cases r with
      | some id => cases e; exact hp
      | none =>
        cases ha : vm.strings.add { str := s, hash := stringHash s, lastGCPass := 0, dontGC := false } with
        | ub k => rw [show (liftR (vm.strings.add { str := s, hash := stringHash s, lastGCPass := 0, dontGC := false }) : M _) = liftR (.ub k) by rw [ha]] at e; cases e
        | ok q =>
          obtain ⟨i, t⟩ := q
          rw [show (liftR (vm.strings.add { str := s, hash := stringHash s, lastGCPass := 0, dontGC := false }) : M _) = liftR (.ok (i, t)) by rw [ha]] at e
          cases i with
          | none => cases e; exact f.err vm _ hp
          | some i =>
            cases e
            refine f.str vm t _ (fun hw => ?_) hp
            rcases Table.add_spec hw { str := s, hash := stringHash s, lastGCPass := 0, dontGC := false } with ⟨j, t', h1, h2, h3, _, h5, _⟩ | ⟨h1, _⟩
            · rw [ha] at h1
              cases h1
              refine ⟨h2, fun id e he hd => ⟨e, ?_, rfl, hd⟩⟩
              rw [h5, if_neg (by rintro rfl; rw [h3] at he; cases he)]
              exact he
            · rw [ha] at h1; cases h1
macro_rules | `(tactic| pres_step) => `(tactic| with_reducible exact findOrAddString_pres ‹_›)
theorem pushString_pres {s : Bytes} : Pres P (pushString s) := by unfold pushString; pres
macro_rules | `(tactic| pres_step) => `(tactic| with_reducible exact pushString_pres ‹_›)
theorem valueHash_pres {v : Value} : Pres P (valueHash v) := by
  cases v with
  | str id =>
    show Pres P (getStrEntry id >>= fun e => match e with | some e => Pure.pure e.hash | none => Pure.pure 0)
    pres
  | _ => exact .pure
macro_rules | `(tactic| pres_step) => `(tactic| with_reducible exact valueHash_pres ‹_›)
theorem valueToString_pres {F : FloatOps} {v : Value} : Pres P (valueToString F v) := by
  have h : ∀ s : Bytes, Pres P (findOrAddString s >>= fun id => getString id) := fun s => by pres
  cases v with
  | str id => exact getString_pres f
  | int i => exact h _
  | float i => exact h _
  | fn i => exact Pres.bind (valueHash_pres f) fun _ => h _
  | obj i => exact Pres.bind (valueHash_pres f) fun _ => h _
  | nil => exact Pres.bind (valueHash_pres f) fun _ => h _
  | bad i j => exact Pres.bind (valueHash_pres f) fun _ => h _
macro_rules | `(tactic| pres_step) => `(tactic| with_reducible exact valueToString_pres ‹_›)
theorem valueToInt_pres {v : Value} : Pres P (valueToInt v) := by
  cases v with
  | int i => exact .pure
  | float i => exact .lift
  | str id =>
    show Pres P (getString id >>= fun s => match s with | some s => Pure.pure (atoi32 s) | none => Pure.pure 0)
    pres
  | obj i => exact .pure
  | nil => exact .pure
  | fn i => exact Pres.bind (addError_pres f) fun _ => .pure
  | bad i j => exact Pres.bind (addError_pres f) fun _ => .pure
macro_rules | `(tactic| pres_step) => `(tactic| with_reducible exact valueToInt_pres ‹_›)
theorem valueToFloat_pres {F : FloatOps} {v : Value} : Pres P (valueToFloat F v) := by
  cases v with
  | int i => exact .pure
  | float i => exact .pure
  | str id =>
    show Pres P (getString id >>= fun s => match s with | some s => Pure.pure (F.atof s) | none => Pure.pure 0)
    pres
  | nil => exact .pure
  | obj i => exact Pres.bind (addError_pres f) fun _ => .pure
  | fn i => exact Pres.bind (addError_pres f) fun _ => .pure
  | bad i j => exact Pres.bind (addError_pres f) fun _ => .pure
macro_rules | `(tactic| pres_step) => `(tactic| with_reducible exact valueToFloat_pres ‹_›)
theorem compareBody_pres {F : FloatOps} {a b : Value} : Pres P (compareBody F a b) := by unfold compareBody; pres
macro_rules | `(tactic| pres_step) => `(tactic| with_reducible exact compareBody_pres ‹_›)
theorem valueCompare_pres {F : FloatOps} {a b : Value} {s : Bool} : Pres P (valueCompare F a b s) := by
  unfold valueCompare; pres
macro_rules | `(tactic| pres_step) => `(tactic| with_reducible exact valueCompare_pres ‹_›)

theorem setObj_pres {i : Nat} {o : Obj} : Pres P (setObj i o) := ⟨fun vm a vm' hp e => by
  unfold setObj at e
  split at e
  · cases e; exact f.obj vm _ hp
  · cases e⟩
macro_rules | `(tactic| pres_step) => `(tactic| with_reducible exact setObj_pres ‹_›)
theorem createObject_pres : Pres P createObject := by
  unfold createObject
  refine Pres.bind .get fun vm => ?_
  refine Pres.bind .lift fun r => ?_
  dsimp only
  split
  · pres
  · exact Pres.bind (Pres.modify fun v => f.newo v _ _) fun _ => .pure
macro_rules | `(tactic| pres_step) => `(tactic| with_reducible exact createObject_pres ‹_›)
theorem findElem_pres {F : FloatOps} {key : Value} {l : List (Value × Value)} {n : Nat} :
    Pres P (findElem F key l n) := by
  induction l generalizing n with
  | nil => exact .pure
  | cons e es ih =>
    obtain ⟨a, b⟩ := e
    unfold findElem
    refine Pres.bind (valueCompare_pres f) fun c => ?_
    split
    · exact .pure
    · exact ih
macro_rules | `(tactic| pres_step) => `(tactic| with_reducible exact findElem_pres ‹_›)
theorem bucketOf_pres {key : Value} : Pres P (bucketOf key) := by unfold bucketOf; pres
macro_rules | `(tactic| pres_step) => `(tactic| with_reducible exact bucketOf_pres ‹_›)
theorem clearEntry_pres {F : FloatOps} {id : Nat} {key : Value} : Pres P (clearEntry F id key) := by
  unfold clearEntry; pres
macro_rules | `(tactic| pres_step) => `(tactic| with_reducible exact clearEntry_pres ‹_›)
theorem findOrAddEntry_pres {F : FloatOps} {id : Nat} {key : Value} {b : Bool} :
    Pres P (findOrAddEntry F id key b) := by
  unfold findOrAddEntry; pres
macro_rules | `(tactic| pres_step) => `(tactic| with_reducible exact findOrAddEntry_pres ‹_›)
theorem readElem_pres {id : Nat} {p : Nat × Nat} : Pres P (readElem id p) := by unfold readElem; pres
macro_rules | `(tactic| pres_step) => `(tactic| with_reducible exact readElem_pres ‹_›)
theorem writeElem_pres {id : Nat} {p : Nat × Nat} {v : Value} : Pres P (writeElem id p v) := by unfold writeElem; pres
macro_rules | `(tactic| pres_step) => `(tactic| with_reducible exact writeElem_pres ‹_›)
theorem lookupField_pres {F : FloatOps} {id : Nat} {key : Value} : Pres P (lookupField F id key) := by
  unfold lookupField; pres
macro_rules | `(tactic| pres_step) => `(tactic| with_reducible exact lookupField_pres ‹_›)
theorem storeField_pres {F : FloatOps} {id : Nat} {key v : Value} : Pres P (storeField F id key v) := by
  unfold storeField; pres
macro_rules | `(tactic| pres_step) => `(tactic| with_reducible exact storeField_pres ‹_›)
theorem objFromValue_pres {v : Value} : Pres P (objFromValue v) := by unfold objFromValue; pres
macro_rules | `(tactic| pres_step) => `(tactic| with_reducible exact objFromValue_pres ‹_›)
theorem lookupPublic_pres {F : FloatOps} {v k : Value} : Pres P (lookupPublic F v k) := by unfold lookupPublic; pres
macro_rules | `(tactic| pres_step) => `(tactic| with_reducible exact lookupPublic_pres ‹_›)
theorem objectSize_pres {v : Value} : Pres P (objectSize v) := by unfold objectSize; pres
macro_rules | `(tactic| pres_step) => `(tactic| with_reducible exact objectSize_pres ‹_›)
theorem getExtType_pres {v : Value} : Pres P (getExtType v) := by unfold getExtType; pres
macro_rules | `(tactic| pres_step) => `(tactic| with_reducible exact getExtType_pres ‹_›)
theorem getExtData_pres {v : Value} : Pres P (getExtData v) := by unfold getExtData; pres
macro_rules | `(tactic| pres_step) => `(tactic| with_reducible exact getExtData_pres ‹_›)
theorem setExtType_pres {v : Value} {t : Nat} : Pres P (setExtType v t) := by unfold setExtType; pres
macro_rules | `(tactic| pres_step) => `(tactic| with_reducible exact setExtType_pres ‹_›)
theorem setExtData_pres {v : Value} {t : Nat} : Pres P (setExtData v t) := by unfold setExtData; pres
macro_rules | `(tactic| pres_step) => `(tactic| with_reducible exact setExtData_pres ‹_›)
theorem clearExt_pres {v : Value} : Pres P (clearExt v) := by unfold clearExt; pres
macro_rules | `(tactic| pres_step) => `(tactic| with_reducible exact clearExt_pres ‹_›)

/-! ## Instructions -/

theorem intOp_pres {g : Int → Int → Int} {a b : BitVec 32} : Pres P (intOp g a b) := by unfold intOp; pres
macro_rules | `(tactic| pres_step) => `(tactic| with_reducible exact intOp_pres ‹_›)

variable {F : FloatOps} {H : Host}

theorem opAdd_pres : Pres P (opAdd F) := by unfold opAdd; pres
theorem opSub_pres : Pres P (opSub F) := by unfold opSub; pres
theorem opMul_pres : Pres P (opMul F) := by unfold opMul; pres
theorem opDiv_pres : Pres P (opDiv F) := by unfold opDiv; pres
theorem opMod_pres : Pres P opMod := by unfold opMod; pres
theorem opNeg_pres : Pres P opNeg := by unfold opNeg; pres
theorem opPushLiteral_pres {mk : BitVec 32 → Value} : Pres P (opPushLiteral mk) := by unfold opPushLiteral; pres
theorem opPopN_pres : Pres P opPopN := by unfold opPopN; pres
theorem opStackPeek_pres : Pres P opStackPeek := by unfold opStackPeek; pres
theorem opStackPoke_pres : Pres P opStackPoke := by unfold opStackPoke; pres
theorem opStaticPeek_pres : Pres P opStaticPeek := by unfold opStaticPeek; pres
theorem opStaticPoke_pres : Pres P opStaticPoke := by
  unfold opStaticPoke
  refine Pres.bind (pop_pres f) fun v => ?_
  split
  · refine Pres.bind .curStack fun s => Pres.bind (peek_pres f) fun x => Pres.bind .get fun vm => ?_
    dsimp only
    split
    · exact Pres.modify fun v => f.stat v _
    · exact .lift
  · pres
theorem opJump_pres : Pres P opJump := by unfold opJump; pres
theorem opJz_pres : Pres P opJz := by unfold opJz; pres
theorem shiftArgs_pres {b n : Nat} : Pres P (shiftArgs b n) := by
  induction n with
  | zero => exact .pure
  | succ n ih => unfold shiftArgs; pres
macro_rules | `(tactic| pres_step) => `(tactic| with_reducible exact shiftArgs_pres ‹_›)
theorem resolveCallable_pres {r n : Nat} {v : Value} : Pres P (resolveCallable F r n v) := by
  induction r generalizing n v with
  | zero => unfold resolveCallable; split <;> pres
  | succ r ih =>
    cases v with
    | obj id =>
      rw [resolveCallable]
      refine Pres.bind (findOrAddString_pres f) fun _ => Pres.bind (lookupPublic_pres f) fun a =>
        Pres.bind (findOrAddString_pres f) fun _ => Pres.bind (lookupPublic_pres f) fun b => ?_
      split
      · split
        · exact .pure
        · exact ih
      · split
        · pres
        · refine Pres.bind (pushSlot_pres f) fun _ => Pres.bind .curStack fun _ => Pres.bind (shiftArgs_pres f) fun _ =>
            Pres.bind (poke_pres f) fun _ => Pres.bind (poke_pres f) fun _ => ?_
          split
          · exact .pure
          · exact ih
    | _ => exact .pure
macro_rules | `(tactic| pres_step) => `(tactic| with_reducible exact resolveCallable_pres ‹_›)
theorem copyArgs_pres {b i n : Nat} : Pres P (copyArgs b i n) := by
  induction n generalizing i with
  | zero => exact .pure
  | succ n ih => rw [copyArgs]; exact Pres.bind (peek_pres f) fun _ => Pres.bind ih fun _ => .pure
macro_rules | `(tactic| pres_step) => `(tactic| with_reducible exact copyArgs_pres ‹_›)
theorem checkArgs_pres {e : ExtFunc} {i : Nat} {l : List Value} : Pres P (checkArgs e i l) := by
  induction l generalizing i with
  | nil => exact .pure
  | cons v l ih =>
    rw [checkArgs]
    split
    · exact .lift
    · split
      · exact ih
      · split
        · pres
        · split
          · split
            · exact .lift
            · refine Pres.bind .getObj fun o => ?_
              split
              · pres
              · split
                · pres
                · exact ih
          · exact ih
macro_rules | `(tactic| pres_step) => `(tactic| with_reducible exact checkArgs_pres ‹_›)
theorem callNative_pres (hH : ∀ cb args, Pres P (H.call cb args)) {e n : Nat} : Pres P (callNative H e n) := by
  unfold callNative
  refine Pres.bind .get fun vm => ?_
  split
  · pres
  · split
    · pres
    · refine Pres.bind .curStack fun s => Pres.bind (copyArgs_pres f) fun args => Pres.bind ?_ fun b => ?_
      · pres
      · split
        · exact Pres.bind (hH _ _) fun r => Pres.bind (popN_pres f) fun _ => push_pres f
        · exact .pure
theorem opCall_pres (hH : ∀ cb args, Pres P (H.call cb args)) : Pres P (opCall F H) := by
  unfold opCall
  refine Pres.bind .curStack fun s => Pres.bind (peek_pres f) fun _ => Pres.bind (valueToInt_pres f) fun _ =>
    Pres.bind (peek_pres f) fun _ => Pres.bind (resolveCallable_pres f) fun r => ?_
  split
  · exact .pure
  · refine Pres.bind .get fun vm => ?_
    split
    · pres
    · split
      · pres
      · split
        · exact callNative_pres f hH
        · pres
  · pres
theorem opEnd_pres : Pres P opEnd := by unfold opEnd; pres
theorem popCompare_pres : Pres P (popCompare F) := by unfold popCompare; pres
macro_rules | `(tactic| pres_step) => `(tactic| with_reducible exact popCompare_pres ‹_›)
theorem opCompare_pres {p : Int → Bool} : Pres P (opCompare F p) := by unfold opCompare; pres
theorem opEqSameType_pres : Pres P (opEqSameType F) := by unfold opEqSameType; pres
theorem opNot_pres : Pres P opNot := by unfold opNot; pres
theorem opAnd_pres : Pres P opAnd := by unfold opAnd; pres
theorem opOr_pres : Pres P opOr := by unfold opOr; pres
theorem opCreateObject_pres : Pres P opCreateObject := by unfold opCreateObject; pres
theorem opFieldGet_pres {b : Bool} : Pres P (opFieldGet F b) := by unfold opFieldGet; pres
theorem opFieldSet_pres : Pres P (opFieldSet F) := by unfold opFieldSet; pres
theorem opPrepareSelfCall_pres : Pres P opPrepareSelfCall := by unfold opPrepareSelfCall; pres
theorem opLen_pres : Pres P opLen := by unfold opLen; pres
theorem opIsFinished_pres : Pres P opIsFinished := by unfold opIsFinished; pres
theorem pushAll_pres {l : List Value} : Pres P (pushAll l) := by
  induction l with
  | nil => exact .pure
  | cons v l ih => exact Pres.bind (push_pres f) fun _ => ih

end

/-! ## Switching contexts -/

/-- Closed under the changes made by collections. -/
structure GCFrame (P : VM → Prop) : Prop where
  err : ∀ vm e, P vm → P { vm with errors := vm.errors ++ [e] }
  str : ∀ vm t b, StrStep vm.strings t → P vm → P { vm with strings := t, sbuckets := b }
  obj : ∀ vm t, P vm → P { vm with objects := t }
  newo : ∀ vm t g, P vm → P { vm with objects := t, gc := { vm.gc with newObjCountdown := g } }
  free : ∀ vm k, P vm → P { vm with ctxs := vm.ctxs.set k none }
  pass : ∀ vm n, P vm → P { vm with gc := { vm.gc with lastGCPass := n } }
  log : ∀ vm l, P vm → P { vm with cleanupLog := l }

/-- Closed under the changes made by creating, resuming, leaving and finishing coroutines and by collections. -/
structure CoFrame (P : VM → Prop) : Prop extends Frame P where
  finish : ∀ vm c i, ctxAt vm vm.cur = .ok c → P vm →
    P { vm with ctxs := vm.ctxs.set vm.cur (some { c with state := .finished, ip := i }) }
  popc : ∀ vm c p, ctxAt vm vm.cur = .ok c → c.parent = some p → P vm →
    P { vm with ctxs := vm.ctxs.set vm.cur (some { c with parent := none }), cur := p }
  pushc : ∀ vm k c, ctxAt vm k = .ok c → c.parent = none → c.state ≠ .finished ∧ c.state ≠ .invalid → P vm →
    P { vm with ctxs := vm.ctxs.set k (some { c with parent := some vm.cur }), cur := k }
  start : ∀ vm c, ctxAt vm vm.cur = .ok c → c.state = .created → P vm →
    P { vm with ctxs := vm.ctxs.set vm.cur (some { c with state := .running }) }
  newc : ∀ vm c, c.parent = none → c.state = .created → P vm → P { vm with ctxs := vm.ctxs ++ [some c] }
  free : ∀ vm k, P vm → P { vm with ctxs := vm.ctxs.set k none }
  pass : ∀ vm n, P vm → P { vm with gc := { vm.gc with lastGCPass := n } }
  log : ∀ vm l, P vm → P { vm with cleanupLog := l }

theorem Frame.and {Q : VM → Prop} (f : Frame P) (g : Frame Q) : Frame (fun vm => P vm ∧ Q vm) :=
  ⟨fun vm e h => ⟨f.err vm e h.1, g.err vm e h.2⟩, fun vm t b hs h => ⟨f.str vm t b hs h.1, g.str vm t b hs h.2⟩,
   fun vm t h => ⟨f.obj vm t h.1, g.obj vm t h.2⟩, fun vm t n h => ⟨f.newo vm t n h.1, g.newo vm t n h.2⟩,
   fun vm c c' h1 h2 h3 h4 h => ⟨f.ctx vm c c' h1 h2 h3 h4 h.1, g.ctx vm c c' h1 h2 h3 h4 h.2⟩,
   fun vm l h => ⟨f.stat vm l h.1, g.stat vm l h.2⟩⟩

/-- Context `k`, if there is one, is not active and not finished. -/
def Fresh (k : Nat) (vm : VM) : Prop :=
  ∀ c : Ctx, vm.ctxs[k]? = some (some c) → c.parent = none ∧ c.state = .created

theorem fresh_frame (k : Nat) : Frame (Fresh k) := by
  refine ⟨fun vm e h => h, fun vm t b _ h => h, fun vm t h => h, fun vm t g h => h, ?_, fun vm l h => h⟩
  intro vm c c' hc hp _ hs h d hd
  have hd : (vm.ctxs.set vm.cur (some c'))[k]? = some (some d) := hd
  by_cases hk : vm.cur = k
  · subst hk
    rw [List.getElem?_set_self (List.getElem?_eq_some_iff.mp (ctxAt_iff.mp hc)).1] at hd
    cases hd
    rw [hp, hs]; exact h c (ctxAt_iff.mp hc)
  · rw [List.getElem?_set_ne hk] at hd
    exact h d hd

theorem cur_frame (k : Nat) : Frame (fun vm => vm.cur = k) :=
  ⟨fun _ _ h => h, fun _ _ _ _ h => h, fun _ _ h => h, fun _ _ _ h => h, fun _ _ _ _ _ _ _ h => h, fun _ _ h => h⟩

/-- A step from `P`-states to `Q`-states. -/
structure Tri (P : VM → Prop) (m : M α) (Q : VM → Prop) : Prop where
  run : ∀ vm a vm', P vm → m vm = .ok (a, vm') → Q vm'

theorem Tri.pres {m : M α} (h : Tri P m P) : Pres P m := ⟨h.run⟩

theorem Pres.tri {m : M α} (h : Pres P m) : Tri P m P := ⟨h.run⟩

theorem Tri.pre {m : M α} {P P' Q : VM → Prop} (h : Tri P m Q) (hp : ∀ v, P' v → P v) : Tri P' m Q :=
  ⟨fun vm a vm' h1 e => h.run vm a vm' (hp vm h1) e⟩

theorem Tri.bind {m : M α} {f : α → M β} {P Q R : VM → Prop} (h1 : Tri P m R) (h2 : ∀ a, Tri R (f a) Q) :
    Tri P (m >>= f) Q := ⟨fun vm a vm' hp e => by
  cases hm : m vm with
  | ub k => rw [M.bind_ub hm] at e; cases e
  | ok p => rw [M.bind_ok hm] at e; exact (h2 _).run _ _ _ (h1.run _ _ _ hp hm) e⟩

theorem Tri.get {f : VM → M α} {P Q : VM → Prop} (h : ∀ vm, Tri (fun v => P v ∧ v = vm) (f vm) Q) :
    Tri P (Nk.get >>= f) Q := ⟨fun vm a vm' hp e => (h vm).run vm a vm' ⟨hp, rfl⟩ (by rwa [M.bind_ok (get_run vm)] at e)⟩

theorem Tri.modify {g : VM → VM} {f : Unit → M α} {P Q : VM → Prop}
    (h : Tri (fun v => ∃ w, P w ∧ v = g w) (f ()) Q) : Tri P (Nk.modify g >>= f) Q :=
  ⟨fun vm a vm' hp e => h.run (g vm) a vm' ⟨vm, hp, rfl⟩ (by rwa [M.bind_ok (modify_run g vm)] at e)⟩

theorem CoFrame.gc (f : CoFrame P) : GCFrame P := ⟨f.err, f.str, f.obj, f.newo, f.free, f.pass, f.log⟩

section
variable (f : CoFrame P)
include f

theorem popContext_pres : Pres P popContext := ⟨fun vm a vm' hp e => by
  unfold popContext at e
  rw [M.bind_ok (get_run vm)] at e
  cases hc : ctxAt vm vm.cur with
  | ub k =>
    have : curCtx vm = .ub k := by unfold curCtx; rw [hc]
    rw [M.bind_ub this] at e; cases e
  | ok c =>
    have : curCtx vm = .ok (c, vm) := by unfold curCtx; rw [hc]
    rw [M.bind_ok this] at e
    cases hpar : c.parent with
    | none => rw [hpar] at e; cases e; exact f.err vm _ hp
    | some p =>
      rw [hpar] at e
      have : setCtx vm.cur { c with parent := none } vm =
          .ok ((), { vm with ctxs := vm.ctxs.set vm.cur (some { c with parent := none }) }) := by
        unfold setCtx; rw [hc]
      dsimp only at e
      rw [M.bind_ok this] at e
      cases e
      exact f.popc vm c p hc hpar hp⟩

omit f in
theorem pushContext_cases {vm vm' : VM} {k : Nat} {a : Unit} (e : pushContext k vm = .ok (a, vm')) :
    ∃ c, ctxAt vm k = .ok c ∧ ((c.parent ≠ none ∧ vm' = { vm with errors := vm.errors ++
      ["Cannot switch to an already-active coroutine.\n"] }) ∨ (c.parent = none ∧
      vm' = { vm with ctxs := vm.ctxs.set k (some { c with parent := some vm.cur }), cur := k })) := by
  unfold pushContext at e
  rw [M.bind_ok (get_run vm)] at e
  cases hc : ctxAt vm k with
  | ub u =>
    rw [hc, M.bind_ub (liftR_ub _ _)] at e; cases e
  | ok c =>
    rw [hc, M.bind_ok (liftR_ok _ _)] at e
    refine ⟨c, rfl, ?_⟩
    cases hpar : c.parent with
    | some p => rw [hpar] at e; cases e; exact .inl ⟨by simp, rfl⟩
    | none =>
      rw [hpar] at e
      have : setCtx k { c with parent := some vm.cur } vm =
          .ok ((), { vm with ctxs := vm.ctxs.set k (some { c with parent := some vm.cur }) }) := by
        unfold setCtx; rw [hc]
      dsimp only at e
      rw [M.bind_ok this] at e
      cases e
      exact .inr ⟨rfl, rfl⟩

theorem freeCtx_pres {d : Option Nat} : Pres P (freeCtx d) := ⟨fun vm a vm' hp e => by
  unfold freeCtx at e
  split at e
  · cases e; exact hp
  · split at e
    · cases e; exact f.free vm _ hp
    · cases e⟩

theorem opReturn_pres : Pres P opReturn := by
  have g := f.toFrame
  unfold opReturn
  refine Pres.bind (pop_pres g) fun _ => Pres.bind (pop_pres g) fun _ => Pres.bind (valueToInt_pres g) fun _ =>
    Pres.bind (popN_pres g) fun _ => Pres.bind (pop_pres g) fun _ => Pres.bind (valueToInt_pres g) fun _ =>
    Pres.bind (pop_pres g) fun _ => Pres.bind (valueToInt_pres g) fun _ => Pres.bind (popN_pres g) fun _ =>
    Pres.bind (pop_pres g) fun _ => ?_
  split
  · refine Pres.bind ⟨fun vm a vm' hp e => ?_⟩ fun _ => Pres.bind (popContext_pres f) fun _ => push_pres g
    unfold modCur at e
    split at e
    · next c hc => cases e; exact f.finish vm c _ hc hp
    · cases e
  · pres

theorem opYield_pres : Pres P opYield := by
  have g := f.toFrame
  unfold opYield
  refine Pres.bind .get fun vm => ?_
  split
  · pres
  · exact Pres.bind (pop_pres g) fun _ => Pres.bind (popContext_pres f) fun _ => push_pres g

omit f in
/-- Resuming a context that is neither finished nor active makes it the running one. -/
theorem resumeCtx_switch {vm : VM} {k : Nat} {c : Ctx} (v : Value) (hc : ctxAt vm k = .ok c) (hpar : c.parent = none) :
    (c.state = .created → resumeCtx k v vm = .ok ((), { vm with
      ctxs := vm.ctxs.set k (some { c with parent := some vm.cur, state := .running }), cur := k })) ∧
    (c.state = .running → resumeCtx k v vm = push v { vm with
      ctxs := vm.ctxs.set k (some { c with parent := some vm.cur }), cur := k }) := by
  have hlt := (List.getElem?_eq_some_iff.mp (ctxAt_iff.mp hc)).1
  have hpush : pushContext k vm = .ok ((), { vm with
      ctxs := vm.ctxs.set k (some { c with parent := some vm.cur }), cur := k }) := by
    unfold pushContext
    rw [M.bind_ok (get_run vm), hc, M.bind_ok (liftR_ok _ _), hpar]
    have : setCtx k { c with parent := some vm.cur } vm =
        .ok ((), { vm with ctxs := vm.ctxs.set k (some { c with parent := some vm.cur }) }) := by
      unfold setCtx; rw [hc]
    dsimp only
    rw [M.bind_ok this]; rfl
  constructor
  · intro hst
    unfold resumeCtx
    rw [M.bind_ok (get_run vm), hc, M.bind_ok (liftR_ok _ _), hst]
    simp only [hpar]
    rw [M.bind_ok hpush]
    have hc1 : ctxAt { vm with ctxs := vm.ctxs.set k (some { c with parent := some vm.cur }), cur := k } k =
        .ok { c with parent := some vm.cur } := ctxAt_iff.mpr (List.getElem?_set_self hlt)
    rw [M.bind_ok (get_run _), hc1, M.bind_ok (liftR_ok _ _)]
    unfold setCtx
    rw [hc1]
    simp only [List.set_set]
  · intro hst
    unfold resumeCtx
    rw [M.bind_ok (get_run vm), hc, M.bind_ok (liftR_ok _ _), hst]
    simp only [hpar]
    rw [M.bind_ok hpush, hst]

theorem resumeCtx_pres {k : Nat} {v : Value} : Pres P (resumeCtx k v) := ⟨fun vm a vm' hp e => by
  have g := f.toFrame
  have he := e
  unfold resumeCtx at e
  rw [M.bind_ok (get_run vm)] at e
  cases hc : ctxAt vm k with
  | ub u =>
    rw [hc, M.bind_ub (liftR_ub _ _)] at e; cases e
  | ok c =>
    rw [hc, M.bind_ok (liftR_ok _ _)] at e
    cases hpar : c.parent with
    | some p =>
      cases hst : c.state <;> rw [hst] at e <;> dsimp only at e <;> try rw [hpar] at e
      · exact (addError_pres g).run _ _ _ hp e
      · exact (addError_pres g).run _ _ _ hp e
      · exact (addError_pres g).run _ _ _ hp e
      · exact (push_pres g).run _ _ _ hp e
    | none =>
      cases hst : c.state with
      | invalid => rw [hst] at e; exact (addError_pres g).run _ _ _ hp e
      | finished => rw [hst] at e; exact (push_pres g).run _ _ _ hp e
      | created =>
        rw [(resumeCtx_switch v hc hpar).1 hst] at he
        cases he
        have hlt := (List.getElem?_eq_some_iff.mp (ctxAt_iff.mp hc)).1
        have h1 := f.pushc vm k c hc hpar (by rw [hst]; decide) hp
        have h2 : ctxAt { vm with ctxs := vm.ctxs.set k (some { c with parent := some vm.cur }), cur := k } k =
            .ok { c with parent := some vm.cur } := ctxAt_iff.mpr (List.getElem?_set_self hlt)
        have := f.start _ _ h2 hst h1
        simpa only [List.set_set] using this
      | running =>
        rw [(resumeCtx_switch v hc hpar).2 hst] at he
        exact (push_pres g).run _ _ _ (f.pushc vm k c hc hpar (by rw [hst]; decide) hp) he⟩

theorem opResume_pres : Pres P opResume := by
  have g := f.toFrame
  unfold opResume
  refine Pres.bind (pop_pres g) fun v => Pres.bind (pop_pres g) fun co => Pres.bind .get fun vm =>
    Pres.bind (getExtType_pres g) fun t => ?_
  split
  · pres
  · refine Pres.bind (getExtData_pres g) fun d => ?_
    split
    · exact .lift
    · exact resumeCtx_pres f

variable {F : FloatOps} {H : Host}

theorem opCoroutineCreate_pres (hH : ∀ cb args, Pres P (H.call cb args)) : Pres P (opCoroutineCreate F H) := by
  have g := f.toFrame
  unfold opCoroutineCreate
  refine Pres.bind (pop_pres g) fun ac => Pres.bind (valueToInt_pres g) fun argc => ?_
  split
  · pres
  refine Pres.bind .curStack fun s => ?_
  split
  · pres
  split
  · pres
  refine Pres.bind (popN_pres g) fun _ => Pres.bind (pop_pres g) fun fv => Pres.bind (pushSlot_pres g) fun slot =>
    Pres.bind (createObject_pres g) fun id => Pres.bind (pokeAt_pres g) fun _ => ?_
  refine Tri.pres (Tri.get fun vm => Tri.modify ?_)
  refine Tri.pre (P := fun v => P v ∧ Fresh vm.ctxs.length v) ?_ ?_
  rotate_left
  · rintro v ⟨w, ⟨hp, rfl⟩, rfl⟩
    refine ⟨f.newc _ _ rfl rfl hp, ?_⟩
    intro c hc
    have hc : (w.ctxs ++ [some (newCtx id)])[w.ctxs.length]? = some (some c) := hc
    rw [ctxs_append] at hc
    simp at hc
    subst hc; exact ⟨rfl, rfl⟩
  generalize vm.ctxs.length = k
  have gP : Frame (fun v => P v ∧ Fresh k v) := g.and (fresh_frame k)
  have gC : Frame (fun v => P v ∧ v.cur = k) := g.and (cur_frame k)
  refine Tri.bind (setExtType_pres gP).tri fun ok1 => Tri.bind (Pres.tri ?_) fun ok2 => ?_
  · split
    · exact setExtData_pres gP
    · exact .pure
  split
  · refine Tri.bind (R := fun v => P v ∧ v.cur = k) ⟨fun v a v' hp e => ?_⟩ fun _ =>
      Tri.bind (push_pres gC).tri fun _ => Tri.bind (pushAll_pres gC).tri fun _ =>
      Tri.bind (pushInt_pres gC).tri fun _ => Tri.bind (R := P) ⟨fun v a v' hp e => ?_⟩ fun _ =>
      Tri.bind (opCall_pres g hH).tri fun _ => (popContext_pres f).tri
    · obtain ⟨c, hc, hcase⟩ := pushContext_cases e
      obtain ⟨h1, h2⟩ := hp.2 c (ctxAt_iff.mp hc)
      rcases hcase with ⟨h, _⟩ | ⟨_, h⟩
      · exact absurd h1 h
      · rw [h]; exact ⟨f.pushc v k c hc h1 (by rw [h2]; decide) hp.1, rfl⟩
    · obtain ⟨hp, hk⟩ := hp
      subst hk
      split at e
      · next c hc => cases e; exact f.ctx v c _ hc rfl rfl rfl hp
      · cases e
  · exact Tri.bind (clearExt_pres gP).tri fun _ => Tri.bind (R := P)
      ((freeCtx_pres f).tri.pre fun v h => h.1) fun _ => (addError_pres g).tri

/-- Every instruction preserves what the elementary changes preserve. -/
theorem dispatch_pres (hH : ∀ cb args, Pres P (H.call cb args)) (op : Nat) : Pres P (dispatch F H op) := by
  have g := f.toFrame
  unfold dispatch
  split
  · exact opAdd_pres g
  · exact opSub_pres g
  · exact opMul_pres g
  · exact opDiv_pres g
  · exact opNeg_pres g
  · exact opMod_pres g
  · exact opPushLiteral_pres g
  · exact opPushLiteral_pres g
  · exact opPushLiteral_pres g
  · exact opPushLiteral_pres g
  · exact Pres.bind (pop_pres g) fun _ => .pure
  · exact opPopN_pres g
  · exact opStackPeek_pres g
  · exact opStackPoke_pres g
  · exact opStaticPoke_pres g
  · exact opStaticPeek_pres g
  · exact opJump_pres g
  · exact opCall_pres g hH
  · exact opReturn_pres f
  · exact opEnd_pres g
  · exact opJz_pres g
  · exact opCompare_pres g
  · exact opCompare_pres g
  · exact opCompare_pres g
  · exact opCompare_pres g
  · exact opCompare_pres g
  · exact opCompare_pres g
  · exact opEqSameType_pres g
  · exact opNot_pres g
  · exact opAnd_pres g
  · exact opOr_pres g
  · exact opCreateObject_pres g
  · exact opFieldGet_pres g
  · exact opFieldSet_pres g
  · exact opFieldGet_pres g
  · exact opPrepareSelfCall_pres g
  · exact push_pres g
  · exact opCoroutineCreate_pres f hH
  · exact opYield_pres f
  · exact opResume_pres f
  · exact opIsFinished_pres g
  · exact opLen_pres g
  · exact .pure

theorem execute_pres (hH : ∀ cb args, Pres P (H.call cb args)) (op : Nat) : Pres P (execute F H op) :=
  Pres.bind (dispatch_pres f hH op) fun _ => modCur_pres f.toFrame (fun _ => rfl) (fun _ => rfl) fun _ => rfl

end

/-! ## Collections -/

section
variable (f : GCFrame P) {H : Host}
include f

theorem freeCtx_gc {d : Option Nat} : Pres P (freeCtx d) := ⟨fun vm a vm' hp e => by
  unfold freeCtx at e
  split at e
  · cases e; exact hp
  · split at e
    · cases e; exact f.free vm _ hp
    · cases e⟩

theorem markString_pres {p i : Nat} : Pres P (markString p i) := by
  refine ⟨fun vm a vm' hp e => ?_⟩
  unfold markString at e
  rw [M.bind_eq] at e
  unfold getStrEntry at e
  cases hg : vm.strings.get i with
  | ub k => rw [hg] at e; cases e
  | ok r =>
    rw [hg] at e
    cases r with
    | none => cases e; exact f.err vm _ hp
    | some x =>
      dsimp only at e
      cases hw : vm.strings.write i (some { x with lastGCPass := p }) with
      | ub k => rw [hw] at e; cases e
      | ok t =>
        rw [hw] at e
        cases e
        refine f.str vm t _ (fun h => ?_) hp
        rw [Table.get_eq h] at hg
        have hx : vm.strings.entry i = some x := Res.ok.inj hg
        obtain ⟨w1, w2, w3⟩ := Table.write_live h hx { x with lastGCPass := p }
        rw [w1] at hw
        cases hw
        refine ⟨w2, fun id e he hd => ?_⟩
        rw [w3]
        by_cases hid : id = i
        · subst hid
          rw [hx] at he
          cases he
          exact ⟨_, if_pos rfl, rfl, hd⟩
        · exact ⟨e, by rw [if_neg hid]; exact he, rfl, hd⟩

theorem markValue_pres {p : Nat} {o : List Nat} {v : Value} : Pres P (markValue p o v) := by
  unfold markValue gcAddObject
  split
  · refine Pres.bind .getObj fun o => ?_
    split
    · exact .pure
    · exact Pres.bind (.modify fun vm h => f.err vm _ h) fun _ => .pure
  · exact Pres.bind (markString_pres f) fun _ => .pure
  · exact .pure

theorem markValues_pres {p : Nat} {l : List Value} : ∀ {o : List Nat}, Pres P (markValues p o l) := by
  induction l with
  | nil => exact .pure
  | cons v l ih => exact Pres.bind (markValue_pres f) fun _ => ih

theorem markObject_pres {p i : Nat} {o : List Nat} : Pres P (markObject H p i o) := by
  unfold markObject
  refine Pres.bind .get fun vm => ?_
  split
  · split
    · exact .pure
    · exact Pres.bind ⟨fun vm a vm' hp e => by
        unfold setObj at e
        split at e
        · cases e; exact f.obj vm _ hp
        · cases e⟩ fun _ => Pres.bind .lift fun _ => markValues_pres f
  · exact .lift

theorem markReferenced_pres {p n : Nat} : ∀ {o : List Nat}, Pres P (markReferenced H p n o) := by
  induction n with
  | zero => intro o; cases o <;> (unfold markReferenced; first | exact .pure | exact .lift)
  | succ n ih =>
    intro o
    cases o with
    | nil => unfold markReferenced; exact .pure
    | cons i o => exact Pres.bind (markObject_pres f) fun _ => ih

theorem markHandles_pres {p : Nat} {l : List Nat} : ∀ {o : List Nat}, Pres P (markHandles H p o l) := by
  induction l with
  | nil => exact .pure
  | cons v l ih => exact Pres.bind (markObject_pres f) fun _ => ih

theorem gcMark_pres {p : Nat} : Pres P (gcMark H p) :=
  Pres.bind .get fun _ => Pres.bind (markHandles_pres f) fun _ => Pres.bind .lift fun _ =>
    Pres.bind (markValues_pres f) fun _ => Pres.bind .curCtx fun _ => Pres.bind (markValue_pres f) fun _ =>
    Pres.bind .lift fun _ => Pres.bind (markValues_pres f) fun _ => Pres.bind .get fun _ => markReferenced_pres f

theorem sweepStrings_pres {p : Nat} {l : List Nat} : Pres P (sweepStrings p l) := by
  induction l with
  | nil => exact .pure
  | cons i l ih =>
    rw [sweepStrings]
    refine Pres.get_at fun vm a vm' hp e => ?_
    cases hs : vm.strings.slots[i]? with
    | none => rw [hs] at e; cases e
    | some o =>
    rw [hs] at e
    cases o with
    | none => cases e
    | some x =>
      dsimp only at e
      by_cases hc : p ≠ x.lastGCPass ∧ x.dontGC = false
      · rw [if_pos hc] at e
        cases he : vm.strings.erase i with
        | ub k => rw [he] at e; cases e
        | ok t =>
          rw [he] at e
          refine ih.run _ _ _ (f.str vm t vm.sbuckets (fun h => ?_) hp) e
          have hx : vm.strings.entry i = some x := by unfold Table.entry; rw [hs]; rfl
          obtain ⟨w1, w2, w3⟩ := Table.erase_live h hx
          rw [w1] at he
          cases he
          refine ⟨w2, fun id e he hd => ⟨e, ?_, rfl, hd⟩⟩
          rw [w3, if_neg (by rintro rfl; rw [hx] at he; cases he; rw [hc.2] at hd; cases hd)]
          exact he
      · rw [if_neg hc] at e
        exact (Pres.bind ih fun _ => Pres.pure).run _ _ _ hp e

theorem cleanOldStrings_pres {p n : Nat} : ∀ {i : Nat}, Pres P (cleanOldStrings p i n) := by
  induction n with
  | zero => exact .pure
  | succ n ih =>
    intro i
    rw [cleanOldStrings]
    refine Pres.bind .get fun vm => ?_
    split
    · exact .lift
    · exact Pres.bind (sweepStrings_pres f) fun l =>
        Pres.bind (.modify fun vm h => f.str vm vm.strings _ (.refl _) h) fun _ => ih

theorem cleanupObject_pres {i : Nat} {o : Obj} : Pres P (cleanupObject i o) := by
  unfold cleanupObject
  refine Pres.bind .get fun vm => ?_
  split
  · split
    · split
      · refine Pres.bind (.modify fun vm h => f.log vm _ h) fun _ => ?_
        split
        · exact freeCtx_gc f
        · exact .pure
      · exact .pure
    · exact .modify fun vm h => f.err vm _ h
  · exact .pure

theorem cleanOldObjects_pres {p n : Nat} : ∀ {i : Nat}, Pres P (cleanOldObjects p i n) := by
  induction n with
  | zero => exact .pure
  | succ n ih =>
    intro i
    rw [cleanOldObjects]
    refine Pres.bind .get fun vm => ?_
    split
    · exact .lift
    · exact ih
    · split
      · exact Pres.bind (cleanupObject_pres f) fun _ => Pres.bind .get fun _ => Pres.bind .lift fun t =>
          Pres.bind (.modify fun vm h => f.obj vm t h) fun _ => ih
      · exact ih

theorem garbageCollect_pres : Pres P (garbageCollect H) :=
  Pres.bind (.modify fun vm h => f.pass vm _ h) fun _ => Pres.bind .get fun _ => Pres.bind (gcMark_pres f) fun _ =>
    Pres.bind (cleanOldStrings_pres f) fun _ => Pres.bind .get fun _ => cleanOldObjects_pres f

theorem collectIfDue_pres : Pres P (collectIfDue H) := by
  unfold collectIfDue
  refine Pres.bind .get fun vm => ?_
  split
  · exact Pres.bind (garbageCollect_pres f) fun _ => .modify fun vm h => f.newo vm vm.objects _ h
  · exact .pure

end

section
variable (f : CoFrame P) {F : FloatOps} {H : Host}
include f

/-- One iteration preserves what the elementary changes and the bookkeeping of `nkiVmIterate` preserve. -/
theorem iterate_pres (hH : ∀ cb args, Pres P (H.call cb args)) (ht : ∀ vm, P vm → P (tick vm))
    (hc : ∀ vm, P vm → P (charge vm)) (hn : ∀ vm, P vm → P (noneLeft vm)) (hr : ∀ vm, P vm → P (resetCountdown vm)) :
    Pres P (iterate F H) := by
  unfold iterate iterateOp
  refine Pres.bind .curCtx fun c => Pres.bind .get fun vm => Pres.bind .lift fun w =>
    Pres.bind (.modify ht) fun _ => Pres.bind .get fun vm => ?_
  split
  · split
    · exact Pres.bind (addError_pres f.toFrame) fun _ => .modify hn
    · exact Pres.bind (.modify hc) fun _ => Pres.bind (collectIfDue_pres f.gc) fun _ =>
        Pres.bind (.modify hr) fun _ => execute_pres f hH _
  · exact execute_pres f hH _

end
end Nk
