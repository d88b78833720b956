import Verif.Props.Arith
import Verif.Lemmas.SafeOps
import Verif.Lemmas.Exec
import Verif.Spec.Sample
/-!
# C59 to C61: mixed arithmetic, jumps, access to stack slots and statics, and when collections happen

The numbers given to `dispatch` are those of `enum NKOpcode`, `src/nkenums.h`.
-/
namespace Nk.Props
variable (F : FloatOps) (H : Host)

/-! ## C59 -/

/-- The integer a value counts as when an integer is to its left: a float without its fraction, the number at the start
of a text, 1 for an object, 0 for nil. -/
inductive IntOf (vm : VM) : Value → BitVec 32 → Prop
  | int (i : BitVec 32) : IntOf vm (.int i) i
  | float {b k : BitVec 32} : isNaN b = false → k.toInt = (fval b).tdiv (2 ^ 149) → IntOf vm (.float b) k
  | str {id : Nat} {s : Bytes} : TextIs vm id s → IntOf vm (.str id) (atoi32 s)
  | obj (n : Nat) : IntOf vm (.obj n) 1
  | nil : IntOf vm .nil 0

/-- The float a value counts as when a float is to its left. -/
inductive FloatOf (vm : VM) : Value → BitVec 32 → Prop
  | int (i : BitVec 32) : FloatOf vm (.int i) (F.ofInt i)
  | float (b : BitVec 32) : FloatOf vm (.float b) b
  | str {id : Nat} {s : Bytes} : TextIs vm id s → FloatOf vm (.str id) (F.atof s)
  | nil : FloatOf vm .nil 0

/-- Truncation of a float, as the code does it, is the integer part of the number the float stands for. -/
theorem f2i_val {b k : BitVec 32} (hn : isNaN b = false) (hk : k.toInt = (fval b).tdiv (2 ^ 149)) : f2i b = .ok k := by
  have hlo := BitVec.le_toInt (x := k)
  have hhi := BitVec.toInt_lt (x := k)
  simp at hlo hhi
  have hb : b.toNat < 4294967296 := b.isLt
  have key : ∀ mag : Nat, ((fmag (b.toNat % 2147483648)) / 2 ^ 149 : Nat) = mag →
      (if -2147483648 ≤ (if 2147483648 ≤ b.toNat then -(mag : Int) else mag) ∧
        (if 2147483648 ≤ b.toNat then -(mag : Int) else mag) < 2147483648 then
        Res.ok (BitVec.ofInt 32 (if 2147483648 ≤ b.toNat then -(mag : Int) else mag)) else .ub .cast) = .ok k := by
    intro mag hm
    have hv : (if 2147483648 ≤ b.toNat then -(mag : Int) else mag) = k.toInt := by
      rw [hk, ← hm]
      unfold fval
      by_cases hs : b.toNat < 2147483648
      · rw [if_pos hs, if_neg (by omega)]
        rw [show ((2 : Int) ^ 149) = ((2 ^ 149 : Nat) : Int) by norm_cast, Int.ofNat_tdiv]
      · rw [if_neg hs, if_pos (by omega)]
        rw [show ((2 : Int) ^ 149) = ((2 ^ 149 : Nat) : Int) by norm_cast, Int.neg_tdiv, Int.ofNat_tdiv]
    rw [hv, if_pos ⟨hlo, hhi⟩, BitVec.ofInt_toInt]
  have he : b.toNat % 2147483648 / 8388608 = b.toNat / 8388608 % 256 := by omega
  have hm : b.toNat % 2147483648 % 8388608 = b.toNat % 8388608 := by omega
  have hm' : b.toNat % 8388608 < 8388608 := Nat.mod_lt _ (by decide)
  have hfm : fmag (b.toNat % 2147483648) = if b.toNat / 8388608 % 256 = 0 then b.toNat % 8388608 else
      (8388608 + b.toNat % 8388608) * 2 ^ (b.toNat / 8388608 % 256 - 1) := by
    unfold fmag
    rw [he, hm]
  unfold f2i
  by_cases h255 : b.toNat / 8388608 % 256 = 255
  · exfalso
    have hz : b.toNat % 8388608 = 0 := by
      simp only [isNaN, gt_iff_lt, decide_eq_false_iff_not] at hn
      omega
    have hf : fmag (b.toNat % 2147483648) = 8388608 * 2 ^ 254 := by
      rw [hfm, if_neg (by omega), h255, hz]
    have : (fval b).tdiv (2 ^ 149) = 2 ^ 128 ∨ (fval b).tdiv (2 ^ 149) = -2 ^ 128 := by
      unfold fval
      rw [hf]
      split
      · left; decide
      · right; decide
    have e128 : (2 : Int) ^ 128 = 340282366920938463463374607431768211456 := by norm_num
    rw [e128] at this
    omega
  · simp only [h255, if_false]
    refine key _ ?_
    rw [hfm]
    by_cases h0 : b.toNat / 8388608 % 256 = 0
    · rw [if_pos h0, if_pos h0]
      exact Nat.div_eq_of_lt (hm'.trans (by decide))
    · rw [if_neg h0, if_neg h0]
      generalize b.toNat / 8388608 % 256 = e at *
      generalize 8388608 + b.toNat % 8388608 = x at *
      by_cases h150 : 150 ≤ e
      · rw [if_pos h150, show e - 1 = (e - 150) + 149 by omega, Nat.pow_add, ← Nat.mul_assoc,
          Nat.mul_div_cancel _ (Nat.two_pow_pos _)]
      · rw [if_neg h150, show 149 = (150 - e) + (e - 1) by omega, Nat.pow_add,
          Nat.mul_div_mul_right _ _ (Nat.two_pow_pos _)]

theorem IntOf.run {vm : VM} (hs : StrWF vm) {v : Value} {i : BitVec 32} (h : IntOf vm v i) : valueToInt v vm = .ok (i, vm) := by
  cases h with
  | int => rfl
  | float h1 h2 => show liftR (f2i _) vm = _; rw [f2i_val h1 h2]; rfl
  | str h =>
    obtain ⟨e, h1, rfl⟩ := h
    rw [valueToInt_str, M.bind_ok (getString_run hs.tab _), h1]
    rfl
  | obj => rfl
  | nil => rfl

variable {F} in
theorem FloatOf.run {vm : VM} (hs : StrWF vm) {v : Value} {x : BitVec 32} (h : FloatOf F vm v x) :
    valueToFloat F v vm = .ok (x, vm) := by
  cases h with
  | int => rfl
  | float => rfl
  | str h =>
    obtain ⟨e, h1, rfl⟩ := h
    show (getString _ >>= _) vm = _
    rw [M.bind_ok (getString_run hs.tab _), h1]
    rfl
  | nil => rfl

theorem IntOf.setC {vm : VM} {v : Value} {i : BitVec 32} (h : IntOf vm v i) (c : Ctx) : IntOf (vm.setC c) v i := by
  cases h with
  | int => exact .int _
  | float h1 h2 => exact .float h1 h2
  | str h => exact .str h
  | obj => exact .obj _
  | nil => exact .nil

variable {F} in
theorem FloatOf.setC {vm : VM} {v : Value} {i : BitVec 32} (h : FloatOf F vm v i) (c : Ctx) : FloatOf F (vm.setC c) v i := by
  cases h with
  | int => exact .int _
  | float => exact .float _
  | str h => exact .str h
  | nil => exact .nil

/-- **C59**, integer on the left: the right operand is converted to an integer, and the result is the exact one. -/
theorem C59_int_left {vm : VM} (hs : StrWF vm) {c : Ctx} {l : List Value} {i j : BitVec 32} {b : Value}
    (h : vm.Stk c (l ++ [.int i, b])) (hb : IntOf vm b j) (o : Arith) (hn : ¬ o.refused i.toInt j.toInt)
    (hf : Fits (o.exact i.toInt j.toInt)) :
    ∃ vm' k, dispatch F H o.opcode vm = .ok ((), vm') ∧ Yields vm l (.int k) vm' ∧ k.toInt = o.exact i.toInt j.toInt := by
  obtain ⟨k, hk, hk2⟩ := i32_fits hf
  have run : ∀ (g : Value → Value → M Unit), (∀ s, g b (.int i) (vm.setC { c with stack := s }) =
        pushInt k (vm.setC { c with stack := s })) →
      ∃ vm', (do let y ← pop; let x ← pop; g y x : M Unit) vm = .ok ((), vm') ∧ Yields vm l (.int k) vm' := by
    intro g hg
    obtain ⟨s, g1, g2, g3, _⟩ := pop2 h g
    rw [g1, hg]
    exact push_yields h.at_ g2 g3 (.int k)
  have fin : ∀ op : M Unit, dispatch F H o.opcode = op →
      (∃ vm', op vm = .ok ((), vm') ∧ Yields vm l (.int k) vm') →
      ∃ vm' k, dispatch F H o.opcode vm = .ok ((), vm') ∧ Yields vm l (.int k) vm' ∧
        k.toInt = o.exact i.toInt j.toInt := by
    rintro op rfl ⟨vm', h1, h2⟩
    exact ⟨vm', k, h1, h2, hk2⟩
  have conv := fun s => (hb.setC { c with stack := s }).run (VM.setC_strWF hs _)
  cases o with
  | add =>
    refine fin (opAdd F) rfl (run _ fun s => ?_)
    simp only [Arith.exact] at hk
    refine (M.bind_ok (conv s)).trans ?_
    rw [intOp, hk]; rfl
  | sub =>
    refine fin (opSub F) rfl (run _ fun s => ?_)
    simp only [Arith.exact] at hk
    refine (M.bind_ok (conv s)).trans ?_
    rw [intOp, hk]; rfl
  | mul =>
    refine fin (opMul F) rfl (run _ fun s => ?_)
    simp only [Arith.exact] at hk
    refine (M.bind_ok (conv s)).trans ?_
    rw [intOp, hk]; rfl
  | div =>
    refine fin (opDiv F) rfl (run _ fun s => ?_)
    simp only [Arith.exact] at hk
    simp only [Arith.refused] at hn
    refine (M.bind_ok (conv s)).trans ?_
    rw [if_neg (by omega), intOp, hk]; rfl
  | mod =>
    refine fin opMod rfl (run _ fun s => ?_)
    simp only [Arith.exact] at hk
    simp only [Arith.refused] at hn
    refine (M.bind_ok (conv s)).trans ?_
    rw [if_neg (by omega), intOp, hk]; rfl

/-- The floating point operations of the host. -/
def Arith.float (o : Arith) : Option (BitVec 32 → BitVec 32 → BitVec 32) :=
  match o with
  | .add => some F.add
  | .sub => some F.sub
  | .mul => some F.mul
  | .div => some F.div
  | .mod => none

/-- **C59**, float on the left: the right operand is converted to a float; the operation is the host's.  There is no
remainder of floats. -/
theorem C59_float_left {vm : VM} (hs : StrWF vm) {c : Ctx} {l : List Value} {x y : BitVec 32} {b : Value}
    (h : vm.Stk c (l ++ [.float x, b])) (hb : FloatOf F vm b y) (o : Arith) {op : BitVec 32 → BitVec 32 → BitVec 32}
    (ho : o.float F = some op) :
    ∃ vm', dispatch F H o.opcode vm = .ok ((), vm') ∧ Yields vm l (.float (op x y)) vm' := by
  have run : ∀ (g : Value → Value → M Unit), (∀ s, g b (.float x) (vm.setC { c with stack := s }) =
        push (.float (op x y)) (vm.setC { c with stack := s })) →
      ∃ vm', (do let y ← pop; let x ← pop; g y x : M Unit) vm = .ok ((), vm') ∧ Yields vm l (.float (op x y)) vm' := by
    intro g hg
    obtain ⟨s, g1, g2, g3, _⟩ := pop2 h g
    rw [g1, hg]
    exact push_yields h.at_ g2 g3 _
  have conv := fun s => (hb.setC { c with stack := s }).run (VM.setC_strWF hs _)
  cases o with
  | add => cases ho; exact run _ fun s => (M.bind_ok (conv s)).trans rfl
  | sub => cases ho; exact run _ fun s => (M.bind_ok (conv s)).trans rfl
  | mul => cases ho; exact run _ fun s => (M.bind_ok (conv s)).trans rfl
  | div => cases ho; exact run _ fun s => (M.bind_ok (conv s)).trans rfl
  | mod => cases ho

/-- A left operand for which the operator has no meaning. -/
def NoArith (o : Arith) : Value → Prop
  | .int _ => False
  | .float _ => o = .mod
  | .str _ => o ≠ .add
  | _ => True

/-- **C59**: everything else on the left is an error: the operands are gone, one error is recorded, nothing else changed. -/
theorem C59_no_meaning {vm : VM} {c : Ctx} {l : List Value} {a b : Value} (h : vm.Stk c (l ++ [a, b])) (o : Arith)
    (ha : NoArith o a) : ∃ vm' e s, dispatch F H o.opcode vm = .ok ((), vm') ∧
      vm' = (vm.addErr e).setC { c with stack := s } ∧ vm'.Stk { c with stack := s } l := by
  have run : ∀ (g : Value → Value → M Unit), (∃ e, ∀ w, g b a w = addError e w) →
      ∃ vm' e s, (do let y ← pop; let x ← pop; g y x : M Unit) vm = .ok ((), vm') ∧
        vm' = (vm.addErr e).setC { c with stack := s } ∧ vm'.Stk { c with stack := s } l := by
    rintro g ⟨e, hg⟩
    obtain ⟨s, g1, g2, g3, _⟩ := pop2 h g
    refine ⟨_, e, s, by rw [g1, hg, addError_run]; rfl, rfl, ?_⟩
    exact ⟨g2.at_, g2.wf, g2.used⟩
  cases o <;> refine run _ ?_ <;> cases a <;> first | exact ⟨_, fun _ => rfl⟩ | (simp [NoArith] at ha)

theorem fneg_toNat (x : BitVec 32) :
    (fneg x).toNat = if x.toNat < 2147483648 then x.toNat + 2147483648 else x.toNat - 2147483648 := by
  have h1 : (fneg x).toNat = x.toNat ^^^ 2 ^ 31 := by unfold fneg; rfl
  have hx : x.toNat < 2 ^ 32 := x.isLt
  have hd : (x.toNat ^^^ 2 ^ 31) / 2 ^ 31 = x.toNat / 2 ^ 31 ^^^ 1 := by rw [Nat.xor_div_two_pow]; rfl
  have hm : (x.toNat ^^^ 2 ^ 31) % 2 ^ 31 = x.toNat % 2 ^ 31 := by rw [Nat.xor_mod_two_pow]; simp
  have h0 := Nat.div_add_mod (x.toNat ^^^ 2 ^ 31) (2 ^ 31)
  rw [h1, ← h0, hd, hm]
  split
  · rename_i h
    rw [Nat.div_eq_of_lt (by simpa using h)]
    simp only [Nat.zero_xor]
    omega
  · rename_i h
    rw [show x.toNat / 2 ^ 31 = 1 by omega]
    simp only [Nat.xor_self]
    omega

/-- **C59**, negation of a float: the number is the opposite one; infinities and NaN only change their sign too. -/
theorem C59_negate_float {vm : VM} {c : Ctx} {l : List Value} {x : BitVec 32} (h : vm.Stk c (l ++ [.float x])) :
    ∃ vm' y, dispatch F H 5 vm = .ok ((), vm') ∧ Yields vm l (.float y) vm' ∧ fval y = -fval x ∧ y ≠ x ∧ isNaN y = isNaN x := by
  obtain ⟨s, g1, g2, g3, _⟩ := pop1 h (fun a => match a with
    | .int i => do
      let r ← liftR (i32 (-i.toInt))
      pushInt r
    | .float x => push (.float (fneg x))
    | a => addError ("Negation unimplemented for type " ++ typeName a.ty ++ "."))
  obtain ⟨vm', k1, k2⟩ := push_yields h.at_ g2 g3 (.float (fneg x))
  refine ⟨vm', _, g1.trans k1, k2, ?_, ?_, ?_⟩
  · have := fneg_toNat x
    have hx : x.toNat < 4294967296 := x.isLt
    unfold fval
    by_cases hs : x.toNat < 2147483648
    · rw [if_pos hs] at this
      rw [if_pos hs, if_neg (by omega), this, show (x.toNat + 2147483648) % 2147483648 = x.toNat % 2147483648 by omega]
    · rw [if_neg hs] at this
      rw [if_neg hs, if_pos (by omega), this, Int.neg_neg,
        show (x.toNat - 2147483648) % 2147483648 = x.toNat % 2147483648 by omega]
  · intro he
    have := fneg_toNat x
    rw [he] at this
    split at this <;> omega
  · have := fneg_toNat x
    have hx : x.toNat < 4294967296 := x.isLt
    have : (fneg x).toNat % 2147483648 = x.toNat % 2147483648 := by
      split at this <;> omega
    unfold isNaN
    rw [this]

/-! ## C60 -/

theorem jump_mod (ip : Nat) (o : BitVec 32) : ((u32 (ip + o.toNat) : Nat) : Int) = (ip + o.toInt) % 4294967296 := by
  have he := BitVec.toInt_eq_toNat_cond o
  unfold u32 U32
  split at he <;> omega

theorem and_mask {i m : Nat} (h : ∃ k, m + 1 = 2 ^ k) (hi : i < m + 1) : i &&& m = i := by
  obtain ⟨k, hk⟩ := h
  have : m = 2 ^ k - 1 := by omega
  rw [this, Nat.and_two_pow_sub_one_eq_mod]
  exact Nat.mod_eq_of_lt (by omega)


/-- **C60**: an unconditional jump removes its operand and adds it to the position, modulo 2^32.  (Every instruction
advances the position by one after that.) -/
theorem C60_jump {vm : VM} (hs : StrWF vm) {c : Ctx} {l : List Value} {v : Value} {o : BitVec 32} (h : vm.Stk c (l ++ [v]))
    (ho : IntOf vm v o) : ∃ s ip, dispatch F H 17 vm = .ok ((), vm.setC { c with stack := s, ip := ip }) ∧
      s.WF ∧ s.used = l ∧ (ip : Int) = (c.ip + o.toInt) % 4294967296 := by
  obtain ⟨s, g1, g2, g3, _⟩ := pop1 h (fun v => do
    let o ← valueToInt v
    modCur fun c => { c with ip := u32 (c.ip + o.toNat) })
  refine ⟨s, _, ?_, g2.wf, g2.used, jump_mod c.ip o⟩
  refine g1.trans ((M.bind_ok ((ho.setC _).run (VM.setC_strWF hs _))).trans ?_)
  rw [modCur_at g2.at_]
  simp

/-- **C60**: a conditional jump removes both operands; it jumps exactly if the tested value is 0 as an integer, and
otherwise only goes on. -/
theorem C60_jump_if_zero {vm : VM} (hs : StrWF vm) {c : Ctx} {l : List Value} {t v : Value} {i o : BitVec 32}
    (h : vm.Stk c (l ++ [t, v])) (ht : IntOf vm t i) (ho : IntOf vm v o) :
    ∃ s ip, dispatch F H 21 vm = .ok ((), vm.setC { c with stack := s, ip := ip }) ∧ s.WF ∧ s.used = l ∧
      (i.toInt = 0 → (ip : Int) = (c.ip + o.toInt) % 4294967296) ∧ (i.toInt ≠ 0 → ip = c.ip) := by
  obtain ⟨s, g1, g2, g3, _⟩ := pop2 h (fun off test => do
    let t ← valueToInt test
    if t = 0 then do
      let o ← valueToInt off
      modCur fun c => { c with ip := u32 (c.ip + o.toNat) }
    else return ())
  have hz : i.toInt = 0 ↔ i = 0 := by rw [← BitVec.toInt_inj]; simp
  have e := g1.trans (M.bind_ok ((ht.setC _).run (VM.setC_strWF hs _)))
  by_cases hi : i = 0
  · rw [if_pos hi] at e
    refine ⟨s, _, ?_, g2.wf, g2.used, fun _ => jump_mod c.ip o, fun hn => absurd (hz.mpr hi) hn⟩
    refine e.trans ((M.bind_ok ((ho.setC _).run (VM.setC_strWF hs _))).trans ?_)
    rw [modCur_at g2.at_]
    simp
  · rw [if_neg hi] at e
    refine ⟨s, c.ip, e, g2.wf, g2.used, fun hn => absurd (hz.mp hn) hi, fun _ => rfl⟩

/-! ## C61 -/

/-- The slot an index refers to: counted from the bottom if it is not negative, from the top otherwise. -/
def slotOf (i : BitVec 32) (n : Nat) : Int := if 0 ≤ i.toInt then i.toInt else n + i.toInt

theorem slotOf_addr {i : BitVec 32} {n k : Nat} (h : slotOf i n = k) (hk : k < n) (hn : n ≤ 4294967296) : stackAddr i n = k := by
  unfold slotOf at h
  unfold stackAddr
  have hi := i.isLt
  have he := BitVec.toInt_eq_toNat_cond i
  split at h
  · rename_i hp
    rw [if_pos hp]
    split at he <;> omega
  · rename_i hp
    rw [if_neg hp]
    unfold u32 U32
    split at he <;> omega

/-- **C61**, reading a slot: the index is replaced by the value of the slot. -/
theorem C61_stack_read {vm : VM} {c : Ctx} {l : List Value} {i : BitVec 32} {k : Nat} {x : Value}
    (h : vm.Stk c (l ++ [.int i])) (hk : slotOf i l.length = k) (hx : l[k]? = some x) :
    ∃ vm', dispatch F H 13 vm = .ok ((), vm') ∧ Yields vm l x vm' := by
  obtain ⟨s, g1, g2, g3, _⟩ := pop1 h (fun v => match v with
    | .int i => do
      let s ← curStack
      let x ← peek (stackAddr i s.size)
      push x
    | _ => addError "Attempted to use a non-integer as a stack index.")
  obtain ⟨vm', k1, k2⟩ := push_yields h.at_ g2 g3 x
  refine ⟨vm', g1.trans ?_, k2⟩
  have hlt := (List.getElem?_eq_some_iff.mp hx).1
  have hsz := g2.size
  refine (M.bind_ok (curStack_at g2.at_)).trans ?_
  have hcap : s.cap ≤ 4294967296 := by
    obtain ⟨a, ha, e⟩ := g2.wf.pow
    have e : s.cap = 2 ^ a := e
    rw [e]
    exact (Nat.pow_le_pow_right (by decide) ha).trans (by decide)
  rw [show ({ c with stack := s } : Ctx).stack.size = l.length from hsz,
    slotOf_addr hk hlt (by have := g2.wf.size; rw [hsz] at this; exact this.trans hcap)]
  exact (M.bind_ok (peek_used g2 hx)).trans k1

/-- **C61**, writing a slot: the index is removed, the slot gets the value below it, which stays on the stack. -/
theorem C61_stack_write {vm : VM} {c : Ctx} {l : List Value} {i : BitVec 32} {k : Nat} {x : Value}
    (h : vm.Stk c (l ++ [x, .int i])) (hk : slotOf i (l.length + 1) = k) (hlt : k < l.length) :
    ∃ vm', dispatch F H 14 vm = .ok ((), vm') ∧ Yields vm (l.set k x) x vm' := by
  have h' : vm.Stk c ((l ++ [x]) ++ [.int i]) := by simpa using h
  obtain ⟨s, g1, g2, g3, _⟩ := pop1 h' (fun v => match v with
    | .int i => do
      let s ← curStack
      let x ← peek (usub s.size 1)
      poke (stackAddr i s.size) x
    | _ => addError "Attempted to use a non-integer as a stack index.")
  have hsz : s.size = l.length + 1 := by have := g2.size; simpa using this
  have hcap : s.cap ≤ 4294967296 := by
    obtain ⟨a, ha, e⟩ := g2.wf.pow
    have e : s.cap = 2 ^ a := e
    rw [e]
    exact (Nat.pow_le_pow_right (by decide) ha).trans (by decide)
  have hle : s.size ≤ s.cap := g2.wf.size
  obtain ⟨s', p1, p2, _⟩ := poke_used g2 (i := k) (by simp; omega) x
  refine ⟨vm.setC { c with stack := s' }, g1.trans ?_, c, s', h.at_, rfl, ?_⟩
  · refine (M.bind_ok (curStack_at g2.at_)).trans ?_
    show (peek (usub s.size 1) >>= fun x => poke (stackAddr i s.size) x) _ = _
    rw [hsz, slotOf_addr hk (by omega) (by omega)]
    have hu : usub (l.length + 1) 1 = l.length := by unfold usub u32 U32; omega
    rw [hu]
    refine (M.bind_ok (peek_used g2 (i := l.length) (v := x) (by simp))).trans ?_
    rw [p1]
    simp
  · rw [List.set_append_left _ _ hlt] at p2
    simpa using p2

/-- **C61**, reading a global variable. -/
theorem C61_static_read {vm : VM} (hl : vm.statics.length = vm.staticMask + 1) (hp : ∃ k, vm.staticMask + 1 = 2 ^ k) {c : Ctx}
    {l : List Value} {i : BitVec 32} {x : Value} (h : vm.Stk c (l ++ [.int i])) (hx : vm.statics[i.toNat]? = some x) :
    ∃ vm', dispatch F H 16 vm = .ok ((), vm') ∧ Yields vm l x vm' := by
  obtain ⟨s, g1, g2, g3, _⟩ := pop1 h (fun v => match v with
    | .int i => do
      let vm ← get
      match vm.statics[i.toNat &&& vm.staticMask]? with
      | some x => push x
      | none => liftR (.ub .oob)
    | _ => addError "Attempted to use a non-integer as a static index.")
  obtain ⟨vm', k1, k2⟩ := push_yields h.at_ g2 g3 x
  refine ⟨vm', g1.trans ?_, k2⟩
  refine (M.bind_ok (get_run _)).trans ?_
  have hlt := (List.getElem?_eq_some_iff.mp hx).1
  rw [show i.toNat &&& (vm.setC { c with stack := s }).staticMask = i.toNat from
    and_mask (m := vm.staticMask) hp (by omega)]
  show (match vm.statics[i.toNat]? with
      | some x => push x
      | none => liftR (.ub .oob)) _ = _
  rw [hx]
  exact k1

/-- **C61**, writing a global variable: it gets the value below the index, which stays on the stack; nothing else changes. -/
theorem C61_static_write {vm : VM} (hl : vm.statics.length = vm.staticMask + 1) (hp : ∃ k, vm.staticMask + 1 = 2 ^ k) {c : Ctx}
    {l : List Value} {i : BitVec 32} {x : Value} (h : vm.Stk c (l ++ [x, .int i])) (hi : i.toNat < vm.statics.length) :
    ∃ vm', dispatch F H 15 vm = .ok ((), vm') ∧ Yields { vm with statics := vm.statics.set i.toNat x } l x vm' := by
  have h' : vm.Stk c ((l ++ [x]) ++ [.int i]) := by simpa using h
  obtain ⟨s, g1, g2, g3, _⟩ := pop1 h' (fun v => match v with
    | .int i => do
      let s ← curStack
      let x ← peek (usub s.size 1)
      let vm ← get
      let a := i.toNat &&& vm.staticMask
      if a < vm.statics.length then modify fun vm => { vm with statics := vm.statics.set a x }
      else liftR (.ub .oob)
    | _ => addError "Attempted to use a non-integer as a static index.")
  have hsz : s.size = l.length + 1 := by have := g2.size; simpa using this
  have hle : s.size ≤ s.cap := g2.wf.size
  have hcap : s.cap ≤ 2147483648 := by
    obtain ⟨a, ha, e⟩ := g2.wf.pow
    have e : s.cap = 2 ^ a := e
    rw [e]
    exact (Nat.pow_le_pow_right (by decide) ha).trans (by decide)
  have ha : i.toNat &&& vm.staticMask = i.toNat := and_mask hp (by omega)
  refine ⟨({ vm with statics := vm.statics.set i.toNat x } : VM).setC { c with stack := s }, g1.trans ?_, c, s, h.at_, rfl, ?_⟩
  · refine (M.bind_ok (curStack_at g2.at_)).trans ?_
    show (peek (usub s.size 1) >>= fun x => _) _ = _
    rw [hsz]
    have hu : usub (l.length + 1) 1 = l.length := by unfold usub u32 U32; omega
    rw [hu]
    refine (M.bind_ok (peek_used g2 (i := l.length) (v := x) (by simp))).trans ?_
    refine (M.bind_ok (get_run _)).trans ?_
    show (if i.toNat &&& vm.staticMask < vm.statics.length then
      modify fun vm' => { vm' with statics := vm'.statics.set (i.toNat &&& vm.staticMask) x } else liftR (.ub .oob)) _ = _
    rw [ha, if_pos hi]
    rfl
  · exact ⟨g2.at_, g2.wf, g2.used⟩

section
variable (vm : VM)
theorem tick_newObj : (tick vm).gc.newObjCountdown = vm.gc.newObjCountdown := by
  unfold tick
  generalize usub vm.gc.countdown 1 = n
  cases vm; rename_i g _ _ _ _ _ _ _ _ _; cases g; rfl
theorem tick_statics : (tick vm).statics = vm.statics := by cases vm; rfl
theorem tick_handles : (tick vm).handles = vm.handles := by cases vm; rfl
theorem tick_types : (tick vm).extTypes = vm.extTypes := by cases vm; rfl
theorem tick_coType : (tick vm).coType = vm.coType := by cases vm; rfl
theorem charge_statics : (charge vm).statics = vm.statics := by cases vm; rfl
theorem charge_handles : (charge vm).handles = vm.handles := by cases vm; rfl
theorem charge_types : (charge vm).extTypes = vm.extTypes := by cases vm; rfl
theorem charge_coType : (charge vm).coType = vm.coType := by cases vm; rfl
end

/-- The same reachable values in a state that differs only in counters. -/
theorem reach_counters {vm vm' : VM} (h1 : vm'.cur = vm.cur) (h2 : vm'.statics = vm.statics) (h3 : vm'.handles = vm.handles)
    (h4 : vm'.extTypes = vm.extTypes) (h5 : vm'.coType = vm.coType) (h6 : vm'.ctxs = vm.ctxs) (h7 : vm'.objects = vm.objects)
    {v : Value} (h : Reach H vm' v) : Reach H vm v :=
  (Reach.transport H h1.symm h2.symm h3.symm h4.symm h5.symm (fun i c _ h => h6 ▸ h)
    (fun id o _ h => ⟨o, h7 ▸ h, rfl, rfl, rfl⟩) (fun _ _ i c _ _ _ _ h => h6 ▸ h) (fun _ _ _ _ _ _ h => h6 ▸ h)).2 h

/-- **C61**, collections happen: if the countdown of instructions ends with this one, enough objects were created since the
last collection and the limit of instructions is not reached, then the instruction is executed in a state that has been
collected: whatever object is left was reachable. -/
theorem C61_collects_when_due {vm : VM} (h : Inv vm) (hp : vm.gc.lastGCPass + 1 < 4294967296) {c : Ctx} (hc : vm.At c)
    {w : BitVec 32} (hw : vm.instrs[c.ip &&& vm.instrMask]? = some w) (hd : vm.gc.countdown = 1) (hn : vm.gc.newObjCountdown = 0)
    (hl : vm.instrLeft = UINT_MAX ∨ vm.gc.interval ≤ vm.instrLeft) :
    ∃ v, iterate F H vm = execute F H (w.toNat % 64) v ∧ HeapWF v ∧
      (∀ id o, v.objects.entry id = some o → Reach H vm (.obj id)) ∧
      v.gc.countdown = v.gc.interval ∧ v.gc.newObjCountdown = v.gc.newObjInterval := by
  have h0 : I vm.gc.lastGCPass vm := ⟨h, rfl⟩
  have h1 := h0.tick.charge
  obtain ⟨z, hz, hcol⟩ := garbageCollect_run H h1.inv.heap (by rw [h1.pass]; exact hp)
  have hz2 : I (vm.gc.lastGCPass + 1) z := ⟨h1.inv.collected H hcol, by rw [hcol.gcPass, h1.pass]⟩
  refine ⟨resetCountdown (resetNew z), ?_, hz2.resetNew.resetCountdown.inv.heap, ?_, ?_, ?_⟩
  · unfold iterate
    rw [M.bind_ok (curCtx_at hc), M.bind_ok (get_run vm)]
    have hi : instrAt vm c.ip = .ok w := by unfold instrAt; rw [hw]
    rw [hi, M.bind_ok (liftR_ok w vm)]
    unfold iterateOp
    rw [M.bind_ok (modify_run tick vm), M.bind_ok (get_run _), if_pos, if_neg, M.bind_ok (modify_run charge _)]
    · have : collectIfDue H (charge (tick vm)) = .ok ((), resetNew z) := by
        unfold collectIfDue
        rw [M.bind_ok (get_run _), if_pos, M.bind_ok hz]
        · exact modify_run _ _
        · rw [charge_gc]; exact (tick_newObj vm).trans hn
      rw [M.bind_ok this, M.bind_ok (modify_run _ _)]
    · rw [tick_left, tick_interval]
      rintro ⟨h2, h3⟩
      rcases hl with hl | hl
      · exact h2 hl
      · omega
    · rw [tick_countdown, hd]; rfl
  · intro id o he
    obtain ⟨_, _, hr, _⟩ := (hcol.obj id o).mp he
    refine reach_counters H (tick_cur vm) ?_ ?_ ?_ ?_ (tick_ctxs vm) (tick_objects vm)
      (reach_counters H ?_ ?_ ?_ ?_ ?_ ?_ (charge_objects _) hr)
    · exact tick_statics vm
    · exact tick_handles vm
    · exact tick_types vm
    · exact tick_coType vm
    · exact charge_cur _
    · exact charge_statics _
    · exact charge_handles _
    · exact charge_types _
    · exact charge_coType _
    · exact charge_ctxs _
  · rfl
  · rfl

/-- **C61**, and they do not happen otherwise: while the countdown has not ended, an instruction only counts down. -/
theorem C61_no_collection {vm : VM} {c : Ctx} (hc : vm.At c) {w : BitVec 32} (hw : vm.instrs[c.ip &&& vm.instrMask]? = some w)
    (hd : 1 < vm.gc.countdown) (hm : vm.gc.countdown < 4294967296) :
    iterate F H vm = execute F H (w.toNat % 64) { vm with gc := { vm.gc with countdown := vm.gc.countdown - 1 } } := by
  unfold iterate
  rw [M.bind_ok (curCtx_at hc), M.bind_ok (get_run vm)]
  have hi : instrAt vm c.ip = .ok w := by unfold instrAt; rw [hw]
  rw [hi, M.bind_ok (liftR_ok w vm)]
  unfold iterateOp
  have hu : usub vm.gc.countdown 1 = vm.gc.countdown - 1 := by unfold usub u32 U32; omega
  rw [M.bind_ok (modify_run tick vm), M.bind_ok (get_run _), if_neg]
  · unfold tick
    rw [hu]
  · rw [tick_countdown, hu]; omega

/-! ## Concrete cases -/

/-- `7 + "12abc"` is 19; `7 - nil` is 7; `3 * 2.5` is 6; `-2.5`. -/
example : ((do push (.int 40); let s ← findOrAddString (cs "12abc"); push (.int 7); push (.str s); dispatch F H 1; let a ← pop
               push (.int 7); push .nil; dispatch F H 2; let b ← pop
               push (.int 3); push (.float 0x40200000#32); dispatch F H 3; let d ← pop
               push (.float 0x40200000#32); dispatch F H 5; let e ← pop
               return [a, b, d, e] : M (List Value)) VM.create).test
    (fun p => decide (p.1 = [.int 19, .int 7, .int 6, .float 0xC0200000#32] ∧ p.2.errors = [])) := by rfl

/-- The hypotheses on operands are met by such values: 2.5 counts as 2, and -2.5 as -2. -/
example (vm : VM) : IntOf vm (.float 0x40200000#32) 2 ∧ IntOf vm (.float 0xC0200000#32) (-2) :=
  ⟨.float (by decide) (by decide +kernel), .float (by decide) (by decide +kernel)⟩

/-- Reading slot 1, reading the second slot from the top, and writing the bottom slot. -/
example : ((do push (.int 10); push (.int 11); push (.int 12)
               push (.int 1); dispatch F H 13; let a ← pop
               push (.int (-2)); dispatch F H 13; let b ← pop
               push (.int 0); dispatch F H 14; let d ← pop; let _ ← pop; let e ← pop
               return [a, b, d, e] : M (List Value)) VM.create).test
    (fun p => decide (p.1 = [.int 11, .int 11, .int 12, .int 12] ∧ p.2.errors = [])) := by rfl

/-- A VM with an object that nothing refers to, in which a collection is due: one step frees the object. -/
def collecting : VM := { VM.create with gc := { VM.create.gc with interval := 2, countdown := 1, newObjCountdown := 0 }, objects :=
  ⟨[some Obj.init, none], 2, [1]⟩ }

example : (iterate Sample.F Sample.H collecting).test (fun p => decide (p.2.objects.entry 0 = none ∧ p.2.gc.lastGCPass = 1)) = true := by
  decide +kernel

end Nk.Props
