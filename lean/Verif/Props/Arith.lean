import Verif.Lemmas.Ops
/-!
# C23, C24: integer arithmetic and logic
-/
namespace Nk.Props
variable (F : FloatOps) (H : Host)

/-- A 32-bit signed number. -/
def Fits (n : Int) : Prop := -2147483648 ≤ n ∧ n ≤ 2147483647

theorem i32_fits {n : Int} (h : Fits n) : ∃ k : BitVec 32, i32 n = .ok k ∧ k.toInt = n := by
  obtain ⟨h1, h2⟩ := h
  refine ⟨BitVec.ofInt 32 n, by simp [i32, h1]; omega, ?_⟩
  rw [BitVec.toInt_ofInt]
  simp only [Int.bmod]
  split <;> omega

/-- The binary arithmetic operators. -/
inductive Arith | add | sub | mul | div | mod

/-- Their numbers in `enum NKOpcode`, `src/nkenums.h`. -/
def Arith.opcode : Arith → Nat
  | add => 1 | sub => 2 | mul => 3 | div => 4 | mod => 6

/-- The exact result; division and remainder truncate toward zero. -/
def Arith.exact : Arith → Int → Int → Int
  | add, a, b => a + b
  | sub, a, b => a - b
  | mul, a, b => a * b
  | div, a, b => a.tdiv b
  | mod, a, b => a.tmod b

/-- The operand pairs on which the code reports an error. -/
def Arith.refused (o : Arith) (a b : Int) : Prop :=
  match o with
  | div => b = 0 ∨ (a = -2147483648 ∧ b = -1)
  | mod => b = 0 ∨ (a = -2147483648 ∧ b = -1)
  | _ => False

/-- **C23**: on two integers whose exact result is representable (and which are not one of the refused
pairs) each operator replaces the operands by the exact result and changes nothing else. -/
theorem C23_exact {vm : VM} {c : Ctx} {l : List Value} {i j : BitVec 32}
    (h : vm.Stk c (l ++ [.int i, .int j])) (o : Arith) (hn : ¬ o.refused i.toInt j.toInt)
    (hf : Fits (o.exact i.toInt j.toInt)) :
    ∃ vm' k, dispatch F H o.opcode vm = .ok ((), vm') ∧ Yields vm l (.int k) vm' ∧
      k.toInt = o.exact i.toInt j.toInt := by
  obtain ⟨k, hk, hk2⟩ := i32_fits hf
  have run : ∀ (g : Value → Value → M Unit), (∀ w, g (.int j) (.int i) w = pushInt k w) →
      ∃ vm', (do let y ← pop; let x ← pop; g y x : M Unit) vm = .ok ((), vm') ∧ Yields vm l (.int k) vm' := by
    intro g hg
    obtain ⟨s, g1, g2, g3, _⟩ := pop2 h g
    rw [g1, hg]
    exact push_yields h.at_ g2 g3 (.int k)
  have fin : ∀ op : M Unit, dispatch F H o.opcode = op →
      (∃ vm', op vm = .ok ((), vm') ∧ Yields vm l (.int k) vm') →
      ∃ vm' k, dispatch F H o.opcode vm = .ok ((), vm') ∧ Yields vm l (.int k) vm' ∧
        k.toInt = o.exact i.toInt j.toInt := by
    rintro op rfl ⟨vm', h1, h2⟩
    exact ⟨vm', k, h1, h2, hk2⟩
  cases o with
  | add =>
    refine fin (opAdd F) rfl (run _ fun w => ?_)
    simp only [valueToInt_int, M.bind_eq, M.pure_run, intOp]
    simp only [Arith.exact] at hk
    rw [hk]; rfl
  | sub =>
    refine fin (opSub F) rfl (run _ fun w => ?_)
    simp only [valueToInt_int, M.bind_eq, M.pure_run, intOp]
    simp only [Arith.exact] at hk
    rw [hk]; rfl
  | mul =>
    refine fin (opMul F) rfl (run _ fun w => ?_)
    simp only [valueToInt_int, M.bind_eq, M.pure_run, intOp]
    simp only [Arith.exact] at hk
    rw [hk]; rfl
  | div =>
    refine fin (opDiv F) rfl (run _ fun w => ?_)
    simp only [valueToInt_int, M.bind_eq, M.pure_run, intOp]
    simp only [Arith.exact] at hk
    simp only [Arith.refused] at hn
    rw [hk, if_neg (by omega)]; rfl
  | mod =>
    refine fin opMod rfl (run _ fun w => ?_)
    simp only [valueToInt_int, M.bind_eq, M.pure_run, intOp]
    simp only [Arith.exact] at hk
    simp only [Arith.refused] at hn
    rw [hk, if_neg (by omega)]; rfl

/-- **C23**: division and remainder never lack a representable result except for the refused pairs, so
together with `C23_refused` they are defined on all pairs of integers. -/
theorem C23_division_total (i j : BitVec 32) (o : Arith) (ho : o = .div ∨ o = .mod)
    (hn : ¬ o.refused i.toInt j.toInt) : Fits (o.exact i.toInt j.toInt) := by
  have hi := BitVec.toInt_lt (x := i)
  have hi' := BitVec.le_toInt (x := i)
  have hj := BitVec.toInt_lt (x := j)
  have hj' := BitVec.le_toInt (x := j)
  simp at hi hi' hj hj'
  generalize i.toInt = a at *
  generalize j.toInt = b at *
  rcases ho with rfl | rfl
  · simp only [Arith.refused, Arith.exact, Fits] at *
    have h1 := Int.natAbs_tdiv a b
    have h2 : (a.natAbs / b.natAbs) ≤ a.natAbs := Nat.div_le_self _ _
    by_cases hb : b = 1 ∨ b = -1
    · rcases hb with rfl | rfl
      · simp; omega
      · simp; omega
    · have h3 : 2 ≤ b.natAbs := by omega
      have h4 : a.natAbs / b.natAbs ≤ a.natAbs / 2 := Nat.div_le_div_left h3 (by omega)
      have h5 : a.natAbs ≤ 2147483648 := by omega
      have h6 : (a.tdiv b).natAbs ≤ 1073741824 := by
        rw [h1]
        exact h4.trans (by generalize a.natAbs = n at *; omega)
      generalize a.tdiv b = q at *
      omega
  · simp only [Arith.refused, Arith.exact, Fits] at *
    have h1 := Int.natAbs_tmod a b
    have h2 : a.natAbs % b.natAbs < b.natAbs := Nat.mod_lt _ (by omega)
    omega

/-- **C23**: division or remainder by zero, and dividing the least integer by -1, record one error and
complete; the operands are gone and nothing else changed. -/
theorem C23_refused {vm : VM} {c : Ctx} {l : List Value} {i j : BitVec 32}
    (h : vm.Stk c (l ++ [.int i, .int j])) (o : Arith) (hn : o.refused i.toInt j.toInt) :
    ∃ vm' e s, dispatch F H o.opcode vm = .ok ((), vm') ∧ vm'.errors = vm.errors ++ [e] ∧
      vm' = (vm.addErr e).setC { c with stack := s } ∧ vm'.Stk { c with stack := s } l := by
  have run : ∀ (e : String) (g : Value → Value → M Unit),
      (∀ w, g (.int j) (.int i) w = addError e w) →
      ∃ vm' e s, (do let y ← pop; let x ← pop; g y x : M Unit) vm = .ok ((), vm') ∧
        vm'.errors = vm.errors ++ [e] ∧
        vm' = (vm.addErr e).setC { c with stack := s } ∧ vm'.Stk { c with stack := s } l := by
    intro e g hg
    obtain ⟨s, g1, g2, g3, _⟩ := pop2 h g
    refine ⟨_, e, s, by rw [g1, hg, addError_run]; rfl, by simp, rfl, ?_⟩
    exact ⟨g2.at_, g2.wf, g2.used⟩
  cases o with
  | add => exact hn.elim
  | sub => exact hn.elim
  | mul => exact hn.elim
  | div =>
    refine run "Integer divide-by-zero or division overflow." _ fun w => ?_
    simp only [valueToInt_int, M.bind_eq, M.pure_run]
    simp only [Arith.refused] at hn
    rw [if_pos (by omega)]
  | mod =>
    refine run "Integer divide-by-zero." _ fun w => ?_
    simp only [valueToInt_int, M.bind_eq, M.pure_run]
    simp only [Arith.refused] at hn
    rw [if_pos (by omega)]

/-- Outside the representable range the C expression overflows a signed integer, which the C standard
leaves undefined; the model reports it as such instead of choosing a result. -/
theorem C23_overflow_undefined {vm : VM} {c : Ctx} {l : List Value} {i j : BitVec 32}
    (h : vm.Stk c (l ++ [.int i, .int j])) (o : Arith) (hn : ¬ o.refused i.toInt j.toInt)
    (hf : ¬ Fits (o.exact i.toInt j.toInt)) : dispatch F H o.opcode vm = .ub .overflow := by
  have hk : i32 (o.exact i.toInt j.toInt) = .ub .overflow := by
    unfold Fits at hf
    unfold i32
    rw [if_neg (by omega)]
  have run : ∀ (g : Value → Value → M Unit), (∀ w, g (.int j) (.int i) w = .ub .overflow) →
      (do let y ← pop; let x ← pop; g y x : M Unit) vm = .ub .overflow := by
    intro g hg
    obtain ⟨s, g1, _⟩ := pop2 h g
    rw [g1, hg]
  cases o with
  | add =>
    refine run _ fun w => ?_
    simp only [valueToInt_int, M.bind_eq, M.pure_run, intOp]
    simp only [Arith.exact] at hk
    rw [hk]; rfl
  | sub =>
    refine run _ fun w => ?_
    simp only [valueToInt_int, M.bind_eq, M.pure_run, intOp]
    simp only [Arith.exact] at hk
    rw [hk]; rfl
  | mul =>
    refine run _ fun w => ?_
    simp only [valueToInt_int, M.bind_eq, M.pure_run, intOp]
    simp only [Arith.exact] at hk
    rw [hk]; rfl
  | div =>
    refine run _ fun w => ?_
    simp only [valueToInt_int, M.bind_eq, M.pure_run, intOp]
    simp only [Arith.exact] at hk
    simp only [Arith.refused] at hn
    rw [hk, if_neg (by omega)]; rfl
  | mod =>
    refine run _ fun w => ?_
    simp only [valueToInt_int, M.bind_eq, M.pure_run, intOp]
    simp only [Arith.exact] at hk
    simp only [Arith.refused] at hn
    rw [hk, if_neg (by omega)]; rfl

/-- **C23**: unary minus. -/
theorem C23_negate {vm : VM} {c : Ctx} {l : List Value} {i : BitVec 32}
    (h : vm.Stk c (l ++ [.int i])) (hf : Fits (-i.toInt)) :
    ∃ vm' k, dispatch F H 5 vm = .ok ((), vm') ∧ Yields vm l (.int k) vm' ∧ k.toInt = -i.toInt := by
  obtain ⟨k, hk, hk2⟩ := i32_fits hf
  show ∃ vm' k, opNeg vm = _ ∧ _
  unfold opNeg
  obtain ⟨s, g1, g2, g3, _⟩ := pop1 h (fun a => match a with
    | .int i => do
      let r ← liftR (i32 (-i.toInt))
      pushInt r
    | .float x => push (.float (fneg x))
    | a => addError ("Negation unimplemented for type " ++ typeName a.ty ++ "."))
  obtain ⟨vm', k1, k2⟩ := push_yields h.at_ g2 g3 (.int k)
  refine ⟨vm', k, ?_, k2, hk2⟩
  refine Eq.trans g1 ?_
  show (liftR (i32 (-i.toInt)) >>= fun r => pushInt r) _ = _
  rw [hk]
  exact k1

/-! ## C24 -/

/-- The value converts to the integer `i` without error. -/
def ToInt (vm : VM) (v : Value) (i : BitVec 32) : Prop := valueToInt v vm = .ok (i, vm)

theorem addErr_ne {vm : VM} {e : String} (h : vm.addErr e = vm) : False := by
  have := congrArg (fun v => v.errors.length) h
  simp at this

theorem ToInt.setC {vm : VM} {v : Value} {i : BitVec 32} (h : ToInt vm v i) (c : Ctx) :
    ToInt (vm.setC c) v i := by
  unfold ToInt at *
  cases v with
  | int j => cases h; rfl
  | float b =>
    rw [valueToInt_float] at *
    cases hf : f2i b with
    | ok k => rw [hf] at h; cases h; rfl
    | ub k => rw [hf] at h; cases h
  | str id =>
    rw [valueToInt_str] at *
    simp only [M.bind_eq, getString, getStrEntry] at *
    simp only [VM.setC_strings]
    cases hg : vm.strings.get id with
    | ub k => rw [hg] at h; cases h
    | ok o =>
      rw [hg] at h
      cases o with
      | none => cases h; rfl
      | some e =>
        simp only [M.pure_run, Option.map_some] at h ⊢
        cases h; rfl
  | fn n =>
    exfalso
    have h : Res.ok ((0 : BitVec 32), vm.addErr ("Cannot convert type " ++ typeName (Value.fn n).ty ++ " to an integer.")) =
      Res.ok (i, vm) := h
    exact addErr_ne (Prod.mk.inj (Res.ok.inj h)).2
  | obj n => cases h; rfl
  | nil => cases h; rfl
  | bad t r =>
    exfalso
    have h : Res.ok ((0 : BitVec 32), vm.addErr ("Cannot convert type " ++ typeName (Value.bad t r).ty ++ " to an integer.")) =
      Res.ok (i, vm) := h
    exact addErr_ne (Prod.mk.inj (Res.ok.inj h)).2

/-- Truth values of the language. -/
def truthVal (b : Bool) : Value := .int (if b then 1 else 0)

/-- **C24**, not: `!a` is 1 exactly when `a` is zero as an integer. -/
theorem C24_not {vm : VM} {c : Ctx} {l : List Value} {a : Value} {i : BitVec 32}
    (h : vm.Stk c (l ++ [a])) (ha : ToInt vm a i) :
    ∃ vm', dispatch F H 29 vm = .ok ((), vm') ∧ Yields vm l (truthVal (decide (i.toInt = 0))) vm' := by
  show ∃ vm', opNot vm = _ ∧ _
  unfold opNot
  obtain ⟨s, g1, g2, g3, _⟩ := pop1 h (fun v => do
    let i ← valueToInt v
    pushInt (b2i (i = 0)))
  obtain ⟨vm', k1, k2⟩ := push_yields h.at_ g2 g3 (.int (b2i (i = 0)))
  refine ⟨vm', by rw [g1, M.bind_ok (ha.setC _)]; exact k1, ?_⟩
  have : decide (i = 0) = decide (i.toInt = 0) := by
    congr 1
    rw [← BitVec.toInt_inj]; simp
  rw [this] at k2
  exact k2

/-- The operands survive the conversion to a C boolean of 8 bits. -/
def ByteOk (i : BitVec 32) : Prop := i = 0 ∨ i.toNat % 256 ≠ 0

theorem toBool8_ok {i : BitVec 32} (h : ByteOk i) : toBool8 i = decide (i.toInt ≠ 0) := by
  have : i.toInt ≠ 0 ↔ i ≠ 0 := by
    rw [Ne, Ne, ← BitVec.toInt_inj]; simp
  unfold toBool8
  rcases h with rfl | h
  · decide
  · have h2 : i ≠ 0 := by rintro rfl; simp at h
    simp only [this]
    simp only [h, h2, ne_eq, not_false_eq_true, decide_true]

/-- A logical connective of two operands. -/
theorem logic_run {vm : VM} {c : Ctx} {l : List Value} {a b : Value} {i j : BitVec 32}
    (h : vm.Stk c (l ++ [a, b])) (ha : ToInt vm a i) (hb : ToInt vm b j) (f : Bool → Bool → Bool) :
    ∃ vm', (do
      let v1 ← pop
      let i1 ← valueToInt v1
      let v2 ← pop
      let i2 ← valueToInt v2
      pushInt (b2i (f (toBool8 i1) (toBool8 i2))) : M Unit) vm = .ok ((), vm') ∧
      Yields vm l (truthVal (f (toBool8 j) (toBool8 i))) vm' := by
  have h' : vm.Stk c ((l ++ [a]) ++ [b]) := by simpa using h
  obtain ⟨s, g1, g2, g3, _⟩ := pop1 h' (fun v1 => (do
      let i1 ← valueToInt v1
      let v2 ← pop
      let i2 ← valueToInt v2
      pushInt (b2i (f (toBool8 i1) (toBool8 i2))) : M Unit))
  rw [g1, M.bind_ok (hb.setC _)]
  obtain ⟨s', k1, k2, k3, _⟩ := pop1 g2 (fun v2 => (do
      let i2 ← valueToInt v2
      pushInt (b2i (f (toBool8 j) (toBool8 i2))) : M Unit))
  rw [k1, M.bind_ok ((ha.setC _).setC _)]
  have k2' : (vm.setC { c with stack := s' }).Stk { c with stack := s' } l := by simpa using k2
  obtain ⟨vm', p1, p2⟩ := push_yields h.at_ k2' k3 (.int (b2i (f (toBool8 j) (toBool8 i))))
  exact ⟨vm', by rw [VM.setC_setC]; exact p1, p2⟩

/-- **C24** for `&&`, partial: the operands must not be non-zero multiples of 256. -/
theorem C24_and_partial {vm : VM} {c : Ctx} {l : List Value} {a b : Value} {i j : BitVec 32}
    (h : vm.Stk c (l ++ [a, b])) (ha : ToInt vm a i) (hb : ToInt vm b j) (hi : ByteOk i) (hj : ByteOk j) :
    ∃ vm', dispatch F H 30 vm = .ok ((), vm') ∧
      Yields vm l (truthVal (decide (i.toInt ≠ 0 ∧ j.toInt ≠ 0))) vm' := by
  obtain ⟨vm', h1, h2⟩ := logic_run h ha hb (fun x y => x && y)
  refine ⟨vm', h1, ?_⟩
  have : (toBool8 j && toBool8 i) = decide (i.toInt ≠ 0 ∧ j.toInt ≠ 0) := by
    rw [toBool8_ok hi, toBool8_ok hj]
    by_cases h1 : i.toInt = 0 <;> by_cases h2 : j.toInt = 0 <;> simp [h1, h2]
  rw [this] at h2; exact h2

/-- **C24** for `||`, partial: the operands must not be non-zero multiples of 256. -/
theorem C24_or_partial {vm : VM} {c : Ctx} {l : List Value} {a b : Value} {i j : BitVec 32}
    (h : vm.Stk c (l ++ [a, b])) (ha : ToInt vm a i) (hb : ToInt vm b j) (hi : ByteOk i) (hj : ByteOk j) :
    ∃ vm', dispatch F H 31 vm = .ok ((), vm') ∧
      Yields vm l (truthVal (decide (i.toInt ≠ 0 ∨ j.toInt ≠ 0))) vm' := by
  obtain ⟨vm', h1, h2⟩ := logic_run h ha hb (fun x y => x || y)
  refine ⟨vm', h1, ?_⟩
  have : (toBool8 j || toBool8 i) = decide (i.toInt ≠ 0 ∨ j.toInt ≠ 0) := by
    rw [toBool8_ok hi, toBool8_ok hj]
    by_cases h1 : i.toInt = 0 <;> by_cases h2 : j.toInt = 0 <;> simp [h1, h2]
  rw [this] at h2; exact h2

/-- **C24 is violated** without that restriction: in every VM, `a && b` and `a || b` give 0 for every
pair of operands that are multiples of 256, for instance `256 && 256` and `256 || 0`. -/
theorem C24_violation {vm : VM} {c : Ctx} {l : List Value} {i j : BitVec 32}
    (h : vm.Stk c (l ++ [.int i, .int j])) (hi : i.toNat % 256 = 0) (hj : j.toNat % 256 = 0) :
    (∃ vm', dispatch F H 30 vm = .ok ((), vm') ∧ Yields vm l (.int 0) vm') ∧
    (∃ vm', dispatch F H 31 vm = .ok ((), vm') ∧ Yields vm l (.int 0) vm') := by
  have e1 : toBool8 i = false := by simp [toBool8, hi]
  have e2 : toBool8 j = false := by simp [toBool8, hj]
  have ha : ToInt vm (.int i) i := rfl
  have hb : ToInt vm (.int j) j := rfl
  constructor
  · obtain ⟨vm', h1, h2⟩ := logic_run h ha hb (fun x y => x && y)
    rw [e1, e2] at h2
    exact ⟨vm', h1, h2⟩
  · obtain ⟨vm', h1, h2⟩ := logic_run h ha hb (fun x y => x || y)
    rw [e1, e2] at h2
    exact ⟨vm', h1, h2⟩

/-! ## Concrete cases -/

/-- `(-7) / 2` is -3 and `(-7) % 2` is -1, with 40 still below. -/
example : ((do push (.int 40); push (.int (-7)); push (.int 2); dispatch F H 4; let a ← pop
               push (.int (-7)); push (.int 2); dispatch F H 6; let b ← pop
               return (a, b) : M (Value × Value)) VM.create).test
    (fun p => decide (p.1 = (.int (-3), .int (-1)) ∧ p.2.errors = [])) := by rfl

/-- `256 || 0` is 0. -/
example : ((do push (.int 256); push (.int 0); dispatch F H 31; pop : M Value) VM.create).test
    (fun p => decide (p.1 = .int 0 ∧ p.2.errors = [])) := by rfl

end Nk.Props
