import Verif.Spec.Stmt
import Verif.Lemmas.CodeExpr
import Verif.Props.Code
/-!
# Code that does what a statement means
-/
namespace Nk.Cc
open Nk.Props

theorem Keep.lits {cvm W W' : VM} (h : Keep W W') (g : Lits cvm W) : Lits cvm W' := fun id e he hd => h.texts _ _ (g id e he hd)

/-- The operand of a jump at `p` to `T`. -/
def jumpWord (T p : Nat) : BitVec 32 := BitVec.ofNat 32 (usub (usub T p) 3)

theorem jumpWord_to {T p ip : Nat} (hT : T < 4294967296) (hp : p + 3 < 4294967296)
    (h : (ip : Int) = (((p + 2 : Nat) : Int) + (jumpWord T p).toInt) % 4294967296) : u32 (ip + 1) = T := by
  have h1 : (jumpWord T p).toNat = (T + 2 * 4294967296 - p - 3) % 4294967296 := by
    unfold jumpWord usub u32 U32
    rw [BitVec.toNat_ofNat]
    omega
  rw [BitVec.toInt_eq_toNat_cond, h1] at h
  unfold u32 U32
  split at h <;> omega

/-! ## Instructions that change the flow -/

section
variable (F : FloatOps) (H : Host)

/-- Pushing an integer literal. -/
theorem Mach.pushInt {W vm : VM} {p : Nat} {l : List Value} {w : BitVec 32} (h : Mach W p l vm) (g : Good W)
    (h0 : W.instrs[p]? = some 7) (h1 : W.instrs[p + 1]? = some w) {n : Nat} (hs : Space W n) (hl : l.length < n) :
    ∃ vm', Runs F H vm vm' ∧ Mach W (p + 2) (l ++ [.int w]) vm' := by
  obtain ⟨vm', a, b⟩ := h.literal F H (op := 7) (mk := .int) (w := w) g (by decide) (fun _ => rfl)
    (CodeAt.cons.mpr ⟨h0, CodeAt.cons.mpr ⟨h1, fun i w hw => by simp at hw⟩⟩) hs hl
  exact ⟨vm', .one a, b⟩

/-- Removing the top. -/
theorem Mach.pop {W vm : VM} {p : Nat} {l : List Value} {v : Value} (h : Mach W p (l ++ [v]) vm) (g : Good W)
    (hw : W.instrs[p]? = some 11) : ∃ vm', Runs F H vm vm' ∧ Mach W (p + 1) l vm' := by
  obtain ⟨d, t, h1, h2, h3⟩ := h.stk
  obtain ⟨s, g1, g2, g3, _⟩ := pop1 h3 (fun _ => (pure () : M Unit))
  have e : dispatch F H 11 vm = .ok ((), W.setC { d with stack := s, ip := p }) := by
    refine Eq.trans (b := (do let x ← Nk.pop; (fun _ => (pure () : M Unit)) x : M Unit) vm) rfl (g1.trans ?_)
    rw [h2, VM.setC_setC]; rfl
  obtain ⟨vm', a, b⟩ := h.step F H (W' := W) (op := 11) (l' := l) g (by decide) hw h1 e g2.wf g2.used (ip1 g hw)
  exact ⟨vm', .one a, b⟩

/-- Removing many. -/
theorem Mach.popN {W vm : VM} {p : Nat} {l xs : List Value} {k : BitVec 32} (h : Mach W p (l ++ xs) vm) (g : Good W)
    (h0 : W.instrs[p]? = some 7) (h1 : W.instrs[p + 1]? = some k) (h2 : W.instrs[p + 2]? = some 12) (hk : k.toNat = xs.length)
    {n : Nat} (hs : Space W n) (hl : (l ++ xs).length < n) : ∃ vm', Runs F H vm vm' ∧ Mach W (p + 3) l vm' := by
  obtain ⟨vm1, r1, m1⟩ := h.pushInt F H g h0 h1 hs hl
  obtain ⟨d, t, k1, k2, k3⟩ := m1.stk
  obtain ⟨s, g1, g2, g3, _⟩ := pop1 k3 (fun v => do let n ← valueToInt v; Nk.popN n.toNat)
  obtain ⟨s', p1, p2⟩ := popN_app g2
  have e : dispatch F H 12 vm1 = .ok ((), W.setC { d with stack := s', ip := p + 2 }) := by
    refine Eq.trans (b := (do let x ← Nk.pop; (fun v => do let n ← valueToInt v; Nk.popN n.toNat : Value → M Unit) x : M Unit) vm1) rfl
      (g1.trans ?_)
    show (do let n ← valueToInt (.int k); Nk.popN n.toNat : M Unit) _ = _
    rw [valueToInt_int, M.pure_bind, hk, p1, k2, VM.setC_setC, VM.setC_setC]
  obtain ⟨vm', a, b⟩ := m1.step F H (W' := W) (op := 12) (l' := l) g (by decide) h2 k1 e p2.wf p2.used (ip1 g h2)
  exact ⟨vm', r1.trans (.one a), b⟩

/-- A jump. -/
theorem Mach.jump {W vm : VM} {p T : Nat} {l : List Value} (h : Mach W p l vm) (g : Good W) (h0 : W.instrs[p]? = some 7)
    (h1 : W.instrs[p + 1]? = some (jumpWord T p)) (h2 : W.instrs[p + 2]? = some 17) (hT : T < 4294967296)
    {n : Nat} (hs : Space W n) (hl : l.length < n) : ∃ vm', Runs F H vm vm' ∧ Mach W T l vm' := by
  obtain ⟨vm1, r1, m1⟩ := h.pushInt F H g h0 h1 hs hl
  obtain ⟨d, t, k1, k2, k3⟩ := m1.stk
  obtain ⟨s, ip, e1, e2, e3, e4⟩ := C60_jump F H (m1.strWF g.str) k3 (.int _)
  have hp := (g.ip h2).1
  obtain ⟨vm', a, b⟩ := m1.step F H (W' := W) (op := 17) (l' := l) g (by decide) h2 k1 (e1.trans (by rw [k2, VM.setC_setC])) e2 e3
    (jumpWord_to hT (by omega) e4)
  exact ⟨vm', r1.trans (.one a), b⟩

/-- A conditional jump. -/
theorem Mach.jumpIf {W vm : VM} {p T : Nat} {l : List Value} {v : Value} {i : BitVec 32} (h : Mach W p (l ++ [v]) vm) (g : Good W)
    (h0 : W.instrs[p]? = some 7) (h1 : W.instrs[p + 1]? = some (jumpWord T p)) (h2 : W.instrs[p + 2]? = some 21) (hT : T < 4294967296)
    (hi : IntOf W v i) {n : Nat} (hs : Space W n) (hl : (l ++ [v]).length < n) :
    ∃ vm', Runs F H vm vm' ∧ Mach W (if i = 0 then T else p + 3) l vm' := by
  obtain ⟨vm1, r1, m1⟩ := h.pushInt F H g h0 h1 hs hl
  obtain ⟨d, t, k1, k2, k3⟩ := m1.stk
  have hz : i.toInt = 0 ↔ i = 0 := by rw [← BitVec.toInt_inj]; simp
  obtain ⟨s, ip, e1, e2, e3, e4, e5⟩ := C60_jump_if_zero F H (m1.strWF g.str) (l := l) (t := v) (v := .int (jumpWord T p)) (i := i)
    (by simpa using k3) (by rw [k2]; exact hi.setC _) (.int _)
  have hp := (g.ip h2).1
  obtain ⟨vm', a, b⟩ := m1.step F H (W' := W) (op := 21) (l' := l) g (by decide) h2 k1 (e1.trans (by rw [k2, VM.setC_setC])) e2 e3
    (r := if i = 0 then T else p + 3) (by
      split
      · next hi => exact jumpWord_to hT (by omega) (e4 (hz.mpr hi))
      · next hi => rw [e5 (fun x => hi (hz.mp x))]; show u32 (p + 2 + 1) = _; unfold u32 U32; omega)
  exact ⟨vm', r1.trans (.one a), b⟩

/-- `!` -/
theorem Mach.not {W vm : VM} {p : Nat} {l : List Value} {v : Value} {i : BitVec 32} (h : Mach W p (l ++ [v]) vm) (g : Good W)
    (hw : W.instrs[p]? = some 29) (hi : IntOf W v i) :
    ∃ vm', Runs F H vm vm' ∧ Mach W (p + 1) (l ++ [.int (if i = 0 then 1 else 0)]) vm' := by
  obtain ⟨d, t, k1, k2, k3⟩ := h.stk
  have hv : IntOf vm v i := by rw [k2]; exact hi.setC _
  obtain ⟨vm1, e1, e2⟩ := C24_not F H k3 (hv.run (h.strWF g.str))
  obtain ⟨vm', a, b⟩ := h.yields F H g (op := 29) (by decide) hw e1 e2
  refine ⟨vm', .one a, ?_⟩
  have hz : i.toInt = 0 ↔ i = 0 := by rw [← BitVec.toInt_inj]; simp
  by_cases hi0 : i = 0
  · simpa [truthVal, hi0] using b
  · simpa [truthVal, hi0, hz] using b

end

/-! ## Simulation -/

/-- What is fixed during a run: the parts of the machine that matter, the start of the frame, where `break` goes and with how
many values on the stack, and how many values there are below the local variables of the function. -/
structure Cfg where
  F : FloatOps
  H : Host
  cvm : VM
  I : List (BitVec 32)
  n : Nat
  sc : Nat
  b : Nat
  T : Nat
  hb : Nat
  rb : Nat

/-- A machine to run on. -/
structure Fit (K : Cfg) (W : VM) : Prop where
  instrs : W.instrs = K.I
  good : Good W
  lits : Lits K.cvm W
  space : Space W K.n
  statics : K.sc ≤ W.statics.length

theorem Fit.keep {K : Cfg} {W W' : VM} (h : Fit K W) (k : Keep W W') : Fit K W' :=
  ⟨k.instrs.trans h.instrs, k.good h.good, k.lits h.lits, k.space h.space, by rw [k.slen]; exact h.statics⟩

/-- What the machine does for an outcome; `q` is the address after the code. -/
def Reached (K : Cfg) (q h' : Nat) (W vm : VM) (o : Out) (l' : List Value) (W' : VM) : Prop :=
  match o with
  | .normal => Keep W W' ∧ l'.length = K.b + h' ∧ ∃ vm', Runs K.F K.H vm vm' ∧ Mach W' q l' vm'
  | .brk => Keep W W' ∧ K.hb ≤ l'.length ∧ ∃ vm', Runs K.F K.H vm vm' ∧ Mach W' K.T (l'.take K.hb) vm'
  | .ret v => Keep W W' ∧ ∃ vm' r k, Runs K.F K.H vm vm' ∧ W'.instrs[r]? = some 19 ∧
      Mach W' r (l' ++ [v, .int k]) vm' ∧ K.rb + k.toNat = l'.length
  | .err => Erred K.F K.H W vm
  | .part => Keep W W' ∧ ∃ vm' r, Runs K.F K.H vm vm' ∧ Mach W' r l' vm'

/-- The code from `p` to `q` does what `P` says, when it starts with `h` values in the frame, and ends with `h'`. -/
def Sim (K : Cfg) (P : Rel) (p q h h' : Nat) : Prop :=
  ∀ W l vm o l' W', Fit K W → l.length = K.b + h → Mach W p l vm → P l W o l' W' → Reached K q h' W vm o l' W'

/-- The same with a value on the stack to be used first. -/
def SimV (K : Cfg) (k : Value → Rel) (p q h h' : Nat) : Prop :=
  ∀ v W l vm o l' W', Fit K W → l.length = K.b + h → Mach W p (l ++ [v]) vm → k v l W o l' W' → Reached K q h' W vm o l' W'

/-- Steps before. -/
theorem Reached.before {K : Cfg} {q h' : Nat} {W W1 vm vm1 : VM} {o : Out} {l' : List Value} {W' : VM} (r : Runs K.F K.H vm vm1)
    (k : Keep W W1) (h : Reached K q h' W1 vm1 o l' W') : Reached K q h' W vm o l' W' := by
  cases o with
  | normal => obtain ⟨a, b, vm', c, d⟩ := h; exact ⟨k.trans a, b, vm', r.trans c, d⟩
  | brk => obtain ⟨a, b, vm', c, d⟩ := h; exact ⟨k.trans a, b, vm', r.trans c, d⟩
  | ret v => obtain ⟨a, vm', x, y, c, d⟩ := h; exact ⟨k.trans a, vm', x, y, r.trans c, d⟩
  | err => obtain ⟨vm', c, d⟩ := h; exact ⟨vm', r.trans c, by rw [← k.errors]; exact d⟩
  | part => obtain ⟨a, vm', x, c, d⟩ := h; exact ⟨k.trans a, vm', x, r.trans c, d⟩

/-- Only the normal end depends on the address after the code. -/
theorem Reached.to {K : Cfg} {q q' h' h'' : Nat} {W vm : VM} {o : Out} {l' : List Value} {W' : VM} (h : Reached K q h' W vm o l' W')
    (ho : o ≠ .normal) : Reached K q' h'' W vm o l' W' := by
  cases o <;> first | exact absurd rfl ho | exact h

theorem sim_done {K : Cfg} {p h : Nat} : Sim K Done p p h h := by
  intro W l vm o l' W' f hl m hP
  cases hP
  exact ⟨.refl f.good.str, hl, vm, .refl _, m⟩

theorem sim_stop {K : Cfg} {p q h h' : Nat} : Sim K Stop p q h h' := by
  intro W l vm o l' W' f hl m hP
  cases hP
  exact ⟨.refl f.good.str, vm, p, .refl _, m⟩

theorem sim_seq {K : Cfg} {P Q : Rel} {p q r h h1 h2 : Nat} (a : Sim K P p q h h1) (c : Sim K Q q r h1 h2) :
    Sim K (Seq P Q) p r h h2 := by
  intro W l vm o l' W' f hl m hP
  cases hP with
  | next x y =>
    obtain ⟨k1, k2, vm1, k3, k4⟩ := a _ _ _ _ _ _ f hl m x
    exact (c _ _ _ _ _ _ (f.keep k1) k2 k4 y).before k3 k1
  | stop x y => exact (a _ _ _ _ _ _ f hl m x).to y

/-- A jump after the code. -/
theorem sim_jump {K : Cfg} {P : Rel} {p q T h h' : Nat} (a : Sim K P p q h h') (h0 : K.I[q]? = some 7)
    (h1 : K.I[q + 1]? = some (jumpWord T q)) (h2 : K.I[q + 2]? = some 17) (hT : T < 4294967296) (hn : K.b + h' < K.n) :
    Sim K P p T h h' := by
  intro W l vm o l' W' f hl m hP
  have r := a _ _ _ _ _ _ f hl m hP
  cases o with
  | normal =>
    obtain ⟨k1, k2, vm1, k3, k4⟩ := r
    have f' := f.keep k1
    obtain ⟨vm', r1, m1⟩ := k4.jump K.F K.H f'.good (by rw [f'.instrs]; exact h0) (by rw [f'.instrs]; exact h1)
      (by rw [f'.instrs]; exact h2) hT f'.space (by omega)
    exact ⟨k1, k2, vm', k3.trans r1, m1⟩
  | _ => exact r

/-- The variables of a block are removed. -/
theorem sim_scope {K : Cfg} {P : Rel} {p q h k : Nat} (a : Sim K P p q h (h + k)) (h0 : K.I[q]? = some 7)
    (h1 : K.I[q + 1]? = some (BitVec.ofNat 32 k)) (h2 : K.I[q + 2]? = some 12) (hk : k < 4294967296) (hn : K.b + h + k < K.n) :
    Sim K (Scope P) p (q + 3) h h := by
  intro W l vm o l' W' f hl m hP
  cases hP with
  | leave x y => exact (a _ _ _ _ _ _ f hl m x).to y
  | done x =>
    obtain ⟨k1, k2, vm1, k3, k4⟩ := a _ _ _ _ _ _ f hl m x
    have f' := f.keep k1
    rename_i l1
    have e : l1 = l1.take l.length ++ l1.drop l.length := (List.take_append_drop _ _).symm
    rw [e] at k4
    obtain ⟨vm', r1, m1⟩ := k4.popN K.F K.H f'.good (by rw [f'.instrs]; exact h0) (by rw [f'.instrs]; exact h1)
      (by rw [f'.instrs]; exact h2) (by rw [BitVec.toNat_ofNat, Nat.mod_eq_of_lt hk, List.length_drop]; omega) f'.space (by rw [← e]; omega)
    exact ⟨k1, by rw [List.length_take]; omega, vm', k3.trans r1, m1⟩

/-- No variables were declared. -/
theorem sim_scope0 {K : Cfg} {P : Rel} {p q h : Nat} (a : Sim K P p q h h) : Sim K (Scope P) p q h h := by
  intro W l vm o l' W' f hl m hP
  cases hP with
  | leave x y => exact (a _ _ _ _ _ _ f hl m x).to y
  | done x =>
    obtain ⟨k1, k2, k3⟩ := a _ _ _ _ _ _ f hl m x
    rw [List.take_of_length_le (by omega)]
    exact ⟨k1, k2, k3⟩

/-- The same configuration with another target for `break`. -/
def Cfg.loop (K : Cfg) (T hb : Nat) : Cfg := { K with T := T, hb := hb }

theorem Fit.loop {K : Cfg} {W : VM} {T hb : Nat} (h : Fit K W) : Fit (K.loop T hb) W := ⟨h.instrs, h.good, h.lits, h.space, h.statics⟩

theorem sim_catch {K : Cfg} {P : Rel} {p q h : Nat} (a : Sim (K.loop q (K.b + h)) P p q h h) : Sim K (Catch P) p q h h := by
  intro W l vm o l' W' f hl m hP
  cases hP with
  | brk x =>
    obtain ⟨k1, k2, vm1, k3, k4⟩ := a _ _ _ _ _ _ f.loop hl m x
    refine ⟨k1, ?_, vm1, k3, ?_⟩
    · rw [List.length_take]; simp only [Cfg.loop] at k2; omega
    · rw [hl]; exact k4
  | other x y =>
    have := a _ _ _ _ _ _ f.loop hl m x
    cases o <;> first | exact absurd rfl y | exact this

theorem sim_loop {K : Cfg} {step : Rel → Rel} {p q h h' : Nat} (a : ∀ X, Sim K X p q h h' → Sim K (step X) p q h h') :
    Sim K (Loop step) p q h h' := by
  have key : ∀ n, Sim K (rounds step n) p q h h' := by
    intro n
    induction n with
    | zero => exact sim_stop
    | succ n ih => exact a _ ih
  rintro W l vm o l' W' f hl m ⟨n, hP⟩
  exact key n _ _ _ _ _ _ f hl m hP

/-- Evaluating an expression. -/
theorem sim_eval {K : Cfg} {Γ : Bytes → Option Place} {e : Ex} {k : Value → Rel} {p q h h' : Nat} {ws : List (BitVec 32)}
    (x : SimX K.F K.H K.cvm Γ K.b h ws e) (hc : ∀ i w, ws[i]? = some w → K.I[p + i]? = some w) (hn : K.b + h + e.size ≤ K.n)
    (a : SimV K k (p + ws.length) q h h') : Sim K (Eval K.F K.H K.b Γ e k) p q h h' := by
  intro W l vm o l' W' f hl m hP
  have r : Ready K.cvm W p l K.n ws vm := ⟨f.good, f.lits, fun i w hw => by rw [f.instrs]; exact hc i w hw, f.space, m⟩
  obtain ⟨s1, s2⟩ := x W p l K.n vm r hl (by omega)
  cases hP with
  | part => exact ⟨.refl f.good.str, vm, p, .refl _, m⟩
  | err he => exact s2 he
  | val he hk =>
    obtain ⟨vm1, r1, m1⟩ := s1 _ _ _ he
    have kp := (Ev.keep e f.good.str he).1
    exact (a _ _ _ _ _ _ _ (f.keep kp) (by rw [(Ev.frame e he).1]; exact hl) m1 hk).before r1 kp

/-- Forgetting a value. -/
theorem simV_pop {K : Cfg} {p h : Nat} (h0 : K.I[p]? = some 11) : SimV K (fun _ => Done) p (p + 1) h h := by
  intro v W l vm o l' W' f hl m hP
  cases hP
  obtain ⟨vm', r1, m1⟩ := m.pop K.F K.H f.good (by rw [f.instrs]; exact h0)
  exact ⟨.refl f.good.str, hl, vm', r1, m1⟩

/-- A test. -/
theorem simV_test {K : Cfg} {P Q : Rel} {p q T h h' : Nat} (h0 : K.I[p]? = some 7) (h1 : K.I[p + 1]? = some (jumpWord T p))
    (h2 : K.I[p + 2]? = some 21) (hT : T < 4294967296) (hn : K.b + h + 1 < K.n)
    (a : Sim K P (p + 3) q h h') (c : Sim K Q T q h h') : SimV K (Test P Q) p q h h' := by
  intro v W l vm o l' W' f hl m hP
  have run : ∀ i, IntOf W v i → _ := fun i hi => m.jumpIf K.F K.H f.good (by rw [f.instrs]; exact h0) (by rw [f.instrs]; exact h1)
      (by rw [f.instrs]; exact h2) hT hi f.space (by simp; omega)
  cases hP with
  | yes hi hz hP =>
    obtain ⟨vm', r1, m1⟩ := run _ hi
    rw [if_neg hz] at m1
    exact (a _ _ _ _ _ _ f hl m1 hP).before r1 (.refl f.good.str)
  | no hi hP =>
    obtain ⟨vm', r1, m1⟩ := run _ hi
    rw [if_pos rfl] at m1
    exact (c _ _ _ _ _ _ f hl m1 hP).before r1 (.refl f.good.str)

/-- A negated test that jumps back. -/
theorem simV_testNot {K : Cfg} {P Q : Rel} {p q T h h' : Nat} (h0 : K.I[p]? = some 29) (h1 : K.I[p + 1]? = some 7)
    (h2 : K.I[p + 2]? = some (jumpWord T (p + 1))) (h3 : K.I[p + 3]? = some 21) (hT : T < 4294967296) (hn : K.b + h + 1 < K.n)
    (a : Sim K P T q h h') (c : Sim K Q (p + 4) q h h') : SimV K (Test P Q) p q h h' := by
  intro v W l vm o l' W' f hl m hP
  have run : ∀ i, IntOf W v i → ∃ vm', Runs K.F K.H vm vm' ∧ Mach W (if i = 0 then p + 4 else T) l vm' := by
    intro i hi
    obtain ⟨vm1, r1, m1⟩ := m.not K.F K.H f.good (by rw [f.instrs]; exact h0) hi
    obtain ⟨vm2, r2, m2⟩ := m1.jumpIf K.F K.H f.good (by rw [f.instrs]; exact h1) (by rw [f.instrs]; exact h2)
      (by rw [f.instrs]; exact h3) hT (.int _) f.space (by simp; omega)
    refine ⟨vm2, r1.trans r2, ?_⟩
    by_cases hz : i = 0
    · simpa [hz] using m2
    · simpa [hz] using m2
  cases hP with
  | yes hi hz hP =>
    obtain ⟨vm', r1, m1⟩ := run _ hi
    rw [if_neg hz] at m1
    exact (a _ _ _ _ _ _ f hl m1 hP).before r1 (.refl f.good.str)
  | no hi hP =>
    obtain ⟨vm', r1, m1⟩ := run _ hi
    rw [if_pos rfl] at m1
    exact (c _ _ _ _ _ _ f hl m1 hP).before r1 (.refl f.good.str)

/-- A new local variable: its value just stays where it is. -/
theorem simV_local {K : Cfg} {E : Env} {p h : Nat} (hE : E.g = none) : SimV K (fun v => Declare E v) p p h (h + 1) := by
  intro v W l vm o l' W' f hl m hP
  cases hP with
  | loc _ => exact ⟨.refl f.good.str, by rw [List.length_append, hl]; rfl, vm, .refl _, m⟩
  | glob hg _ => rw [hE] at hg; cases hg

/-- A new global variable. -/
theorem simV_global {K : Cfg} {E : Env} {p h n : Nat} (hE : E.g = some n) (hn : n < K.sc) (hn' : n < 4294967296) (h0 : K.I[p]? = some 7)
    (h1 : K.I[p + 1]? = some (BitVec.ofNat 32 n)) (h2 : K.I[p + 2]? = some 15) (h3 : K.I[p + 3]? = some 11) (hs : K.b + h + 1 < K.n) :
    SimV K (fun v => Declare E v) p (p + 4) h h := by
  intro v W l vm o l' W' f hl m hP
  cases hP with
  | loc hg => rw [hE] at hg; cases hg
  | glob hg hlt =>
    rw [hE] at hg; cases hg
    obtain ⟨vm1, r1, m1⟩ := m.pushInt K.F K.H f.good (by rw [f.instrs]; exact h0) (by rw [f.instrs]; exact h1) f.space (by simp; omega)
    rw [List.append_assoc] at m1
    have e : (BitVec.ofNat 32 n).toNat = n := by rw [BitVec.toNat_ofNat, Nat.mod_eq_of_lt hn']
    obtain ⟨vm2, r2, m2⟩ := m1.writeGlob K.F K.H f.good (by rw [f.instrs]; exact h2) (by rw [e]; exact hlt)
    rw [e] at m2
    have kp : Keep W { W with statics := W.statics.set n v } :=
      ⟨rfl, rfl, rfl, by simp, rfl, rfl, ⟨f.good.str.tab, f.good.str.blen, f.good.str.nodup, f.good.str.mem, f.good.str.hash,
        f.good.str.bucket, f.good.str.inj⟩, fun _ _ h => h, fun _ _ h => h⟩
    have f' := f.keep kp
    obtain ⟨vm3, r3, m3⟩ := m2.pop K.F K.H f'.good (by rw [f'.instrs]; exact h3)
    exact ⟨kp, hl, vm3, r1.trans ((Runs.one r2).trans r3), m3⟩

/-- A value for a new variable that has none. -/
theorem sim_zero {K : Cfg} {E : Env} {p q h h' : Nat} (h0 : K.I[p]? = some 7) (h1 : K.I[p + 1]? = some 0) (hn : K.b + h < K.n)
    (a : SimV K (fun v => Declare E v) (p + 2) q h h') : Sim K (Declare E (.int 0)) p q h h' := by
  intro W l vm o l' W' f hl m hP
  obtain ⟨vm1, r1, m1⟩ := m.pushInt K.F K.H f.good (by rw [f.instrs]; exact h0) (by rw [f.instrs]; exact h1) f.space (by omega)
  exact (a _ _ _ _ _ _ _ f hl m1 hP).before r1 (.refl f.good.str)

/-- `break` -/
theorem sim_break {K : Cfg} {p q h k : Nat} (h0 : K.I[p]? = some 7) (h1 : K.I[p + 1]? = some (BitVec.ofNat 32 k))
    (h2 : K.I[p + 2]? = some 12) (h3 : K.I[p + 3]? = some 7) (h4 : K.I[p + 4]? = some (jumpWord K.T (p + 3))) (h5 : K.I[p + 5]? = some 17)
    (hT : K.T < 4294967296) (hk : k < 4294967296) (hh : K.hb + k = K.b + h) (hn : K.b + h < K.n) : Sim K Break p q h h := by
  intro W l vm o l' W' f hl m hP
  cases hP
  have e : l = l.take K.hb ++ l.drop K.hb := (List.take_append_drop _ _).symm
  rw [e] at m
  obtain ⟨vm1, r1, m1⟩ := m.popN K.F K.H f.good (by rw [f.instrs]; exact h0) (by rw [f.instrs]; exact h1)
    (by rw [f.instrs]; exact h2) (by rw [BitVec.toNat_ofNat, Nat.mod_eq_of_lt hk, List.length_drop]; omega) f.space (by rw [← e]; omega)
  obtain ⟨vm2, r2, m2⟩ := m1.jump K.F K.H f.good (by rw [f.instrs]; exact h3) (by rw [f.instrs]; exact h4)
    (by rw [f.instrs]; exact h5) hT f.space (by rw [List.length_take]; omega)
  exact ⟨.refl f.good.str, by omega, vm2, r1.trans r2, m2⟩

/-- `return` -/
theorem simV_return {K : Cfg} {p q h h' k : Nat} (h0 : K.I[p]? = some 7) (h1 : K.I[p + 1]? = some (BitVec.ofNat 32 k))
    (h2 : K.I[p + 2]? = some 19) (hk : k < 4294967296) (hh : K.rb + k = K.b + h) (hn : K.b + h + 1 < K.n) : SimV K Return p q h h' := by
  intro v W l vm o l' W' f hl m hP
  cases hP
  obtain ⟨vm1, r1, m1⟩ := m.pushInt K.F K.H f.good (by rw [f.instrs]; exact h0) (by rw [f.instrs]; exact h1) f.space (by simp; omega)
  refine ⟨.refl f.good.str, vm1, p + 2, BitVec.ofNat 32 k, r1, by rw [f.instrs]; exact h2, by simpa using m1, ?_⟩
  rw [BitVec.toNat_ofNat, Nat.mod_eq_of_lt hk]; omega

end Nk.Cc
