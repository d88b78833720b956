import Verif.Props.Instr
import Verif.Spec.Code
/-!
# Running generated code: the instructions expressions are made of
-/
namespace Nk.Cc
open Nk.Props

theorem VM.At.inj {vm : VM} {c d : Ctx} (h : vm.At c) (h' : vm.At d) : c = d := by
  unfold VM.At at h h'
  simpa using h.symm.trans h'

theorem Keep.refl {W : VM} (h : StrWF W) : Keep W W := ⟨rfl, rfl, rfl, rfl, rfl, rfl, h, fun _ _ h => h, fun _ _ h => h⟩

theorem Keep.trans {A B C : VM} (h : Keep A B) (g : Keep B C) : Keep A C :=
  ⟨g.instrs.trans h.instrs, g.mask.trans h.mask, g.smask.trans h.smask, g.slen.trans h.slen, g.limits.trans h.limits,
    g.errors.trans h.errors, g.str, fun i t x => g.texts i t (h.texts i t x), fun i f x => g.fns i f (h.fns i f x)⟩

theorem Keep.good {A B : VM} (h : Keep A B) (g : Good A) : Good B :=
  ⟨by rw [h.instrs, h.mask, g.mask], by rw [h.mask]; exact g.pow, by rw [h.slen, h.smask, g.smask],
    by rw [h.smask]; exact g.spow, h.str⟩

theorem Keep.code {A B : VM} (h : Keep A B) {p : Nat} {ws : List (BitVec 32)} (g : CodeAt A p ws) : CodeAt B p ws :=
  fun i w hw => by rw [h.instrs]; exact g i w hw

theorem Keep.space {A B : VM} (h : Keep A B) {n : Nat} (g : Space A n) : Space B n := by
  unfold Space; rw [h.limits]; exact g

theorem Space.mono {W : VM} {n m : Nat} (h : Space W n) (hm : m ≤ n) : Space W m :=
  let ⟨k, a, b, c⟩ := h
  ⟨k, a, b, by omega⟩

theorem Space.small {W : VM} {n : Nat} (h : Space W n) : n ≤ 65536 := by
  obtain ⟨k, a, _, c⟩ := h
  have : 2 ^ k ≤ 2 ^ 16 := Nat.pow_le_pow_right (by decide) a
  omega

theorem CodeAt.append {W : VM} {p : Nat} {a b : List (BitVec 32)} :
    CodeAt W p (a ++ b) ↔ CodeAt W p a ∧ CodeAt W (p + a.length) b := by
  constructor
  · intro h
    refine ⟨fun i w hw => h i w ?_, fun i w hw => ?_⟩
    · rw [List.getElem?_append_left (List.getElem?_eq_some_iff.mp hw).1]; exact hw
    · have := h (a.length + i) w (by rw [List.getElem?_append_right (by omega)]; simpa using hw)
      rwa [← Nat.add_assoc] at this
  · rintro ⟨h, g⟩ i w hw
    by_cases hi : i < a.length
    · exact h i w (by rwa [List.getElem?_append_left hi] at hw)
    · rw [List.getElem?_append_right (by omega)] at hw
      have := g _ w hw
      rwa [show p + a.length + (i - a.length) = p + i by omega] at this

theorem CodeAt.cons {W : VM} {p : Nat} {w : BitVec 32} {b : List (BitVec 32)} :
    CodeAt W p (w :: b) ↔ W.instrs[p]? = some w ∧ CodeAt W (p + 1) b := by
  have := @CodeAt.append W p [w] b
  rw [List.singleton_append] at this
  rw [this]
  constructor
  · rintro ⟨h, g⟩; exact ⟨by simpa using h 0 w rfl, g⟩
  · rintro ⟨h, g⟩
    refine ⟨fun i x hx => ?_, g⟩
    match i, hx with
    | 0, hx => simp at hx; subst hx; simpa using h

theorem Good.spow1 {W : VM} (h : Good W) : ∃ k, W.staticMask + 1 = 2 ^ k := let ⟨k, _, e⟩ := h.spow; ⟨k, e⟩

theorem Good.ip {W : VM} (h : Good W) {p : Nat} {w : BitVec 32} (hw : W.instrs[p]? = some w) :
    p < 2147483648 ∧ instrAt W p = .ok w := by
  obtain ⟨k, hk, e⟩ := h.pow
  have hl := (List.getElem?_eq_some_iff.mp hw).1
  have : 2 ^ k ≤ 2 ^ 31 := Nat.pow_le_pow_right (by decide) hk
  refine ⟨by have := h.mask; omega, ?_⟩
  unfold instrAt
  rw [and_mask ⟨k, e⟩ (by have := h.mask; omega), hw]

/-! ## Machines -/

theorem Mach.stk {W vm : VM} {p : Nat} {l : List Value} (h : Mach W p l vm) : ∃ c s, W.At c ∧
    vm = W.setC { c with stack := s, ip := p } ∧ vm.Stk { c with stack := s, ip := p } l := by
  obtain ⟨c, s, h1, h2, h3, rfl⟩ := h
  exact ⟨c, s, h1, rfl, h1.setC _, h2, h3⟩

theorem Mach.same {W vm : VM} {p : Nat} {l : List Value} (h : Mach W p l vm) : vm.instrs = W.instrs ∧
    vm.instrMask = W.instrMask ∧ vm.statics = W.statics ∧ vm.staticMask = W.staticMask ∧ vm.limits = W.limits ∧
    vm.errors = W.errors ∧ vm.strings = W.strings ∧ vm.sbuckets = W.sbuckets := by
  obtain ⟨c, s, h1, h2, h3, rfl⟩ := h
  exact ⟨rfl, rfl, rfl, rfl, rfl, rfl, rfl, rfl⟩

theorem Mach.strWF {W vm : VM} {p : Nat} {l : List Value} (h : Mach W p l vm) (g : StrWF W) : StrWF vm := by
  obtain ⟨c, s, h1, h2, h3, rfl⟩ := h
  exact VM.setC_strWF g _

theorem Mach.instrAt {W vm : VM} {p : Nat} {l : List Value} (h : Mach W p l vm) (q : Nat) :
    Nk.instrAt vm q = Nk.instrAt W q := by
  unfold Nk.instrAt; rw [h.same.1, h.same.2.1]

theorem Space.room {W vm : VM} {p : Nat} {l : List Value} (h : Mach W p l vm) {n : Nat} (hs : Space W n)
    (hl : l.length < n) {c : Ctx} (hc : vm.Stk c l) : Room vm c.stack := by
  obtain ⟨k, hk, hm, hn⟩ := hs
  obtain ⟨a, ha, e⟩ := hc.wf.pow
  have hsz := hc.size
  have hle := hc.wf.size
  by_cases hlt : c.stack.size < c.stack.cap
  · exact Or.inl hlt
  · have hcap : c.stack.cap < 2 ^ k := by omega
    rw [e] at hcap
    have hak : a < k := (Nat.pow_lt_pow_iff_right (by decide)).mp hcap
    have h1 : 2 ^ (a + 1) ≤ 2 ^ k := Nat.pow_le_pow_right (by decide) hak
    have h2 : 2 ^ (a + 1) ≤ 2 ^ 16 := Nat.pow_le_pow_right (by decide) (by omega)
    rw [Nat.pow_succ] at h1 h2
    refine Or.inr ⟨by omega, ?_⟩
    rw [h.same.2.2.2.2.1, e]
    omega

section
variable (F : FloatOps) (H : Host)

theorem Runs.one {F : FloatOps} {H : Host} {a b : VM} (h : Step F H a b) : Runs F H a b := .step h (.refl _)

theorem Runs.trans {F : FloatOps} {H : Host} {a b c : VM} (h : Runs F H a b) (g : Runs F H b c) : Runs F H a c := by
  induction h with
  | refl => exact g
  | step s _ ih => exact .step s (ih g)

theorem code64 {op : Nat} (h : op < 64) : (BitVec.ofNat 32 op).toNat % 64 = op := by
  rw [BitVec.toNat_ofNat]
  rw [Nat.mod_eq_of_lt (show op < 2 ^ 32 by omega), Nat.mod_eq_of_lt h]

/-- One instruction whose effect, on a machine like `W`, is known up to the current context. -/
theorem Mach.step {W W' vm : VM} {p op : Nat} {l l' : List Value} (h : Mach W p l vm) (g : Good W) (ho : op < 64 ∧ op ≠ 20)
    (hw : W.instrs[p]? = some (BitVec.ofNat 32 op)) {c : Ctx} {s : Stack} {q : Nat} (hc : W'.At c)
    (hd : dispatch F H op vm = .ok ((), W'.setC { c with stack := s, ip := q })) (hs : s.WF) (hu : s.used = l')
    (hq : u32 (q + 1) = r) :
    ∃ vm', Step F H vm vm' ∧ Mach W' r l' vm' := by
  obtain ⟨d, t, h1, h2, h3⟩ := h.stk
  refine ⟨W'.setC { c with stack := s, ip := r }, ⟨_, _, h3.at_, (h.instrAt p).trans (g.ip hw).2, ?_, ?_⟩,
    c, s, hc, hs, hu, rfl⟩
  · rw [BitVec.toNat_ofNat, Nat.mod_eq_of_lt (show op < 2 ^ 32 by omega)]; exact ho.2
  rw [code64 ho.1]
  unfold execute
  rw [M.bind_ok hd, modCur_at (hc.setC _)]
  simp [hq]

theorem ip1 {W : VM} (g : Good W) {p : Nat} {w : BitVec 32} (hw : W.instrs[p]? = some w) : u32 (p + 1) = p + 1 := by
  have := (g.ip hw).1
  unfold u32 U32; omega

theorem Mach.yields {W vm vm1 : VM} {p op : Nat} {l l' : List Value} {v : Value} (h : Mach W p l vm) (g : Good W)
    (ho : op < 64 ∧ op ≠ 20) (hw : W.instrs[p]? = some (BitVec.ofNat 32 op)) (hd : dispatch F H op vm = .ok ((), vm1))
    (hy : Yields vm l' v vm1) : ∃ vm', Step F H vm vm' ∧ Mach W (p + 1) (l' ++ [v]) vm' := by
  obtain ⟨d, t, h1, h2, h3⟩ := h.stk
  obtain ⟨c, s, k1, k2, k3⟩ := hy
  have := VM.At.inj k1 h3.at_
  subst this
  refine h.step F H g ho hw (s := s) (q := p) h1 ?_ k3.wf k3.used (ip1 g hw)
  rw [hd, k2, h2, VM.setC_setC]

/-- Pushing a literal. -/
theorem Mach.literal {W vm : VM} {p op : Nat} {l : List Value} {mk : BitVec 32 → Value} {w : BitVec 32}
    (h : Mach W p l vm) (g : Good W) (ho : op < 64 ∧ op ≠ 20) (hop : ∀ vm, dispatch F H op vm = opPushLiteral mk vm)
    (hw : CodeAt W p [BitVec.ofNat 32 op, w]) {n : Nat} (hs : Space W n) (hl : l.length < n) :
    ∃ vm', Step F H vm vm' ∧ Mach W (p + 2) (l ++ [mk w]) vm' := by
  obtain ⟨hw1, hw2⟩ := CodeAt.cons.mp hw
  have hw2 := (CodeAt.cons.mp hw2).1
  obtain ⟨d, t, h1, h2, h3⟩ := h.stk
  have hr := hs.room h hl h3
  obtain ⟨s', k1, k2, k3⟩ := push_room h3 hr (mk w)
  obtain ⟨e1, e2, e3⟩ := Stack.pushed_wf h3.wf hr
  have hlt : t.size < t.pushed.vals.length := by
    have a1 : t.pushed.size ≤ t.pushed.cap := e1.size
    have a2 : t.pushed.vals.length = t.pushed.cap := e1.len
    have e2 : t.pushed.size = t.size + 1 := e2
    omega
  have hp := ip1 g hw1
  refine h.step F H g ho hw1 (s := s') (q := p + 1) h1 ?_ k2.wf k2.used (by rw [ip1 g hw2])
  rw [hop]
  unfold opPushLiteral
  rw [M.bind_ok (pushSlot_room h3.at_ h3.wf hr)]
  have a2 := h3.at_.setC { ({ d with stack := t, ip := p } : Ctx) with stack := t.pushed }
  rw [M.bind_ok (modCur_at a2 _), VM.setC_setC]
  have a3 := h3.at_.setC { d with stack := t.pushed, ip := p + 1 }
  simp only [hp]
  rw [M.bind_ok (curCtx_at a3), M.bind_ok (get_run _)]
  have : Nk.instrAt (vm.setC { d with stack := t.pushed, ip := p + 1 }) (p + 1) = .ok w := by
    rw [← (g.ip hw2).2, ← h.instrAt]; rfl
  simp only [this]
  rw [M.bind_ok (liftR_ok w _), pokeAt_at a3 (mk w) hlt, k3, VM.setC_setC, h2, VM.setC_setC]

/-- Reading a slot of the stack. -/
theorem Mach.readLoc {W vm : VM} {p : Nat} {l : List Value} {i : BitVec 32} {k : Nat} {x : Value}
    (h : Mach W p (l ++ [.int i]) vm) (g : Good W) (hw : W.instrs[p]? = some 13)
    (hk : slotOf i l.length = k) (hx : l[k]? = some x) : ∃ vm', Step F H vm vm' ∧ Mach W (p + 1) (l ++ [x]) vm' := by
  obtain ⟨d, t, h1, h2, h3⟩ := h.stk
  obtain ⟨vm', e1, e2⟩ := C61_stack_read F H h3 hk hx
  exact h.yields F H g (op := 13) (by decide) hw e1 e2

/-- Writing a slot of the stack. -/
theorem Mach.writeLoc {W vm : VM} {p : Nat} {l : List Value} {i : BitVec 32} {k : Nat} {x : Value}
    (h : Mach W p (l ++ [x, .int i]) vm) (g : Good W) (hw : W.instrs[p]? = some 14)
    (hk : slotOf i (l.length + 1) = k) (hx : k < l.length) :
    ∃ vm', Step F H vm vm' ∧ Mach W (p + 1) (l.set k x ++ [x]) vm' := by
  obtain ⟨d, t, h1, h2, h3⟩ := h.stk
  obtain ⟨vm', e1, e2⟩ := C61_stack_write F H h3 hk hx
  exact h.yields F H g (op := 14) (by decide) hw e1 e2

/-- Reading a global variable. -/
theorem Mach.readGlob {W vm : VM} {p : Nat} {l : List Value} {i : BitVec 32} {x : Value}
    (h : Mach W p (l ++ [.int i]) vm) (g : Good W) (hw : W.instrs[p]? = some 16) (hx : W.statics[i.toNat]? = some x) :
    ∃ vm', Step F H vm vm' ∧ Mach W (p + 1) (l ++ [x]) vm' := by
  obtain ⟨d, t, h1, h2, h3⟩ := h.stk
  obtain ⟨_, _, s1, s2, _⟩ := h.same
  obtain ⟨vm', e1, e2⟩ := C61_static_read F H (by rw [s1, s2]; exact g.smask) (by rw [s2]; exact g.spow1) h3
    (by rw [s1]; exact hx)
  exact h.yields F H g (op := 16) (by decide) hw e1 e2

/-- Writing a global variable. -/
theorem Mach.writeGlob {W vm : VM} {p : Nat} {l : List Value} {i : BitVec 32} {x : Value}
    (h : Mach W p (l ++ [x, .int i]) vm) (g : Good W) (hw : W.instrs[p]? = some 15) (hx : i.toNat < W.statics.length) :
    ∃ vm', Step F H vm vm' ∧ Mach { W with statics := W.statics.set i.toNat x } (p + 1) (l ++ [x]) vm' := by
  obtain ⟨d, t, h1, h2, h3⟩ := h.stk
  obtain ⟨_, _, s1, s2, _⟩ := h.same
  obtain ⟨vm', e1, c, s, k1, k2, k3⟩ := C61_static_write F H (by rw [s1, s2]; exact g.smask) (by rw [s2]; exact g.spow1) h3
    (by rw [s1]; exact hx)
  have := VM.At.inj (vm := vm) k1 h3.at_
  subst this
  refine h.step F H g (op := 15) (by decide) hw (c := d) (s := s) (q := p) h1 ?_ k3.wf k3.used (ip1 g hw)
  rw [e1, k2, h2]
  simp [VM.setC]

theorem Mach.pushNil {W vm : VM} {p : Nat} {l : List Value} (h : Mach W p l vm) (g : Good W)
    (hw : W.instrs[p]? = some 37) {n : Nat} (hs : Space W n) (hl : l.length < n) :
    ∃ vm', Step F H vm vm' ∧ Mach W (p + 1) (l ++ [.nil]) vm' := by
  obtain ⟨d, t, h1, h2, h3⟩ := h.stk
  obtain ⟨s', k1, k2, k3⟩ := push_room h3 (hs.room h hl h3) .nil
  exact h.yields F H g (op := 37) (by decide) hw k1 ⟨_, s', h3.at_, rfl, k2⟩

/-- Getting ready for calling a field with the object: function and object change places, and the object counts as an
argument. -/
theorem Mach.prepare {W vm : VM} {p : Nat} {l vs : List Value} {x f : Value}
    (h : Mach W p (l ++ (x :: f :: vs ++ [.int (BitVec.ofNat 32 vs.length)])) vm) (g : Good W)
    (hw : W.instrs[p]? = some 36) (hn : l.length + vs.length + 3 < 4294967296) :
    ∃ vm', Step F H vm vm' ∧ Mach W (p + 1) (l ++ (f :: x :: vs ++ [.int (BitVec.ofNat 32 (vs.length + 1))])) vm' := by
  obtain ⟨d, t, h1, h2, h3⟩ := h.stk
  have hsz : t.size = l.length + vs.length + 3 := by have := h3.size; simp at this; omega
  have hk : (BitVec.ofNat 32 vs.length).toNat = vs.length := by
    rw [BitVec.toNat_ofNat, Nat.mod_eq_of_lt (by omega)]
  have i1 : usub t.size 1 = l.length + vs.length + 2 := by unfold usub u32 U32; omega
  have i2 : usub t.size (u32 ((BitVec.ofNat 32 vs.length).toNat + 3)) = l.length := by
    rw [hk]; unfold usub u32 U32; omega
  have i3 : usub t.size (u32 ((BitVec.ofNat 32 vs.length).toNat + 2)) = l.length + 1 := by
    rw [hk]; unfold usub u32 U32; omega
  have p1 := peek_used h3 (i := l.length + vs.length + 2) (v := .int (BitVec.ofNat 32 vs.length)) (by
    rw [List.getElem?_append_right (by omega)]
    simp [show l.length + vs.length + 2 - l.length = vs.length + 2 by omega])
  have p2 := peek_used h3 (i := l.length) (v := x) (by simp)
  have p3 := peek_used h3 (i := l.length + 1) (v := f) (by simp)
  obtain ⟨s1, q1, q2, _⟩ := poke_used h3 (i := l.length) (by simp) f
  obtain ⟨s2, r1, r2, _⟩ := poke_used q2 (i := l.length + 1) (by simp) x
  obtain ⟨s3, u1, u2, _⟩ := poke_used r2 (i := l.length + vs.length + 2) (by simp; omega) (.int (BitVec.ofNat 32 vs.length + 1))
  refine h.step F H g (op := 36) (by decide) hw (s := s3) (q := p) h1 ?_ u2.wf ?_ (ip1 g hw)
  · show opPrepareSelfCall vm = _
    unfold opPrepareSelfCall
    rw [M.bind_ok (curStack_at h3.at_)]
    dsimp only
    rw [i1, M.bind_ok p1]
    show (do
      let n ← (pure (BitVec.ofNat 32 vs.length) : M (BitVec 32))
      let f ← peek (usub t.size (u32 (n.toNat + 3)))
      let o ← peek (usub t.size (u32 (n.toNat + 2)))
      poke (usub t.size (u32 (n.toNat + 3))) o
      poke (usub t.size (u32 (n.toNat + 2))) f
      poke (l.length + vs.length + 2) (.int (n + 1))) vm = _
    rw [M.bind_ok (M.pure_run _ _), i2, i3, M.bind_ok p2, M.bind_ok p3, M.bind_ok q1, M.bind_ok r1, u1, VM.setC_setC, VM.setC_setC,
      h2, VM.setC_setC]
  · rw [u2.used]
    simp [List.set_append, show l.length + vs.length + 2 - l.length = vs.length + 2 by omega, BitVec.ofNat_add]
    omega

end
end Nk.Cc
