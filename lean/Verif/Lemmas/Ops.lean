import Verif.Lemmas.Compare
import Verif.Model.Opcode
/-!
# Running instructions with operands on the stack
-/
namespace Nk

theorem VM.setC_frame (vm : VM) (c : Ctx) :
    vm.setC c = { vm with ctxs := vm.ctxs.set vm.cur (some c) } := rfl

/-- One operand: popping it leaves a stack with room. -/
theorem pop1 {α : Type} {vm : VM} {c : Ctx} {l : List Value} {a : Value} (h : vm.Stk c (l ++ [a]))
    (f : Value → M α) :
    ∃ s, (do let x ← pop; f x : M α) vm = f a (vm.setC { c with stack := s }) ∧
      (vm.setC { c with stack := s }).Stk { c with stack := s } l ∧ s.size < s.cap ∧
      s = { c.stack with size := c.stack.size - 1 } := by
  obtain ⟨s, h1, h2, h3⟩ := pop_cons h
  refine ⟨s, by rw [M.bind_ok h1], h2, ?_, h3⟩
  have e1 := h.size
  have e2 := h.wf.size
  rw [h3]
  simp at e1 ⊢
  omega

/-- Two operands. -/
theorem pop2 {α : Type} {vm : VM} {c : Ctx} {l : List Value} {a b : Value} (h : vm.Stk c (l ++ [a, b]))
    (f : Value → Value → M α) :
    ∃ s, (do let y ← pop; let x ← pop; f y x : M α) vm = f b a (vm.setC { c with stack := s }) ∧
      (vm.setC { c with stack := s }).Stk { c with stack := s } l ∧ s.size < s.cap ∧
      s = { c.stack with size := c.stack.size - 2 } := by
  have h' : vm.Stk c ((l ++ [a]) ++ [b]) := by simpa using h
  obtain ⟨s, h1, h2, h3, h4⟩ := pop1 h' (fun y => (do let x ← pop; f y x : M α))
  obtain ⟨s', g1, g2, g3, g4⟩ := pop1 h2 (fun x => f b x)
  refine ⟨s', ?_, ?_, g3, by rw [g4, h4]; rfl⟩
  · rw [h1, g1]; simp
  · simpa using g2

/-- Taking a slot, computing the value, then storing it. -/
theorem slot_then {vm vm2 : VM} {c : Ctx} {l : List Value} (h : vm.Stk c l) (hr : Room vm c.stack)
    {m : M Value} {v : Value}
    (hm : m (vm.setC { c with stack := c.stack.pushed }) = .ok (v, vm2))
    (hx : vm2.ctxs = (vm.setC { c with stack := c.stack.pushed }).ctxs) (hcur : vm2.cur = vm.cur) :
    ∃ s', (do let i ← pushSlot; let v ← m; pokeAt i v : M Unit) vm =
        .ok ((), vm2.setC { c with stack := s' }) ∧
      (vm2.setC { c with stack := s' }).Stk { c with stack := s' } (l ++ [v]) := by
  obtain ⟨s', h1, h2, h3⟩ := push_room h hr v
  obtain ⟨g1, g2, g3⟩ := Stack.pushed_wf h.wf hr
  have hlt : c.stack.size < c.stack.pushed.vals.length := by
    have := g1.size; have := g1.len; omega
  have hat : vm2.At { c with stack := c.stack.pushed } := by
    unfold VM.At
    rw [hx, hcur]
    exact h.at_.setC _
  refine ⟨s', ?_, hat.setC _, h2.wf, h2.used⟩
  rw [M.bind_ok (pushSlot_room h.at_ h.wf hr), M.bind_ok hm, pokeAt_at hat v hlt, h3]

/-- Pushing a result. -/
theorem push_yields {vm : VM} {c : Ctx} {l : List Value} {s : Stack} (hc : vm.At c)
    (h : (vm.setC { c with stack := s }).Stk { c with stack := s } l) (hr : s.size < s.cap) (v : Value) :
    ∃ vm', push v (vm.setC { c with stack := s }) = .ok ((), vm') ∧ Yields vm l v vm' := by
  obtain ⟨s', h1, h2, _⟩ := push_room h (Or.inl hr) v
  refine ⟨_, h1, c, s', hc, ?_, ?_⟩
  · simp
  · simpa using h2

theorem VM.setC_strWF {vm : VM} (h : StrWF vm) (c : Ctx) : StrWF (vm.setC c) :=
  ⟨h.tab, h.blen, h.nodup, h.mem, h.hash, h.bucket, h.inj⟩

/-- Changing strings and errors commutes with replacing the current context. -/
theorem SExt.setC {vm vm' : VM} (h : SExt vm vm') (c : Ctx) : SExt (vm.setC c) (vm'.setC c) := by
  refine ⟨?_, VM.setC_strWF h.wf c, h.keep, h.errs, h.fresh⟩
  have e := h.frame
  have e1 := h.ctxs
  have e2 := h.cur
  unfold VM.setC
  rw [e1, e2, e]

theorem SExt.setC_left {vm vm' : VM} {c : Ctx} (hs : SExt (vm.setC c) vm') (c' : Ctx) :
    SExt (vm.setC c') (vm'.setC c') := by
  have := hs.setC c'
  simpa using this

theorem SExt.strWF_left {vm vm' : VM} {c : Ctx} (h : StrWF (vm.setC c)) : StrWF vm :=
  ⟨h.tab, h.blen, h.nodup, h.mem, h.hash, h.bucket, h.inj⟩

end Nk
