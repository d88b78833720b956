import Verif.Lemmas.Stack
import Verif.Spec.Stack
/-!
# C07, C08: the value stack
-/
namespace Nk.Props
open Nk.StackSpec

/-- A stack operation on the VM. -/
def stkStep : Op → M (Option Value)
  | .push v => do
    push v
    return none
  | .pop => do
    let v ← pop
    return some v
  | .popN n => do
    popN n
    return none
  | .clear b => do
    stackClear b
    return none

/-- A sequence of stack operations on the VM, collecting the outputs. -/
def stkRun : List Op → M (List (Option Value))
  | [] => return []
  | op :: ops => do
    let o ← stkStep op
    let os ← stkRun ops
    return o :: os

/-- A new VM on which `nkxSetMaxStackSize(vm, limit)` was called. -/
def freshVM (limit : Nat) : VM :=
  { VM.create with limits := { maxStackSize := limit, maxFields := UINT_MAX } }

/-- The values on the current stack, bottom first, provided the stack structure is sound. -/
def stackIs (vm : VM) (l : List Value) : Prop := ∃ c, vm.Stk c l

theorem fresh_stk (limit : Nat) : (freshVM limit).Stk { Ctx.init with state := .running } [] :=
  ⟨rfl, Stack.init_wf, rfl⟩

theorem clear_ok {vm : VM} {c : Ctx} {l : List Value} (h : vm.Stk c l) (b : Bool) :
    ∃ s', stackClear b vm = .ok ((), vm.setC { c with stack := s' }) ∧
      (vm.setC { c with stack := s' }).Stk { c with stack := s' } [] := by
  have hl := h.wf.len
  have hle : c.stack.cap ≤ c.stack.vals.length := by omega
  cases b
  · refine ⟨_, by simp only [stackClear, M.bind_eq, curStack_at h.at_, hle, if_true, modStack_at h.at_];
                  rfl, ⟨h.at_.setC _, ?_, ?_⟩⟩
    · exact ⟨h.wf.pow, by simp; omega, h.wf.mask, Nat.zero_le _⟩
    · simp [Stack.used]
  · refine ⟨_, by simp only [stackClear, M.bind_eq, curStack_at h.at_, hle, if_true, modStack_at h.at_];
                  rfl, ⟨h.at_.setC _, ?_, ?_⟩⟩
    · exact ⟨⟨1, by omega, rfl⟩, rfl, rfl, Nat.zero_le _⟩
    · simp [Stack.used]

/-- What one operation does: it completes; the error list only grows; and if it did not grow, the
operation did what it does on a list. -/
theorem stkStep_ok {vm : VM} {c : Ctx} {l : List Value} (h : vm.Stk c l) (op : Op) :
    ∃ o vm' l' es, stkStep op vm = .ok (o, vm') ∧ stackIs vm' l' ∧ vm'.errors = vm.errors ++ es ∧
      (es = [] → step l op = some (o, l')) := by
  cases op with
  | push v =>
    by_cases hr : Room vm c.stack
    · obtain ⟨s', h1, h2, _⟩ := push_room h hr v
      refine ⟨none, _, _, [], ?_, ⟨_, h2⟩, by simp, fun _ => rfl⟩
      simp [stkStep, M.bind_eq, h1]
    · obtain ⟨e, h1⟩ := push_full h.at_ h.wf hr v
      have hat : (vm.addErr e).At c := h.at_
      refine ⟨none, _, _, [e], by simp only [stkStep, M.bind_eq, h1]; rfl,
        ⟨_, hat.setC _, ?_, rfl⟩, rfl, by simp⟩
      · exact ⟨h.wf.pow, by simpa using h.wf.len, h.wf.mask, h.wf.size⟩
  | pop =>
    rcases List.eq_nil_or_concat l with rfl | ⟨l', v, rfl⟩
    · obtain ⟨v, h1, _⟩ := pop_nil h
      refine ⟨some v, _, [], ["Stack underflow in pop."], ?_, ⟨c, h.at_.addErr _, h.wf, h.used⟩, rfl, by simp⟩
      simp [stkStep, M.bind_eq, h1]
    · rw [List.concat_eq_append] at h
      obtain ⟨s', h1, h2, _⟩ := pop_cons h
      refine ⟨some v, _, l', [], ?_, ⟨_, h2⟩, by simp, fun _ => by simp [step]⟩
      simp [stkStep, M.bind_eq, h1]
  | popN n =>
    by_cases hn : n ≤ l.length
    · obtain ⟨h1, h2⟩ := popN_ok h hn
      refine ⟨none, _, _, [], ?_, ⟨_, h2⟩, by simp, fun _ => by simp [step, hn]⟩
      simp [stkStep, M.bind_eq, h1]
    · have h1 := popN_under h (Nat.lt_of_not_le hn)
      have hat : (vm.addErr "Stack underflow in popN.").At c := h.at_
      refine ⟨none, _, [], ["Stack underflow in popN."], by simp only [stkStep, M.bind_eq, h1]; rfl,
        ⟨_, hat.setC _, ?_, ?_⟩, rfl, by simp⟩
      · exact ⟨h.wf.pow, h.wf.len, h.wf.mask, Nat.zero_le _⟩
      · simp [Stack.used]
  | clear b =>
    obtain ⟨s', h1, h2⟩ := clear_ok h b
    refine ⟨none, _, [], [], ?_, ⟨_, h2⟩, by simp, fun _ => rfl⟩
    simp [stkStep, M.bind_eq, h1]

theorem stkRun_ok {vm : VM} {l : List Value} (h : stackIs vm l) (ops : List Op) :
    ∃ os vm' l' es, stkRun ops vm = .ok (os, vm') ∧ stackIs vm' l' ∧ vm'.errors = vm.errors ++ es ∧
      (es = [] → run l ops = some (os, l')) := by
  induction ops generalizing vm l with
  | nil => exact ⟨[], vm, l, [], rfl, h, by simp, fun _ => rfl⟩
  | cons op ops ih =>
    obtain ⟨c, hc⟩ := h
    obtain ⟨o, vm1, l1, es1, h1, h2, h3, h4⟩ := stkStep_ok hc op
    obtain ⟨os, vm2, l2, es2, h5, h6, h7, h8⟩ := ih h2
    refine ⟨o :: os, vm2, l2, es1 ++ es2, ?_, h6, by rw [h7, h3, List.append_assoc], ?_⟩
    · simp [stkRun, M.bind_eq, h1, h5]
    · intro he
      obtain ⟨e1, e2⟩ := List.append_eq_nil_iff.mp he
      simp [run, h4 e1, h8 e2]

/-- **C07.** Any sequence of stack operations on a new VM, under any stack limit, completes; and
unless an error has been reported, every pop returned what the mathematical stack returns and the stack
holds what the mathematical stack holds. -/
theorem C07_lifo (limit : Nat) (ops : List Op) :
    ∃ outs vm', stkRun ops (freshVM limit) = .ok (outs, vm') ∧
      (vm'.errors = [] → ∃ l, run [] ops = some (outs, l) ∧ stackIs vm' l) := by
  obtain ⟨os, vm', l', es, h1, h2, h3, h4⟩ := stkRun_ok ⟨_, fresh_stk limit⟩ ops
  refine ⟨os, vm', h1, fun he => ⟨l', h4 ?_, h2⟩⟩
  rw [h3] at he
  exact (List.append_eq_nil_iff.mp he).2

/-- A concrete run without errors. -/
example : (stkRun [.push (.int 1), .push (.int 2), .pop, .push .nil, .popN 1, .pop] (freshVM 4)).test
    (fun (outs, vm') => outs = [none, none, some (.int 2), none, none, some (.int 1)] ∧ vm'.errors = []) := by
  decide +kernel

/-! ## C08 -/

/-- Everything that can be done to the stack: the operations above without the internal clearing, reads
and writes at any 32-bit index, and changes of the limit. -/
inductive Op8 where
  | push (v : Value)
  | pop
  | popN (n : Nat)
  | peek (i : Nat)
  | poke (i : Nat) (v : Value)
  | setLimit (n : Nat)

/-- One such operation on the VM. -/
def step8 : Op8 → M Unit
  | .push v => push v
  | .pop => do
    let _ ← pop
    return ()
  | .popN n => popN n
  | .peek i => do
    let _ ← peek i
    return ()
  | .poke i v => poke i v
  | .setLimit n => modify fun vm => { vm with limits := { vm.limits with maxStackSize := n } }

/-- A sequence of operations on the VM. -/
def run8 : List Op8 → M Unit
  | [] => return ()
  | op :: ops => do
    step8 op
    run8 ops

/-- The largest limit in force at some point of the sequence. -/
def maxLimit (n : Nat) : List Op8 → Nat
  | [] => n
  | .setLimit m :: ops => max n (maxLimit m ops)
  | _ :: ops => maxLimit n ops

/-- Bound kept by all operations: `B` is at least every limit so far. -/
def CapOk (B : Nat) (vm : VM) : Prop :=
  ∃ c l, vm.Stk c l ∧ c.stack.cap ≤ B ∧ c.stack.cap ≤ 65536

theorem step8_ok {vm : VM} {B : Nat} (h : CapOk B vm) (hB : vm.limits.maxStackSize ≤ B) (op : Op8) :
    ∃ vm', step8 op vm = .ok ((), vm') ∧ CapOk B vm' ∧
      vm'.limits.maxStackSize = (match op with | .setLimit n => n | _ => vm.limits.maxStackSize) := by
  obtain ⟨c, l, hs, h1, h2⟩ := h
  cases op with
  | push v =>
    by_cases hr : Room vm c.stack
    · obtain ⟨s', e1, e2, e3⟩ := push_room hs hr v
      refine ⟨_, e1, ⟨_, _, e2, ?_⟩, rfl⟩
      show s'.cap ≤ B ∧ s'.cap ≤ 65536
      rw [e3]
      show c.stack.pushed.cap ≤ B ∧ c.stack.pushed.cap ≤ 65536
      unfold Stack.pushed
      by_cases hc : c.stack.size = c.stack.cap
      · have hc' : c.stack.cap ≤ 65535 ∧ c.stack.cap * 2 ≤ vm.limits.maxStackSize := by
          rcases hr with hr | hr
          · omega
          · exact hr
        obtain ⟨g1, g2, _, _⟩ := Stack.grow_wf hs.wf hc'.1
        simp only [hc, if_true, g2]
        refine ⟨by omega, ?_⟩
        obtain ⟨k, _, hk⟩ := hs.wf.pow
        have : k < 16 := by
          rcases Nat.lt_or_ge k 16 with h | h
          · exact h
          · have : 2 ^ 16 ≤ 2 ^ k := Nat.pow_le_pow_right (by omega) h
            omega
        have : 2 ^ k ≤ 2 ^ 15 := Nat.pow_le_pow_right (by omega) (by omega)
        omega
      · simp only [hc, if_false]; exact ⟨h1, h2⟩
    · obtain ⟨e, e1⟩ := push_full hs.at_ hs.wf hr v
      have hat : (vm.addErr e).At c := hs.at_
      exact ⟨_, e1, ⟨_, _, ⟨hat.setC _, ⟨hs.wf.pow, by simpa using hs.wf.len, hs.wf.mask, hs.wf.size⟩, rfl⟩,
        h1, h2⟩, rfl⟩
  | pop =>
    rcases List.eq_nil_or_concat l with rfl | ⟨l', v, rfl⟩
    · obtain ⟨v, e1, _⟩ := pop_nil hs
      exact ⟨_, by simp only [step8, M.bind_eq, e1]; rfl, ⟨c, [], ⟨hs.at_.addErr _, hs.wf, hs.used⟩, h1, h2⟩, rfl⟩
    · rw [List.concat_eq_append] at hs
      obtain ⟨s', e1, e2, e3⟩ := pop_cons hs
      refine ⟨_, by simp only [step8, M.bind_eq, e1]; rfl, ⟨_, _, e2, ?_⟩, rfl⟩
      rw [e3]; exact ⟨h1, h2⟩
  | popN n =>
    by_cases hn : n ≤ l.length
    · obtain ⟨e1, e2⟩ := popN_ok hs hn
      exact ⟨_, e1, ⟨_, _, e2, h1, h2⟩, rfl⟩
    · have e1 := popN_under hs (Nat.lt_of_not_le hn)
      have hat : (vm.addErr "Stack underflow in popN.").At c := hs.at_
      exact ⟨_, e1, ⟨_, _, ⟨hat.setC _, ⟨hs.wf.pow, hs.wf.len, hs.wf.mask, Nat.zero_le _⟩, rfl⟩, h1, h2⟩, rfl⟩
  | peek i =>
    obtain ⟨v, _, e1⟩ := peek_ok hs.at_ hs.wf i
    exact ⟨vm, by simp only [step8, M.bind_eq, e1]; rfl, ⟨c, l, hs, h1, h2⟩, rfl⟩
  | poke i v =>
    have e1 := poke_ok hs.at_ hs.wf i v
    exact ⟨_, e1, ⟨_, _, ⟨hs.at_.setC _, ⟨hs.wf.pow, by simpa using hs.wf.len, hs.wf.mask, hs.wf.size⟩, rfl⟩,
      h1, h2⟩, rfl⟩
  | setLimit n => exact ⟨_, rfl, ⟨c, l, ⟨hs.at_, hs.wf, hs.used⟩, h1, h2⟩, rfl⟩

theorem maxLimit_ge (n : Nat) (ops : List Op8) : n ≤ maxLimit n ops := by
  induction ops generalizing n with
  | nil => exact Nat.le_refl _
  | cons op ops ih => cases op <;> first | exact ih _ | exact Nat.le_max_left _ _

theorem run8_ok {vm : VM} {B : Nat} (h : CapOk B vm) (ops : List Op8)
    (hB : maxLimit vm.limits.maxStackSize ops ≤ B) :
    ∃ vm', run8 ops vm = .ok ((), vm') ∧ CapOk B vm' := by
  induction ops generalizing vm with
  | nil => exact ⟨vm, rfl, h⟩
  | cons op ops ih =>
    have hle : vm.limits.maxStackSize ≤ B := Nat.le_trans (maxLimit_ge _ _) hB
    obtain ⟨vm1, h1, h2, h3⟩ := step8_ok h hle op
    have hB' : maxLimit vm1.limits.maxStackSize ops ≤ B := by
      rw [h3]
      cases op <;> first | exact hB | exact Nat.le_trans (Nat.le_max_right _ _) hB
    obtain ⟨vm2, h4, h5⟩ := ih h2 hB'
    exact ⟨vm2, by simp only [run8, M.bind_eq, h1]; exact h4, h5⟩

/-- **C08**, containment and bound: whatever is done to the stack of a new VM with a limit of at least
one, every access is inside the allocated storage (the run completes, i.e. is never undefined), and the
stack never holds more values than the largest limit in force so far, nor more than 65536, nor more than
its storage. -/
theorem C08_bounded (limit : Nat) (hl : 1 ≤ limit) (ops : List Op8) :
    ∃ vm' c, run8 ops (freshVM limit) = .ok ((), vm') ∧ ctxAt vm' vm'.cur = .ok c ∧
      c.stack.size ≤ maxLimit limit ops ∧ c.stack.size ≤ 65536 ∧
      c.stack.size ≤ c.stack.vals.length := by
  have h0 : CapOk (maxLimit limit ops) (freshVM limit) :=
    ⟨_, _, fresh_stk limit, Nat.le_trans hl (maxLimit_ge _ _), by decide⟩
  obtain ⟨vm', h1, c, l, hs, h2, h3⟩ := run8_ok h0 ops (Nat.le_refl _)
  have := hs.wf.size
  have := hs.wf.len
  exact ⟨vm', c, h1, hs.at_.ctxAt, by omega, by omega, by omega⟩

/-- **C08**, reporting: in any state of the stack a push either adds the value and records nothing, or
records exactly one error and leaves the number of values as it is; the first is the case whenever twice
the current number is within the limit and fewer than 65536 values are on the stack. -/
theorem C08_push {vm : VM} {l : List Value} (h : stackIs vm l) (v : Value) :
    ∃ vm', push v vm = .ok ((), vm') ∧
      ((stackIs vm' (l ++ [v]) ∧ vm'.errors = vm.errors) ∨
       (∃ l' e, stackIs vm' l' ∧ l'.length = l.length ∧ vm'.errors = vm.errors ++ [e])) ∧
      (2 * l.length ≤ vm.limits.maxStackSize → l.length < 65536 → vm'.errors = vm.errors) := by
  obtain ⟨c, hc⟩ := h
  by_cases hr : Room vm c.stack
  · obtain ⟨s', h1, h2, _⟩ := push_room hc hr v
    exact ⟨_, h1, .inl ⟨⟨_, h2⟩, rfl⟩, fun _ _ => rfl⟩
  · obtain ⟨e, h1⟩ := push_full hc.at_ hc.wf hr v
    have hat : (vm.addErr e).At c := hc.at_
    have hw : Stack.WF { c.stack with vals := c.stack.vals.set 0 v } :=
      ⟨hc.wf.pow, by simpa using hc.wf.len, hc.wf.mask, hc.wf.size⟩
    refine ⟨_, h1, .inr ⟨_, e, ⟨_, hat.setC _, hw, rfl⟩, ?_, rfl⟩, ?_⟩
    · rw [Stack.used_length hw]; exact hc.size
    · intro h2 h3
      exfalso
      apply hr
      have := hc.size
      have := hc.wf.size
      unfold Room
      omega

/-- **C08**, reporting: a pop on an empty stack records an error; a pop of more values than there are
records an error. -/
theorem C08_underflow {vm : VM} {l : List Value} (h : stackIs vm l) :
    (l = [] → ∃ v vm', pop vm = .ok (v, vm') ∧ stackIs vm' [] ∧
      vm'.errors = vm.errors ++ ["Stack underflow in pop."]) ∧
    (∀ n, l.length < n → ∃ vm', popN n vm = .ok ((), vm') ∧ stackIs vm' [] ∧
      vm'.errors = vm.errors ++ ["Stack underflow in popN."]) := by
  obtain ⟨c, hc⟩ := h
  constructor
  · rintro rfl
    obtain ⟨v, h1, _⟩ := pop_nil hc
    exact ⟨v, _, h1, ⟨c, hc.at_.addErr _, hc.wf, hc.used⟩, rfl⟩
  · intro n hn
    have h1 := popN_under hc hn
    have hat : (vm.addErr "Stack underflow in popN.").At c := hc.at_
    refine ⟨_, h1, ⟨_, hat.setC _, ?_, ?_⟩, rfl⟩
    · exact ⟨hc.wf.pow, hc.wf.len, hc.wf.mask, Nat.zero_le _⟩
    · simp [Stack.used]

/-- A limit of 3 stops at 2 values (capacities are powers of two); the third push is reported. -/
example : (run8 [.push (.int 1), .push (.int 2), .push (.int 3), .peek 4000000000] (freshVM 3)).test
    (fun (_, vm') => vm'.errors = ["Reached stack capacity limit."]) := by
  decide +kernel

example : stackIs (freshVM 8) [] := ⟨_, fresh_stk 8⟩

end Nk.Props
