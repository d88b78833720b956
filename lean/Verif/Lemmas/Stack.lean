import Verif.Spec.Machine
/-!
# Lemmas about the value stack

`Stack.WF` is the shape of the allocation; `VM.setStk` replaces the current stack; each stack function is
computed as a function of the current stack.
-/
namespace Nk

/-- Monad equations. -/
theorem M.bind_eq {α β : Type} (x : M α) (f : α → M β) (vm : VM) :
    (x >>= f) vm = match x vm with
      | .ok (a, vm') => f a vm'
      | .ub k => .ub k := rfl

@[simp] theorem M.pure_run {α : Type} (a : α) (vm : VM) : (Pure.pure a : M α) vm = .ok (a, vm) := rfl

theorem M.bind_ok {α β : Type} {x : M α} {f : α → M β} {vm vm' : VM} {a : α}
    (h : x vm = .ok (a, vm')) : (x >>= f) vm = f a vm' := by
  rw [M.bind_eq, h]

theorem M.bind_ub {α β : Type} {x : M α} {f : α → M β} {vm : VM} {k : UB}
    (h : x vm = .ub k) : (x >>= f) vm = .ub k := by
  rw [M.bind_eq, h]

theorem M.assoc {α β γ : Type} (x : M α) (f : α → M β) (g : β → M γ) :
    (x >>= f) >>= g = x >>= fun a => f a >>= g := by
  funext vm
  simp only [M.bind_eq]
  cases x vm with
  | ok p => rfl
  | ub k => rfl

theorem M.pure_bind {α β : Type} (a : α) (f : α → M β) : (Pure.pure a : M α) >>= f = f a := rfl

@[simp] theorem get_run (vm : VM) : get vm = .ok (vm, vm) := rfl
@[simp] theorem modify_run (f : VM → VM) (vm : VM) : modify f vm = .ok ((), f vm) := rfl
@[simp] theorem liftR_ok {α : Type} (a : α) (vm : VM) : liftR (.ok a) vm = .ok (a, vm) := rfl
@[simp] theorem liftR_ub {α : Type} (k : UB) (vm : VM) : (liftR (.ub k) : M α) vm = .ub k := rfl
@[simp] theorem addError_run (s : String) (vm : VM) : addError s vm = .ok ((), vm.addErr s) := rfl

@[simp] theorem VM.addErr_errors (vm : VM) (e : String) : (vm.addErr e).errors = vm.errors ++ [e] := rfl
@[simp] theorem VM.addErr_cur (vm : VM) (e : String) : (vm.addErr e).cur = vm.cur := rfl
@[simp] theorem VM.addErr_ctxs (vm : VM) (e : String) : (vm.addErr e).ctxs = vm.ctxs := rfl
@[simp] theorem VM.addErr_limits (vm : VM) (e : String) : (vm.addErr e).limits = vm.limits := rfl
@[simp] theorem VM.addErr_strings (vm : VM) (e : String) : (vm.addErr e).strings = vm.strings := rfl
@[simp] theorem VM.addErr_sbuckets (vm : VM) (e : String) : (vm.addErr e).sbuckets = vm.sbuckets := rfl
@[simp] theorem VM.addErr_objects (vm : VM) (e : String) : (vm.addErr e).objects = vm.objects := rfl

namespace Stack

theorem WF.capPos {s : Stack} (h : s.WF) : 0 < s.cap := by
  obtain ⟨k, _, hk⟩ := h.pow
  rw [hk]; exact Nat.two_pow_pos k

theorem WF.capLe {s : Stack} (h : s.WF) : s.cap ≤ 2147483648 := by
  obtain ⟨k, hk, he⟩ := h.pow
  rw [he]
  calc 2 ^ k ≤ 2 ^ 31 := Nat.pow_le_pow_right (by omega) hk
    _ = 2147483648 := rfl

theorem WF.and_lt {s : Stack} (h : s.WF) (i : Nat) : i &&& s.mask < s.vals.length := by
  have := h.mask
  have := h.len
  have := @Nat.and_le_right i s.mask
  omega

theorem WF.and_eq {s : Stack} (h : s.WF) {i : Nat} (hi : i < s.cap) : i &&& s.mask = i := by
  obtain ⟨k, _, hk⟩ := h.pow
  have hm : s.mask = 2 ^ k - 1 := by have := h.mask; omega
  rw [hm, Nat.and_two_pow_sub_one_eq_mod]
  exact Nat.mod_eq_of_lt (by omega)

theorem used_length {s : Stack} (h : s.WF) : s.used.length = s.size := by
  unfold used
  rw [List.length_take, h.len]
  exact Nat.min_eq_left h.size

theorem init_wf : Stack.init.WF := ⟨⟨0, by omega, rfl⟩, rfl, rfl, by decide⟩

theorem double_or_one (m : Nat) : m * 2 ||| 1 = m * 2 + 1 := by
  have h := Nat.shiftLeft_add_eq_or_of_lt (i := 1) (b := 1) (by omega) m
  rw [Nat.shiftLeft_eq] at h
  exact h.symm

theorem grow_wf {s : Stack} (h : s.WF) (hc : s.cap ≤ 65535) :
    s.grow.WF ∧ s.grow.cap = s.cap * 2 ∧ s.grow.size = s.size ∧ s.grow.used = s.used := by
  obtain ⟨k, hk, he⟩ := h.pow
  have hm := h.mask
  have hs := h.size
  have hl := h.len
  have hp := h.capPos
  have hu : u32 (s.cap * 2) = s.cap * 2 := Nat.mod_eq_of_lt (by unfold U32; omega)
  have hu' : u32 (s.mask * 2) = s.mask * 2 := Nat.mod_eq_of_lt (by unfold U32; omega)
  have hk' : k < 31 := by
    rcases Nat.lt_or_ge k 31 with h | h
    · exact h
    · have : 2 ^ 31 ≤ 2 ^ k := Nat.pow_le_pow_right (by omega) h
      omega
  refine ⟨⟨⟨k + 1, by omega, ?_⟩, ?_, ?_, ?_⟩, ?_, rfl, ?_⟩
  · show u32 (s.cap * 2) = _
    rw [hu, he, Nat.pow_succ]
  · show (_ ++ _ : List Value).length = u32 (s.cap * 2)
    rw [hu, List.length_append, List.length_take, List.length_replicate]; omega
  · show (u32 (s.mask * 2) ||| 1) + 1 = u32 (s.cap * 2)
    rw [hu, hu', double_or_one]; omega
  · show s.size ≤ u32 (s.cap * 2)
    omega
  · exact hu
  · show (s.vals.take s.size ++ _).take s.size = _
    rw [List.take_append_of_le_length (by rw [List.length_take]; omega), List.take_take, Nat.min_self]
    rfl

end Stack

theorem VM.At.ctxAt {vm : VM} {c : Ctx} (h : vm.At c) : ctxAt vm vm.cur = .ok c := by
  unfold Nk.ctxAt; rw [h]

theorem VM.At.addErr {vm : VM} {c : Ctx} (h : vm.At c) (e : String) : (vm.addErr e).At c := h

theorem VM.At.lt {vm : VM} {c : Ctx} (h : vm.At c) : vm.cur < vm.ctxs.length :=
  (List.getElem?_eq_some_iff.mp h).1

theorem VM.At.setC {vm : VM} {c : Ctx} (h : vm.At c) (c' : Ctx) : (vm.setC c').At c' := by
  unfold VM.At VM.setC
  simp [h.lt]

@[simp] theorem VM.setC_setC (vm : VM) (c c' : Ctx) : (vm.setC c).setC c' = vm.setC c' := by
  simp [VM.setC]

theorem VM.At.setC_self {vm : VM} {c : Ctx} (h : vm.At c) : vm.setC c = vm := by
  unfold VM.setC
  have : vm.ctxs.set vm.cur (some c) = vm.ctxs := by
    apply List.ext_getElem?
    intro i
    rw [List.getElem?_set]
    by_cases hi : vm.cur = i
    · subst hi; simp only [if_true, h.lt]; exact h.symm
    · simp [hi]
  rw [this]

@[simp] theorem VM.setC_cur (vm : VM) (c : Ctx) : (vm.setC c).cur = vm.cur := rfl
@[simp] theorem VM.setC_errors (vm : VM) (c : Ctx) : (vm.setC c).errors = vm.errors := rfl
@[simp] theorem VM.setC_limits (vm : VM) (c : Ctx) : (vm.setC c).limits = vm.limits := rfl
@[simp] theorem VM.setC_strings (vm : VM) (c : Ctx) : (vm.setC c).strings = vm.strings := rfl
@[simp] theorem VM.setC_objects (vm : VM) (c : Ctx) : (vm.setC c).objects = vm.objects := rfl
@[simp] theorem VM.setC_sbuckets (vm : VM) (c : Ctx) : (vm.setC c).sbuckets = vm.sbuckets := rfl
@[simp] theorem VM.setC_statics (vm : VM) (c : Ctx) : (vm.setC c).statics = vm.statics := rfl
@[simp] theorem VM.setC_staticMask (vm : VM) (c : Ctx) : (vm.setC c).staticMask = vm.staticMask := rfl
@[simp] theorem VM.setC_instrs (vm : VM) (c : Ctx) : (vm.setC c).instrs = vm.instrs := rfl
@[simp] theorem VM.setC_instrMask (vm : VM) (c : Ctx) : (vm.setC c).instrMask = vm.instrMask := rfl

theorem curCtx_at {vm : VM} {c : Ctx} (h : vm.At c) : curCtx vm = .ok (c, vm) := by
  simp [curCtx, h.ctxAt]

theorem modCur_at {vm : VM} {c : Ctx} (h : vm.At c) (f : Ctx → Ctx) :
    modCur f vm = .ok ((), vm.setC (f c)) := by
  simp [modCur, h.ctxAt, VM.setC]

theorem curStack_at {vm : VM} {c : Ctx} (h : vm.At c) : curStack vm = .ok (c.stack, vm) := by
  simp [curStack, M.bind_eq, curCtx_at h]

theorem modStack_at {vm : VM} {c : Ctx} (h : vm.At c) (f : Stack → Stack) :
    modStack f vm = .ok ((), vm.setC { c with stack := f c.stack }) := by
  simp [modStack, modCur_at h]

theorem peekAt_at {vm : VM} {c : Ctx} (h : vm.At c) {i : Nat} {v : Value}
    (hv : c.stack.vals[i]? = some v) : peekAt i vm = .ok (v, vm) := by
  simp [peekAt, M.bind_eq, curStack_at h, hv]

theorem pokeAt_at {vm : VM} {c : Ctx} (h : vm.At c) {i : Nat} (v : Value)
    (hi : i < c.stack.vals.length) :
    pokeAt i v vm = .ok ((), vm.setC { c with stack := { c.stack with vals := c.stack.vals.set i v } }) := by
  simp [pokeAt, M.bind_eq, curStack_at h, hi, modStack_at h]

/-! ## The stack functions on a list

`vm.Stk c l`: the current context is `c`, its stack is well formed and holds `l` (bottom first). -/

theorem VM.Stk.size {vm : VM} {c : Ctx} {l : List Value} (h : vm.Stk c l) : c.stack.size = l.length := by
  rw [← h.used, Stack.used_length h.wf]

/-- Elements of the used part are elements of the storage. -/
theorem Stack.used_get {s : Stack} {i : Nat} (hi : i < s.size) : s.used[i]? = s.vals[i]? := by
  unfold used
  rw [List.getElem?_take]; simp [hi]

/-- The stack after a successful `pushSlot`. -/
def Stack.pushed (s : Stack) : Stack :=
  if s.size = s.cap then { s.grow with size := s.size + 1 } else { s with size := s.size + 1 }

theorem Stack.pushed_wf {vm : VM} {s : Stack} (h : s.WF) (hr : Room vm s) :
    s.pushed.WF ∧ s.pushed.size = s.size + 1 ∧ s.pushed.used.take s.size = s.used := by
  have hp := h.capPos
  have hs := h.size
  unfold pushed
  by_cases hc : s.size = s.cap
  · have hc' : s.cap ≤ 65535 := by rcases hr with hr | hr <;> omega
    obtain ⟨h1, h2, h3, h4⟩ := grow_wf h hc'
    simp only [hc, if_true]
    refine ⟨⟨h1.pow, h1.len, h1.mask, ?_⟩, trivial, ?_⟩
    · show s.cap + 1 ≤ s.grow.cap
      omega
    · rw [← h4]
      simp only [used]
      rw [List.take_take, h3]
      congr 1
      omega
  · simp only [hc, if_false]
    refine ⟨⟨h.pow, h.len, h.mask, ?_⟩, trivial, ?_⟩
    · show s.size + 1 ≤ s.cap
      omega
    · simp only [used]
      rw [List.take_take]
      congr 1
      omega

theorem pushSlot_room {vm : VM} {c : Ctx} (h : vm.At c) (hw : c.stack.WF) (hr : Room vm c.stack) :
    pushSlot vm = .ok (c.stack.size, vm.setC { c with stack := c.stack.pushed }) := by
  have hp := hw.capPos
  have hs := hw.size
  have hcap := hw.capLe
  have h0 : ¬ c.stack.cap = 0 := by omega
  have hsz : u32 (c.stack.size + 1) = c.stack.size + 1 := Nat.mod_eq_of_lt (by unfold U32; omega)
  simp only [pushSlot, M.bind_eq, curStack_at h, h0, if_false]
  by_cases hc : c.stack.size = c.stack.cap
  · have hc' : c.stack.cap ≤ 65535 ∧ c.stack.cap * 2 ≤ vm.limits.maxStackSize := by
      rcases hr with hr | hr
      · omega
      · exact hr
    have hu : u32 (c.stack.cap * 2) = c.stack.cap * 2 := Nat.mod_eq_of_lt (by unfold U32; omega)
    have h1 : ¬ c.stack.cap > 0xffff := by omega
    have h2 : ¬ c.stack.cap * 2 = 0 := by omega
    have h3 : ¬ c.stack.cap * 2 > vm.limits.maxStackSize := by omega
    rw [hc] at hsz
    rw [if_pos hc, if_neg h1, hu, if_neg h2]
    have h3' : ¬ vm.limits.maxStackSize < c.stack.cap * 2 := h3
    simp [h3', M.bind_eq, modStack_at h, Stack.pushed, hsz, hc]
  · have h4 : c.stack.size < c.stack.cap := by omega
    simp [hc, h4, M.bind_eq, modStack_at h, Stack.pushed, hsz]

/-- A push with room. -/
theorem push_room {vm : VM} {c : Ctx} {l : List Value} (h : vm.Stk c l) (hr : Room vm c.stack)
    (v : Value) :
    ∃ s', push v vm = .ok ((), vm.setC { c with stack := s' }) ∧
      (vm.setC { c with stack := s' }).Stk { c with stack := s' } (l ++ [v]) ∧
      s' = { c.stack.pushed with vals := c.stack.pushed.vals.set c.stack.size v } := by
  obtain ⟨h1, h2, h3⟩ := Stack.pushed_wf h.wf hr
  have hlt : c.stack.size < c.stack.pushed.vals.length := by
    have := h1.size; have := h1.len; omega
  have hpk := pokeAt_at (h.at_.setC { c with stack := c.stack.pushed }) v (i := c.stack.size) hlt
  refine ⟨_, ?_, ⟨h.at_.setC _, ?_, ?_⟩, rfl⟩
  · simp only [push, M.bind_eq, pushSlot_room h.at_ h.wf hr, hpk, VM.setC_setC]
  · exact ⟨h1.pow, by simpa using h1.len, h1.mask, h1.size⟩
  · show (c.stack.pushed.vals.set c.stack.size v).take c.stack.pushed.size = _
    rw [h2]
    apply List.ext_getElem?
    intro i
    rw [List.getElem?_take]
    have hsz := h.size
    rcases Nat.lt_trichotomy i c.stack.size with hi | hi | hi
    · have e1 : i < c.stack.size + 1 := by omega
      have e2 : c.stack.size ≠ i := by omega
      rw [List.getElem?_append_left (by omega), ← h.used, ← h3, List.getElem?_take,
        Stack.used_get (by omega)]
      simp [e1, hi, List.getElem?_set, e2]
    · subst hi
      rw [hsz] at hlt ⊢
      simp [hlt]
    · have e1 : ¬ i < c.stack.size + 1 := by omega
      rw [if_neg e1]
      symm
      apply List.getElem?_eq_none
      rw [List.length_append, ← hsz]
      simp; omega

/-- A pop from a non-empty stack. -/
theorem pop_cons {vm : VM} {c : Ctx} {l : List Value} {v : Value} (h : vm.Stk c (l ++ [v])) :
    ∃ s', pop vm = .ok (v, vm.setC { c with stack := s' }) ∧
      (vm.setC { c with stack := s' }).Stk { c with stack := s' } l ∧
      s' = { c.stack with size := c.stack.size - 1 } := by
  have hs := h.size
  simp at hs
  have h0 : ¬ c.stack.size = 0 := by omega
  have hv : c.stack.vals[c.stack.size - 1]? = some v := by
    rw [← Stack.used_get (by omega), h.used, hs]
    simp
  have hpk := peekAt_at (h.at_.setC { c with stack := { c.stack with size := c.stack.size - 1 } })
    (i := c.stack.size - 1) (v := v) hv
  refine ⟨_, ?_, ⟨h.at_.setC _, ?_, ?_⟩, rfl⟩
  · simp [pop, M.bind_eq, curStack_at h.at_, h0, modStack_at h.at_, hpk]
  · exact ⟨h.wf.pow, h.wf.len, h.wf.mask, by have := h.wf.size; simp; omega⟩
  · show c.stack.vals.take (c.stack.size - 1) = l
    have := h.used
    unfold Stack.used at this
    have e : (c.stack.vals.take c.stack.size).take (c.stack.size - 1) = (l ++ [v]).take (c.stack.size - 1) := by
      rw [this]
    rw [List.take_take, hs] at e
    rw [hs]
    simpa using e

/-- A pop from an empty stack. -/
theorem pop_nil {vm : VM} {c : Ctx} (h : vm.Stk c []) :
    ∃ v, pop vm = .ok (v, vm.addErr "Stack underflow in pop.") ∧
      c.stack.vals[0]? = some v := by
  have hs := h.size
  simp at hs
  have hlt : 0 < c.stack.vals.length := by have := h.wf.capPos; have := h.wf.len; omega
  refine ⟨c.stack.vals[0], ?_, by simp⟩
  have hat : (vm.addErr "Stack underflow in pop.").At c := h.at_
  simp only [pop, M.bind_eq, curStack_at h.at_, hs, if_true, addError_run]
  exact peekAt_at hat (by simp)

theorem popN_ok {vm : VM} {c : Ctx} {l : List Value} (h : vm.Stk c l) {n : Nat} (hn : n ≤ l.length) :
    popN n vm = .ok ((), vm.setC { c with stack := { c.stack with size := c.stack.size - n } }) ∧
      (vm.setC { c with stack := { c.stack with size := c.stack.size - n } }).Stk
        { c with stack := { c.stack with size := c.stack.size - n } } (l.take (l.length - n)) := by
  have hs := h.size
  have h1 : ¬ c.stack.size < n := by omega
  refine ⟨?_, h.at_.setC _, ?_, ?_⟩
  · simp [popN, M.bind_eq, curStack_at h.at_, h1, modStack_at h.at_]
  · exact ⟨h.wf.pow, h.wf.len, h.wf.mask, by have := h.wf.size; simp; omega⟩
  · show c.stack.vals.take (c.stack.size - n) = _
    rw [← h.used]
    unfold Stack.used
    rw [List.take_take, List.length_take, h.wf.len]
    have := h.wf.size
    congr 1
    omega

theorem popN_under {vm : VM} {c : Ctx} {l : List Value} (h : vm.Stk c l) {n : Nat} (hn : l.length < n) :
    popN n vm = .ok ((), (vm.addErr "Stack underflow in popN.").setC
        { c with stack := { c.stack with size := 0 } }) := by
  have hs := h.size
  have h1 : c.stack.size < n := by omega
  have hat : (vm.addErr "Stack underflow in popN.").At c := h.at_
  simp [popN, M.bind_eq, curStack_at h.at_, h1, modStack_at hat]

/-- A push without room: reported, slot 0 overwritten. -/
theorem push_full {vm : VM} {c : Ctx} (h : vm.At c) (hw : c.stack.WF) (hr : ¬ Room vm c.stack)
    (v : Value) :
    ∃ e, push v vm = .ok ((), (vm.addErr e).setC
        { c with stack := { c.stack with vals := c.stack.vals.set 0 v } }) := by
  obtain ⟨hr1, hr2⟩ := not_or.mp hr
  have hp := hw.capPos
  have hs := hw.size
  have hcap := hw.capLe
  have h0 : ¬ c.stack.cap = 0 := by omega
  have hc : c.stack.size = c.stack.cap := by omega
  have hlt : 0 < c.stack.vals.length := by have := hw.len; omega
  have key : ∀ e, pushSlot vm = .ok (0, vm.addErr e) →
      push v vm = .ok ((), (vm.addErr e).setC
        { c with stack := { c.stack with vals := c.stack.vals.set 0 v } }) := by
    intro e he
    have hat : (vm.addErr e).At c := h
    simp only [push, M.bind_eq, he]
    exact pokeAt_at hat v hlt
  by_cases h1 : c.stack.cap > 0xffff
  · refine ⟨_, key "Stack overflow." ?_⟩
    simp only [pushSlot, M.bind_eq, curStack_at h, h0, if_false, hc, if_true, h1, addError_run, M.pure_run]
  · have hu : u32 (c.stack.cap * 2) = c.stack.cap * 2 := Nat.mod_eq_of_lt (by unfold U32; omega)
    have h2 : ¬ c.stack.cap * 2 = 0 := by omega
    have h3 : c.stack.cap * 2 > vm.limits.maxStackSize := by omega
    refine ⟨_, key "Reached stack capacity limit." ?_⟩
    simp only [pushSlot, M.bind_eq, curStack_at h, h0, if_false, hc, if_true, h1, hu, h2, get_run, h3,
      addError_run, M.pure_run]

theorem peek_ok {vm : VM} {c : Ctx} (h : vm.At c) (hw : c.stack.WF) (i : Nat) :
    ∃ v, c.stack.vals[i &&& c.stack.mask]? = some v ∧ peek i vm = .ok (v, vm) := by
  have := hw.and_lt i
  refine ⟨c.stack.vals[i &&& c.stack.mask], by simp, ?_⟩
  simp only [peek, peekIdx, M.bind_eq, curStack_at h, M.pure_run]
  exact peekAt_at h (by simp)

theorem peek_used {vm : VM} {c : Ctx} {l : List Value} (h : vm.Stk c l) {i : Nat} {v : Value}
    (hv : l[i]? = some v) : peek i vm = .ok (v, vm) := by
  have hs := h.size
  have hi : i < l.length := (List.getElem?_eq_some_iff.mp hv).1
  have hw := h.wf
  have e := hw.and_eq (i := i) (by have := hw.size; omega)
  have hv' : c.stack.vals[i &&& c.stack.mask]? = some v := by
    rw [e, ← Stack.used_get (by omega), h.used]; exact hv
  simp only [peek, peekIdx, M.bind_eq, curStack_at h.at_, M.pure_run]
  exact peekAt_at h.at_ hv'

theorem poke_ok {vm : VM} {c : Ctx} (h : vm.At c) (hw : c.stack.WF) (i : Nat) (v : Value) :
    poke i v vm = .ok ((), vm.setC { c with stack := { c.stack with
      vals := c.stack.vals.set (i &&& c.stack.mask) v } }) := by
  simp only [poke, peekIdx, M.bind_eq, curStack_at h, M.pure_run]
  exact pokeAt_at h v (hw.and_lt i)

theorem poke_used {vm : VM} {c : Ctx} {l : List Value} (h : vm.Stk c l) {i : Nat} (hi : i < l.length)
    (v : Value) :
    ∃ s', poke i v vm = .ok ((), vm.setC { c with stack := s' }) ∧
      (vm.setC { c with stack := s' }).Stk { c with stack := s' } (l.set i v) ∧
      s' = { c.stack with vals := c.stack.vals.set i v } := by
  have hs := h.size
  have hw := h.wf
  have e := hw.and_eq (i := i) (by have := hw.size; omega)
  refine ⟨_, ?_, ⟨h.at_.setC _, ?_, ?_⟩, rfl⟩
  · rw [poke_ok h.at_ hw, e]
  · exact ⟨hw.pow, by simpa using hw.len, hw.mask, hw.size⟩
  · show (c.stack.vals.set i v).take c.stack.size = l.set i v
    rw [← h.used]
    unfold Stack.used
    rw [List.take_set]

end Nk
