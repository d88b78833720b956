import Verif.Lemmas.Switch
import Verif.Props.HostCall
/-!
# C34, C35: finished coroutines, resume and yield
-/
namespace Nk.Props

variable (F : FloatOps) (H : Host)

/-! ## C34 -/

/-- **C34**, for ever: once a coroutine has finished and control has left it, then in every state of every later
execution it is not the running one, nobody waits for it to continue, and its context is exactly as it was (or freed,
if the coroutine was collected).  In particular none of its instructions is executed. -/
theorem C34_forever (hH : KeepsFinished H) {vm vm' : VM} {k : Nat} {c : Ctx} (hf : c.state = .finished)
    (h : Gone k c vm) (r : Run F H vm vm') : Gone k c vm' := by
  induction r with
  | refl => exact h
  | step _ _ e ih => exact (iterate_gone (fun cb args => ⟨fun vm a vm' h e => hH k c cb args vm a vm' hf h e⟩) (.inl hf)).run _ _ _ ih e

/-- **C34**, `is_finished` is 1 for coroutines that have finished and 0 for those that have not. -/
theorem C34_is_finished_iff {vm : VM} (hi : Inv vm) {c x : Ctx} {l : List Value} {id k : Nat}
    (hs : vm.Stk c (l ++ [.obj id])) (hc : IsCoroutine vm id k) (hk : vm.ctxs[k]? = some (some x)) :
    ∃ s, execute F H 41 vm = .ok ((), vm.setC { c with stack := s, ip := u32 (c.ip + 1) }) ∧
      (vm.setC { c with stack := s, ip := u32 (c.ip + 1) }).Stk { c with stack := s, ip := u32 (c.ip + 1) }
        (l ++ [.int (if x.state = .finished then 1 else 0)]) := by
  obtain ⟨o, he, ht, hd⟩ := hc
  obtain ⟨s, h1, h2, h3, -⟩ := opIsFinished_found hs hi.heap.tab he ht hd hk
  obtain ⟨s2, p1, p2, -⟩ := push_room h2 (.inl h3) (.int (b2i (x.state = .finished)))
  rw [VM.setC_setC] at p1 p2
  refine ⟨s2, ?_, hs.at_.setC _, p2.wf, by simpa [b2i] using p2.used⟩
  have h1 : dispatch F H 41 vm = _ := h1.trans p1
  unfold execute
  rw [M.bind_ok h1, modCur_at (hs.at_.setC _), VM.setC_setC]

/-- **C34**, `is_finished` of a finished coroutine is 1. -/
theorem C34_is_finished {vm : VM} (hi : Inv vm) {c x : Ctx} {l : List Value} {id k : Nat}
    (hs : vm.Stk c (l ++ [.obj id])) (hc : IsCoroutine vm id k) (hk : vm.ctxs[k]? = some (some x))
    (hf : x.state = .finished) :
    ∃ s, execute F H 41 vm = .ok ((), vm.setC { c with stack := s, ip := u32 (c.ip + 1) }) ∧
      (vm.setC { c with stack := s, ip := u32 (c.ip + 1) }).Stk { c with stack := s, ip := u32 (c.ip + 1) }
        (l ++ [.int 1]) := by
  have := C34_is_finished_iff F H hi hs hc hk
  rwa [if_pos hf] at this

/-- **C34**, resuming a finished coroutine gives nil and does nothing else: the resuming program goes on with its next
instruction. -/
theorem C34_resume_nil {vm : VM} (hi : Inv vm) {c x : Ctx} {l : List Value} {id k : Nat} {v : Value}
    (hs : vm.Stk c (l ++ [.obj id, v])) (hc : IsCoroutine vm id k) (hk : vm.ctxs[k]? = some (some x))
    (hf : x.state = .finished) :
    ∃ s, execute F H 40 vm = .ok ((), vm.setC { c with stack := s, ip := u32 (c.ip + 1) }) ∧
      (vm.setC { c with stack := s, ip := u32 (c.ip + 1) }).Stk { c with stack := s, ip := u32 (c.ip + 1) }
        (l ++ [.nil]) := by
  obtain ⟨o, he, ht, hd⟩ := hc
  obtain ⟨s, h1, h2, h3, -⟩ := opResume_found hs hi.heap.tab he ht hd
  obtain ⟨s2, p1, p2, -⟩ := push_room h2 (.inl h3) .nil
  rw [VM.setC_setC] at p1 p2
  refine ⟨s2, ?_, hs.at_.setC _, p2.wf, p2.used⟩
  have h4 : resumeCtx k v (vm.setC { c with stack := s }) = push .nil (vm.setC { c with stack := s }) := by
    unfold resumeCtx
    rw [M.bind_ok (get_run _), ctxAt_iff.mpr (setC_ctx hs.at_ hk), M.bind_ok (liftR_ok _ _)]
    have : (if k = vm.cur then { c with stack := s } else x).state = .finished := by
      split
      · next e =>
        have := hs.at_
        unfold VM.At at this
        rw [e, this] at hk; cases hk; exact hf
      · exact hf
    rw [this]
  have h1 : dispatch F H 40 vm = _ := (h1.trans h4).trans p1
  unfold execute
  rw [M.bind_ok h1, modCur_at (hs.at_.setC _), VM.setC_setC]

/-- The state after control passed from the current context to context `k`: `c` is what is left in the one, `d` what is
now in the other. -/
def passTo (vm : VM) (c : Ctx) (k : Nat) (d : Ctx) : VM :=
  { vm with ctxs := (vm.ctxs.set vm.cur (some c)).set k (some d), cur := k }

theorem passTo_at {vm : VM} {c d : Ctx} {k : Nat} (hk : k < vm.ctxs.length) : (passTo vm c k d).At d := by
  unfold VM.At passTo
  exact List.getElem?_set_self (by simpa using hk)

theorem passTo_old {vm : VM} {c d : Ctx} {k : Nat} (h : vm.cur < vm.ctxs.length) (hk : k ≠ vm.cur) :
    (passTo vm c k d).ctxs[vm.cur]? = some (some c) := by
  unfold passTo
  show ((vm.ctxs.set vm.cur (some c)).set k (some d))[vm.cur]? = _
  rw [List.getElem?_set_ne hk, List.getElem?_set_self h]

theorem passTo_setC {vm : VM} {c d e : Ctx} {k : Nat} : (passTo vm c k d).setC e = passTo vm c k e := by
  unfold passTo VM.setC
  simp [List.set_set]

/-- **C34**, finishing: when the function with which coroutine `k` was created returns `rv`, the coroutine has finished,
and control goes to the program that resumed it (context `p`), which gets `rv` as the result of its resume and goes on
with the next instruction.  Nothing else changes. -/
theorem C34_return_finishes {vm : VM} (hi : Inv vm) {c d : Ctx} {l args locals m : List Value} {fv rv : Value}
    {n k ra : BitVec 32} {p : Nat}
    (hs : vm.Stk c (l ++ [fv] ++ args ++ [.int n, .int ra] ++ locals ++ [rv, .int k]))
    (hn : n.toNat = args.length) (hk : k.toNat = locals.length) (hra : ra.toNat = UINT_MAX)
    (hp : c.parent = some p) (hd : vm.ctxs[p]? = some (some d)) (hm : d.stack.used = m) (hr : Room vm d.stack) :
    ∃ s s', let c' : Ctx := { c with stack := s, state := .finished, ip := UINT_MAX, parent := none }
      let d' : Ctx := { d with stack := s', ip := u32 (d.ip + 1) }
      execute F H 19 vm = .ok ((), passTo vm c' p d') ∧ (passTo vm c' p d').Stk d' (m ++ [rv]) ∧
      Gone vm.cur c' (passTo vm c' p d') := by
  obtain ⟨s, g1, g2, g3⟩ := opReturn_frame hs hn hk
  rw [if_pos hra] at g1
  have hpc : p ≠ vm.cur := by
    rintro rfl
    exact hi.heap.co.cur_not_parent hs.at_ hp
  have hlt := (List.getElem?_eq_some_iff.mp hd).1
  let c1 : Ctx := { c with stack := s, state := .finished, ip := UINT_MAX }
  let c' : Ctx := { c with stack := s, state := .finished, ip := UINT_MAX, parent := none }
  have hd1 : (vm.setC c').ctxs[p]? = some (some d) := by
    rw [setC_ctx hs.at_ hd, if_neg hpc]
  have hpop : popContext (vm.setC c1) = .ok ((), { vm.setC c' with cur := p }) := by
    rw [popContext_run (hs.at_.setC _) (c := c1) hp]
    show Res.ok ((), _) = _
    congr 2
    show ({ vm.setC c1 with ctxs := (vm.ctxs.set vm.cur (some c1)).set vm.cur (some c'), cur := p } : VM) = _
    rw [List.set_set]; rfl
  have hst : ({ vm.setC c' with cur := p } : VM).Stk d m := ⟨hd1, hi.heap.co.stack p d hd, hm⟩
  obtain ⟨s', p1, p2, -⟩ := push_room hst hr rv
  have e1 : ∀ e : Ctx, ({ vm.setC c' with cur := p } : VM).setC e = passTo vm c' p e := fun e => rfl
  rw [e1] at p1 p2
  have hdis : dispatch F H 19 vm = .ok ((), passTo vm c' p { d with stack := s' }) := by
    refine g1.trans ?_
    rw [M.bind_ok (modCur_at (hs.at_.setC _) _), VM.setC_setC, M.bind_ok hpop, p1]
  refine ⟨s, s', ?_, ⟨passTo_at hlt, p2.wf, p2.used⟩, ?_, ?_, ?_⟩
  · unfold execute
    rw [M.bind_ok hdis, modCur_at (passTo_at hlt), passTo_setC]
  · exact hpc
  · intro i e he
    have he : ((vm.ctxs.set vm.cur (some c')).set p (some { d with stack := s', ip := u32 (d.ip + 1) }))[i]? =
        some (some e) := he
    by_cases h1 : p = i
    · subst h1
      rw [List.getElem?_set_self (by simpa using hlt)] at he
      cases he
      exact hi.heap.co.cur_not_parent (d := d) hd
    · rw [List.getElem?_set_ne h1] at he
      by_cases h2 : vm.cur = i
      · subst h2
        rw [List.getElem?_set_self (List.getElem?_eq_some_iff.mp hs.at_).1] at he
        cases he
        simp
      · rw [List.getElem?_set_ne h2] at he
        exact hi.heap.co.cur_not_parent he
  · exact .inl (passTo_old (List.getElem?_eq_some_iff.mp hs.at_).1 hpc)

/-! ## C35 -/

/-- **C35**, yield: the coroutine running as `c` has `w` on top of its stack.  Control goes to the program that resumed
it, which gets `w` on its stack, in place of nothing else, and goes on with the instruction after its resume.  The
coroutine keeps the rest of its stack and its instruction pointer stays at the yield; it has room for the value with
which it will be resumed.  Nothing else changes. -/
theorem C35_yield {vm : VM} (hi : Inv vm) {c d : Ctx} {l m : List Value} {w : Value} {p : Nat}
    (hs : vm.Stk c (l ++ [w])) (hp : c.parent = some p) (hd : vm.ctxs[p]? = some (some d)) (hm : d.stack.used = m)
    (hr : Room vm d.stack) :
    ∃ s s', let c' : Ctx := { c with stack := s, parent := none }
      let d' : Ctx := { d with stack := s', ip := u32 (d.ip + 1) }
      execute F H 39 vm = .ok ((), passTo vm c' p d') ∧ (passTo vm c' p d').Stk d' (m ++ [w]) ∧
      s.used = l ∧ s.size < s.cap := by
  have h0 : vm.cur ≠ 0 := by
    intro h0
    obtain ⟨r, r1, r2, _⟩ := hi.heap.co.root
    have := hs.at_
    unfold VM.At at this
    rw [h0, r1] at this; cases this
    rw [r2] at hp; cases hp
  have hpc : p ≠ vm.cur := by
    rintro rfl
    exact hi.heap.co.cur_not_parent hs.at_ hp
  have hlt := (List.getElem?_eq_some_iff.mp hd).1
  obtain ⟨s, a1, a2, a3⟩ := pop_cons hs
  let c' : Ctx := { c with stack := s, parent := none }
  have hd1 : (vm.setC c').ctxs[p]? = some (some d) := by
    rw [setC_ctx hs.at_ hd, if_neg hpc]
  have hpop : popContext (vm.setC { c with stack := s }) = .ok ((), { vm.setC c' with cur := p }) := by
    rw [popContext_run (hs.at_.setC _) (c := { c with stack := s }) hp]
    show Res.ok ((), _) = _
    congr 2
    show ({ vm.setC { c with stack := s } with
      ctxs := (vm.ctxs.set vm.cur (some { c with stack := s })).set vm.cur (some c'), cur := p } : VM) = _
    rw [List.set_set]; rfl
  have hst : ({ vm.setC c' with cur := p } : VM).Stk d m := ⟨hd1, hi.heap.co.stack p d hd, hm⟩
  obtain ⟨s', p1, p2, -⟩ := push_room hst hr w
  have e1 : ∀ e : Ctx, ({ vm.setC c' with cur := p } : VM).setC e = passTo vm c' p e := fun e => rfl
  rw [e1] at p1 p2
  have hdis : dispatch F H 39 vm = .ok ((), passTo vm c' p { d with stack := s' }) := by
    show opYield vm = _
    unfold opYield
    rw [M.bind_ok (get_run _), if_neg h0, M.bind_ok a1, M.bind_ok hpop, p1]
  refine ⟨s, s', ?_, ⟨passTo_at hlt, p2.wf, p2.used⟩, a2.used, ?_⟩
  · unfold execute
    rw [M.bind_ok hdis, modCur_at (passTo_at hlt), passTo_setC]
  · have := hs.size
    have := hs.wf.size
    rw [a3]
    simp only [List.length_append, List.length_cons, List.length_nil] at *
    omega

/-- **C35**, resume: coroutine `k`, suspended as `x` at a yield, is resumed with `v`.  It gets `v` on its stack and goes
on with the instruction after its yield, and it will return to the resuming program, which keeps the rest of its stack
and its instruction pointer at the resume.  Nothing else changes. -/
theorem C35_resume {vm : VM} (hi : Inv vm) {c x : Ctx} {l m : List Value} {id k : Nat} {v : Value}
    (hs : vm.Stk c (l ++ [.obj id, v])) (hc : IsCoroutine vm id k) (hx : vm.ctxs[k]? = some (some x))
    (hst : x.state = .running) (hpar : x.parent = none) (hkc : k ≠ vm.cur) (hm : x.stack.used = m)
    (hr : Room vm x.stack) :
    ∃ s s', let c' : Ctx := { c with stack := s }
      let x' : Ctx := { x with stack := s', parent := some vm.cur, ip := u32 (x.ip + 1) }
      execute F H 40 vm = .ok ((), passTo vm c' k x') ∧ (passTo vm c' k x').Stk x' (m ++ [v]) ∧
      s.used = l ∧ s.size < s.cap := by
  obtain ⟨o, he, ht, hd⟩ := hc
  have hlt := (List.getElem?_eq_some_iff.mp hx).1
  obtain ⟨s, h1, h2, h3, -⟩ := opResume_found hs hi.heap.tab he ht hd
  have hx' : (vm.setC { c with stack := s }).ctxs[k]? = some (some x) := by rw [setC_ctx hs.at_ hx, if_neg hkc]
  have h4 := (resumeCtx_switch v (ctxAt_iff.mpr hx') hpar).2 hst
  have h4 : resumeCtx k v (vm.setC { c with stack := s }) =
      push v (passTo vm { c with stack := s } k { x with parent := some vm.cur }) := h4
  have hstk : (passTo vm { c with stack := s } k { x with parent := some vm.cur }).Stk
      { x with parent := some vm.cur } m := ⟨passTo_at hlt, hi.heap.co.stack k x hx, hm⟩
  obtain ⟨s', p1, p2, -⟩ := push_room hstk hr v
  rw [passTo_setC] at p1 p2
  have hdis : dispatch F H 40 vm = _ := (h1.trans h4).trans p1
  refine ⟨s, s', ?_, ⟨passTo_at hlt, p2.wf, p2.used⟩, h2.used, h3⟩
  unfold execute
  rw [M.bind_ok hdis, modCur_at (passTo_at hlt), passTo_setC]

/-- **C35**, first resume: a coroutine that has not run yet starts; the value given to resume is dropped.  The rest as
in `C35_resume`. -/
theorem C35_first_resume {vm : VM} (hi : Inv vm) {c x : Ctx} {l : List Value} {id k : Nat} {v : Value}
    (hs : vm.Stk c (l ++ [.obj id, v])) (hc : IsCoroutine vm id k) (hx : vm.ctxs[k]? = some (some x))
    (hst : x.state = .created) (hpar : x.parent = none) (hkc : k ≠ vm.cur) :
    ∃ s, let c' : Ctx := { c with stack := s }
      let x' : Ctx := { x with state := .running, parent := some vm.cur, ip := u32 (x.ip + 1) }
      execute F H 40 vm = .ok ((), passTo vm c' k x') ∧ s.used = l ∧ s.size < s.cap := by
  obtain ⟨o, he, ht, hd⟩ := hc
  have hlt := (List.getElem?_eq_some_iff.mp hx).1
  obtain ⟨s, h1, h2, h3, -⟩ := opResume_found hs hi.heap.tab he ht hd
  have hx' : (vm.setC { c with stack := s }).ctxs[k]? = some (some x) := by rw [setC_ctx hs.at_ hx, if_neg hkc]
  have h4 := (resumeCtx_switch v (ctxAt_iff.mpr hx') hpar).1 hst
  have h4 : resumeCtx k v (vm.setC { c with stack := s }) =
      .ok ((), passTo vm { c with stack := s } k { x with parent := some vm.cur, state := .running }) := h4
  have hdis : dispatch F H 40 vm = _ := h1.trans h4
  refine ⟨s, ?_, h2.used, h3⟩
  unfold execute
  rw [M.bind_ok hdis, modCur_at (passTo_at hlt), passTo_setC]

/-- **C35**, isolation: whatever instruction is executed, every coroutine (and the main program) that is running neither
before nor after it keeps its stack, its instruction pointer and everything else, unless it is collected. -/
theorem C35_isolation (hH : KeepsOthers H) {vm vm' : VM} (e : iterate F H vm = .ok ((), vm')) {i : Nat} {x : Ctx}
    (hx : vm.ctxs[i]? = some (some x)) (h1 : i ≠ vm.cur) (h2 : i ≠ vm'.cur) :
    vm'.ctxs[i]? = some (some x) ∨ vm'.ctxs[i]? = some none := by
  rw [← hx]
  exact iterate_others hH e i (List.getElem?_eq_some_iff.mp hx).1 h1 h2

/-- Executions during which context `k` does not run. -/
inductive Apart (k : Nat) : VM → VM → Prop
  | refl (vm : VM) : vm.cur ≠ k → Apart k vm vm
  | step {vm v v' : VM} : Apart k vm v → iterate F H v = .ok ((), v') → v'.cur ≠ k → Apart k vm v'

theorem apart_same (hH : KeepsOthers H) {vm vm' : VM} {k : Nat} {x : Ctx} (r : Apart F H k vm vm')
    (hx : vm.ctxs[k]? = some (some x)) : vm'.ctxs[k]? = some (some x) ∨ vm'.ctxs[k]? = some none := by
  have key : vm'.cur ≠ k ∧ (vm'.ctxs[k]? = some (some x) ∨ vm'.ctxs[k]? = some none) := by
    induction r with
    | refl h => exact ⟨h, .inl hx⟩
    | step r e h ih =>
      refine ⟨h, ?_⟩
      obtain ⟨h1, h2 | h2⟩ := ih
      · exact C35_isolation F H hH e h2 (Ne.symm h1) (Ne.symm h)
      · have := iterate_others hH e k (List.getElem?_eq_some_iff.mp h2).1 (Ne.symm h1) (Ne.symm h)
        rw [h2] at this
        exact .inr (this.elim id id)
  exact key.2

/-- **C35**, from a yield to the next resume: the coroutine running as `c` in `vm` yields.  After any execution during
which it does not run, however long and whatever other coroutines do, a resume with `v` leaves it with exactly the stack
it had at the yield and `v` in place of the yielded value, at the instruction after its yield. -/
theorem C35_round_trip (hH : KeepsOthers H) {vm : VM} (hi : Inv vm) {c d : Ctx} {l : List Value} {w : Value} {p : Nat}
    (hs : vm.Stk c (l ++ [w])) (hp : c.parent = some p) (hd : vm.ctxs[p]? = some (some d))
    (hr : Room vm d.stack) (hst : c.state = .running) :
    ∃ vm1, execute F H 39 vm = .ok ((), vm1) ∧ vm1.cur = p ∧
      ∀ {vm2 : VM} {c2 : Ctx} {l2 : List Value} {id : Nat} {v : Value}, Apart F H vm.cur vm1 vm2 → Inv vm2 →
        vm2.Stk c2 (l2 ++ [.obj id, v]) → IsCoroutine vm2 id vm.cur →
        ∃ vm3 c3, execute F H 40 vm2 = .ok ((), vm3) ∧ vm3.cur = vm.cur ∧ vm3.Stk c3 (l ++ [v]) ∧
          c3.ip = u32 (c.ip + 1) ∧ c3.parent = some vm2.cur ∧ c3.coObj = c.coObj ∧ c3.state = .running := by
  obtain ⟨s, s', h1, h2, h3, h4⟩ := C35_yield F H hi hs hp hd rfl hr
  refine ⟨_, h1, rfl, ?_⟩
  intro vm2 c2 l2 id v ha hi2 hs2 hc2
  have hcur : vm2.cur ≠ vm.cur := by cases ha <;> assumption
  have hpc : p ≠ vm.cur := by
    rintro rfl
    exact hi.heap.co.cur_not_parent hs.at_ hp
  have hx := apart_same F H hH ha (passTo_old (List.getElem?_eq_some_iff.mp hs.at_).1 hpc)
  rcases hx with hx | hx
  · obtain ⟨t, t', g1, g2, -⟩ := C35_resume F H hi2 hs2 hc2 hx hst rfl (Ne.symm hcur) h3 (.inl h4)
    exact ⟨_, _, g1, rfl, g2, rfl, rfl, rfl, hst⟩
  · obtain ⟨o, o1, o2, o3⟩ := hc2
    obtain ⟨i, y, y1, _, y3, _⟩ := hi2.heap.co.own id o o1 o2
    rw [o3] at y1; cases y1
    rw [hx] at y3; cases y3

/-! ## A program with a coroutine

The main program creates a coroutine with function 0 (which starts at instruction 10), resumes it with nil, throws away
what it yields, resumes it with 5, and gets what it returns.  The coroutine yields 42 and returns the value with which
it is resumed. -/

def coProg : List (BitVec 32) := [38, 7, 0, 13, 37, 40, 11, 7, 5, 40, 7, 42, 39, 7, 0, 19]

/-- The start: the function and the number of its arguments are on the stack. -/
def coStart : VM :=
  { loaded coProg [.nil] ⟨[.fn 0, .int 0, .nil, .nil], 2, 4, 3⟩ 0 with
    functions := [{ argc := 0, first := 10, extId := UINT_MAX }] }

/-- The states after that: which context runs, instruction pointer and stack of the main program, those of the
coroutine, who resumed it, its state, and the countdown to the next collection. -/
def coVM (cur rip : Nat) (rs : Stack) (cip : Nat) (cs : Stack) (par : Option Nat) (st : CoState) (g : Nat) : VM :=
  { coStart with
    ctxs := [some { Ctx.init with state := .running, stack := rs, ip := rip },
      some { stack := cs, ip := cip, parent := par, coObj := .obj 0, state := st }]
    cur := cur
    objects := ⟨[some ⟨List.replicate 16 [], 0, 0, 0, 0, some 1⟩], 1, []⟩
    gc := { coStart.gc with countdown := g, newObjCountdown := 255 } }

theorem coStart_inv : Inv coStart := by
  have h := C25_any_program (words := coProg) (globals := [.nil]) (s := ⟨[.fn 0, .int 0, .nil, .nil], 2, 4, 3⟩) 0
    (by simp [coProg]) (by simp) ⟨⟨2, by decide, rfl⟩, rfl, rfl, by decide⟩
  exact ⟨⟨⟨h.heap.str.tab, h.heap.str.blen, h.heap.str.nodup, h.heap.str.mem, h.heap.str.hash, h.heap.str.bucket,
    h.heap.str.inj⟩, h.heap.tab, h.heap.co.of_eq rfl rfl rfl rfl rfl, h.heap.statics, h.heap.handles, h.heap.passO,
    h.heap.passS⟩, h.instrs, h.buckets, h.natives, h.sizes⟩

theorem sample_host : HostOK Sample.H (fun _ => False) ∧ KeepsFinished Sample.H ∧ KeepsOthers Sample.H := by
  refine ⟨fun _ _ _ h _ => h, ?_, ?_⟩
  · intro k c cb args vm a vm' _ h e
    cases e; exact h
  · intro cb args vm a vm' e
    cases e; exact ⟨rfl, Nat.le_refl _, fun _ _ _ => .inl rfl⟩

def coS1 : VM := coVM 0 1 ⟨[.obj 0, .int 0, .nil, .nil], 1, 4, 3⟩ 9 ⟨[.fn 0, .int 0, .int 4294967295, .int 0], 3, 4, 3⟩ (none) .created 1023
theorem coT1 : iterate Sample.F Sample.H coStart = .ok ((), coS1) := by decide +kernel
def coS2 : VM := coVM 0 3 ⟨[.obj 0, .int 0, .nil, .nil], 2, 4, 3⟩ 9 ⟨[.fn 0, .int 0, .int 4294967295, .int 0], 3, 4, 3⟩ (none) .created 1022
theorem coT2 : iterate Sample.F Sample.H (coS1) = .ok ((), coS2) := by decide +kernel
def coS3 : VM := coVM 0 4 ⟨[.obj 0, .obj 0, .nil, .nil], 2, 4, 3⟩ 9 ⟨[.fn 0, .int 0, .int 4294967295, .int 0], 3, 4, 3⟩ (none) .created 1021
theorem coT3 : iterate Sample.F Sample.H (coS2) = .ok ((), coS3) := by decide +kernel
def coS4 : VM := coVM 0 5 ⟨[.obj 0, .obj 0, .nil, .nil], 3, 4, 3⟩ 9 ⟨[.fn 0, .int 0, .int 4294967295, .int 0], 3, 4, 3⟩ (none) .created 1020
theorem coT4 : iterate Sample.F Sample.H (coS3) = .ok ((), coS4) := by decide +kernel
def coS5 : VM := coVM 1 5 ⟨[.obj 0, .obj 0, .nil, .nil], 1, 4, 3⟩ 10 ⟨[.fn 0, .int 0, .int 4294967295, .int 0], 3, 4, 3⟩ (some 0) .running 1019
theorem coT5 : iterate Sample.F Sample.H (coS4) = .ok ((), coS5) := by decide +kernel
def coS6 : VM := coVM 1 5 ⟨[.obj 0, .obj 0, .nil, .nil], 1, 4, 3⟩ 12 ⟨[.fn 0, .int 0, .int 4294967295, .int 42], 4, 4, 3⟩ (some 0) .running 1018
theorem coT6 : iterate Sample.F Sample.H (coS5) = .ok ((), coS6) := by decide +kernel
def coS7 : VM := coVM 0 6 ⟨[.obj 0, .int 42, .nil, .nil], 2, 4, 3⟩ 12 ⟨[.fn 0, .int 0, .int 4294967295, .int 42], 3, 4, 3⟩ (none) .running 1017
theorem coT7 : iterate Sample.F Sample.H (coS6) = .ok ((), coS7) := by decide +kernel
def coS8 : VM := coVM 0 7 ⟨[.obj 0, .int 42, .nil, .nil], 1, 4, 3⟩ 12 ⟨[.fn 0, .int 0, .int 4294967295, .int 42], 3, 4, 3⟩ (none) .running 1016
theorem coT8 : iterate Sample.F Sample.H (coS7) = .ok ((), coS8) := by decide +kernel
def coS9 : VM := coVM 0 9 ⟨[.obj 0, .int 5, .nil, .nil], 2, 4, 3⟩ 12 ⟨[.fn 0, .int 0, .int 4294967295, .int 42], 3, 4, 3⟩ (none) .running 1015
theorem coT9 : iterate Sample.F Sample.H (coS8) = .ok ((), coS9) := by decide +kernel
def coS10 : VM := coVM 1 9 ⟨[.obj 0, .int 5, .nil, .nil], 0, 4, 3⟩ 13 ⟨[.fn 0, .int 0, .int 4294967295, .int 5], 4, 4, 3⟩ (some 0) .running 1014
theorem coT10 : iterate Sample.F Sample.H (coS9) = .ok ((), coS10) := by decide +kernel
def coS11 : VM := coVM 1 9 ⟨[.obj 0, .int 5, .nil, .nil], 0, 4, 3⟩ 15 ⟨[.fn 0, .int 0, .int 4294967295, .int 5, .int 0, .int 0, .int 0, .int 0], 5, 8, 7⟩ (some 0) .running 1013
theorem coT11 : iterate Sample.F Sample.H (coS10) = .ok ((), coS11) := by decide +kernel
def coS12 : VM := coVM 0 10 ⟨[.int 5, .int 5, .nil, .nil], 1, 4, 3⟩ UINT_MAX ⟨[.fn 0, .int 0, .int 4294967295, .int 5, .int 0, .int 0, .int 0, .int 0], 0, 8, 7⟩ (none) .finished 1012
theorem coT12 : iterate Sample.F Sample.H (coS11) = .ok ((), coS12) := by decide +kernel

theorem coRun11 : Run Sample.F Sample.H coStart coS11 :=
  .step (.step (.step (.step (.step (.step (.step (.step (.step (.step (.step .refl (by decide) coT1) (by decide) coT2)
    (by decide) coT3) (by decide) coT4) (by decide) coT5) (by decide) coT6) (by decide) coT7) (by decide) coT8)
    (by decide) coT9) (by decide) coT10) (by decide) coT11

theorem coInv {vm : VM} (r : Run Sample.F Sample.H coStart vm) : Inv vm := run_inv _ _ sample_host.1 coStart_inv r

theorem coRun6 : Run Sample.F Sample.H coStart coS6 :=
  .step (.step (.step (.step (.step (.step .refl (by decide) coT1) (by decide) coT2)
    (by decide) coT3) (by decide) coT4) (by decide) coT5) (by decide) coT6

theorem coRun9 : Run Sample.F Sample.H coStart coS9 :=
  .step (.step (.step coRun6 (by decide) coT7) (by decide) coT8) (by decide) coT9

theorem coIs {cur rip cip g : Nat} {rs cs : Stack} {par : Option Nat} {st : CoState} :
    IsCoroutine (coVM cur rip rs cip cs par st g) 0 1 :=
  ⟨_, rfl, rfl, rfl⟩

/-- `C35_round_trip` (and with it `C35_yield`, `C35_isolation` and `C35_resume`) at the coroutine yielding 42 in `coS6`
and being resumed with 5 in `coS9`. -/
example : ∃ vm3 c3, execute Sample.F Sample.H 40 coS9 = .ok ((), vm3) ∧ vm3.cur = 1 ∧
    vm3.Stk c3 ([.fn 0, .int 0, .int 4294967295] ++ [.int 5]) ∧ c3.ip = 13 := by
  have hs6 : coS6.Stk ⟨⟨[.fn 0, .int 0, .int 4294967295, .int 42], 4, 4, 3⟩, 12, some 0, .obj 0, .running⟩
      ([.fn 0, .int 0, .int 4294967295] ++ [.int 42]) := ⟨rfl, ⟨⟨2, by decide, rfl⟩, rfl, rfl, by decide⟩, rfl⟩
  obtain ⟨vm1, h1, -, h2⟩ := C35_round_trip Sample.F Sample.H sample_host.2.2 (coInv coRun6) hs6 rfl
    (d := { Ctx.init with state := .running, stack := ⟨[.obj 0, .obj 0, .nil, .nil], 1, 4, 3⟩, ip := 5 }) rfl
    (.inl (by decide)) rfl
  have h1' : execute Sample.F Sample.H 39 coS6 = .ok ((), { coS7 with gc := coS6.gc }) := by decide +kernel
  rw [h1'] at h1
  cases h1
  have t8 : iterate Sample.F Sample.H { coS7 with gc := coS6.gc } = .ok ((), { coS8 with gc := coS7.gc }) := by
    decide +kernel
  have t9 : iterate Sample.F Sample.H { coS8 with gc := coS7.gc } = .ok ((), { coS9 with gc := coS8.gc }) := by
    decide +kernel
  have hi : Inv { coS9 with gc := coS8.gc } := by
    have h := coInv coRun9
    exact ⟨⟨⟨h.heap.str.tab, h.heap.str.blen, h.heap.str.nodup, h.heap.str.mem, h.heap.str.hash, h.heap.str.bucket,
      h.heap.str.inj⟩, h.heap.tab, h.heap.co.of_eq rfl rfl rfl rfl rfl, h.heap.statics, h.heap.handles, h.heap.passO,
      h.heap.passS⟩, h.instrs, h.buckets, h.natives, h.sizes⟩
  obtain ⟨vm3, c3, g1, g2, g3, g4, -⟩ := h2 (vm2 := { coS9 with gc := coS8.gc })
    (.step (.step (.refl _ (by decide)) t8 (by decide)) t9 (by decide)) hi
    (c2 := { Ctx.init with state := .running, stack := ⟨[.obj 0, .int 5, .nil, .nil], 2, 4, 3⟩, ip := 9 })
    (l2 := []) (id := 0) (v := .int 5) ⟨rfl, ⟨⟨2, by decide, rfl⟩, rfl, rfl, by decide⟩, rfl⟩ ⟨_, rfl, rfl, rfl⟩
  have g1' : execute Sample.F Sample.H 40 { coS9 with gc := coS8.gc } = .ok ((), { coS10 with gc := coS8.gc }) := by
    decide +kernel
  rw [g1'] at g1
  cases g1
  exact ⟨{ coS10 with gc := coS9.gc }, c3, by decide +kernel, rfl, ⟨g3.at_, g3.wf, g3.used⟩, g4⟩

/-- `C34_return_finishes` at the return of the coroutine in `coS11`. -/
example : ∃ c s', Gone 1 c (passTo coS11 c 0 { Ctx.init with state := .running, stack := s', ip := 10 }) ∧
    c.state = .finished ∧ s'.used = [.int 5] := by
  have hs : coS11.Stk ⟨⟨[.fn 0, .int 0, .int 4294967295, .int 5, .int 0, .int 0, .int 0, .int 0], 5, 8, 7⟩, 15, some 0,
      .obj 0, .running⟩ ([] ++ [.fn 0] ++ [] ++ [.int 0, .int 4294967295] ++ [] ++ [.int 5, .int 0]) :=
    ⟨rfl, ⟨⟨3, by decide, rfl⟩, rfl, rfl, by decide⟩, rfl⟩
  obtain ⟨s, s', -, h2, h3⟩ := C34_return_finishes Sample.F Sample.H (coInv coRun11) hs rfl rfl (by decide) rfl
    (d := { Ctx.init with state := .running, stack := ⟨[.obj 0, .int 5, .nil, .nil], 0, 4, 3⟩, ip := 9 }) rfl rfl
    (.inl (by decide))
  exact ⟨_, s', h3, rfl, h2.used⟩

/-- The state after that, with the coroutine object on the stack: the hypotheses of `C34_is_finished` and
`C34_resume_nil`, and what happens. -/
example :
    let vm := coVM 0 10 ⟨[.obj 0, .int 7, .nil, .nil], 2, 4, 3⟩ UINT_MAX ⟨[.nil, .nil], 0, 2, 1⟩ none .finished 9
    IsCoroutine vm 0 1 ∧
    (execute Sample.F Sample.H 40 vm).test (fun r => (r.2.ctxs[0]?).join.map (fun c => (c.ip, c.stack.used)) =
      some (11, [.nil]) ∧ r.2.ctxs[1]? = vm.ctxs[1]? ∧ r.2.cur = 0 ∧ r.2.errors = []) ∧
    (execute Sample.F Sample.H 41 (vm.setC { Ctx.init with state := .running, stack := ⟨[.int 7, .obj 0], 2, 2, 1⟩, ip := 3 })).test
      (fun r => (r.2.ctxs[0]?).join.map (fun c => (c.ip, c.stack.used)) = some (4, [.int 7, .int 1])) := by
  exact ⟨coIs, by decide +kernel, by decide +kernel⟩

/-- The same with a coroutine that has not been started: `is_finished` is 0. -/
example :
    let vm := coVM 0 10 ⟨[.int 7, .obj 0, .nil, .nil], 2, 4, 3⟩ 5 ⟨[.fn 0, .int 0], 2, 2, 1⟩ none .created 9
    IsCoroutine vm 0 1 ∧
    (execute Sample.F Sample.H 41 vm).test
      (fun r => (r.2.ctxs[0]?).join.map (fun c => (c.ip, c.stack.used)) = some (11, [.int 7, .int 0])) := by
  exact ⟨coIs, by decide +kernel⟩

/-- `C33_chain` along the same program: in `coS6` the coroutine runs and the main program waits for it. -/
example : Active coS6 1 ∧ Active coS6 0 := by
  have h : Active coS6 1 := .cur
  exact ⟨h, .resumer h rfl rfl⟩

end Nk.Props
