import Verif.Lemmas.Callable
import Verif.Lemmas.Exec
/-!
# Lemmas about calls from the host
-/
namespace Nk

variable (F : FloatOps) (H : Host)

theorem push_for {vm : VM} {c : Ctx} {l : List Value} {k : Nat} (h : vm.Stk c l) (hr : RoomFor vm c.stack (k + 1)) (v : Value) :
    ∃ s, push v vm = .ok ((), vm.setC { c with stack := s }) ∧
      (vm.setC { c with stack := s }).Stk { c with stack := s } (l ++ [v]) ∧ RoomFor vm s k := by
  obtain ⟨s, h1, h2, h3⟩ := push_room h (hr.room h.wf) v
  refine ⟨s, h1, h2, ?_⟩
  have := hr.pushed h.wf
  rw [h3]
  exact this

theorem pushAll_for : ∀ (vs : List Value) {vm : VM} {c : Ctx} {l : List Value} {k : Nat}, vm.Stk c l →
    RoomFor vm c.stack (vs.length + k) →
    ∃ s, pushAll vs vm = .ok ((), vm.setC { c with stack := s }) ∧
      (vm.setC { c with stack := s }).Stk { c with stack := s } (l ++ vs) ∧ RoomFor vm s k := by
  intro vs
  induction vs with
  | nil =>
    intro vm c l k h hr
    refine ⟨c.stack, ?_, ?_, by simpa using hr⟩
    · rw [show ({ c with stack := c.stack } : Ctx) = c from rfl, h.at_.setC_self]; rfl
    · rw [show ({ c with stack := c.stack } : Ctx) = c from rfl, h.at_.setC_self]; simpa using h
  | cons v vs ih =>
    intro vm c l k h hr
    obtain ⟨s, h1, h2, h3⟩ := push_for (k := vs.length + k) h (hr.mono (by simp; omega)) v
    obtain ⟨s2, g1, g2, g3⟩ := ih h2 (h3.limits rfl)
    simp only [VM.setC_setC] at g1 g2
    refine ⟨s2, ?_, by simpa using g2, g3.limits rfl⟩
    rw [pushAll, M.bind_ok h1, g1]

theorem noErrors {vm : VM} (h : vm.errors = []) : hasErrors vm = false := by
  unfold hasErrors; rw [h]; rfl

/-- The stack and instruction pointer when the called function has been found. -/
theorem callEnter_run {vm : VM} {c : Ctx} {l args : List Value} {fv : Value} (hs : vm.Stk c l)
    (hr : RoomFor vm c.stack (args.length + 3)) :
    ∃ s, callEnter F H fv args vm = (do
        opCall F H
        let vm ← get
        if hasErrors vm then return false
        else do
          modCur fun c => { c with ip := u32 (c.ip + 1) }
          return true : M Bool) (vm.setC { c with stack := s, ip := UINT_MAX - 1 }) ∧
      (vm.setC { c with stack := s, ip := UINT_MAX - 1 }).Stk { c with stack := s, ip := UINT_MAX - 1 }
        (l ++ [fv] ++ args ++ [.int (BitVec.ofNat 32 args.length)]) ∧ RoomFor vm s 1 := by
  obtain ⟨s1, a1, a2, a3⟩ := push_for (k := args.length + 2) hs hr fv
  obtain ⟨s2, b1, b2, b3⟩ := pushAll_for args (k := 2) a2 (a3.limits rfl)
  simp only [VM.setC_setC] at b1 b2
  obtain ⟨s3, c1, c2, c3⟩ := push_for (k := 1) b2 (b3.limits rfl) (.int (BitVec.ofNat 32 args.length))
  simp only [VM.setC_setC] at c1 c2
  refine ⟨s3, ?_, ⟨hs.at_.setC _, c2.wf, c2.used⟩, c3.limits rfl⟩
  unfold callEnter
  have c1' : pushInt (BitVec.ofNat 32 args.length) (vm.setC { c with stack := s2 }) = _ := c1
  rw [M.bind_ok a1, M.bind_ok b1, M.bind_ok c1', M.bind_ok (modCur_at c2.at_ _), VM.setC_setC]

/-- The current context is `d`, unless it was collected. -/
def KeepsCur (w : VM) (d : Ctx) (v : VM) : Prop :=
  v.cur = w.cur ∧ (v.ctxs[w.cur]? = some (some d) ∨ v.ctxs[w.cur]? = some none)

theorem keepsCur_gc (w : VM) (d : Ctx) : GCFrame (KeepsCur w d) where
  err := fun _ _ h => h
  str := fun _ _ _ _ h => h
  obj := fun _ _ h => h
  newo := fun _ _ _ h => h
  free := fun v k h => ⟨h.1, by
    show (v.ctxs.set k none)[w.cur]? = _ ∨ (v.ctxs.set k none)[w.cur]? = _
    by_cases hk : k = w.cur
    · right
      have : k < v.ctxs.length := by
        rw [hk]
        rcases h.2 with h | h <;> exact (List.getElem?_eq_some_iff.mp h).1
      rw [← hk, List.getElem?_set_self this]
    · rw [List.getElem?_set_ne hk]
      exact h.2⟩
  pass := fun _ _ h => h
  log := fun _ _ h => h

/-- An iteration without an error executes the instruction with the current context as it was, counters aside. -/
theorem iterate_execute {w w' : VM} {d : Ctx} {x : BitVec 32} (hd : w.At d)
    (hx : w.instrs[d.ip &&& w.instrMask]? = some x) (e : iterate F H w = .ok ((), w')) (he : w'.errors = []) :
    ∃ v, v.cur = w.cur ∧ (v.At d ∨ v.ctxs[v.cur]? = some none) ∧ execute F H (x.toNat % 64) v = .ok ((), w') := by
  obtain ⟨c, y, hc, hy, e⟩ := iterate_word e
  have hd' : w.ctxs[w.cur]? = some (some d) := hd
  rw [hd'] at hc; cases hc
  rw [hx] at hy; cases hy
  have ht : KeepsCur w d (tick w) := ⟨tick_cur w, .inl (by rw [tick_ctxs]; exact hd')⟩
  have fin : ∀ {v : VM}, KeepsCur w d v → v.cur = w.cur ∧ (v.At d ∨ v.ctxs[v.cur]? = some none) := by
    intro v h
    refine ⟨h.1, ?_⟩
    unfold VM.At
    rw [h.1]
    exact h.2
  rcases iterateOp_cases e with ⟨_, _, _, hv⟩ | ⟨_, _, v, u, hg, e⟩ | ⟨_, e⟩
  · rw [hv, none_errors] at he
    generalize tick w = v at he
    exact absurd he (by unfold VM.addErr; simp)
  · have h1 : KeepsCur w d (charge (tick w)) := ⟨by rw [charge_cur, ht.1], by rw [charge_ctxs]; exact ht.2⟩
    have h2 := (collectIfDue_pres (keepsCur_gc w d)).run _ _ _ h1 hg
    have h3 : KeepsCur w d (resetCountdown v) := ⟨by rw [reset_cur, h2.1], by rw [reset_ctxs]; exact h2.2⟩
    exact ⟨_, (fin h3).1, (fin h3).2, e⟩
  · exact ⟨_, (fin ht).1, (fin ht).2, e⟩

theorem Body.loop {v w : VM} {k : Nat} (h : Body F H v k w) (n : Nat) : callLoop F H (k + n) v = callLoop F H n w := by
  induction h generalizing n with
  | here => rw [Nat.zero_add]
  | @step k w w' c hb he hc hip hi ih =>
    rw [show k + 1 + n = k + (n + 1) by omega, ih (n + 1), callLoop, M.bind_ok (curCtx_at hc), M.bind_ok (get_run w),
      if_neg (by rw [noErrors he]; simp [hip]), M.bind_ok hi]

end Nk
