import Verif.Lemmas.Exec
import Verif.Props.Sandbox
import Verif.Model.Fail
/-!
# C26, C27, C28: limits, errors and step counts

`Exec F H vm k vm'` (`Spec.Exec`): exactly `k` instructions lead from `vm` to `vm'`, each executed with no error
recorded.
-/
namespace Nk.Props

variable (F : FloatOps) (H : Host)

/-! ## C26 -/

/-- The countdown to the next check of the limit is between one and the interval. -/
def ClockOK (vm : VM) : Prop :=
  1 ≤ vm.gc.countdown ∧ vm.gc.countdown ≤ vm.gc.interval ∧ vm.gc.interval < 4294967296

/-- A new VM has such a countdown, and setting the interval keeps it. -/
theorem C26_clock_new : ClockOK VM.create ∧
    ∀ vm n, ClockOK vm → 1 ≤ n → n < 4294967296 → ClockOK (setGCInterval n vm) := by
  refine ⟨by unfold ClockOK; decide, ?_⟩
  rintro vm n ⟨h1, h2, h3⟩ hn hn'
  refine ⟨?_, ?_, hn'⟩
  · show 1 ≤ if vm.gc.countdown > n then n else vm.gc.countdown
    split <;> assumption
  · show (if vm.gc.countdown > n then n else vm.gc.countdown) ≤ n
    split <;> omega

theorem exec_within (hH : KeepsLimit H) {g b : Nat} (hg : 1 ≤ g) (hg' : g < 4294967296) {vm vm' : VM}
    (h : vm.errors ≠ [] ∨ Within g b vm) {k : Nat} (r : Exec F H vm k vm') :
    vm'.errors ≠ [] ∨ (k ≤ b ∧ Within g (b - k) vm') := by
  induction r with
  | refl => exact h.imp_right fun h => ⟨Nat.zero_le _, h⟩
  | @step k v v' _ he hi ih =>
    rcases ih with h | ⟨h1, h2⟩
    · exact absurd he h
    · have hlt : k < b := by
        obtain ⟨_, _, h3, _, h4⟩ := h2; omega
      have h2 : Within g ((b - (k + 1)) + 1) v := by
        rw [show b - (k + 1) + 1 = b - k by omega]; exact h2
      exact (iterate_within hH hg hg' h2 hi).imp_right fun h => ⟨hlt, h⟩

/-- **C26.** Set the limit to `limit` and execute any program from any state: at most `limit` plus one interval
instructions are executed without an error being recorded, and if that many are executed the last one records
it.  (Partial: see `C26_violated` for the state left behind by an earlier limit error.) -/
theorem C26_limit_partial (hH : KeepsLimit H) {vm vm' : VM} {limit k : Nat} (hc : ClockOK vm) (hl : limit < UINT_MAX)
    (r : Exec F H (setInstructionLimit limit vm) k vm') :
    k ≤ limit + vm.gc.countdown ∧ limit + vm.gc.countdown ≤ limit + vm.gc.interval ∧
      (k = limit + vm.gc.countdown → vm'.errors ≠ []) := by
  obtain ⟨h1, h2, h3⟩ := hc
  have hw : Within vm.gc.interval (vm.gc.countdown + limit) (setInstructionLimit limit vm) :=
    ⟨rfl, hl, h1, Nat.lt_of_le_of_lt h2 h3, Nat.le_refl _⟩
  have hg : 1 ≤ vm.gc.interval := Nat.le_trans h1 h2
  refine ⟨?_, by omega, ?_⟩
  · cases r with
    | refl => exact Nat.zero_le _
    | @step k v _ r he hi =>
      rcases exec_within F H hH hg h3 (.inr hw) r with h | ⟨h4, h5⟩
      · exact absurd he h
      · obtain ⟨_, _, h6, _, h7⟩ := h5; omega
  · intro hk
    rcases exec_within F H hH hg h3 (.inr hw) r with h | ⟨_, h5⟩
    · exact h
    · obtain ⟨_, _, h6, _, h7⟩ := h5; omega

/-- What `executeProgram` does: it executes instructions without recorded errors until the program ends or an error
is recorded, at most as many as it is allowed. -/
theorem execute_exec {n : Nat} {vm vm' : VM} {r : Option Bool} (hi : IpOK vm) (he : vm.errors = [])
    (e : executeProgram F H n vm = .ok (r, vm')) :
    ∃ k ≤ n, Exec F H vm k vm' ∧ (r = none → k = n ∧ vm'.errors = []) ∧ (r = some true → Ended vm' ∧ vm'.errors = []) ∧
      (r = some false → vm'.errors ≠ []) := by
  suffices h : ∀ n (w v : VM) j, IpOK v → v.errors = [] → Exec F H w j v → executeProgram F H n v = .ok (r, vm') →
      ∃ k ≤ j + n, Exec F H w k vm' ∧ (r = none → k = j + n ∧ vm'.errors = []) ∧
        (r = some true → Ended vm' ∧ vm'.errors = []) ∧ (r = some false → vm'.errors ≠ []) by
    have := h n vm vm 0 hi he .refl e
    simpa only [Nat.zero_add] using this
  intro n
  induction n with
  | zero =>
    intro w v j hi he hx e
    cases e
    exact ⟨j, Nat.le_refl _, hx, fun _ => ⟨rfl, he⟩, nofun, nofun⟩
  | succ n ih =>
    intro w v j hi he hx e
    rw [executeProgram] at e
    cases ha : atEnd v with
    | ub k => rw [M.bind_ub ha] at e; cases e
    | ok p =>
      obtain ⟨b, v1⟩ := p
      obtain ⟨hv, -⟩ := atEnd_ok ha
      subst hv
      rw [M.bind_ok ha] at e
      cases b with
      | true =>
        cases e
        exact ⟨j, by omega, hx, nofun, fun _ => ⟨atEnd_true hi ha, he⟩, nofun⟩
      | false =>
        rw [if_neg (by decide)] at e
        cases hit : iterate F H v1 with
        | ub k => rw [M.bind_ub hit] at e; cases e
        | ok q =>
          obtain ⟨u, v2⟩ := q
          rw [M.bind_ok hit, M.bind_ok (get_run _)] at e
          have hx' := Exec.step hx he hit
          by_cases hh : hasErrors v2 = true
          · rw [if_pos hh] at e
            cases e
            refine ⟨j + 1, by omega, hx', nofun, nofun, fun _ h => ?_⟩
            simp [hasErrors, h] at hh
          · rw [if_neg hh] at e
            have he2 : v2.errors = [] := by
              cases h : v2.errors with
              | nil => rfl
              | cons a l => simp [hasErrors, h] at hh
            obtain ⟨k, k1, k2⟩ := ih w v2 (j + 1) (iterate_ip hi hit) he2 hx' e
            exact ⟨k, by omega, by rw [show j + (n + 1) = j + 1 + n by omega]; exact k2⟩

/-- **C26** for `nkxVmExecuteProgram`: with a limit set it stops, after at most `limit` plus one interval
instructions, whatever the program. -/
theorem C26_execute_partial (hH : KeepsLimit H) {vm vm' : VM} {limit n : Nat} {r : Option Bool} (hc : ClockOK vm)
    (hl : limit < UINT_MAX) (hi : IpOK vm) (he : vm.errors = []) (hn : limit + vm.gc.interval ≤ n)
    (e : executeProgram F H n (setInstructionLimit limit vm) = .ok (r, vm')) :
    (r = some true ∧ Ended vm') ∨ (r = some false ∧ vm'.errors ≠ []) := by
  obtain ⟨k, h1, h2, h3, h4, h5⟩ := execute_exec F H (vm := setInstructionLimit limit vm) hi he e
  obtain ⟨b1, b2, b3⟩ := C26_limit_partial F H hH hc hl h2
  cases r with
  | none =>
    obtain ⟨hk, hv⟩ := h3 rfl
    exact absurd hv (b3 (by omega))
  | some b =>
    cases b with
    | true => exact .inl ⟨rfl, (h4 rfl).1⟩
    | false => exact .inr ⟨rfl, h5 rfl⟩

/-- An endless program (a single no-op, the instruction pointer wraps around), with a collection interval and a
limit. -/
def endless (interval limit : Nat) : VM :=
  setInstructionLimit limit (setGCInterval interval (loaded [0] [.nil] Stack.init 0))

/-- An endless program with limit 5 and interval 2 is stopped at instruction 6 (two whole intervals, and a third one
that does not fit), and no earlier. -/
example : (executeProgram Sample.F Sample.H 5 (endless 2 5)).test (fun r => r.1 = none ∧ r.2.errors = []) ∧
    (executeProgram Sample.F Sample.H 6 (endless 2 5)).test
      (fun r => r.1 = some false ∧ r.2.errors = ["Instruction count limit reached."]) := by decide +kernel

example : ClockOK (endless 2 5) := by unfold ClockOK; decide

example : KeepsLimit Sample.H := fun _ _ _ _ _ _ _ _ _ h e => by cases e; exact h

/-- The endless program with limit 0 and interval 1, a countdown `m` and the instruction pointer at `i`. -/
def idle (m i : Nat) : VM :=
  { loaded [0] [.nil] Stack.init 0 with
    ctxs := [some { Ctx.init with ip := i }], instrLeft := 0
    gc := { VM.create.gc with interval := 1, countdown := m } }

theorem idle_step (m i : Nat) (h : usub m 1 ≠ 0) :
    iterate F H (idle m i) = .ok ((), idle (usub m 1) (u32 (i + 1))) := by
  have hc : curCtx (idle m i) = .ok ({ Ctx.init with ip := i }, idle m i) := rfl
  have hw : instrAt (idle m i) i = .ok 0 := by
    unfold instrAt
    have : i &&& (idle m i).instrMask = 0 := Nat.and_zero i
    rw [this]; rfl
  have ht : tick (idle m i) = idle (usub m 1) i := by
    unfold tick
    have : (idle m i).gc.countdown = m := rfl
    rw [this]
    generalize usub m 1 = x
    rfl
  unfold iterate
  rw [M.bind_ok hc, M.bind_ok (get_run _), hw, M.bind_ok (liftR_ok _ _)]
  unfold iterateOp
  rw [M.bind_ok (modify_run tick _), M.bind_ok (get_run _), ht]
  generalize usub m 1 = x at h ⊢
  rw [if_neg (show ¬ (idle x i).gc.countdown = 0 from h)]
  unfold execute
  have hd : dispatch F H ((0 : BitVec 32).toNat % 64) (idle x i) = .ok ((), idle x i) := rfl
  rw [M.bind_ok hd]
  generalize hj : u32 (i + 1) = j
  have hm : modCur (fun c => { c with ip := u32 (c.ip + 1) }) (idle x i) =
      .ok ((), (idle x i).setC { Ctx.init with ip := u32 (i + 1) }) := rfl
  rw [hm, hj]
  rfl

/-- **C26** is violated after an earlier limit error: the countdown is left at zero, and when the errors are cleared
(`nkxCompilerClearReplErrorState`, here followed by putting the program back in place) and a limit is set again, the
countdown wraps around and the limit is not checked for 2^32 - 1 instructions.  Here the limit is 0 and the interval
1, and every number of instructions below 2^32 - 1 is executed without an error. -/
theorem C26_violated :
    ∃ v, (do
      vmIterate F H 1
      clearReplErrors 0
      modify fun vm => { vm with instrs := [0] }
      modify (setInstructionLimit 0) : M Unit) (endless 1 0) = .ok ((), v) ∧ v.gc.interval = 1 ∧
      ∀ k < 4294967295, ∃ v', Exec F H v k v' ∧ v'.errors = [] := by
  refine ⟨idle 0 0, rfl, rfl, ?_⟩
  have key : ∀ k < 4294967295, ∃ i, Exec F H (idle 0 0) k (idle (usub 0 k) i) := by
    intro k
    induction k with
    | zero => intro _; exact ⟨0, .refl⟩
    | succ k ih =>
      intro hk
      obtain ⟨i, hx⟩ := ih (by omega)
      have e1 : usub (usub 0 k) 1 = usub 0 (k + 1) := by unfold usub u32 U32; omega
      have e2 : usub 0 (k + 1) ≠ 0 := by unfold usub u32 U32; omega
      refine ⟨u32 (i + 1), ?_⟩
      have := Exec.step hx rfl (idle_step F H (usub 0 k) i (by rw [e1]; exact e2))
      rwa [e1] at this
  intro k hk
  obtain ⟨i, hx⟩ := key k hk
  exact ⟨_, hx, rfl⟩

/-! ## C27 -/

/-- **C27**, errors are kept: whatever is executed, the errors recorded before are still there, in the same order,
before the new ones. -/
theorem C27_errors_kept (hH : KeepsErrors H) {vm vm' : VM} (r : Run F H vm vm') : vm.errors <+: vm'.errors := by
  induction r with
  | refl => exact List.prefix_refl _
  | step _ _ hi ih => exact ih.trans (iterate_errs hH hi)

theorem vmIterate_pres {P : VM → Prop} (h : Pres P (iterate F H)) (n : Nat) : Pres P (vmIterate F H n) := by
  induction n with
  | zero => exact .pure
  | succ n ih =>
    rw [vmIterate]
    refine Pres.bind ?_ fun b => ?_
    · exact Pres.bind .curCtx fun _ => Pres.bind .get fun _ => Pres.bind .lift fun _ => .pure
    · split
      · exact h
      · refine Pres.bind .get fun v => ?_
        split
        · exact .pure
        · exact Pres.bind h fun _ => ih

theorem executeProgram_pres {P : VM → Prop} (h : Pres P (iterate F H)) (n : Nat) : Pres P (executeProgram F H n) := by
  induction n with
  | zero => exact .pure
  | succ n ih =>
    rw [executeProgram]
    refine Pres.bind ?_ fun b => ?_
    · exact Pres.bind .curCtx fun _ => Pres.bind .get fun _ => Pres.bind .lift fun _ => .pure
    · split
      · exact .pure
      · refine Pres.bind h fun _ => Pres.bind .get fun v => ?_
        split
        · exact .pure
        · exact ih

theorem callFunction_pres {P : VM → Prop} (f : CoFrame P) (hH : ∀ cb args, Pres P (H.call cb args))
    (h : Pres P (iterate F H)) (n : Nat) (fv : Value) (args : List Value) : Pres P (callFunction F H n fv args) := by
  have g := f.toFrame
  have hl : ∀ n, Pres P (callLoop F H n) := by
    intro n
    induction n with
    | zero => exact Pres.bind .curCtx fun _ => Pres.bind .get fun _ => .pure
    | succ n ih =>
      rw [callLoop]
      refine Pres.bind .curCtx fun _ => Pres.bind .get fun _ => ?_
      split
      · exact .pure
      · exact Pres.bind h fun _ => ih
  have hm : ∀ i : Ctx → Nat, Pres P (modCur fun c => { c with ip := i c }) :=
    fun i => modCur_pres g (fun _ => rfl) (fun _ => rfl) fun _ => rfl
  unfold callFunction
  split
  · refine Pres.bind .curCtx fun c => Pres.bind ?_ fun b => ?_
    · unfold callEnter
      refine Pres.bind (push_pres g) fun _ => Pres.bind (pushAll_pres g) fun _ => Pres.bind (pushInt_pres g) fun _ =>
        Pres.bind (hm fun _ => _) fun _ => Pres.bind (opCall_pres g hH) fun _ => Pres.bind .get fun _ => ?_
      split
      · exact .pure
      · exact Pres.bind (hm fun c => u32 (c.ip + 1)) fun _ => .pure
    · split
      · refine Pres.bind (hl n) fun b => ?_
        split
        · exact Pres.bind (pop_pres g) fun _ => Pres.bind (hm fun _ => c.ip) fun _ => .pure
        · exact .pure
      · exact .pure
  · exact Pres.bind (addError_pres g) fun _ => .pure

/-- **C27**, errors are kept by the API functions that execute code. -/
theorem C27_errors_kept_api (hH : KeepsErrors H) (n : Nat) {vm vm' : VM} :
    (∀ u, vmIterate F H n vm = .ok (u, vm') → vm.errors <+: vm'.errors) ∧
    (∀ b, executeProgram F H n vm = .ok (b, vm') → vm.errors <+: vm'.errors) ∧
    (∀ fv args r, callFunction F H n fv args vm = .ok (r, vm') → vm.errors <+: vm'.errors) := by
  have hi : Pres (fun v => vm.errors <+: v.errors) (iterate F H) := ⟨fun v a v' h e => h.trans (iterate_errs hH e)⟩
  refine ⟨fun u e => (vmIterate_pres F H hi n).run _ _ _ (List.prefix_refl _) e,
    fun u e => (executeProgram_pres F H hi n).run _ _ _ (List.prefix_refl _) e,
    fun fv args r e => (callFunction_pres F H (errs_frame vm.errors) (fun cb args => ⟨fun v a v' h e =>
      h.trans (hH cb args v a v' e)⟩) hi n fv args).run _ _ _ (List.prefix_refl _) e⟩

/-- What `nkxVmIterate` does. -/
theorem vmIterate_exec {n : Nat} {vm vm' : VM} {u : Unit} (hi : IpOK vm) (e : vmIterate F H n vm = .ok (u, vm')) :
    ∃ k ≤ n, ∃ v, Exec F H vm k v ∧ IpOK v ∧
      ((vm' = v ∧ (k = n ∨ (v.errors ≠ [] ∧ ¬ Ended v))) ∨ (k < n ∧ Ended v ∧ iterate F H v = .ok ((), vm'))) := by
  suffices h : ∀ n (w v : VM) j, IpOK v → Exec F H w j v → vmIterate F H n v = .ok (u, vm') →
      ∃ k ≤ j + n, ∃ x, Exec F H w k x ∧ IpOK x ∧ ((vm' = x ∧ (k = j + n ∨ (x.errors ≠ [] ∧ ¬ Ended x))) ∨
        (k < j + n ∧ Ended x ∧ iterate F H x = .ok ((), vm'))) by
    have := h n vm vm 0 hi .refl e
    simpa only [Nat.zero_add] using this
  intro n
  induction n with
  | zero =>
    intro w v j hi hx e
    cases e
    exact ⟨j, Nat.le_refl _, _, hx, hi, .inl ⟨rfl, .inl rfl⟩⟩
  | succ n ih =>
    intro w v j hi hx e
    rw [vmIterate] at e
    cases ha : atEnd v with
    | ub k => rw [M.bind_ub ha] at e; cases e
    | ok p =>
      obtain ⟨b, v1⟩ := p
      obtain ⟨hv, -⟩ := atEnd_ok ha
      subst hv
      rw [M.bind_ok ha] at e
      cases b with
      | true =>
        rw [if_pos rfl] at e
        exact ⟨j, by omega, v1, hx, hi, .inr ⟨by omega, atEnd_true hi ha, e⟩⟩
      | false =>
        rw [if_neg (by decide), M.bind_ok (get_run _)] at e
        by_cases hh : hasErrors v1 = true
        · rw [if_pos hh] at e
          cases e
          refine ⟨j, by omega, vm', hx, hi, .inl ⟨rfl, .inr ⟨fun h => ?_, atEnd_false ha⟩⟩⟩
          simp [hasErrors, h] at hh
        · rw [if_neg hh] at e
          have he : v1.errors = [] := by
            cases h : v1.errors with
            | nil => rfl
            | cons a l => simp [hasErrors, h] at hh
          cases hit : iterate F H v1 with
          | ub k => rw [M.bind_ub hit] at e; cases e
          | ok q =>
            obtain ⟨u, v2⟩ := q
            rw [M.bind_ok hit] at e
            obtain ⟨k, k1, x, k2, k3, k4⟩ := ih w v2 (j + 1) (iterate_ip hi hit) (.step hx he hit) e
            exact ⟨k, by omega, x, k2, k3, by rw [show j + (n + 1) = j + 1 + n by omega]; exact k4⟩

/-- **C27**, stopping: with an error recorded and unless the program is at its end, `nkxVmIterate` executes nothing;
and within one call of `nkxVmExecuteProgram` or `nkxVmIterate` that starts without errors, no instruction is executed
after an error has been recorded, except possibly the end-of-program instruction by `nkxVmIterate`.  (Partial: see
`C27_violated`.) -/
theorem C27_stops_partial {n : Nat} {vm vm' : VM} (hi : IpOK vm) :
    (∀ u, vm.errors ≠ [] → ¬ Ended vm → vmIterate F H n vm = .ok (u, vm') → vm' = vm) ∧
    (∀ u, vmIterate F H n vm = .ok (u, vm') →
      ∃ k v, Exec F H vm k v ∧ (vm' = v ∨ (Ended v ∧ iterate F H v = .ok ((), vm')))) ∧
    (∀ r, vm.errors = [] → executeProgram F H n vm = .ok (r, vm') → ∃ k, Exec F H vm k vm') := by
  refine ⟨fun u he hn e => ?_, fun u e => ?_, fun r he e => ?_⟩
  · obtain ⟨k, _, v, hx, _, h⟩ := vmIterate_exec F H hi e
    have : ∀ k v, Exec F H vm k v → v = vm := by
      intro k v hx
      induction hx with
      | refl => rfl
      | step _ h1 _ ih => rw [ih] at h1; exact absurd h1 he
    have hv := this k v hx
    subst hv
    rcases h with ⟨h, _⟩ | ⟨_, h, _⟩
    · exact h
    · exact absurd h hn
  · obtain ⟨k, _, v, hx, _, h⟩ := vmIterate_exec F H hi e
    exact ⟨k, v, hx, h.imp (fun h => h.1) fun h => h.2⟩
  · obtain ⟨k, _, hx, _⟩ := execute_exec F H hi he e
    exact ⟨k, hx⟩

/-- **C27**, count: without a catastrophic failure the reported count is the number of recorded errors. -/
theorem C27_count_partial (vm : VM) : Fail.getErrorCount vm.errors false = vm.errors.length := rfl

/-- **C27** is violated in three ways: after a catastrophic failure the reported count is 1 however many errors were
recorded; a second call of `nkxVmExecuteProgram` executes an instruction although an error is recorded (here:
pushing nil); and `nkxVmIterate` at the end of the program executes the end instruction again, recording another
error each time. -/
theorem C27_violated :
    Fail.getErrorCount ["a", "b"] true = 1 ∧
    (executeProgram Sample.F Sample.H 1 { loaded [37, 37, 37, 20] [.nil] Stack.init 0 with errors := ["a"] }).test
      (fun r => r.1 = some false ∧ r.2.errors = ["a"] ∧ (r.2.ctxs[0]?).join.map (·.stack.size) = some 1) ∧
    (vmIterate Sample.F Sample.H 3 { loaded [37, 37, 37, 20] [.nil] ⟨[.nil], 1, 1, 0⟩ 3 with errors := ["a"] }).test
      (fun r => r.2.errors = ["a", "Stack data remaining after end of program."]) := by
  refine ⟨rfl, ?_, ?_⟩ <;> decide +kernel

/-! ## C28 -/

/-- **C28**, count: `nkxVmIterate(vm, n)` executes at most `n` instructions. -/
theorem C28_at_most {n : Nat} {vm vm' : VM} {u : Unit} (hi : IpOK vm) (e : vmIterate F H n vm = .ok (u, vm')) :
    ∃ k v, Exec F H vm k v ∧ ((k ≤ n ∧ vm' = v) ∨ (k + 1 ≤ n ∧ iterate F H v = .ok ((), vm'))) := by
  obtain ⟨k, h1, v, hx, _, h⟩ := vmIterate_exec F H hi e
  rcases h with ⟨h, _⟩ | ⟨h2, _, h⟩
  · exact ⟨k, v, hx, .inl ⟨h1, h⟩⟩
  · exact ⟨k, v, hx, .inr ⟨h2, h⟩⟩

/-- **C28**, splitting: running `a` and then `b` instructions is running `a + b`, unless the program has ended in the
first part; then the first part alone reaches the state of the whole, or the whole is still the two parts.
(Partial: the second part then executes the end instruction once more, see `C28_at_end_partial` and
`C28_violated`.) -/
theorem C28_split_partial {a b : Nat} {vm v : VM} {u : Unit} (hi : IpOK vm) (e : vmIterate F H a vm = .ok (u, v)) :
    (¬ Ended v → vmIterate F H (a + b) vm = vmIterate F H b v) ∧
    (Ended v → vmIterate F H (a + b) vm = .ok ((), v) ∨ vmIterate F H (a + b) vm = vmIterate F H b v) := by
  induction a generalizing vm with
  | zero =>
    cases e
    rw [Nat.zero_add]
    exact ⟨fun _ => rfl, fun _ => .inr rfl⟩
  | succ a ih =>
    rw [show a + 1 + b = (a + b) + 1 by omega]
    rw [vmIterate] at e ⊢
    cases ha : atEnd vm with
    | ub k => rw [M.bind_ub ha] at e; cases e
    | ok p =>
      obtain ⟨x, v1⟩ := p
      obtain ⟨hv, -⟩ := atEnd_ok ha
      subst hv
      rw [M.bind_ok ha] at e ⊢
      cases x with
      | true =>
        rw [if_pos rfl] at e ⊢
        have := ended_iterate (atEnd_true hi ha) e
        exact ⟨fun h => absurd this h, fun _ => .inl e⟩
      | false =>
        rw [if_neg (by decide), M.bind_ok (get_run _)] at e ⊢
        by_cases hh : hasErrors v1 = true
        · rw [if_pos hh] at e ⊢
          cases e
          have hb : ∀ b, vmIterate F H b v = .ok ((), v) := by
            intro b
            cases b with
            | zero => rfl
            | succ b =>
              rw [vmIterate, M.bind_ok ha, if_neg (by decide), M.bind_ok (get_run _), if_pos hh]; rfl
          exact ⟨fun _ => (hb b).symm, fun _ => .inr (hb b).symm⟩
        · rw [if_neg hh] at e ⊢
          cases hit : iterate F H v1 with
          | ub k => rw [M.bind_ub hit] at e; cases e
          | ok q =>
            obtain ⟨u, v2⟩ := q
            rw [M.bind_ok hit] at e ⊢
            exact ih (iterate_ip hi hit) e

/-- **C28**, at the end: iterating at the end of the program leaves the program there, and with nothing on the stack
and no check due it changes nothing but the countdown to the next check. -/
theorem C28_at_end_partial {n : Nat} {vm : VM} (h : Ended vm) :
    (∀ u vm', vmIterate F H n vm = .ok (u, vm') → Ended vm') ∧
    (∀ c, vm.ctxs[vm.cur]? = some (some c) → c.stack.size = 0 → usub vm.gc.countdown 1 ≠ 0 →
      ∃ m, vmIterate F H n vm = .ok ((), { vm with gc := { vm.gc with countdown := m } })) := by
  constructor
  · intro u vm' e
    cases n with
    | zero => cases e; exact h
    | succ n =>
      rw [vmIterate, M.bind_ok (atEnd_ended h), if_pos rfl] at e
      exact ended_iterate h e
  · intro c hc hs hcd
    cases n with
    | zero => exact ⟨vm.gc.countdown, rfl⟩
    | succ n =>
      refine ⟨usub vm.gc.countdown 1, ?_⟩
      rw [vmIterate, M.bind_ok (atEnd_ended h), if_pos rfl]
      obtain ⟨c', hc', hip, hw⟩ := h
      rw [hc] at hc'; cases hc'
      have h1 : curCtx vm = .ok (c, vm) := by unfold curCtx; rw [ctxAt_iff.mpr hc]
      have h2 : instrAt vm c.ip = .ok 20 := by unfold instrAt; rw [hw]
      have ht : tick vm = { vm with gc := { vm.gc with countdown := usub vm.gc.countdown 1 } } := rfl
      have hat : (tick vm).At c := by
        show (tick vm).ctxs[(tick vm).cur]? = _
        rw [tick_ctxs, tick_cur, hc]
      have hcd' : (tick vm).gc.countdown ≠ 0 := by rw [tick_countdown]; exact hcd
      rw [← ht]
      unfold iterate
      rw [M.bind_ok h1, M.bind_ok (get_run _), h2, M.bind_ok (liftR_ok _ _)]
      unfold iterateOp
      rw [M.bind_ok (modify_run tick _), M.bind_ok (get_run _)]
      generalize tick vm = v at hat hcd' ⊢
      rw [if_neg hcd']
      unfold execute
      have ho : dispatch F H ((20 : BitVec 32).toNat % 64) v = .ok ((), v.setC { c with ip := usub c.ip 1 }) := by
        show opEnd v = _
        unfold opEnd
        rw [M.bind_ok (curStack_at hat)]
        dsimp only
        rw [if_neg (fun h => h hs)]
        exact modCur_at hat _
      rw [M.bind_ok ho, modCur_at (hat.setC _), VM.setC_setC]
      have : ({ { c with ip := usub c.ip 1 } with ip := u32 (usub c.ip 1 + 1) } : Ctx) = c := by
        rw [u32_usub_one hip]
      rw [this, hat.setC_self]

/-- **C28** is violated at the end of the program: iterating there still counts down, so that it can use up the
instruction limit and record an error although nothing is left to execute. -/
theorem C28_violated :
    (vmIterate Sample.F Sample.H 2 (setInstructionLimit 0 (setGCInterval 1 (loaded [20] [.nil] Stack.init 0)))).test
      (fun r => r.2.errors = ["Instruction count limit reached."]) := by decide +kernel

end Nk.Props
