import Verif.Spec.Exec
import Verif.Lemmas.Pres
/-!
# Lemmas about running programs
-/
namespace Nk

theorem usub_one {n : Nat} (h : 1 ≤ n) (h' : n < 4294967296) : usub n 1 = n - 1 := by
  unfold usub u32 U32; omega

theorem usub_lt (n m : Nat) : usub n m < 4294967296 := Nat.mod_lt _ (by decide)

section
variable (vm : VM)
theorem tick_errors : (tick vm).errors = vm.errors := by cases vm; rfl
theorem tick_left : (tick vm).instrLeft = vm.instrLeft := by cases vm; rfl
theorem tick_interval : (tick vm).gc.interval = vm.gc.interval := by
  unfold tick
  generalize usub vm.gc.countdown 1 = n
  cases vm; rename_i g _ _ _ _ _ _ _ _ _; cases g; rfl
theorem tick_countdown : (tick vm).gc.countdown = usub vm.gc.countdown 1 := by
  unfold tick
  generalize usub vm.gc.countdown 1 = n
  rfl
theorem tick_ctxs : (tick vm).ctxs = vm.ctxs := by cases vm; rfl
theorem tick_cur : (tick vm).cur = vm.cur := by cases vm; rfl
theorem tick_instrs : (tick vm).instrs = vm.instrs := by cases vm; rfl
theorem tick_instrMask : (tick vm).instrMask = vm.instrMask := by cases vm; rfl
theorem charge_errors : (charge vm).errors = vm.errors := by cases vm; rfl
theorem charge_left (h : vm.instrLeft < UINT_MAX) : (charge vm).instrLeft = vm.instrLeft - vm.gc.interval := by
  cases vm; exact if_neg (Nat.ne_of_lt h)
theorem charge_gc : (charge vm).gc = vm.gc := by cases vm; rfl
theorem charge_ctxs : (charge vm).ctxs = vm.ctxs := by cases vm; rfl
theorem charge_cur : (charge vm).cur = vm.cur := by cases vm; rfl
theorem charge_instrs : (charge vm).instrs = vm.instrs := by cases vm; rfl
theorem charge_instrMask : (charge vm).instrMask = vm.instrMask := by cases vm; rfl
theorem reset_errors : (resetCountdown vm).errors = vm.errors := by cases vm; rfl
theorem reset_left : (resetCountdown vm).instrLeft = vm.instrLeft := by cases vm; rfl
theorem reset_interval : (resetCountdown vm).gc.interval = vm.gc.interval := by cases vm; rfl
theorem reset_countdown : (resetCountdown vm).gc.countdown = vm.gc.interval := by cases vm; rfl
theorem reset_ctxs : (resetCountdown vm).ctxs = vm.ctxs := by cases vm; rfl
theorem reset_cur : (resetCountdown vm).cur = vm.cur := by cases vm; rfl
theorem reset_instrs : (resetCountdown vm).instrs = vm.instrs := by cases vm; rfl
theorem reset_instrMask : (resetCountdown vm).instrMask = vm.instrMask := by cases vm; rfl
theorem none_errors : (noneLeft vm).errors = vm.errors := by cases vm; rfl
theorem none_ctxs : (noneLeft vm).ctxs = vm.ctxs := by cases vm; rfl
theorem none_cur : (noneLeft vm).cur = vm.cur := by cases vm; rfl
theorem none_instrs : (noneLeft vm).instrs = vm.instrs := by cases vm; rfl
theorem addErr_ctxs (e : String) : (vm.addErr e).ctxs = vm.ctxs := by cases vm; rfl
theorem addErr_cur (e : String) : (vm.addErr e).cur = vm.cur := by cases vm; rfl
theorem addErr_instrs (e : String) : (vm.addErr e).instrs = vm.instrs := by cases vm; rfl
theorem addErr_instrMask (e : String) : (vm.addErr e).instrMask = vm.instrMask := by cases vm; rfl
theorem none_instrMask : (noneLeft vm).instrMask = vm.instrMask := by cases vm; rfl
end

variable {F : FloatOps} {H : Host} {P : VM → Prop}

theorem within_frame (g b : Nat) : CoFrame (fun vm => vm.errors ≠ [] ∨ Within g b vm) where
  err := fun vm e h => .inl (by simp)
  str := fun vm t b _ h => h
  obj := fun vm t h => h
  newo := fun vm t n h => h
  ctx := fun vm c c' _ _ _ _ h => h
  stat := fun vm l h => h
  finish := fun vm c i _ h => h
  popc := fun vm c p _ _ h => h
  pushc := fun vm k c _ _ _ h => h
  start := fun vm c _ _ h => h
  newc := fun vm c _ _ h => h
  free := fun vm k h => h
  pass := fun vm n h => h
  log := fun vm l h => h

theorem errs_frame (l : List String) : CoFrame (fun vm => l <+: vm.errors) where
  err := fun vm e h => h.trans (List.prefix_append _ _)
  str := fun vm t b _ h => h
  obj := fun vm t h => h
  newo := fun vm t n h => h
  ctx := fun vm c c' _ _ _ _ h => h
  stat := fun vm l h => h
  finish := fun vm c i _ h => h
  popc := fun vm c p _ _ h => h
  pushc := fun vm k c _ _ _ h => h
  start := fun vm c _ _ h => h
  newc := fun vm c _ _ h => h
  free := fun vm k h => h
  pass := fun vm n h => h
  log := fun vm l h => h

theorem iterate_errs (hH : KeepsErrors H) {vm vm' : VM} {a : Unit} (e : iterate F H vm = .ok (a, vm')) :
    vm.errors <+: vm'.errors :=
  (iterate_pres (errs_frame vm.errors) (fun cb args => ⟨fun v a v' h e => h.trans (hH cb args v a v' e)⟩)
    (fun v h => by rw [tick_errors]; exact h) (fun v h => by rw [charge_errors]; exact h)
    (fun v h => by rw [none_errors]; exact h) (fun v h => by rw [reset_errors]; exact h)).run vm a vm' (List.prefix_refl _) e

/-- What an iteration does once the instruction word has been read. -/
theorem iterate_word {vm vm' : VM} {a : Unit} (e : iterate F H vm = .ok (a, vm')) :
    ∃ c w, vm.ctxs[vm.cur]? = some (some c) ∧ vm.instrs[c.ip &&& vm.instrMask]? = some w ∧
      iterateOp F H (w.toNat % 64) vm = .ok (a, vm') := by
  unfold iterate at e
  cases hc : ctxAt vm vm.cur with
  | ub k =>
    have : curCtx vm = .ub k := by unfold curCtx; rw [hc]
    rw [M.bind_ub this] at e; cases e
  | ok c =>
    have : curCtx vm = .ok (c, vm) := by unfold curCtx; rw [hc]
    rw [M.bind_ok this, M.bind_ok (get_run vm)] at e
    cases hw : vm.instrs[c.ip &&& vm.instrMask]? with
    | none =>
      have : instrAt vm c.ip = .ub .oob := by unfold instrAt; rw [hw]
      rw [this, M.bind_ub (liftR_ub _ _)] at e; cases e
    | some w =>
      have : instrAt vm c.ip = .ok w := by unfold instrAt; rw [hw]
      rw [this, M.bind_ok (liftR_ok _ _)] at e
      exact ⟨c, w, ctxAt_iff.mp hc, hw, e⟩

theorem iterateOp_cases {vm vm' : VM} {a : Unit} {op : Nat} (e : iterateOp F H op vm = .ok (a, vm')) :
    ((tick vm).gc.countdown = 0 ∧ (tick vm).instrLeft ≠ UINT_MAX ∧ (tick vm).instrLeft < (tick vm).gc.interval ∧
      vm' = noneLeft ((tick vm).addErr "Instruction count limit reached.")) ∨
    ((tick vm).gc.countdown = 0 ∧ ((tick vm).instrLeft ≠ UINT_MAX → (tick vm).gc.interval ≤ (tick vm).instrLeft) ∧
      ∃ v u, collectIfDue H (charge (tick vm)) = .ok (u, v) ∧ execute F H op (resetCountdown v) = .ok (a, vm')) ∨
    ((tick vm).gc.countdown ≠ 0 ∧ execute F H op (tick vm) = .ok (a, vm')) := by
  unfold iterateOp at e
  rw [M.bind_ok (modify_run tick vm), M.bind_ok (get_run _)] at e
  generalize tick vm = v at *
  by_cases h0 : v.gc.countdown = 0
  · rw [if_pos h0] at e
    by_cases hl : v.instrLeft ≠ UINT_MAX ∧ v.instrLeft < v.gc.interval
    · rw [if_pos hl, M.bind_ok (addError_run _ _), modify_run] at e
      left
      refine ⟨h0, hl.1, hl.2, ?_⟩
      injection e with e; injection e with e1 e2
      exact e2.symm
    · rw [if_neg hl, M.bind_ok (modify_run charge _)] at e
      right; left
      refine ⟨h0, fun h => Nat.le_of_not_lt fun h' => hl ⟨h, h'⟩, ?_⟩
      cases hc : collectIfDue H (charge v) with
      | ub k => rw [M.bind_ub hc] at e; cases e
      | ok p =>
        rw [M.bind_ok hc, M.bind_ok (modify_run _ _)] at e
        exact ⟨p.2, p.1, rfl, e⟩
  · rw [if_neg h0] at e
    exact .inr (.inr ⟨h0, e⟩)

/-- One instruction uses up one unit of what is left. -/
theorem iterate_within (hH : KeepsLimit H) {g b : Nat} (hg : 1 ≤ g) (hg' : g < 4294967296) {vm vm' : VM} {a : Unit}
    (h : Within g (b + 1) vm) (e : iterate F H vm = .ok (a, vm')) : vm'.errors ≠ [] ∨ Within g b vm' := by
  obtain ⟨c, w, _, _, e⟩ := iterate_word e
  have hx : ∀ op, Pres (fun vm => vm.errors ≠ [] ∨ Within g b vm) (execute F H op) :=
    fun op => execute_pres (within_frame g b) (fun cb args => ⟨fun v a v' h e => hH g b cb args v a v' hg hg' h e⟩) op
  obtain ⟨h1, h2, h3, h5, h4⟩ := h
  have t1 : (tick vm).gc.interval = g := by rw [tick_interval, h1]
  have t2 : (tick vm).instrLeft < UINT_MAX := by rw [tick_left]; exact h2
  have t3 : (tick vm).gc.countdown = vm.gc.countdown - 1 := by rw [tick_countdown, usub_one h3 h5]
  have t4 := tick_left vm
  rcases iterateOp_cases e with ⟨_, _, _, hv⟩ | ⟨h0, hl, v, u, hc, e⟩ | ⟨h0, e⟩
  · left
    rw [hv, none_errors]
    simp [VM.addErr]
  · have hG : Pres (fun vm => vm.errors ≠ [] ∨ (vm.gc.interval = g ∧ vm.instrLeft < UINT_MAX ∧ vm.instrLeft + g ≤ b))
        (collectIfDue H) := collectIfDue_pres
      ⟨fun vm e h => .inl (by simp), fun _ _ _ _ h => h, fun _ _ h => h, fun _ _ _ h => h, fun _ _ h => h,
       fun _ _ h => h, fun _ _ h => h⟩
    have hl := hl (Nat.ne_of_lt t2)
    have cl := charge_left _ t2
    have hp := hG.run _ _ _ (.inr ⟨by rw [charge_gc, t1], by
      rw [cl]; exact Nat.lt_of_le_of_lt (Nat.sub_le _ _) t2, by rw [cl]; omega⟩) hc
    refine (hx _).run _ _ _ ?_ e
    rw [reset_errors]
    rcases hp with h | ⟨h1, h2, h3⟩
    · exact .inl h
    · refine .inr ⟨by rw [reset_interval, h1], by rw [reset_left]; exact h2, ?_, ?_, ?_⟩
      · rw [reset_countdown]; omega
      · rw [reset_countdown]; omega
      · rw [reset_countdown, reset_left]; omega
  · refine (hx _).run _ _ _ (.inr ⟨t1, t2, Nat.pos_of_ne_zero h0, ?_, ?_⟩) e
    · rw [t3]; omega
    · rw [t3, t4]; omega

/-! ## The end of the program -/

theorem atEnd_ok {vm v : VM} {b : Bool} (e : atEnd vm = .ok (b, v)) :
    v = vm ∧ ∃ c w, vm.ctxs[vm.cur]? = some (some c) ∧ vm.instrs[c.ip &&& vm.instrMask]? = some w ∧
      (b = true ↔ w.toNat = 20) := by
  unfold atEnd at e
  cases hc : ctxAt vm vm.cur with
  | ub k =>
    have : curCtx vm = .ub k := by unfold curCtx; rw [hc]
    rw [M.bind_ub this] at e; cases e
  | ok c =>
    have : curCtx vm = .ok (c, vm) := by unfold curCtx; rw [hc]
    rw [M.bind_ok this, M.bind_ok (get_run vm)] at e
    cases hw : vm.instrs[c.ip &&& vm.instrMask]? with
    | none =>
      have : instrAt vm c.ip = .ub .oob := by unfold instrAt; rw [hw]
      rw [this, M.bind_ub (liftR_ub _ _)] at e; cases e
    | some w =>
      have : instrAt vm c.ip = .ok w := by unfold instrAt; rw [hw]
      rw [this, M.bind_ok (liftR_ok _ _)] at e
      cases e
      exact ⟨rfl, c, w, ctxAt_iff.mp hc, hw, by simp⟩

theorem atEnd_ended {vm : VM} (h : Ended vm) : atEnd vm = .ok (true, vm) := by
  obtain ⟨c, hc, _, hw⟩ := h
  unfold atEnd
  have h1 : curCtx vm = .ok (c, vm) := by unfold curCtx; rw [ctxAt_iff.mpr hc]
  have h2 : instrAt vm c.ip = .ok 20 := by unfold instrAt; rw [hw]
  rw [M.bind_ok h1, M.bind_ok (get_run vm), h2, M.bind_ok (liftR_ok _ _)]
  rfl

theorem atEnd_true {vm v : VM} (hi : IpOK vm) (e : atEnd vm = .ok (true, v)) : Ended vm := by
  obtain ⟨_, c, w, h1, h2, h3⟩ := atEnd_ok e
  refine ⟨c, h1, hi c h1, ?_⟩
  rw [h2]
  have : w.toNat = 20 := h3.mp rfl
  congr 1
  exact BitVec.eq_of_toNat_eq this

theorem atEnd_false {vm v : VM} (e : atEnd vm = .ok (false, v)) : ¬ Ended vm := by
  intro h
  rw [atEnd_ended h] at e
  cases e

theorem u32_usub_one {n : Nat} (h : n < 4294967296) : u32 (usub n 1 + 1) = n := by
  unfold usub u32 U32; omega

/-- The state in which the instruction at the end of the program `vm` is about to be executed. -/
def EndLike (vm : VM) (ip : Nat) (v : VM) : Prop :=
  v.instrs = vm.instrs ∧ v.instrMask = vm.instrMask ∧ v.cur = vm.cur ∧
    ∀ d : Ctx, v.ctxs[vm.cur]? = some (some d) → d.ip = ip

theorem endLike_gc (vm : VM) (ip : Nat) : GCFrame (EndLike vm ip) where
  err := fun _ _ h => h
  str := fun _ _ _ _ h => h
  obj := fun _ _ h => h
  newo := fun _ _ _ h => h
  free := fun v k h => ⟨h.1, h.2.1, h.2.2.1, fun d hd => by
    have hd : (v.ctxs.set k none)[vm.cur]? = some (some d) := hd
    by_cases hk : k = vm.cur
    · rw [hk, List.getElem?_set] at hd
      simp at hd
    · rw [List.getElem?_set_ne hk] at hd
      exact h.2.2.2 d hd⟩
  pass := fun _ _ h => h
  log := fun _ _ h => h

theorem modCur_ok {v v' : VM} {a : Unit} {g : Ctx → Ctx} (e : modCur g v = .ok (a, v')) :
    ∃ d, v.ctxs[v.cur]? = some (some d) ∧ v' = v.setC (g d) := by
  unfold modCur at e
  split at e
  · next c hc => cases e; exact ⟨c, ctxAt_iff.mp hc, rfl⟩
  · cases e

theorem opEnd_ok {v v' : VM} {a : Unit} (e : opEnd v = .ok (a, v')) :
    ∃ d w, v.ctxs[v.cur]? = some (some d) ∧ (w = v ∨ w = v.addErr "Stack data remaining after end of program.") ∧
      v' = w.setC { d with ip := usub d.ip 1 } := by
  cases hc : ctxAt v v.cur with
  | ub k =>
    have h1 : curCtx v = .ub k := by unfold curCtx; rw [hc]
    have h2 : curStack v = .ub k := by unfold curStack; exact M.bind_ub h1
    unfold opEnd at e
    rw [M.bind_ub h2] at e; cases e
  | ok c =>
    have hc' := ctxAt_iff.mp hc
    have h1 : curCtx v = .ok (c, v) := by unfold curCtx; rw [hc]
    have h2 : curStack v = .ok (c.stack, v) := by unfold curStack; rw [M.bind_ok h1]; rfl
    unfold opEnd at e
    rw [M.bind_ok h2] at e
    dsimp only at e
    split at e
    · rw [M.bind_ok (addError_run _ _)] at e
      obtain ⟨d, hd, hv⟩ := modCur_ok e
      have : d = c := by
        have hd : v.ctxs[v.cur]? = some (some d) := hd
        rw [hc'] at hd; cases hd; rfl
      subst this
      exact ⟨d, _, hc', .inr rfl, hv⟩
    · obtain ⟨d, hd, hv⟩ := modCur_ok e
      have : d = c := by
        have hd : v.ctxs[v.cur]? = some (some d) := hd
        rw [hc'] at hd; cases hd; rfl
      subst this
      exact ⟨d, v, hc', .inl rfl, hv⟩

theorem execute_end {vm v v' : VM} {ip : Nat} {a : Unit} (hip : ip < 4294967296)
    (hw : vm.instrs[ip &&& vm.instrMask]? = some 20) (h : EndLike vm ip v) (e : execute F H 20 v = .ok (a, v')) :
    Ended v' := by
  unfold execute at e
  have hd : dispatch F H 20 = opEnd := rfl
  rw [hd] at e
  cases ho : opEnd v with
  | ub k => rw [M.bind_ub ho] at e; cases e
  | ok p =>
    rw [M.bind_ok ho] at e
    obtain ⟨d, w, h1, h2, h3⟩ := opEnd_ok ho
    obtain ⟨d', h4, h5⟩ := modCur_ok e
    have hwf : w.instrs = v.instrs ∧ w.instrMask = v.instrMask ∧ w.cur = v.cur ∧ w.ctxs = v.ctxs := by
      rcases h2 with rfl | rfl <;> exact ⟨rfl, rfl, rfl, rfl⟩
    obtain ⟨w1, w2, w3, w4⟩ := hwf
    obtain ⟨e1, e2, e3, e4⟩ := h
    have hlt := (List.getElem?_eq_some_iff.mp h1).1
    have hdip : d.ip = ip := e4 d (by rw [← e3]; exact h1)
    have hset : ∀ x : Ctx, (w.setC x).ctxs[w.cur]? = some (some x) := by
      intro x
      show (w.ctxs.set w.cur (some x))[w.cur]? = _
      rw [List.getElem?_set_self (by rw [w4, w3]; exact hlt)]
    rw [h3] at h4 h5
    have h4 : (w.setC { d with ip := usub d.ip 1 }).ctxs[w.cur]? = some (some d') := h4
    rw [hset] at h4
    cases h4
    refine ⟨{ d with ip := u32 (usub d.ip 1 + 1) }, ?_, ?_, ?_⟩
    · rw [h5]
      show ((w.ctxs.set w.cur _).set w.cur _)[w.cur]? = _
      rw [List.set_set, List.getElem?_set_self (by rw [w4, w3]; exact hlt)]
    · exact Nat.mod_lt _ (by decide)
    · show v'.instrs[u32 (usub d.ip 1 + 1) &&& v'.instrMask]? = some 20
      rw [u32_usub_one (by rw [hdip]; exact hip), hdip, h5]
      show w.instrs[ip &&& w.instrMask]? = some 20
      rw [w1, w2, e1, e2, hw]

/-- Iterating at the end of the program stays there. -/
theorem ended_iterate {vm vm' : VM} {a : Unit} (h : Ended vm) (e : iterate F H vm = .ok (a, vm')) : Ended vm' := by
  obtain ⟨c, w, hc, hw, e⟩ := iterate_word e
  obtain ⟨c', hc', hip, hw'⟩ := h
  rw [hc] at hc'; cases hc'
  rw [hw] at hw'; cases hw'
  have h20 : (20 : BitVec 32).toNat % 64 = 20 := rfl
  rw [h20] at e
  have ht : EndLike vm c.ip (tick vm) := by
    refine ⟨tick_instrs vm, tick_instrMask vm, tick_cur vm, ?_⟩
    intro d hd
    rw [tick_ctxs, hc] at hd; cases hd; rfl
  rcases iterateOp_cases e with ⟨_, _, _, hv⟩ | ⟨_, _, v, u, hg, e⟩ | ⟨_, e⟩
  · refine ⟨c, ?_, hip, ?_⟩
    · rw [hv, none_ctxs, none_cur, addErr_ctxs, addErr_cur, tick_ctxs, tick_cur, hc]
    · rw [hv, none_instrs, none_instrMask, addErr_instrs, addErr_instrMask, tick_instrs, tick_instrMask, hw]
  · have h1 : EndLike vm c.ip (charge (tick vm)) := by
      refine ⟨by rw [charge_instrs, ht.1], by rw [charge_instrMask, ht.2.1], by rw [charge_cur, ht.2.2.1], ?_⟩
      rw [charge_ctxs]; exact ht.2.2.2
    have h2 := (collectIfDue_pres (endLike_gc vm c.ip)).run _ _ _ h1 hg
    have h3 : EndLike vm c.ip (resetCountdown v) := by
      refine ⟨by rw [reset_instrs, h2.1], by rw [reset_instrMask, h2.2.1], by rw [reset_cur, h2.2.2.1], ?_⟩
      rw [reset_ctxs]; exact h2.2.2.2
    exact execute_end hip hw h3 e
  · exact execute_end hip hw ht e

/-- After an instruction the instruction pointer is a 32-bit number. -/
theorem iterate_ip {vm vm' : VM} {a : Unit} (h : IpOK vm) (e : iterate F H vm = .ok (a, vm')) : IpOK vm' := by
  obtain ⟨c, w, hc, hw, e⟩ := iterate_word e
  have hx : ∀ {op v}, execute F H op v = .ok (a, vm') → IpOK vm' := by
    intro op v e
    unfold execute at e
    cases ho : dispatch F H op v with
    | ub k => rw [M.bind_ub ho] at e; cases e
    | ok p =>
      rw [M.bind_ok ho] at e
      obtain ⟨d, h1, h2⟩ := modCur_ok e
      intro x hx
      rw [h2] at hx
      have hx : (p.2.ctxs.set p.2.cur _)[p.2.cur]? = some (some x) := hx
      rw [List.getElem?_set_self (List.getElem?_eq_some_iff.mp h1).1] at hx
      cases hx
      exact Nat.mod_lt _ (by decide)
  rcases iterateOp_cases e with ⟨_, _, _, hv⟩ | ⟨_, _, v, u, hg, e⟩ | ⟨_, e⟩
  · intro x hx
    rw [hv, none_ctxs, none_cur, addErr_ctxs, addErr_cur, tick_ctxs, tick_cur] at hx
    exact h x hx
  · exact hx e
  · exact hx e

end Nk
