import Verif.Lemmas.Clock
import Verif.Lemmas.CodeRun
import Verif.Lemmas.Exec
/-!
# From single instructions to `nkxVmExecuteProgram`
-/
namespace Nk
open Nk.Cc
variable {F : FloatOps} {H : Host}

theorem atEnd_clk : Clk atEnd := by unfold atEnd; clk

theorem clock_left (vm : VM) (a b : Nat) : (vm.clock a b).instrLeft = b := by unfold VM.clock; exact Eq.refl b

theorem clock_new (vm : VM) (a b : Nat) : (vm.clock a b).gc.newObjCountdown = vm.gc.newObjCountdown := by
  unfold VM.clock; exact Eq.refl vm.gc.newObjCountdown

theorem reset_clock (vm : VM) (a b : Nat) : resetCountdown (vm.clock a b) = vm.clock vm.gc.interval b := rfl

theorem tick_clock (vm : VM) (a b : Nat) : tick (vm.clock a b) = vm.clock (usub a 1) b := by
  unfold tick VM.clock; exact Eq.refl _

theorem charge_max (vm : VM) (h : vm.instrLeft = UINT_MAX) : charge vm = vm := by
  unfold charge
  rw [if_pos h]

theorem VM.clock_clock (vm : VM) (a b c d : Nat) : (vm.clock a b).clock c d = vm.clock c d := rfl

theorem Plain.pres (hH : Plain H) (l : List String) (cb : Nat) (args : List Value) : Pres (fun vm => l <+: vm.errors) (H.call cb args) :=
  ⟨fun _ _ _ h e => h.trans (hH.errs _ _ _ _ _ e)⟩

theorem Runs.errs (hH : Plain H) {a b : VM} (r : Runs F H a b) (h : a.errors ≠ []) : b.errors ≠ [] := by
  induction r with
  | refl => exact h
  | @step a v b s _ ih =>
    obtain ⟨c, w, _, _, _, e⟩ := s
    exact ih (by
      have := (execute_pres (errs_frame a.errors) (fun cb args => hH.pres a.errors cb args) _).run _ _ _ List.prefix_rfl e
      intro h0
      rw [h0] at this
      exact h (List.prefix_nil.mp this))

theorem Runs.count (hH : Plain H) {a b : VM} (r : Runs F H a b) : b.gc.newObjCountdown ≤ a.gc.newObjCountdown := by
  induction r with
  | refl => exact Nat.le_refl _
  | step s _ ih =>
    obtain ⟨c, w, _, _, _, e⟩ := s
    exact Nat.le_trans ih ((execute_clk hH.clk _).mono _ _ _ e)

/-- An iteration that neither stops at the limit nor collects is one instruction. -/
theorem iterate_step' (hH : Plain H) {a v : VM} (s : Step F H a v) (hn : a.gc.newObjCountdown ≠ 0) (n : Nat) {U : Nat}
    (hU : U = UINT_MAX) : ∃ m, iterate F H (a.clock n U) = .ok ((), v.clock m U) := by
  obtain ⟨c, w, h1, h2, hw, h3⟩ := s
  have hc : curCtx (a.clock n U) = .ok (c, a.clock n U) := by
    rw [Clk.curCtx.run, curCtx_at h1]; rfl
  have hw : liftR (instrAt (a.clock n U) c.ip) (a.clock n U) = .ok (w, a.clock n U) := by
    show liftR (instrAt a c.ip) _ = _
    rw [h2]; rfl
  have hx : ∀ m, execute F H (w.toNat % 64) (a.clock m U) = .ok ((), v.clock m U) := fun m => by
    rw [(execute_clk hH.clk _).run, h3]; rfl
  unfold iterate
  rw [M.bind_ok hc, M.bind_ok (get_run _), M.bind_ok hw]
  unfold iterateOp
  rw [M.bind_ok (modify_run _ _), M.bind_ok (get_run _), tick_clock]
  generalize usub n 1 = k
  by_cases h0 : k = 0
  · rw [if_pos (show (a.clock k U).gc.countdown = 0 from h0)]
    have hl : (a.clock k U).instrLeft = UINT_MAX := (clock_left _ _ _).trans hU
    have hd : collectIfDue H (a.clock k U) = .ok ((), a.clock k U) := by
      unfold collectIfDue
      rw [M.bind_ok (get_run _), if_neg (by rw [clock_new]; exact hn)]
      rfl
    rw [if_neg (fun h => h.1 hl), M.bind_ok (modify_run _ _), charge_max _ hl, M.bind_ok hd, M.bind_ok (modify_run _ _), reset_clock]
    exact ⟨a.gc.interval, hx a.gc.interval⟩
  · rw [if_neg (show ¬ (a.clock k U).gc.countdown = 0 from h0)]
    exact ⟨k, hx k⟩

theorem iterate_step (hH : Plain H) {a v : VM} (s : Step F H a v) (hn : a.gc.newObjCountdown ≠ 0) (n : Nat) :
    ∃ m, iterate F H (a.clock n UINT_MAX) = .ok ((), v.clock m UINT_MAX) := iterate_step' hH s hn n rfl

theorem atEnd_run {a : VM} {c : Ctx} {w : BitVec 32} (h1 : a.At c) (h2 : instrAt a c.ip = .ok w) :
    atEnd a = .ok (decide (w.toNat = 20), a) := by
  unfold atEnd
  rw [M.bind_ok (curCtx_at h1), M.bind_ok (get_run _), h2, M.bind_ok (liftR_ok _ _)]
  rfl

/-- Executing a program that runs to its END instruction. -/
theorem execute_normal (hH : Plain H) {a b : VM} (r : Runs F H a b) (hb : atEnd b = .ok (true, b)) (he : b.errors = [])
    (hn : b.gc.newObjCountdown ≠ 0) : ∀ n, ∃ k m, executeProgram F H k (a.clock n UINT_MAX) = .ok (some true, b.clock m UINT_MAX) := by
  induction r with
  | refl vm =>
    intro n
    refine ⟨1, n, ?_⟩
    unfold executeProgram
    have : atEnd (vm.clock n UINT_MAX) = .ok (true, vm.clock n UINT_MAX) := by rw [atEnd_clk.run, hb]; rfl
    rw [M.bind_ok this]; rfl
  | @step a v b s r ih =>
    intro n
    have ih := ih hb he hn
    have hs := s
    obtain ⟨c, w, h1, h2, hw, h3⟩ := s
    · have hnv := Runs.count hH r
      have hna := (execute_clk hH.clk _).mono _ _ _ h3
      obtain ⟨m, g⟩ := iterate_step hH hs (by omega) n
      obtain ⟨k, m', g2⟩ := ih m
      refine ⟨k + 1, m', ?_⟩
      unfold executeProgram
      have : atEnd (a.clock n UINT_MAX) = .ok (false, a.clock n UINT_MAX) := by
        rw [atEnd_clk.run, atEnd_run h1 h2]; simp [hw, Res.clock]
      have hv : v.errors = [] := Classical.byContradiction fun h => Runs.errs hH r h he
      rw [M.bind_ok this]
      simp only [Bool.false_eq_true, if_false]
      rw [M.bind_ok g, M.bind_ok (get_run _)]
      have : hasErrors (v.clock m UINT_MAX) = false := by unfold hasErrors; show (!v.errors.isEmpty) = false; rw [hv]; rfl
      rw [this]
      exact g2

/-- Executing a program that gets to an error. -/
theorem execute_error (hH : Plain H) {a b : VM} (r : Runs F H a b) (he : b.errors ≠ []) (ha : a.errors = [])
    (hn : b.gc.newObjCountdown ≠ 0) : ∀ n, ∃ k v, executeProgram F H k (a.clock n UINT_MAX) = .ok (some false, v) ∧ v.errors ≠ [] := by
  induction r with
  | refl vm => exact absurd ha he
  | @step a v b s r ih =>
    intro n
    have hs := s
    obtain ⟨c, w, h1, h2, hw, h3⟩ := s
    · have hnv := Runs.count hH r
      have hna := (execute_clk hH.clk _).mono _ _ _ h3
      obtain ⟨m, g⟩ := iterate_step hH hs (by omega) n
      have : atEnd (a.clock n UINT_MAX) = .ok (false, a.clock n UINT_MAX) := by
        rw [atEnd_clk.run, atEnd_run h1 h2]; simp [hw, Res.clock]
      by_cases hv : v.errors = []
      · obtain ⟨k, v', g2, g3⟩ := ih he hv hn m
        refine ⟨k + 1, v', ?_, g3⟩
        unfold executeProgram
        rw [M.bind_ok this]
        simp only [Bool.false_eq_true, if_false]
        rw [M.bind_ok g, M.bind_ok (get_run _)]
        have : hasErrors (v.clock m UINT_MAX) = false := by unfold hasErrors; show (!v.errors.isEmpty) = false; rw [hv]; rfl
        rw [this]
        exact g2
      · refine ⟨1, v.clock m UINT_MAX, ?_, hv⟩
        unfold executeProgram
        rw [M.bind_ok this]
        simp only [Bool.false_eq_true, if_false]
        rw [M.bind_ok g, M.bind_ok (get_run _)]
        have : hasErrors (v.clock m UINT_MAX) = true := by
          unfold hasErrors; show (!v.errors.isEmpty) = true
          cases h : v.errors with
          | nil => exact absurd h hv
          | cons _ _ => rfl
        rw [this]
        rfl

/-- Executing a program that gets to some point. -/
theorem execute_part (hH : Plain H) {a b : VM} (r : Runs F H a b) (he : b.errors = []) (hn : b.gc.newObjCountdown ≠ 0) :
    ∀ n, ∃ k m, executeProgram F H k (a.clock n UINT_MAX) = .ok (none, b.clock m UINT_MAX) := by
  induction r with
  | refl vm => exact fun n => ⟨0, n, by unfold executeProgram; exact Eq.refl _⟩
  | @step a v b s r ih =>
    intro n
    have hs := s
    obtain ⟨c, w, h1, h2, hw, h3⟩ := s
    have hnv := Runs.count hH r
    have hna := (execute_clk hH.clk _).mono _ _ _ h3
    obtain ⟨m, g⟩ := iterate_step hH hs (by omega) n
    obtain ⟨k, m', g2⟩ := ih he hn m
    refine ⟨k + 1, m', ?_⟩
    unfold executeProgram
    have : atEnd (a.clock n UINT_MAX) = .ok (false, a.clock n UINT_MAX) := by
      rw [atEnd_clk.run, atEnd_run h1 h2]; simp [hw, Res.clock]
    have hv : v.errors = [] := Classical.byContradiction fun h => Runs.errs hH r h he
    rw [M.bind_ok this]
    simp only [Bool.false_eq_true, if_false]
    rw [M.bind_ok g, M.bind_ok (get_run _)]
    have : hasErrors (v.clock m UINT_MAX) = false := by unfold hasErrors; show (!v.errors.isEmpty) = false; rw [hv]; rfl
    rw [this]
    exact g2

end Nk
