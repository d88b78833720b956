import Verif.Lemmas.ApiQuiet
import Verif.Props.Sandbox
import Verif.Props.Coroutine
import Verif.Props.HostCall
/-!
# C72: native functions that use the API

The other properties assume that native functions keep the VM in order, do not take errors back, do not compile, and so on.
Here these assumptions are shown to hold for all native functions that do to the VM only what the API offers.
-/
namespace Nk.Props
open Nk.Spec

variable (F : FloatOps) (mark : Nat → Option Nat → List Value) (ps : Nat → List Value → Api) (fuel depth : Nat)

/-- How a native function may end other than by returning: signed overflow, conversion of a float that is out of range, a failed
assertion or a catastrophic failure, or in a way that is not followed (`fuel`, see `Model.Api`).  Not among these: accesses out
of bounds or through null pointers, and divisions by zero. -/
def ApiEnd (k : UB) : Prop := k = .overflow ∨ k = .cast ∨ k = .assert ∨ k = .longjmp ∨ k = .fuel

/-- **C72.** Whatever the native functions are, and whatever they do through the API, including calling scripts that call
native functions again: called in a VM that is in order they leave it in order. -/
theorem C72_in_order : HostOK (apiHost F mark ps fuel depth) ApiEnd := by
  induction depth with
  | zero => intro cb args vm _ _; exact .inr (.inr (.inr (.inr rfl)))
  | succ d ih =>
    intro cb args vm hi _
    have := Api.run_good F (apiHost F mark ps fuel d) (B := ApiEnd) ih (fun _ h => h) (.inl rfl) (.inr (.inl rfl))
      (.inr (.inr (.inl rfl))) (.inr (.inr (.inr (.inr rfl)))) (.inr (.inr (.inr (.inl rfl)))) fuel (ps cb args) vm hi
    unfold Safe at this
    show match (ps cb args).run F (apiHost F mark ps fuel d) fuel vm with
      | .ok (_, vm') => Inv vm'
      | .ub k => ApiEnd k
    split <;> rename_i e <;> rw [e] at this <;> exact this

/-- **C72**, together with C25: no script and no native function, together, access memory out of bounds. -/
theorem C72_no_out_of_bounds {vm vm' : VM} (h : Inv vm) (r : Run F (apiHost F mark ps fuel depth) vm vm')
    (hp : vm'.gc.lastGCPass + 2 < 4294967296) :
    iterate F (apiHost F mark ps fuel depth) vm' ≠ .ub .oob ∧ iterate F (apiHost F mark ps fuel depth) vm' ≠ .ub .null ∧
      iterate F (apiHost F mark ps fuel depth) vm' ≠ .ub .div := by
  have := C25_memory_safe F _ (C72_in_order F mark ps fuel depth) h r hp
  refine ⟨?_, ?_, ?_⟩ <;> intro e <;> rw [e] at this <;>
    rcases this with h | h | h | ⟨h, _⟩ <;> first | cases h; done | (rcases h with h | h | h | h | h <;> cases h; done)

/-- What is kept by the API is kept by the native functions. -/
theorem apiHost_pres {A : Prop} {P : VM → Prop} (f : ApiFrame A P) (hps : ∀ cb args, (ps cb args).Limits A)
    (hI : ∀ H : Host, (∀ cb args, Pres P (H.call cb args)) → Pres P (iterate F H)) (cb : Nat) (args : List Value) :
    Pres P ((apiHost F mark ps fuel depth).call cb args) := by
  induction depth generalizing cb args with
  | zero => exact ⟨fun _ _ _ _ e => by cases e⟩
  | succ d ih => exact Api.run_pres f ih (hI _ ih) fuel (ps cb args) (hps cb args)

/-- **C72**: errors are not taken back. -/
theorem C72_errors : KeepsErrors (apiHost F mark ps fuel depth) := fun cb args vm a vm' e =>
  (apiHost_pres F mark ps fuel depth (errs_api vm.errors) (fun _ _ => Api.limits_true _)
    (fun H hH => iterate_pres (errs_frame _) hH (fun v h => by rw [tick_errors]; exact h)
      (fun v h => by rw [charge_errors]; exact h) (fun v h => by rw [none_errors]; exact h)
      (fun v h => by rw [reset_errors]; exact h)) cb args).run vm a vm' (List.prefix_refl _) e

/-- **C72**: the names of global variables stay. -/
theorem C72_names : KeepsNames (apiHost F mark ps fuel depth) := fun cb args vm a vm' e => by
  have := (apiHost_pres F mark ps fuel depth (names_api vm) (fun _ _ => Api.limits_true _)
    (fun H hH => iterate_pres (names_frame vm) hH (fun v h => ⟨tick_globals.trans h.1, tick_smask.trans h.2⟩)
      (fun v h => ⟨charge_globals.trans h.1, charge_smask.trans h.2⟩) (fun v h => h) (fun v h => h)) cb args).run vm a vm' ⟨rfl, rfl⟩ e
  exact this

/-- **C72**: the program stays. -/
theorem C72_code : NoCompiling (apiHost F mark ps fuel depth) := fun cb args vm a vm' e =>
  (apiHost_pres F mark ps fuel depth (code_api vm) (fun _ _ => Api.limits_true _)
    (fun H hH => iterate_pres (same_frame vm) hH (fun v h => by unfold tick; exact h.of rfl rfl rfl rfl rfl)
      (fun v h => by unfold charge; exact h.of rfl rfl rfl rfl rfl) (fun v h => h.of rfl rfl rfl rfl rfl)
      (fun v h => h.of rfl rfl rfl rfl rfl)) cb args).run vm a vm' ⟨rfl, rfl, rfl, rfl, fun _ h => .inl h, List.prefix_refl _⟩ e

/-- **C72**: the registries change only by registering. -/
theorem C72_registers : HostRegisters (apiHost F mark ps fuel depth) := fun cb args vm a vm' e =>
  (apiHost_pres F mark ps fuel depth (reg_api vm) (fun _ _ => Api.limits_true _)
    (fun H hH => iterate_pres (regHist_frame vm) hH
      (fun v h => by unfold tick; exact RegHist.same h (sameReg_gc v _))
      (fun v h => by unfold charge; exact RegHist.same h (sameReg_left v _))
      (fun v h => by unfold noneLeft; exact RegHist.same h (sameReg_left v _))
      (fun v h => by unfold resetCountdown; exact RegHist.same h (sameReg_gc v _))) cb args).run vm a vm' ⟨[], .refl vm⟩ e

/-- **C72**: finished coroutines stay finished. -/
theorem C72_finished : KeepsFinished (apiHost F mark ps fuel depth) := fun k c cb args vm a vm' hf hg e =>
  (apiHost_pres F mark ps fuel depth (gone_api (k := k) (.inl hf)) (fun _ _ => Api.limits_true _)
    (fun H hH => iterate_pres (gone_frame (.inl hf)) hH
      (fun v h => gone_same h (tick_ctxs v) (tick_cur v)) (fun v h => gone_same h (charge_ctxs v) (charge_cur v))
      (fun v h => gone_same h (none_ctxs v) (none_cur v)) (fun v h => gone_same h (reset_ctxs v) (reset_cur v))) cb args).run
    vm a vm' hg e

/-- **C72**: and coroutines that were given up when errors were cleared (C75) stay so. -/
theorem C72_invalid : KeepsInvalid (apiHost F mark ps fuel depth) := fun k c cb args vm a vm' hf hg e =>
  (apiHost_pres F mark ps fuel depth (gone_api (k := k) (.inr hf)) (fun _ _ => Api.limits_true _)
    (fun H hH => iterate_pres (gone_frame (.inr hf)) hH
      (fun v h => gone_same h (tick_ctxs v) (tick_cur v)) (fun v h => gone_same h (charge_ctxs v) (charge_cur v))
      (fun v h => gone_same h (none_ctxs v) (none_cur v)) (fun v h => gone_same h (reset_ctxs v) (reset_cur v))) cb args).run
    vm a vm' hg e

/-- **C72**: native functions that do not set the instruction limit or the collection interval do not get around them. -/
theorem C72_limit (hps : ∀ cb args, (ps cb args).Limits False) : KeepsLimit (apiHost F mark ps fuel depth) := by
  induction depth with
  | zero => intro g b cb args vm a vm' _ _ _ e; cases e
  | succ d ih =>
    intro g b cb args vm a vm' hg hg' h e
    have hH : ∀ cb args, Pres (fun vm => vm.errors ≠ [] ∨ Within g b vm) ((apiHost F mark ps fuel d).call cb args) :=
      fun cb args => ⟨fun v a v' h e => ih g b cb args v a v' hg hg' h e⟩
    have hI : Pres (fun vm => vm.errors ≠ [] ∨ Within g b vm) (iterate F (apiHost F mark ps fuel d)) := ⟨fun v a v' h e => by
      rcases h with h | h
      · obtain ⟨t, ht⟩ := iterate_errs (C72_errors F mark ps fuel d) e
        left
        rw [← ht]
        cases hv : v.errors with
        | nil => exact absurd hv h
        | cons x xs => simp
      · cases b with
        | zero => obtain ⟨_, _, h3, _, h4⟩ := h; omega
        | succ b =>
          refine (iterate_within ih hg hg' h e).imp_right fun ⟨h1, h2, h3, h4, h5⟩ => ⟨h1, h2, h3, h4, by omega⟩⟩
    exact (Api.run_pres (within_api g b) hH hI fuel (ps cb args) (hps cb args)).run vm a vm' h e

/-- **C72**: native functions that call no functions and execute no instructions return in the coroutine that called them, and do
nothing to the others. -/
theorem C72_others (hps : ∀ cb args, (ps cb args).Quiet) : KeepsOthers (apiHost F mark ps fuel depth) := by
  intro cb args vm a vm' e
  cases depth with
  | zero => cases e
  | succ d =>
    exact (Api.run_quiet here_quiet F _ fuel (ps cb args) (hps cb args)).run vm a vm' ⟨rfl, Nat.le_refl _, fun _ _ _ => .inl rfl⟩ e

/-- **C72**: native functions that also leave the limit and collections alone, and do not look at the instruction counters, are as
C68 wants them. -/
theorem C72_plain (hps : ∀ cb args, (ps cb args).Still) : Plain (apiHost F mark ps fuel depth) := by
  refine ⟨fun cb args => ?_, C72_errors F mark ps fuel depth⟩
  cases depth with
  | zero => exact ⟨fun _ _ _ => rfl, fun _ _ _ e => by cases e⟩
  | succ d => exact Api.run_still F _ fuel (ps cb args) (hps cb args)

/-! ## What is followed is what the code does -/

theorem guarded_ok {α : Type} {m : M α} {vm vm' : VM} {a : α} (h : guarded m vm = .ok (a, vm')) : m vm = .ok (a, vm') := by
  unfold guarded at h
  split at h
  · exact h
  · cases h

theorem M.bind_some {α β : Type} {m : M α} {f : α → M β} {vm vm' : VM} {b : β} (h : (m >>= f) vm = .ok (b, vm')) :
    ∃ a v, m vm = .ok (a, v) ∧ f a v = .ok (b, vm') := by
  cases hm : m vm with
  | ub k => rw [M.bind_ub hm] at h; cases h
  | ok p => obtain ⟨a, v⟩ := p; rw [M.bind_ok hm] at h; exact ⟨a, v, rfl, h⟩

variable (H : Host)

theorem callLoopApi_ok {k : Nat} {vm vm' : VM} {b : Bool} (h : callLoopApi F H k vm = .ok (b, vm')) :
    callLoop F H k vm = .ok (b, vm') := by
  induction k generalizing vm with
  | zero => exact h
  | succ k ih =>
    unfold callLoopApi at h
    unfold callLoop
    obtain ⟨c, v1, h1, h⟩ := M.bind_some h
    obtain ⟨w, v2, h2, h⟩ := M.bind_some h
    rw [M.bind_ok h1, M.bind_ok h2]
    split at h
    · next hc => rw [if_pos hc]; exact h
    · next hc =>
      rw [if_neg hc]
      obtain ⟨_, v3, h3, h⟩ := M.bind_some h
      rw [M.bind_ok (guarded_ok h3)]
      exact ih h

/-- **C72**: a call of a function that is followed to its end is `nkxVmCallFunction`. -/
theorem C72_call {fv : Value} {args : List Value} {vm vm' : VM} {r : Option Value}
    (h : callApi F H fuel fv args vm = .ok (r, vm')) :
    callFunction F H fuel fv args vm = .ok (match r with
      | some v => .returned v
      | none => .failed, vm') := by
  unfold callApi at h
  unfold callFunction
  cases fv
  case fn id =>
    dsimp only at h ⊢
    obtain ⟨c, v1, h1, h⟩ := M.bind_some h
    obtain ⟨go, v2, h2, h⟩ := M.bind_some h
    rw [M.bind_ok h1, M.bind_ok (guarded_ok h2)]
    cases go with
    | false => cases h; rfl
    | true =>
      obtain ⟨st, v3, h3, h⟩ := M.bind_some h
      rw [if_pos rfl, M.bind_ok (callLoopApi_ok F H h3)]
      cases st with
      | false => cases h
      | true =>
        obtain ⟨v, v4, h4, h⟩ := M.bind_some h
        obtain ⟨_, v5, h5, h⟩ := M.bind_some h
        rw [if_pos rfl, M.bind_ok h4, M.bind_ok h5]
        cases h; rfl
  all_goals
    dsimp only at h ⊢
    obtain ⟨_, v1, h1, h⟩ := M.bind_some h
    rw [M.bind_ok h1]
    cases h; rfl

/-- **C72**: iterations that are followed are `nkxVmIterate`. -/
theorem C72_iterate {n : Nat} {vm vm' : VM} (h : iterateApi F H n vm = .ok ((), vm')) : vmIterate F H n vm = .ok ((), vm') := by
  induction n generalizing vm with
  | zero => exact h
  | succ n ih =>
    unfold iterateApi at h
    unfold vmIterate
    obtain ⟨e, v1, h1, h⟩ := M.bind_some h
    rw [M.bind_ok h1]
    cases e with
    | true => exact guarded_ok h
    | false =>
      rw [if_neg (by decide)] at h ⊢
      obtain ⟨w, v2, h2, h⟩ := M.bind_some h
      rw [M.bind_ok h2]
      split at h
      · next hc => rw [if_pos hc]; exact h
      · next hc =>
        rw [if_neg hc]
        obtain ⟨_, v3, h3, h⟩ := M.bind_some h
        rw [M.bind_ok (guarded_ok h3)]
        exact ih h

/-! ## Why coroutines are left out -/

/-- **C72**, the rule on coroutines is needed: coroutines keep their state in the external data of an ordinary object, and a native
function that is passed a coroutine may set that.  The next `resume` then goes through whatever it was set to. -/
theorem C72_rule_needed : ∃ (vm vm' : VM) (co : Value), Run Sample.F Sample.H coStart vm ∧ Inv vm ∧
    setExtData co 7 vm = .ok (true, vm') ∧ iterate Sample.F Sample.H vm' = .ub .oob := by
  have r : Run Sample.F Sample.H coStart coS4 :=
    .step (.step (.step (.step .refl (by decide) coT1) (by decide) coT2) (by decide) coT3) (by decide) coT4
  have h : (setExtData (.obj 0) 7 coS4).test (fun p => p.1 = true ∧ iterate Sample.F Sample.H p.2 = .ub .oob) := by
    decide +kernel
  obtain ⟨⟨b, vm'⟩, e, h⟩ := test_ok h
  simp only [decide_eq_true_eq] at h
  obtain ⟨rfl, h⟩ := h
  exact ⟨coS4, vm', .obj 0, r, coInv r, e, h⟩

/-! ## Calling functions that yield -/

/-- A program for the next theorem: the main program, which the host has called as function 1, makes a coroutine with function 0
(at instruction 6), resumes it and returns what it gets.  Function 0 yields 42. -/
def nestStart : VM :=
  { loaded [38, 37, 40, 7, 0, 19, 7, 42, 39, 7, 0, 19, 0, 0, 0, 0] [.nil]
      ⟨[.fn 1, .int 0, .int 4294967294, .fn 0, .int 0, .nil, .nil, .nil], 5, 8, 7⟩ 0 with
    functions := [{ argc := 0, first := 6, extId := UINT_MAX }, { argc := 0, first := 0, extId := UINT_MAX }] }

theorem nestStart_inv : Inv nestStart := by
  have h := C25_any_program (words := [38, 37, 40, 7, 0, 19, 7, 42, 39, 7, 0, 19, 0, 0, 0, 0]) (globals := [.nil])
    (s := ⟨[.fn 1, .int 0, .int 4294967294, .fn 0, .int 0, .nil, .nil, .nil], 5, 8, 7⟩) 0
    (by simp) (by simp) ⟨⟨3, by decide, rfl⟩, rfl, rfl, by decide⟩
  exact h.setFunctions _

/-- **C72**, what does not hold: a native function that calls a script function need not return in the coroutine that called it.
If the script function yields, the one that resumed the coroutine goes on inside the call, and when it returns to its own
caller, the call ends, with its result. -/
theorem C72_others_violated : ∃ (vm vm' : VM) (r : Value), Run Sample.F Sample.H nestStart vm ∧ Inv vm ∧
    (apiHost Sample.F Sample.H.mark (fun _ args => .call (args.headD .nil) [] fun r => .done (r.getD .nil)) 20 1).call 0 [.fn 0] vm =
      .ok (r, vm') ∧ vm'.errors = [] ∧ vm.cur = 1 ∧ vm'.cur = 0 := by
  have h : (iterate Sample.F Sample.H nestStart).test fun p => p.2.gc.lastGCPass + 2 < 4294967296 ∧
      (iterate Sample.F Sample.H p.2).test fun p => p.2.gc.lastGCPass + 2 < 4294967296 ∧
      (iterate Sample.F Sample.H p.2).test fun p => p.2.cur = 1 ∧
      ((apiHost Sample.F Sample.H.mark (fun _ args => .call (args.headD .nil) [] fun r => .done (r.getD .nil)) 20 1).call 0 [.fn 0]
        p.2).test fun q => q.2.errors = [] ∧ q.2.cur = 0 := by decide +kernel
  obtain ⟨⟨_, v1⟩, e1, h⟩ := test_ok h
  simp only [decide_eq_true_eq] at h
  obtain ⟨h1, h⟩ := h
  obtain ⟨⟨_, v2⟩, e2, h⟩ := test_ok h
  simp only [decide_eq_true_eq] at h
  obtain ⟨h2, h⟩ := h
  obtain ⟨⟨_, v3⟩, e3, h⟩ := test_ok h
  simp only [decide_eq_true_eq] at h
  obtain ⟨h3, h⟩ := h
  obtain ⟨⟨r, v4⟩, e4, h⟩ := test_ok h
  simp only [decide_eq_true_eq] at h
  have rr : Run Sample.F Sample.H nestStart v3 := .step (.step (.step .refl (by decide) e1) h1 e2) h2 e3
  exact ⟨v3, v4, r, rr, run_inv _ _ sample_host.1 nestStart_inv rr, e4, h.1, h3, h.2⟩

/-! ## Concrete cases -/

namespace ApiEx

/-- A native function: makes an object, sets its field `n` to 5, keeps it by a handle, passes it to the script function it was given
and collects. -/
def prog : Nat → List Value → Api := fun _ args =>
  .create fun o => .string (cs "n") fun k => .store o k (.int 5) fun _ => .acquire o <|
    .call (args.headD .nil) [o] fun r => .collect <| .size o fun n => .find o k fun v =>
      if n = 1 ∧ v = some (.int 5) then .release o (.done (r.getD .nil)) else .error "lost" (.done .nil)

/-- It runs, returns what the script function returned, and leaves no handle behind. -/
example : ((apiHost Sample.F Sample.H.mark prog 10 1).call 0 [.fn 0]
    (hostCalls 1 [.int 7, .nil, .nil, .nil, .nil, .nil, .nil, .nil] 1 9)).test
    fun p => p.1 = .int 42 ∧ p.2.errors = [] ∧ p.2.handles = [] ∧ p.2.gc.lastGCPass = 1 := by decide +kernel

/-- It sets no limits. -/
example : ∀ cb args, (prog cb args).Limits False := by
  intro cb args o k b r n v
  dsimp only
  split <;> trivial

/-- A native function that registers another one and returns a function value for it. -/
def maker : Nat → List Value → Api := fun _ _ =>
  .setup (cs "g") (some 1) (some [(0, UINT_MAX)]) fun e => .function e fun id => .done (.fn id)

example : ((apiHost Sample.F Sample.H.mark maker 10 1).call 0 []
    (hostCalls 1 [.int 7, .nil, .nil, .nil, .nil, .nil, .nil, .nil] 1 9)).test
    fun p => p.1 = .fn 2 ∧ p.2.extFuncs.length = 2 ∧ p.2.functions.length = 3 := by decide +kernel

/-- It executes nothing, and a program that looks at the number of errors does not depend on the counters. -/
example : ∀ cb args, (maker cb args).Quiet ∧ (maker cb args).Still :=
  fun _ _ => ⟨fun _ _ => trivial, fun _ _ => trivial⟩
example : (Api.look fun vm => .create fun o => if vm.errors.length = 0 then .acquire o (.done o) else .done o).Still :=
  ⟨fun _ _ _ => rfl, fun vm o => by dsimp only; split <;> trivial⟩

end ApiEx
end Nk.Props
