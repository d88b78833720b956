import Verif.Model.Fail
import Verif.Props.Mem
import Verif.Lemmas.MemUser
/-!
# C04: catastrophic failure is sticky and makes the API inert; C58: the host allocator's user data
-/
namespace Nk.Props
open Nk.Fail

/-- The recovery pointer is NULL exactly when no API function is active and otherwise points to the
innermost active frame; frame identities are fresh. -/
structure Sane {σ : Type} (c : Conf σ) : Prop where
  jmp : c.jmp = c.frames.head?
  fresh : ∀ f ∈ c.frames, f < c.nextFrame

/-- Everything running a program can do to the recovery machinery. -/
theorem exec_sane {σ α : Type} (p : Prog σ α) : ∀ (c : Conf σ), Sane c → c.frames ≠ [] →
    (∃ a c', exec p c = .ret a c' ∧ Sane c' ∧ c'.frames = c.frames ∧ c.nextFrame ≤ c'.nextFrame ∧
      (c.failed = true → c'.failed = true)) ∨
    (∃ f c', exec p c = .jump f c' ∧ some f = c.frames.head? ∧ Sane c' ∧ c'.frames = c.frames ∧
      c.nextFrame ≤ c'.nextFrame ∧ c'.failed = true) := by
  have hcat : ∀ (c : Conf σ), Sane c → c.frames ≠ [] →
      ∃ f c', (catastrophe c : Out σ α) = .jump f c' ∧ some f = c.frames.head? ∧ Sane c' ∧
        c'.frames = c.frames ∧ c.nextFrame ≤ c'.nextFrame ∧ c'.failed = true := by
    intro c hs hf
    obtain ⟨x, xs, hx⟩ := List.exists_cons_of_ne_nil hf
    have hj : c.jmp = some x := by rw [hs.jmp, hx]; rfl
    refine ⟨x, { c with failed := true }, ?_, by rw [hx]; rfl, ⟨hs.jmp, hs.fresh⟩, rfl, Nat.le_refl _, rfl⟩
    simp [catastrophe, hj, hx]
  induction p with
  | ret a => intro c hs hf; exact Or.inl ⟨a, c, rfl, hs, rfl, Nat.le_refl _, id⟩
  | upd f k ih =>
    intro c hs hf
    exact ih c.st { c with st := f c.st } ⟨hs.jmp, hs.fresh⟩ hf
  | alloc grant k ih =>
    intro c hs hf
    obtain ⟨x, xs, hx⟩ := List.exists_cons_of_ne_nil hf
    have hj : c.jmp = some x := by rw [hs.jmp, hx]; rfl
    by_cases hg : grant c.st = true
    · simpa [exec, hj, hg] using ih c hs hf
    · right; simpa [exec, hj, hg] using hcat c hs hf
  | check k ih =>
    intro c hs hf
    by_cases hg : c.failed = true
    · right; simpa [exec, hg] using hcat c hs hf
    · simpa [exec, hg] using ih c hs hf
  | call dflt body k ihb ihk =>
    intro c hs hf
    have hs1 : Sane (enter c) := by
      refine ⟨rfl, ?_⟩
      intro f h
      rcases List.mem_cons.1 h with h | h
      · simp [h, enter]
      · have := hs.fresh f h; simp [enter]; omega
    by_cases hfl : (enter c).failed = true
    · have hl : Sane (leave (enter c) c.jmp c.frames) := by
        refine ⟨hs.jmp, ?_⟩
        intro f h; have := hs.fresh f h; simp [leave, enter]; omega
      have h := ihk dflt _ hl hf
      simp only [exec, hfl, if_true] at h ⊢
      rcases h with ⟨a, c', h1, h2, h3, h4, h5⟩ | ⟨f, c', h1, h2, h3, h4, h5, h6⟩
      · exact Or.inl ⟨a, c', h1, h2, h3, by simp [leave, enter] at h4; omega, fun _ => h5 hfl⟩
      · exact Or.inr ⟨f, c', h1, h2, h3, h4, by simp [leave, enter] at h5; omega, h6⟩
    · have hb := ihb _ hs1 (by simp [enter])
      rcases hb with ⟨a, c2, h1, h2, h3, h4, h5⟩ | ⟨f, c2, h1, h2, h3, h4, h5, h6⟩
      · have hl : Sane (leave c2 c.jmp c.frames) := by
          refine ⟨hs.jmp, ?_⟩
          intro f h; have := hs.fresh f h; simp [leave, enter] at *; omega
        have h := ihk a _ hl hf
        simp only [exec, hfl, if_false, h1, Bool.false_eq_true] at h ⊢
        rcases h with ⟨a', c', g1, g2, g3, g4, g5⟩ | ⟨f, c', g1, g2, g3, g4, g5, g6⟩
        · exact Or.inl ⟨a', c', g1, g2, g3, by simp [leave, enter] at g4 h4; omega, fun h => absurd h hfl⟩
        · exact Or.inr ⟨f, c', g1, g2, g3, g4, by simp [leave, enter] at g5 h4; omega, g6⟩
      · have hfe : f = c.nextFrame := by simpa [enter] using h2
        have hl : Sane (leave c2 c.jmp c.frames) := by
          refine ⟨hs.jmp, ?_⟩
          intro f h; have := hs.fresh f h; simp [leave, enter] at *; omega
        have h := ihk dflt _ hl hf
        simp only [exec, hfl, if_false, h1, Bool.false_eq_true, hfe, if_true] at h ⊢
        rcases h with ⟨a', c', g1, g2, g3, g4, g5⟩ | ⟨f, c', g1, g2, g3, g4, g5, g6⟩
        · exact Or.inl ⟨a', c', g1, g2, g3, by simp [leave, enter] at g4 h5; omega, fun h => absurd h hfl⟩
        · exact Or.inr ⟨f, c', g1, g2, g3, g4, by simp [leave, enter] at g5 h5; omega, g6⟩

/-- The state between top-level API calls. -/
structure Idle {σ : Type} (c : Conf σ) : Prop where
  jmp : c.jmp = none
  frames : c.frames = []

theorem api_idle {σ α : Type} (dflt : α) (body : Prog σ α) {c : Conf σ} (hi : Idle c) :
    ∃ a c', api dflt body c = .ret a c' ∧ Idle c' ∧ (c.failed = true → c'.failed = true) := by
  have hs1 : Sane (enter c) := by
    refine ⟨rfl, ?_⟩
    intro f h
    simp [hi.frames, enter] at h ⊢
    omega
  by_cases hfl : (enter c).failed = true
  · exact ⟨dflt, leave (enter c) c.jmp c.frames, by simp [api, exec, hfl], ⟨hi.jmp, hi.frames⟩, fun _ => hfl⟩
  · rcases exec_sane body _ hs1 (by simp [enter]) with ⟨a, c2, h1, _⟩ | ⟨f, c2, h1, h2, _⟩
    · exact ⟨a, leave c2 c.jmp c.frames, by simp [api, exec, hfl, h1], ⟨hi.jmp, hi.frames⟩,
        fun h => absurd h hfl⟩
    · have hfe : f = c.nextFrame := by simpa [enter] using h2
      exact ⟨dflt, leave c2 c.jmp c.frames, by simp [api, exec, hfl, h1, hfe], ⟨hi.jmp, hi.frames⟩,
        fun h => absurd h hfl⟩

/-- A history of top-level API calls with arbitrary bodies. -/
inductive History {σ : Type} (st : σ) : Conf σ → Prop
  | init : History st (init st)
  | call {α : Type} {c c' : Conf σ} {a : α} (dflt : α) (body : Prog σ α) :
      History st c → api dflt body c = .ret a c' → History st c'

theorem history_idle {σ : Type} {st : σ} {c : Conf σ} (h : History st c) : Idle c := by
  induction h with
  | init => exact ⟨rfl, rfl⟩
  | call dflt body _ he ih =>
    obtain ⟨a, c', h1, h2, _⟩ := api_idle dflt body ih
    rw [he] at h1; cases h1; exact h2

/-- **C04** (recovery never misfires).  After any history of API calls, whatever they do and wherever
allocations fail inside them or inside API calls nested in host callbacks, the next wrapped API call
returns to its caller: no `longjmp` goes to a dead frame or through a NULL pointer, and no `longjmp`
escapes the call. -/
theorem C04_calls_return {σ α : Type} {st : σ} {c : Conf σ} (h : History st c) (dflt : α)
    (body : Prog σ α) : ∃ a c', api dflt body c = .ret a c' := by
  obtain ⟨a, c', h1, _⟩ := api_idle dflt body (history_idle h)
  exact ⟨a, c', h1⟩

/-- **C04** (sticky).  Once the failure state is set no later API call clears it. -/
theorem C04_sticky {σ α : Type} {st : σ} {c c' : Conf σ} {a : α} (h : History st c)
    (hf : c.failed = true) (dflt : α) (body : Prog σ α) (he : api dflt body c = .ret a c') :
    c'.failed = true := by
  obtain ⟨a', c'', h1, _, h3⟩ := api_idle dflt body (history_idle h)
  rw [he] at h1; cases h1; exact h3 hf

/-- **C04** (inert).  In the failure state an API call returns its failure value and changes nothing
in the VM.  Proved for every function that uses the recovery wrapper; missing: `nkxSerializeData`,
which does not (see `C04_violation_serializeData`). -/
theorem C04_inert_partial {σ α : Type} {st : σ} {c c' : Conf σ} {a : α} (h : History st c)
    (hf : c.failed = true) (dflt : α) (body : Prog σ α) (he : api dflt body c = .ret a c') :
    a = dflt ∧ c'.st = c.st ∧ c'.failed = true := by
  simp [api, exec, hf, enter] at he
  obtain ⟨rfl, rfl⟩ := he
  exact ⟨rfl, rfl, rfl⟩

/-- **C04** (failure is reported).  A call either runs its body to the end and returns what the body
returned, or returns the failure value with the VM in the failure state. -/
theorem C04_failure_reported {σ α : Type} {st : σ} {c c' : Conf σ} {a : α} (h : History st c)
    (dflt : α) (body : Prog σ α) (he : api dflt body c = .ret a c') :
    (∃ c2, exec body (enter c) = .ret a c2 ∧ c'.st = c2.st) ∨ (a = dflt ∧ c'.failed = true) := by
  have hi := history_idle h
  have hs1 : Sane (enter c) := by
    refine ⟨rfl, ?_⟩
    intro f h
    simp [hi.frames, enter] at h ⊢
    omega
  by_cases hfl : (enter c).failed = true
  · simp [api, exec, hfl] at he
    exact Or.inr ⟨he.1.symm, by rw [← he.2]; exact hfl⟩
  · rcases exec_sane body _ hs1 (by simp [enter]) with ⟨a', c2, h1, _⟩ | ⟨f, c2, h1, h2, _, _, _, h6⟩
    · simp [api, exec, hfl, h1] at he
      exact Or.inl ⟨c2, by rw [h1, he.1], by rw [← he.2]; rfl⟩
    · have hfe : f = c.nextFrame := by simpa [enter] using h2
      simp [api, exec, hfl, h1, hfe] at he
      exact Or.inr ⟨he.1.symm, by rw [← he.2]; exact h6⟩

/-- **C04** (an allocation that fails ends the call).  Nothing after the failing allocation runs. -/
theorem C04_failing_allocation_ends_call {σ α : Type} {st : σ} {c : Conf σ} (_h : History st c)
    (hf : c.failed = false) (dflt : α) (pre : σ → σ) (grant : σ → Bool) (k : Prog σ α)
    (hg : grant (pre c.st) = false) :
    ∃ c', api dflt (.upd pre fun _ => .alloc grant k) c = .ret dflt c' ∧ c'.failed = true ∧
      c'.st = pre c.st :=
  ⟨{ c with st := pre c.st, failed := true, nextFrame := c.nextFrame + 1 },
    by simp [api, exec, hf, hg, catastrophe, enter, leave], rfl, rfl⟩

/-- **C04** (a failure below a host callback propagates).  If, while the VM is running a native
function, an API call made by that function fails, then the native function itself sees the failure
value, and when it returns the outer API call also ends with its failure value: none of the code after
the native call (`after`) runs. -/
theorem C04_nested_failure_propagates {σ α : Type} {st : σ} {c : Conf σ} (_h : History st c)
    (hf : c.failed = false) (dflt inner : α) (grant : σ → Bool) (k after : Prog σ α)
    (hg : grant c.st = false) :
    ∃ c', api dflt (.call inner (.alloc grant k) fun _ => .check after) c = .ret dflt c' ∧
      c'.failed = true ∧ c'.st = c.st :=
  ⟨{ c with failed := true, nextFrame := c.nextFrame + 2 },
    by simp [api, exec, hf, hg, catastrophe, leave, enter], rfl, rfl⟩

/-- **C04** (error count).  In the failure state the reported error count is not zero. -/
theorem C04_error_count_positive {ε : Type} (errors : List ε) : getErrorCount errors true ≠ 0 := by
  simp [getErrorCount]

/-- **C04**, exception in the code: `nkxSerializeData` has no recovery wrapper, so calling it outside
serialization hits the allocator's assertion that a recovery frame exists, whatever the state. -/
theorem C04_violation_serializeData {σ : Type} {st : σ} {c : Conf σ} (h : History st c)
    (addError : σ → σ) : exec (serializeDataOutside addError) c = .ub .assert := by
  have := (history_idle h).jmp
  simp [serializeDataOutside, exec, this]

/-- Concrete case: a VM whose state is a number; a first call adds 1 and runs a native function whose
own API call fails to allocate; the outer call gives up; a later call that would set the state to 100
does nothing. -/
example : ∃ c1 c2 : Conf Nat,
    api 0 (.upd (· + 1) fun _ => .call 7 (.alloc (fun n => decide (n < 1)) (.ret 3))
      fun r => .upd (· + r) fun _ => .check (.ret 9)) (init 0) = .ret 0 c1 ∧
    c1.st = 8 ∧ c1.failed = true ∧
    api 5 (.upd (fun _ => 100) fun _ => .ret 1) c1 = .ret 5 c2 ∧ c2.st = 8 :=
  ⟨_, _, rfl, rfl, rfl, rfl, rfl⟩

/-! ## C58 -/
open Nk.Mem Nk.MemSpec

/-- **C58 is violated**: for every host that passes non-NULL user data, the very first allocation is
made with the wrong (NULL) user data. -/
theorem C58_violation_user_data (hdr ud : Nat) (h : 0 < hdr ∧ hdr < 1000) (hud : ud ≠ 0) :
    ∃ s, Reach hdr ud s ∧ ¬ HostAllocatorOnly ud s.trace := by
  have hstep : ∃ s', Mem.step (Mem.create hdr ud) (.malloc 1 (some 1) [0]) = .ok (some 1, s') ∧
      s'.trace = [.alloc 1 (u32 (1 + hdr)) 0] := by
    have h1 : ¬ (1 > UINT_MAX - hdr) := by simp [UINT_MAX]; omega
    have h2 : u32 (1 + hdr) = 1 + hdr := Nat.mod_eq_of_lt (by unfold U32; omega)
    have h3 : ¬ (1 + hdr < 1 ∨ 0 > UINT_MAX ∨ 1 + hdr > UINT_MAX - 0) := by simp [UINT_MAX]; omega
    exact ⟨_, by
      simp only [Mem.step, wrapped, Mem.create, Bool.false_eq_true, if_false, Mem.malloc, h1, h2, h3,
        ne_eq, Nat.one_ne_zero, not_false_eq_true, if_true, linkNew, Res.ok_bind]
      rfl, by simp [h2, Mem.setHeap]⟩
  obtain ⟨s', h1, h2⟩ := hstep
  refine ⟨s', .step .create ?_ h1, ?_⟩
  · refine ⟨by decide, ?_, rfl⟩
    intro b hb
    simp [Mem.create, outstanding] at hb
  · intro hall
    have := hall (.alloc 1 (u32 (1 + hdr)) 0) (by rw [h2]; exact List.mem_singleton.2 rfl)
    simp [evUser] at this
    exact hud this.symm

/-- **C58 is violated** even for NULL user data: deleting a failed VM gives a block that came from the
host's allocator to libc `free`. -/
theorem C58_violation_libc_free : ∃ s s', Reach 32 0 s ∧ destroyFailed 1 s [] = some (.ok s') ∧
    ¬ HostAllocatorOnly 0 s'.trace := by
  refine ⟨_, _, .step (op := .forceFailure) (r := none)
    (.step (op := .malloc 1 (some 1) [0]) (r := some 1) .create ?_ rfl) trivial rfl, rfl, ?_⟩
  · refine ⟨by decide, ?_, rfl⟩
    intro b hb
    simp [Mem.create, outstanding] at hb
  · intro hall
    have := hall (.libcFree 1) (by decide)
    simp [evUser] at this

/-- **C58, the part that holds**: during the life of a VM every call for or release of memory goes
through the host's functions, and always with the same user data, NULL; so a host that passes NULL user
data gets what it asked for until a failed VM is deleted.  Missing: non-NULL user data and deletion
after a catastrophic failure (see the violations). -/
theorem C58_null_user_data_partial {hdr : Nat} {ud : Nat} {s : State}
    (hr : Reach hdr ud s) : HostAllocatorOnly 0 s.trace ∧ s.userData = 0 := by
  induction hr with
  | create => exact ⟨by intro e he; simp [Mem.create] at he, rfl⟩
  | step _ hl hs ih => exact step_user hs ih.1 ih.2

end Nk.Props
