import Verif.Model.Save
import Verif.Lemmas.Pres
/-!
# How the loader consumes its input

`Exact m`: when `m` succeeds it has consumed a prefix `c` of its input, it gives the same result whatever follows `c`,
and on strict prefixes of `c` it does not succeed.  `ExactE` weakens this for the part of the load in which failures
inside coroutines are only recorded as errors.
-/
namespace Nk.Save
variable {α β : Type}

theorem L.bind_eq (m : L α) (f : α → L β) (b : Bytes) (vm : VM) :
    (m >>= f) b vm = match m b vm with
      | .ok ((some a, b'), vm') => f a b' vm'
      | .ok ((none, b'), vm') => .ok ((none, b'), vm')
      | .ub k => .ub k := by
  show (L.bind m f) b vm = _
  unfold L.bind
  rw [M.bind_eq]
  cases m b vm with
  | ub k => rfl
  | ok p =>
    obtain ⟨⟨o, b'⟩, vm'⟩ := p
    cases o <;> rfl

theorem L.bind_some {m : L α} {f : α → L β} {b b' : Bytes} {vm vm' : VM} {a : α}
    (h : m b vm = .ok ((some a, b'), vm')) : (m >>= f) b vm = f a b' vm' := by rw [L.bind_eq, h]

theorem L.bind_none {m : L α} {f : α → L β} {b b' : Bytes} {vm vm' : VM}
    (h : m b vm = .ok ((none, b'), vm')) : (m >>= f) b vm = .ok ((none, b'), vm') := by rw [L.bind_eq, h]

theorem L.bind_ub {m : L α} {f : α → L β} {b : Bytes} {vm : VM} {k : UB}
    (h : m b vm = .ub k) : (m >>= f) b vm = .ub k := by rw [L.bind_eq, h]

/-- A sequence that succeeds. -/
theorem L.bind_inv {m : L α} {f : α → L β} {b b' : Bytes} {vm vm' : VM} {r : β}
    (h : (m >>= f) b vm = .ok ((some r, b'), vm')) :
    ∃ a b1 v1, m b vm = .ok ((some a, b1), v1) ∧ f a b1 v1 = .ok ((some r, b'), vm') := by
  rw [L.bind_eq] at h
  cases hm : m b vm with
  | ub k => rw [hm] at h; cases h
  | ok p =>
    obtain ⟨⟨o, b1⟩, v1⟩ := p
    rw [hm] at h
    cases o with
    | none => cases h
    | some a => exact ⟨a, b1, v1, rfl, h⟩

/-- A sequence that returns. -/
theorem L.bind_ret {m : L α} {f : α → L β} {b b' : Bytes} {vm vm' : VM} {r : Option β}
    (h : (m >>= f) b vm = .ok ((r, b'), vm')) :
    (∃ b1, m b vm = .ok ((none, b1), vm')) ∨
    ∃ a b1 v1, m b vm = .ok ((some a, b1), v1) ∧ f a b1 v1 = .ok ((r, b'), vm') := by
  rw [L.bind_eq] at h
  cases hm : m b vm with
  | ub k => rw [hm] at h; cases h
  | ok p =>
    obtain ⟨⟨o, b1⟩, v1⟩ := p
    rw [hm] at h
    cases o with
    | none => cases h; exact .inl ⟨b', rfl⟩
    | some a => exact .inr ⟨a, b1, v1, rfl, h⟩

theorem lift_run {m : M α} {b : Bytes} {vm vm' : VM} {a : α} (h : m vm = .ok (a, vm')) :
    lift m b vm = .ok ((some a, b), vm') := by
  unfold lift
  rw [M.bind_ok h]; rfl

theorem lift_inv {m : M α} {b b' : Bytes} {vm vm' : VM} {r : Option α} (h : lift m b vm = .ok ((r, b'), vm')) :
    ∃ a, r = some a ∧ b' = b ∧ m vm = .ok (a, vm') := by
  unfold lift at h
  rw [M.bind_eq] at h
  cases hm : m vm with
  | ub k => rw [hm] at h; cases h
  | ok p =>
    obtain ⟨a, v1⟩ := p
    rw [hm] at h
    cases h
    exact ⟨a, rfl, rfl, rfl⟩

theorem stop_inv {b b' : Bytes} {vm vm' : VM} {r : Option α} (h : (stop : L α) b vm = .ok ((r, b'), vm')) :
    r = none ∧ vm' = vm := by
  cases h; exact ⟨rfl, rfl⟩

theorem reject_inv {b b' : Bytes} {vm vm' : VM} {r : Option α} {e : String}
    (h : (reject e : L α) b vm = .ok ((r, b'), vm')) : r = none ∧ vm' = vm.addErr e := by
  cases h; exact ⟨rfl, rfl⟩

/-! ## Exactness -/

/-- See the head of the file. -/
structure Exact (m : L α) : Prop where
  run : ∀ b vm a b' vm', m b vm = .ok ((some a, b'), vm') →
    ∃ c, b = c ++ b' ∧ (∀ d, m (c ++ d) vm = .ok ((some a, d), vm')) ∧
      ∀ p q, c = p ++ q → q ≠ [] → ∀ a2 r v2, m p vm ≠ .ok ((some a2, r), v2)

namespace Exact

theorem pure {a : α} : Exact (Pure.pure a : L α) := by
  refine ⟨fun b vm a' b' vm' h => ?_⟩
  cases h
  refine ⟨[], rfl, fun d => rfl, fun p q e hq => ?_⟩
  have := List.append_eq_nil_iff.mp e.symm
  exact absurd this.2 hq

theorem lift {m : M α} : Exact (lift m) := by
  refine ⟨fun b vm a b' vm' h => ?_⟩
  obtain ⟨a', e1, e2, h1⟩ := lift_inv h
  cases e1; cases e2
  refine ⟨[], rfl, fun d => lift_run h1, fun p q e hq => ?_⟩
  exact absurd (List.append_eq_nil_iff.mp e.symm).2 hq

theorem stop : Exact (Save.stop : L α) := ⟨fun b vm a b' vm' h => by cases h⟩
theorem reject {e : String} : Exact (Save.reject e : L α) := ⟨fun b vm a b' vm' h => by cases h⟩
theorem upd {f : VM → VM} : Exact (Save.upd f) := lift
theorem updCtx {i : Nat} {f : Ctx → Ctx} : Exact (Save.updCtx i f) := lift
theorem clearStack {i : Nat} : Exact (Save.clearStack i) := lift

theorem bind {m : L α} {f : α → L β} (h : Exact m) (hf : ∀ a, Exact (f a)) : Exact (m >>= f) := by
  refine ⟨fun b vm r b' vm' e => ?_⟩
  obtain ⟨a, b1, v1, e1, e2⟩ := L.bind_inv e
  obtain ⟨c1, hb, s1, p1⟩ := h.run _ _ _ _ _ e1
  obtain ⟨c2, hb1, s2, p2⟩ := (hf a).run _ _ _ _ _ e2
  subst hb1
  refine ⟨c1 ++ c2, by rw [hb, List.append_assoc], fun d => ?_, ?_⟩
  · rw [List.append_assoc, L.bind_some (s1 (c2 ++ d))]; exact s2 d
  · intro p q epq hq a2 r2 v2 hrun
    rcases List.append_eq_append_iff.mp epq with ⟨w, hw1, hw2⟩ | ⟨w, hw1, hw2⟩
    · -- p = c1 ++ w
      subst hw1
      rw [L.bind_some (s1 w)] at hrun
      exact p2 w q hw2 hq _ _ _ hrun
    · -- c1 = p ++ w
      by_cases hwn : w = []
      · subst hwn
        simp only [List.append_nil] at hw1
        subst hw1
        have := s1 []
        rw [List.append_nil] at this
        rw [L.bind_some this] at hrun
        exact p2 [] c2 (by simp) (by simpa [hw2] using hq) _ _ _ hrun
      · obtain ⟨a3, b3, v3, e3, -⟩ := L.bind_inv hrun
        exact p1 p w hw1 hwn _ _ _ e3

theorem readBytes {n : Nat} : Exact (Save.readBytes n) := by
  refine ⟨fun b vm a b' vm' h => ?_⟩
  unfold Save.readBytes at h
  split at h
  · next hn =>
    cases h
    refine ⟨b.take n, (List.take_append_drop n b).symm, fun d => ?_, fun p q e hq a2 r v2 h2 => ?_⟩
    · unfold Save.readBytes
      have : (b.take n).length = n := List.length_take_of_le hn
      rw [if_pos (by simp; omega), List.take_left' this, List.drop_left' this]; rfl
    · unfold Save.readBytes at h2
      have h3 := congrArg List.length e
      rw [List.length_take_of_le hn, List.length_append] at h3
      have : 0 < q.length := List.length_pos_iff.mpr hq
      rw [if_neg (by omega)] at h2
      cases h2
  · cases h

theorem read32 : Exact Save.read32 := by
  refine ⟨fun b vm a b' vm' h => ?_⟩
  unfold Save.read32 at h
  split at h
  · next x y z w rest =>
    cases h
    refine ⟨[x, y, z, w], rfl, fun d => rfl, fun p q e hq a2 r v2 h2 => ?_⟩
    unfold Save.read32 at h2
    split at h2
    · have h3 := congrArg List.length e
      have : 0 < q.length := List.length_pos_iff.mpr hq
      simp only [List.length_append, List.length_cons, List.length_nil] at h3
      omega
    · cases h2
  · cases h

theorem read8 : Exact Save.read8 := by
  refine ⟨fun b vm a b' vm' h => ?_⟩
  unfold Save.read8 at h
  split at h
  · next x rest =>
    cases h
    refine ⟨[x], rfl, fun d => rfl, fun p q e hq a2 r v2 h2 => ?_⟩
    unfold Save.read8 at h2
    split at h2
    · have h3 := congrArg List.length e
      have : 0 < q.length := List.length_pos_iff.mpr hq
      simp only [List.length_append, List.length_cons, List.length_nil] at h3
      omega
    · cases h2
  · cases h

theorem readValue : Exact Save.readValue := by
  refine ⟨fun b vm a b' vm' h => ?_⟩
  unfold Save.readValue at h
  split at h
  · next x y z w x' y' z' w' rest =>
    cases h
    refine ⟨[x, y, z, w, x', y', z', w'], rfl, fun d => rfl, fun p q e hq a2 r v2 h2 => ?_⟩
    unfold Save.readValue at h2
    split at h2
    · have h3 := congrArg List.length e
      have : 0 < q.length := List.length_pos_iff.mpr hq
      simp only [List.length_append, List.length_cons, List.length_nil] at h3
      omega
    · cases h2
  · cases h

theorem mallocArray {s n : Nat} : Exact (Save.mallocArray s n) := by
  unfold Save.mallocArray
  split
  · exact lift
  · exact pure

theorem times {f : Nat → L Unit} (h : ∀ i, Exact (f i)) (i n : Nat) : Exact (times f i n) := by
  induction n generalizing i with
  | zero => exact pure
  | succ n ih => exact bind (h i) fun _ => ih (i + 1)

end Exact

/-- One step of the `exact_read` tactic; extended below. -/
syntax "exact_step" : tactic
macro_rules | `(tactic| exact_step) => `(tactic| with_reducible exact Exact.pure)
macro_rules | `(tactic| exact_step) => `(tactic| with_reducible exact Exact.lift)
macro_rules | `(tactic| exact_step) => `(tactic| with_reducible exact Exact.stop)
macro_rules | `(tactic| exact_step) => `(tactic| with_reducible exact Exact.reject)
macro_rules | `(tactic| exact_step) => `(tactic| with_reducible exact Exact.upd)
macro_rules | `(tactic| exact_step) => `(tactic| with_reducible exact Exact.updCtx)
macro_rules | `(tactic| exact_step) => `(tactic| with_reducible exact Exact.clearStack)
macro_rules | `(tactic| exact_step) => `(tactic| with_reducible exact Exact.readBytes)
macro_rules | `(tactic| exact_step) => `(tactic| with_reducible exact Exact.read32)
macro_rules | `(tactic| exact_step) => `(tactic| with_reducible exact Exact.read8)
macro_rules | `(tactic| exact_step) => `(tactic| with_reducible exact Exact.readValue)
macro_rules | `(tactic| exact_step) => `(tactic| with_reducible exact Exact.mallocArray)

/-- Proves `Exact` goals by following the structure of the program. -/
macro "exact_read" : tactic => `(tactic| repeat' (first | exact_step | intro _ | with_reducible refine Exact.bind ?_ ?_ | with_reducible refine Exact.times ?_ _ _ | assumption | split | dsimp only))

theorem loadString_exact : Exact loadString := by unfold loadString; exact_read
macro_rules | `(tactic| exact_step) => `(tactic| with_reducible exact loadString_exact)
theorem loadStringIn_exact {n : Nat} : Exact (loadStringIn n) := by unfold loadStringIn; exact_read
macro_rules | `(tactic| exact_step) => `(tactic| with_reducible exact loadStringIn_exact)
theorem loadInstrs_exact : Exact loadInstrs := by unfold loadInstrs; exact_read
theorem loadErrors_exact : Exact loadErrors := by unfold loadErrors; exact_read
theorem loadStatics_exact : Exact loadStatics := by unfold loadStatics; exact_read
theorem loadStack_exact {i : Nat} : Exact (loadStack i) := by unfold loadStack; exact_read
macro_rules | `(tactic| exact_step) => `(tactic| with_reducible exact loadStack_exact)
theorem loadContext_exact {i : Nat} {c : Bool} : Exact (loadContext i c) := by unfold loadContext; exact_read
theorem loadStr_exact : Exact loadStr := by unfold loadStr; exact_read
macro_rules | `(tactic| exact_step) => `(tactic| with_reducible exact loadStr_exact)
theorem loadStrings_exact : Exact loadStrings := by unfold loadStrings; exact_read
theorem loadGc_exact : Exact loadGc := by unfold loadGc; exact_read
theorem loadNatives_exact {n : Nat} {m : List Nat} : Exact (loadNatives n m) := by
  induction n generalizing m with
  | zero => exact .pure
  | succ n ih =>
    unfold loadNatives
    repeat' first | exact ih | exact_step | intro _ | with_reducible refine Exact.bind ?_ ?_
macro_rules | `(tactic| exact_step) => `(tactic| with_reducible exact loadNatives_exact)
theorem loadFunction_exact {m : List Nat} {i : Nat} : Exact (loadFunction m i) := by unfold loadFunction; exact_read
macro_rules | `(tactic| exact_step) => `(tactic| with_reducible exact loadFunction_exact)
theorem loadFunctions_exact : Exact loadFunctions := by unfold loadFunctions; exact_read
theorem loadField_exact {F : FloatOps} {i : Nat} : Exact (loadField F i) := by unfold loadField; exact_read
macro_rules | `(tactic| exact_step) => `(tactic| with_reducible exact loadField_exact)
theorem loadObject_exact {F : FloatOps} {i : Nat} : Exact (loadObject F i) := by unfold loadObject; exact_read
macro_rules | `(tactic| exact_step) => `(tactic| with_reducible exact loadObject_exact)
theorem loadEntry_exact {F : FloatOps} : Exact (loadEntry F) := by unfold loadEntry; exact_read
macro_rules | `(tactic| exact_step) => `(tactic| with_reducible exact loadEntry_exact)
theorem loadObjects_exact {F : FloatOps} : Exact (loadObjects F) := by unfold loadObjects; exact_read
theorem loadGlobals_exact : Exact loadGlobals := by unfold loadGlobals; exact_read
theorem loadType_exact {i : Nat} : Exact (loadType i) := by unfold loadType; exact_read
macro_rules | `(tactic| exact_step) => `(tactic| with_reducible exact loadType_exact)
theorem loadTypes_exact : Exact loadTypes := by unfold loadTypes; exact_read
theorem loadSubsystems_exact : Exact loadSubsystems := by unfold loadSubsystems; exact_read
theorem loadFiles_exact : Exact loadFiles := by unfold loadFiles; exact_read
theorem loadMarkers_exact : Exact loadMarkers := by unfold loadMarkers; exact_read
theorem loadHeader_exact : Exact loadHeader := by unfold loadHeader; exact_read
theorem chainCtx_exact {v : Value} : Exact (chainCtx v) := by unfold chainCtx; exact_read
theorem linkCtx_exact {l : Option Nat} {i : Nat} : Exact (linkCtx l i) := by unfold linkCtx; exact_read


/-! ## Functions that read nothing -/

/-- The function does not look at the input and leaves it. -/
structure Silent (m : L α) : Prop where
  run : ∀ b vm, m b vm = match m [] vm with
    | .ok ((r, _), vm') => .ok ((r, b), vm')
    | .ub k => .ub k

namespace Silent

theorem pure {a : α} : Silent (Pure.pure a : L α) := ⟨fun _ _ => rfl⟩
theorem stop : Silent (Save.stop : L α) := ⟨fun _ _ => rfl⟩
theorem reject {e : String} : Silent (Save.reject e : L α) := ⟨fun _ _ => rfl⟩
theorem lift {m : M α} : Silent (lift m) := by
  refine ⟨fun b vm => ?_⟩
  unfold Save.lift
  rw [M.bind_eq, M.bind_eq]
  cases m vm with
  | ub k => rfl
  | ok p => rfl
theorem updCtx {i : Nat} {f : Ctx → Ctx} : Silent (Save.updCtx i f) := lift

theorem bind {m : L α} {f : α → L β} (h : Silent m) (hf : ∀ a, Silent (f a)) : Silent (m >>= f) := by
  refine ⟨fun b vm => ?_⟩
  rw [L.bind_eq, L.bind_eq, h.run b]
  cases hm : m [] vm with
  | ub k => rfl
  | ok p =>
    obtain ⟨⟨r, b'⟩, v⟩ := p
    have e := h.run [] vm
    rw [hm] at e
    cases e
    cases r with
    | none => rfl
    | some a => dsimp only; rw [(hf a).run b]

theorem left {m : L α} (h : Silent m) {b b' : Bytes} {vm vm' : VM} {r : Option α}
    (e : m b vm = .ok ((r, b'), vm')) : b' = b ∧ ∀ d, m d vm = .ok ((r, d), vm') := by
  rw [h.run] at e
  cases hm : m [] vm with
  | ub k => rw [hm] at e; cases e
  | ok p =>
    obtain ⟨⟨r, b1⟩, v⟩ := p
    rw [hm] at e
    cases e
    refine ⟨rfl, fun d => ?_⟩
    rw [h.run, hm]

end Silent

theorem chainCtx_silent {v : Value} : Silent (chainCtx v) := by
  unfold chainCtx
  refine .bind .lift fun vm => .bind .lift fun o => ?_
  repeat' first | exact .pure | exact .lift | exact .reject | split

theorem linkCtx_silent {l : Option Nat} {i : Nat} : Silent (linkCtx l i) := by
  unfold linkCtx
  refine .bind .lift fun vm => .bind .lift fun c => ?_
  cases l with
  | none =>
    dsimp only
    split
    · repeat' first | exact .updCtx | exact .lift | exact .pure | refine .bind ?_ fun _ => ?_
    · repeat' first | exact .pure | refine .bind ?_ fun _ => ?_
  | some j =>
    dsimp only
    split
    all_goals repeat' first | exact .reject | exact .updCtx | exact .lift | exact .pure | refine .bind ?_ fun _ => ?_ | split

/-- One round of the chain loop. -/
def chainRound (first last : Option Nat) (v : Value) : L Nat := do
  let i ← chainCtx v
  linkCtx last i
  if v = .nil then pure (first.getD i) else loadChain (some (first.getD i)) (some i)

theorem loadChain_eq (first last : Option Nat) : loadChain first last = (readValue >>= chainRound first last) := by
  funext b vm
  rw [L.bind_eq]
  unfold readValue
  unfold loadChain
  split
  · next x y z w x' y' z' w' rest =>
    dsimp only
    show _ = chainRound first last (mkValue (of32 x y z w) (of32 x' y' z' w')) rest vm
    unfold chainRound
    rw [L.bind_eq, M.bind_eq]
    cases hc : chainCtx (mkValue (of32 x y z w) (of32 x' y' z' w')) rest vm with
    | ub k => rfl
    | ok p =>
      obtain ⟨⟨r, b1⟩, v1⟩ := p
      have e1 := (chainCtx_silent.left hc).1
      subst e1
      cases r with
      | none => rfl
      | some i =>
        dsimp only
        rw [L.bind_eq, M.bind_eq]
        cases hl : linkCtx last i b1 v1 with
        | ub k => rfl
        | ok p =>
          obtain ⟨⟨r, b2⟩, v2⟩ := p
          have e2 := (linkCtx_silent.left hl).1
          subst e2
          cases r with
          | none => rfl
          | some u =>
            dsimp only
            split <;> rfl
  · rfl

theorem loadChain_exact {first last : Option Nat} : Exact (loadChain first last) := by
  have main : ∀ n b, b.length = n → ∀ first last vm a b' vm', loadChain first last b vm = .ok ((some a, b'), vm') →
      ∃ c, b = c ++ b' ∧ (∀ d, loadChain first last (c ++ d) vm = .ok ((some a, d), vm')) ∧
        ∀ p q, c = p ++ q → q ≠ [] → ∀ a2 r v2, loadChain first last p vm ≠ .ok ((some a2, r), v2) := by
    intro n
    induction n using Nat.strongRecOn with
    | ind n ih =>
      intro b hb first last vm a b' vm' h
      rw [loadChain_eq] at h
      obtain ⟨v, b1, v1, h1, h2⟩ := L.bind_inv h
      obtain ⟨c1, hc1, s1, p1⟩ := Exact.readValue.run _ _ _ _ _ h1
      have hlen : b1.length < n := by
        rw [← hb]
        unfold readValue at h1
        split at h1
        · cases h1; simp; omega
        · cases h1
      have hc1n : c1 ≠ [] := by
        intro e; subst e
        rw [hc1] at hb
        simp at hb; omega
      unfold chainRound at h2
      obtain ⟨i, b2, v2, h3, h4⟩ := L.bind_inv h2
      obtain ⟨e2, t3⟩ := chainCtx_silent.left h3
      subst e2
      obtain ⟨u, b3, v3, h5, h6⟩ := L.bind_inv h4
      obtain ⟨e3, t5⟩ := linkCtx_silent.left h5
      subst e3
      have run : ∀ d, chainRound first last v d v1 =
          (if v = .nil then pure (first.getD i) else loadChain (some (first.getD i)) (some i) : L Nat) d v3 := by
        intro d
        unfold chainRound
        rw [L.bind_some (t3 d), L.bind_some (t5 d)]
      -- strict prefixes of c1 do not even give a value
      by_cases hv : v = .nil
      · rw [if_pos hv] at h6
        cases h6
        refine ⟨c1, hc1, fun d => ?_, fun p q e hq a2 r w h => ?_⟩
        · rw [loadChain_eq, L.bind_some (s1 d), run, if_pos hv]; rfl
        · rw [loadChain_eq] at h
          obtain ⟨v', b4, v4, h7, -⟩ := L.bind_inv h
          exact p1 p q e hq _ _ _ h7
      · rw [if_neg hv] at h6
        obtain ⟨c2, hc2, s2, p2⟩ := ih b3.length hlen b3 rfl _ _ _ _ _ _ h6
        refine ⟨c1 ++ c2, by rw [hc1, hc2]; simp, fun d => ?_, fun p q e hq a2 r w h => ?_⟩
        · rw [loadChain_eq, List.append_assoc, L.bind_some (s1 _), run, if_neg hv]; exact s2 d
        · rw [loadChain_eq] at h
          rcases List.append_eq_append_iff.mp e with ⟨x, hx1, hx2⟩ | ⟨x, hx1, hx2⟩
          · subst hx1
            rw [L.bind_some (s1 x), run, if_neg hv] at h
            exact p2 x q hx2 hq _ _ _ h
          · by_cases hxn : x = []
            · subst hxn
              simp only [List.append_nil] at hx1
              subst hx1
              have := s1 []
              rw [List.append_nil] at this
              rw [L.bind_some this, run, if_neg hv] at h
              exact p2 [] c2 (by simp) (by simpa [hx2] using hq) _ _ _ h
            · obtain ⟨v', b4, v4, h7, -⟩ := L.bind_inv h
              exact p1 p x hx1 hxn _ _ _ h7
  exact ⟨fun b vm a b' vm' h => main b.length b rfl first last vm a b' vm' h⟩
macro_rules | `(tactic| exact_step) => `(tactic| with_reducible exact loadChain_exact)
theorem loadActive_exact : Exact loadActive := by unfold loadActive; exact_read

/-! ## Errors are only appended -/

/-- Errors are only appended. -/
structure Grows (m : L α) : Prop where
  run : ∀ b vm r b' vm', m b vm = .ok ((r, b'), vm') → ∃ es, vm'.errors = vm.errors ++ es

namespace Grows

theorem pure {a : α} : Grows (Pure.pure a : L α) := ⟨fun b vm r b' vm' h => by cases h; exact ⟨[], by simp⟩⟩
theorem stop : Grows (Save.stop : L α) := ⟨fun b vm r b' vm' h => by cases h; exact ⟨[], by simp⟩⟩
theorem reject {e : String} : Grows (Save.reject e : L α) := ⟨fun b vm r b' vm' h => by cases h; exact ⟨[e], rfl⟩⟩
theorem lift {m : M α} (h : ∀ l, Pres (fun vm => ∃ es, vm.errors = l ++ es) m) : Grows (lift m) := by
  refine ⟨fun b vm r b' vm' e => ?_⟩
  obtain ⟨a, -, -, h1⟩ := lift_inv e
  exact (h vm.errors).run vm a vm' ⟨[], by simp⟩ h1
theorem bind {m : L α} {f : α → L β} (h : Grows m) (hf : ∀ a, Grows (f a)) : Grows (m >>= f) := by
  refine ⟨fun b vm r b' vm' e => ?_⟩
  rcases L.bind_ret e with ⟨b1, e1⟩ | ⟨a, b1, v1, e1, e2⟩
  · exact h.run _ _ _ _ _ e1
  · obtain ⟨es, h1⟩ := h.run _ _ _ _ _ e1
    obtain ⟨es', h2⟩ := (hf a).run _ _ _ _ _ e2
    exact ⟨es ++ es', by rw [h2, h1, List.append_assoc]⟩
theorem times {f : Nat → L Unit} (h : ∀ i, Grows (f i)) (i n : Nat) : Grows (times f i n) := by
  induction n generalizing i with
  | zero => exact pure
  | succ n ih => exact bind (h i) fun _ => ih (i + 1)
theorem readBytes {n : Nat} : Grows (Save.readBytes n) := ⟨fun b vm r b' vm' h => by
  unfold Save.readBytes at h
  split at h <;> cases h <;> exact ⟨[], by simp⟩⟩
theorem read32 : Grows Save.read32 := ⟨fun b vm r b' vm' h => by
  unfold Save.read32 at h
  split at h <;> cases h <;> exact ⟨[], by simp⟩⟩
theorem readValue : Grows Save.readValue := ⟨fun b vm r b' vm' h => by
  unfold Save.readValue at h
  split at h <;> cases h <;> exact ⟨[], by simp⟩⟩
theorem get : Grows (Save.lift get) := lift fun _ => .get
theorem liftR {r : Res α} : Grows (Save.lift (liftR r)) := lift fun _ => .lift
theorem addError {e : String} : Grows (Save.lift (addError e)) :=
  lift fun l => .modify fun vm ⟨es, h⟩ => ⟨es ++ [e], by
    show vm.errors ++ [e] = _
    rw [h, List.append_assoc]⟩
theorem modify {f : VM → VM} (h : ∀ vm, (f vm).errors = vm.errors) : Grows (Save.upd f) :=
  lift fun l => .modify fun vm ⟨es, e⟩ => ⟨es, by rw [h, e]⟩
theorem setCtx {i : Nat} {c : Ctx} {P : List String → Prop} : Pres (fun vm => P vm.errors) (setCtx i c) :=
  ⟨fun vm a vm' hp e => by
    unfold Nk.setCtx at e
    split at e <;> cases e
    exact hp⟩
theorem updCtx {i : Nat} {f : Ctx → Ctx} : Grows (Save.updCtx i f) :=
  lift fun l => .bind .get fun vm => .bind .lift fun c => setCtx (P := fun e => ∃ es, e = l ++ es)
theorem clearStack {i : Nat} : Grows (Save.clearStack i) :=
  lift fun l => .bind .get fun vm => .bind .lift fun c => by
    split
    · exact setCtx (P := fun e => ∃ es, e = l ++ es)
    · exact .lift
theorem mallocArray {s n : Nat} : Grows (Save.mallocArray s n) := by
  unfold Save.mallocArray
  split
  · exact liftR
  · exact pure

end Grows

/-- One step of the `grows` tactic; extended below. -/
syntax "grows_step" : tactic
macro_rules | `(tactic| grows_step) => `(tactic| with_reducible exact Grows.pure)
macro_rules | `(tactic| grows_step) => `(tactic| with_reducible exact Grows.stop)
macro_rules | `(tactic| grows_step) => `(tactic| with_reducible exact Grows.reject)
macro_rules | `(tactic| grows_step) => `(tactic| with_reducible exact Grows.get)
macro_rules | `(tactic| grows_step) => `(tactic| with_reducible exact Grows.liftR)
macro_rules | `(tactic| grows_step) => `(tactic| with_reducible exact Grows.addError)
macro_rules | `(tactic| grows_step) => `(tactic| ((with_reducible refine Grows.modify ?_); (intro; rfl)))
macro_rules | `(tactic| grows_step) => `(tactic| with_reducible exact Grows.updCtx)
macro_rules | `(tactic| grows_step) => `(tactic| with_reducible exact Grows.clearStack)
macro_rules | `(tactic| grows_step) => `(tactic| with_reducible exact Grows.readBytes)
macro_rules | `(tactic| grows_step) => `(tactic| with_reducible exact Grows.read32)
macro_rules | `(tactic| grows_step) => `(tactic| with_reducible exact Grows.readValue)
macro_rules | `(tactic| grows_step) => `(tactic| with_reducible exact Grows.mallocArray)

/-- Proves `Grows` goals by following the structure of the program. -/
macro "grows" : tactic => `(tactic| repeat' (first | grows_step | intro _ | with_reducible refine Grows.bind ?_ ?_ | with_reducible refine Grows.times ?_ _ _ | assumption | split | dsimp only))

theorem loadString_grows : Grows loadString := by unfold loadString; grows
macro_rules | `(tactic| grows_step) => `(tactic| with_reducible exact loadString_grows)
theorem loadStack_grows {i : Nat} : Grows (loadStack i) := by unfold loadStack; grows
macro_rules | `(tactic| grows_step) => `(tactic| with_reducible exact loadStack_grows)
theorem loadContext_grows {i : Nat} {c : Bool} : Grows (loadContext i c) := by unfold loadContext; grows
theorem loadFiles_grows : Grows loadFiles := by unfold loadFiles; grows
theorem loadMarkers_grows : Grows loadMarkers := by unfold loadMarkers; grows

theorem setObj_errors {i : Nat} {o : Obj} {P : List String → Prop} : Pres (fun vm => P vm.errors) (setObj i o) :=
  ⟨fun vm a vm' hp e => by
    unfold Nk.setObj at e
    split at e <;> cases e
    exact hp⟩
theorem objFromValue_pres' {P : VM → Prop} {v : Value} : Pres P (objFromValue v) := by
  unfold objFromValue
  split
  · exact .bind .getObj fun _ => .pure
  · exact .pure
theorem chainCtx_grows {v : Value} : Grows (chainCtx v) := by
  unfold chainCtx
  refine .bind .get fun vm => .bind (.lift fun _ => objFromValue_pres') fun o => ?_
  grows
theorem linkCtx_grows {l : Option Nat} {i : Nat} : Grows (linkCtx l i) := by
  unfold linkCtx
  cases l <;> grows
theorem loadChain_grows {first last : Option Nat} : Grows (loadChain first last) := by
  have main : ∀ n b, b.length = n → ∀ first last vm r b' vm', loadChain first last b vm = .ok ((r, b'), vm') →
      ∃ es, vm'.errors = vm.errors ++ es := by
    intro n
    induction n using Nat.strongRecOn with
    | ind n ih =>
      intro b hb first last vm r b' vm' h
      rw [loadChain_eq] at h
      rcases L.bind_ret h with ⟨b1, h1⟩ | ⟨v, b1, v1, h1, h2⟩
      · exact Grows.readValue.run _ _ _ _ _ h1
      · have hlen : b1.length < n := by
          rw [← hb]
          unfold readValue at h1
          split at h1
          · cases h1; simp; omega
          · cases h1
        obtain ⟨e1, g1⟩ := Grows.readValue.run _ _ _ _ _ h1
        suffices ∃ es, vm'.errors = v1.errors ++ es by
          obtain ⟨es, h3⟩ := this
          exact ⟨e1 ++ es, by rw [h3, g1, List.append_assoc]⟩
        unfold chainRound at h2
        rcases L.bind_ret h2 with ⟨b2, h3⟩ | ⟨i, b2, v2, h3, h4⟩
        · exact chainCtx_grows.run _ _ _ _ _ h3
        · obtain ⟨e2, g2⟩ := chainCtx_grows.run _ _ _ _ _ h3
          have := (chainCtx_silent.left h3).1
          subst this
          rcases L.bind_ret h4 with ⟨b3, h5⟩ | ⟨u, b3, v3, h5, h6⟩
          · obtain ⟨e3, g3⟩ := linkCtx_grows.run _ _ _ _ _ h5
            exact ⟨e2 ++ e3, by rw [g3, g2, List.append_assoc]⟩
          · obtain ⟨e3, g3⟩ := linkCtx_grows.run _ _ _ _ _ h5
            have := (linkCtx_silent.left h5).1
            subst this
            split at h6
            · cases h6
              exact ⟨e2 ++ e3, by rw [g3, g2, List.append_assoc]⟩
            · obtain ⟨e4, g4⟩ := ih _ hlen _ rfl _ _ _ _ _ _ h6
              exact ⟨e2 ++ e3 ++ e4, by rw [g4, g3, g2]; simp⟩
  exact ⟨fun b vm r b' vm' h => main b.length b rfl first last vm r b' vm' h⟩
macro_rules | `(tactic| grows_step) => `(tactic| with_reducible exact loadChain_grows)
theorem loadActive_grows : Grows loadActive := by unfold loadActive; grows

/-! ## The part in which failures are only recorded -/

/-- See the head of the file. -/
structure ExactE (m : L α) : Prop where
  run : ∀ b vm a b' vm', m b vm = .ok ((some a, b'), vm') → vm'.errors = vm.errors →
    ∃ c, b = c ++ b' ∧ (∀ d, m (c ++ d) vm = .ok ((some a, d), vm')) ∧
      ∀ p q, c = p ++ q → q ≠ [] → ∀ a2 r v2, m p vm = .ok ((some a2, r), v2) → v2.errors ≠ vm.errors
  grows : Grows m

namespace ExactE

theorem of {m : L α} (h : Exact m) (g : Grows m) : ExactE m := by
  refine ⟨fun b vm a b' vm' e _ => ?_, g⟩
  obtain ⟨c, h1, h2, h3⟩ := h.run _ _ _ _ _ e
  exact ⟨c, h1, h2, fun p q e hq a2 r v2 he => absurd he (h3 p q e hq a2 r v2)⟩

theorem bind {m : L α} {f : α → L β} (h : ExactE m) (hf : ∀ a, ExactE (f a)) : ExactE (m >>= f) := by
  refine ⟨fun b vm r b' vm' e he => ?_, .bind h.grows fun a => (hf a).grows⟩
  obtain ⟨a, b1, v1, e1, e2⟩ := L.bind_inv e
  obtain ⟨es1, g1⟩ := h.grows.run _ _ _ _ _ e1
  obtain ⟨es2, g2⟩ := (hf a).grows.run _ _ _ _ _ e2
  have hn : es1 = [] ∧ es2 = [] := by
    have := congrArg List.length g2
    rw [he, g1] at this
    simp only [List.length_append] at this
    constructor <;> (apply List.eq_nil_of_length_eq_zero; omega)
  rw [hn.1, List.append_nil] at g1
  rw [hn.2, List.append_nil] at g2
  obtain ⟨c1, hb, s1, p1⟩ := h.run _ _ _ _ _ e1 g1
  obtain ⟨c2, hb1, s2, p2⟩ := (hf a).run _ _ _ _ _ e2 g2
  subst hb1
  refine ⟨c1 ++ c2, by rw [hb, List.append_assoc], fun d => ?_, ?_⟩
  · rw [List.append_assoc, L.bind_some (s1 (c2 ++ d))]; exact s2 d
  · intro p q epq hq a2 r2 v2 hrun
    rcases List.append_eq_append_iff.mp epq with ⟨w, hw1, hw2⟩ | ⟨w, hw1, hw2⟩
    · subst hw1
      rw [L.bind_some (s1 w)] at hrun
      rw [← g1]
      exact p2 w q hw2 hq _ _ _ hrun
    · by_cases hwn : w = []
      · subst hwn
        simp only [List.append_nil] at hw1
        subst hw1
        have := s1 []
        rw [List.append_nil] at this
        rw [L.bind_some this] at hrun
        rw [← g1]
        exact p2 [] c2 (by simp) (by simpa [hw2] using hq) _ _ _ hrun
      · obtain ⟨a3, b3, v3, e3, e4⟩ := L.bind_inv hrun
        have hne := p1 p w hw1 hwn _ _ _ e3
        obtain ⟨x1, k1⟩ := h.grows.run _ _ _ _ _ e3
        obtain ⟨x2, k2⟩ := (hf a3).grows.run _ _ _ _ _ e4
        intro hbad
        apply hne
        rw [k2, k1] at hbad
        have := congrArg List.length hbad
        simp only [List.length_append] at this
        have : x1 = [] := List.eq_nil_of_length_eq_zero (by omega)
        rw [k1, this, List.append_nil]

theorem times {f : Nat → L Unit} (h : ∀ i, ExactE (f i)) (i n : Nat) : ExactE (times f i n) := by
  induction n generalizing i with
  | zero => exact of .pure .pure
  | succ n ih => exact bind (h i) fun _ => ih (i + 1)

end ExactE

theorem attempt_inv {x : L Unit} {b b' : Bytes} {vm vm' : VM} {r : Option Bool}
    (h : attempt x b vm = .ok ((r, b'), vm')) :
    ∃ o, x b vm = .ok ((o, b'), vm') ∧ r = some o.isSome := by
  unfold attempt at h
  rw [M.bind_eq] at h
  cases hx : x b vm with
  | ub k => rw [hx] at h; cases h
  | ok p =>
    obtain ⟨⟨o, b1⟩, v1⟩ := p
    rw [hx] at h
    cases h
    exact ⟨o, rfl, rfl⟩

theorem attempt_run {x : L Unit} {b b' : Bytes} {vm vm' : VM} {o : Option Unit}
    (h : x b vm = .ok ((o, b'), vm')) : attempt x b vm = .ok ((some o.isSome, b'), vm') := by
  unfold attempt
  rw [M.bind_ok h]; rfl

theorem attempt_grows {x : L Unit} (h : Grows x) : Grows (attempt x) := by
  refine ⟨fun b vm r b' vm' e => ?_⟩
  obtain ⟨o, h1, -⟩ := attempt_inv e
  exact h.run _ _ _ _ _ h1

/-- Trying something and recording a failure. -/
theorem recorded {x : L Unit} (h : Exact x) (g : Grows x) (msg : String) :
    ExactE (do let ok ← attempt x
               if ok then pure () else lift (addError msg)) := by
  refine ⟨fun b vm a b' vm' e he => ?_, ?_⟩
  · obtain ⟨ok, b1, v1, e1, e2⟩ := L.bind_inv e
    obtain ⟨o, h1, h2⟩ := attempt_inv e1
    cases h2
    obtain ⟨es, g1⟩ := g.run _ _ _ _ _ h1
    cases o with
    | none =>
      exfalso
      cases e2
      have h9 : v1.errors ++ [msg] = vm.errors := he
      have := congrArg List.length h9
      rw [g1] at this
      simp at this
    | some u =>
      cases e2
      obtain ⟨c, k1, k2, k3⟩ := h.run _ _ _ _ _ h1
      refine ⟨c, k1, fun d => ?_, fun p q e hq a2 r v2 hr => ?_⟩
      · rw [L.bind_some (attempt_run (k2 d))]; rfl
      · obtain ⟨ok, b3, v3, e3, e4⟩ := L.bind_inv hr
        obtain ⟨o, h5, h6⟩ := attempt_inv e3
        cases h6
        cases o with
        | some u => exact absurd h5 (k3 p q e hq _ _ _)
        | none =>
          obtain ⟨es', g5⟩ := g.run _ _ _ _ _ h5
          cases e4
          show v3.errors ++ [msg] ≠ vm.errors
          rw [g5]
          intro hbad
          have := congrArg List.length hbad
          simp at this
  · refine .bind (attempt_grows g) fun ok => ?_
    split
    · exact .pure
    · exact .addError

theorem setExtData_errors {l : List String} {v : Value} {d : Nat} :
    Pres (fun vm => ∃ es, vm.errors = l ++ es) (setExtData v d) := by
  unfold setExtData
  refine .bind objFromValue_pres' fun o => ?_
  split
  · exact .bind (setObj_errors (P := fun e => ∃ es, e = l ++ es)) fun _ => .pure
  · exact .bind (.modify fun vm ⟨es, h⟩ => ⟨es ++ [_], by
      show vm.errors ++ [_] = _
      rw [h, List.append_assoc]⟩) fun _ => .pure

theorem setExtType_errors {l : List String} {v : Value} {d : Nat} :
    Pres (fun vm => ∃ es, vm.errors = l ++ es) (setExtType v d) := by
  unfold setExtType
  refine .bind objFromValue_pres' fun o => ?_
  split
  · exact .bind (setObj_errors (P := fun e => ∃ es, e = l ++ es)) fun _ => .pure
  · exact .bind (.modify fun vm ⟨es, h⟩ => ⟨es ++ [_], by
      show vm.errors ++ [_] = _
      rw [h, List.append_assoc]⟩) fun _ => .pure

theorem coContext_grows {id : Nat} {d : Option Nat} : Grows (lift (coContext id d)) := by
  refine .lift fun l => ?_
  unfold coContext
  cases d with
  | some i => exact .pure
  | none =>
    exact .bind .get fun vm => .bind (.modify fun vm h => h) fun _ => .bind setExtData_errors fun _ =>
      .bind setExtType_errors fun _ => .pure

theorem coOwner_grows {id i : Nat} : Grows (lift (coOwner id i)) :=
  .lift fun l => .bind .get fun vm => .bind .lift fun c => Grows.setCtx (P := fun e => ∃ es, e = l ++ es)

theorem loadCoroutine_exact {id : Nat} {d : Option Nat} : ExactE (loadCoroutine id d) := by
  have : loadCoroutine id d = (do
      let i ← lift (coContext id d)
      (do let ok ← attempt (loadContext i true)
          if ok then pure () else lift (addError "Coroutine serialization failed."))
      lift (coOwner id i)) := by
    unfold loadCoroutine
    funext b vm
    rw [L.bind_eq, L.bind_eq]
    cases lift (coContext id d) b vm with
    | ub k => rfl
    | ok p =>
      obtain ⟨⟨o, b1⟩, v1⟩ := p
      cases o with
      | none => rfl
      | some i =>
        dsimp only
        rw [L.bind_eq, L.bind_eq, L.bind_eq]
        cases attempt (loadContext i true) b1 v1 with
        | ub k => rfl
        | ok p =>
          obtain ⟨⟨o, b2⟩, v2⟩ := p
          cases o with
          | none => rfl
          | some t => cases t <;> rfl
  rw [this]
  exact .bind (.of .lift coContext_grows) fun i => .bind (recorded loadContext_exact loadContext_grows _) fun _ =>
    .of .lift coOwner_grows

theorem loadExtObject_exact {i : Nat} : ExactE (loadExtObject i) := by
  unfold loadExtObject
  refine .bind (.of .lift .get) fun vm => .bind (.of .lift .liftR) fun o => ?_
  split
  · exact .of .pure .pure
  · split
    · split
      · split
        · exact loadCoroutine_exact
        · exact .of .pure .pure
      · exact .of .lift .addError
    · exact .of .pure .pure

theorem loadExtObjects_exact : ExactE loadExtObjects := by
  unfold loadExtObjects
  exact .bind (.of .lift .get) fun vm => .times (fun _ => loadExtObject_exact) _ _

/-! ## The two parts of a load -/

/-- Everything up to the external objects. -/
def loadPre (F : FloatOps) : L Unit := do
  loadHeader
  loadInstrs
  loadErrors
  loadStatics
  loadContext 0 false
  loadStrings
  loadGc
  loadFunctions
  loadObjects F
  loadGlobals
  loadTypes
  loadSubsystems

/-- The rest. -/
def loadPost : L Unit := do
  loadExtObjects
  loadFiles
  loadMarkers
  loadActive

theorem L.assoc {γ : Type} (m : L α) (f : α → L β) (g : β → L γ) :
    ((m >>= f) >>= g) = (m >>= fun a => f a >>= g) := by
  funext b vm
  rw [L.bind_eq, L.bind_eq, L.bind_eq]
  cases m b vm with
  | ub k => rfl
  | ok p =>
    obtain ⟨⟨o, b1⟩, v1⟩ := p
    cases o with
    | none => rfl
    | some a => dsimp only; rw [L.bind_eq]

theorem load_eq (F : FloatOps) : load F = (loadPre F >>= fun _ => loadPost) := by
  unfold load loadPre loadPost
  simp only [L.assoc]

theorem loadPre_exact {F : FloatOps} : Exact (loadPre F) :=
  .bind loadHeader_exact fun _ => .bind loadInstrs_exact fun _ => .bind loadErrors_exact fun _ =>
  .bind loadStatics_exact fun _ => .bind loadContext_exact fun _ => .bind loadStrings_exact fun _ =>
  .bind loadGc_exact fun _ => .bind loadFunctions_exact fun _ => .bind loadObjects_exact fun _ =>
  .bind loadGlobals_exact fun _ => .bind loadTypes_exact fun _ => loadSubsystems_exact

theorem loadPost_exact : ExactE loadPost :=
  .bind loadExtObjects_exact fun _ => .bind (.of loadFiles_exact loadFiles_grows) fun _ =>
  .bind (.of loadMarkers_exact loadMarkers_grows) fun _ => .of loadActive_exact loadActive_grows

/-- Truncated input. -/
theorem load_prefix {F : FloatOps} {b1 b2 : Bytes} {vm v1 v2 : VM}
    (h1 : loadPre F (b1 ++ b2) vm = .ok ((some (), b2), v1)) (h2 : loadPost b2 v1 = .ok ((some (), []), v2))
    (he : v2.errors = v1.errors) {p q : Bytes} (hp : b1 ++ b2 = p ++ q) (hq : q ≠ []) {r : Bytes} {v : VM}
    (hl : load F p vm = .ok ((some (), r), v)) : v.errors ≠ v2.errors := by
  rw [load_eq] at hl
  obtain ⟨c1, e1, s1, p1⟩ := loadPre_exact.run _ _ _ _ _ h1
  obtain ⟨c2, e2, s2, p2⟩ := loadPost_exact.run _ _ _ _ _ h2 he
  have hc1 : c1 = b1 := (List.append_cancel_right e1).symm
  have hc2 : c2 = b2 := by rw [e2]; simp
  subst hc1; subst hc2
  rw [he]
  obtain ⟨u, b3, v3, h3, h4⟩ := L.bind_inv hl
  rcases List.append_eq_append_iff.mp hp with ⟨w, hw1, hw2⟩ | ⟨w, hw1, hw2⟩
  · subst hw1
    rw [s1 w] at h3
    cases h3
    exact p2 _ q hw2 hq _ _ _ h4
  · by_cases hwn : w = []
    · subst hwn
      simp only [List.append_nil] at hw1
      subst hw1
      have := s1 []
      rw [List.append_nil, h3] at this
      cases this
      exact p2 [] c2 (by simp) (by simpa [hw2] using hq) _ _ _ h4
    · exact absurd h3 (p1 p w hw1 hwn _ _ _)

end Nk.Save
