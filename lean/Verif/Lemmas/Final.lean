import Verif.Lemmas.Session
/-!
# Code written after the outermost scope was left
-/
namespace Nk.Cc

/-- A state of the compiler without scopes. -/
def bare (s : CS) : CS := { s with ctx := [] }

/-- Writing a word does not need a scope. -/
theorem addInstr_bare (w : BitVec 32) (adj : Bool) {s : CS} (h : CodeWF s) : addInstr w adj (bare s) =
    match addInstr w false s with
    | .ok (_, s') => .ok ((), bare s')
    | .ub k => .ub k := by
  have hg : growInstrs (bare s) = match growInstrs s with
      | .ok (_, s') => .ok ((), bare s')
      | .ub k => .ub k := by
    unfold growInstrs
    rw [CM.cget_bind, CM.cget_bind]
    have h1 : ¬(u32 (s.vm.instrMask * 2) ||| 1 ≥ UINT_MAX) := by
      have := h.small
      have h2 : u32 (s.vm.instrMask * 2) < 2 ^ 31 := by unfold u32 U32; omega
      have := Nat.or_lt_two_pow h2 (y := 1) (by decide)
      unfold UINT_MAX
      omega
    rw [if_neg (c := u32 ((bare s).vm.instrMask * 2) ||| 1 ≥ UINT_MAX) h1, if_neg h1, CM.bind_ok (CM.pure_run _ _), CM.bind_ok (CM.pure_run _ _)]
    show (if u32 (u32 (s.vm.instrMask + 1) * 2) ≥ UINT_MAX / 4 then (_ : CM Unit) else _) (bare s) = _
    by_cases h2 : u32 (u32 (s.vm.instrMask + 1) * 2) ≥ UINT_MAX / 4
    · rw [if_pos h2, if_pos h2]; rfl
    · rw [if_neg h2, if_neg h2]
      show (if u32 (u32 (s.vm.instrMask + 1) * 2) ≤ u32 (s.vm.instrMask + 1) then (_ : CM Unit) else _) (bare s) = _
      by_cases h3 : u32 (u32 (s.vm.instrMask + 1) * 2) ≤ u32 (s.vm.instrMask + 1)
      · rw [if_pos h3, if_pos h3]; rfl
      · rw [if_neg h3, if_neg h3]; rfl
  rw [addInstr_eq, addInstr_eq]
  rw [if_neg (c := adj = true ∧ (bare s).ctx ≠ []) (fun h => h.2 rfl), if_neg (c := false = true ∧ s.ctx ≠ []) (fun h => by cases h.1)]
  have hg2 : (if (bare s).write ≥ (bare s).vm.instrMask then growInstrs else pure ()) (bare s) =
      match (if s.write ≥ s.vm.instrMask then growInstrs else pure ()) s with
      | .ok (_, s') => .ok ((), bare s')
      | .ub k => .ub k := by
    show (if s.write ≥ s.vm.instrMask then growInstrs else pure ()) (bare s) = _
    split
    · exact hg
    · rfl
  cases e : (if s.write ≥ s.vm.instrMask then growInstrs else pure ()) s with
  | ub k => rw [e] at hg2; rw [CM.bind_ub hg2, CM.bind_ub e]
  | ok p =>
    obtain ⟨⟨⟩, s1⟩ := p
    rw [e] at hg2
    rw [CM.bind_ok hg2, CM.bind_ok e]
    have hw : ∀ i, writeInstr i w (bare s1) = match writeInstr i w s1 with
        | .ok (_, s') => .ok ((), bare s')
        | .ub k => .ub k := by
      intro i
      unfold writeInstr
      show (if i < s1.vm.instrs.length then _ else _) = _
      split <;> rfl
    have hw := hw s.write
    show (writeInstr s.write w >>= _) _ = _
    cases e2 : writeInstr s.write w s1 with
    | ub k => rw [e2] at hw; rw [CM.bind_ub hw, CM.bind_ub e2]
    | ok p =>
      obtain ⟨⟨⟩, s2⟩ := p
      rw [e2] at hw
      rw [CM.bind_ok hw, CM.bind_ok e2]
      rfl

theorem addInstr_end {s : CS} (h : CodeWF s) (w : BitVec 32) (adj : Bool) : addInstr w adj (bare s) = .ub .longjmp ∨
    ∃ s', addInstr w adj (bare s) = .ok ((), bare s') ∧ Emit s [w] s' := by
  rw [addInstr_bare _ _ h]
  rcases addInstr_run h w false with r | ⟨s', r, e, _⟩
  · rw [r]; exact .inl rfl
  · rw [r]; exact .inr ⟨s', rfl, e⟩

/-- A longer program with the same functions, globals and errors. -/
structure Longer (s s' : CS) : Prop where
  wf : CodeWF s'
  shape : Shape s'.vm.instrs s'.write
  grew : Grew s.vm.instrs s.write s'.vm.instrs s'.write
  low : s.write ≤ s'.write
  below : ∀ i, i < s.write → s'.vm.instrs[i]? = s.vm.instrs[i]?
  functions : s'.vm.functions = s.vm.functions
  globals : s'.vm.globals = s.vm.globals
  errors : s'.vm.errors = s.vm.errors

theorem Longer.refl {s : CS} (h : CodeWF s) (hs : Shape s.vm.instrs s.write) : Longer s s :=
  ⟨h, hs, hs.refl, Nat.le_refl _, fun _ _ => rfl, rfl, rfl, rfl⟩

theorem Longer.step {s s1 s2 : CS} {ws : List (BitVec 32)} (h : Longer s s1) (e : Emit s1 ws s2)
    (hs : Shape s2.vm.instrs s2.write ∧ Grew s1.vm.instrs s1.write s2.vm.instrs s2.write) : Longer s s2 := by
  have hw := e.write
  have hl := h.low
  refine ⟨e.wf, hs.1, h.grew.trans hs.2, by omega, fun i hi => (e.below i (by omega)).trans (h.below i hi), ?_, ?_, ?_⟩
  · rw [← h.functions, e.rest]
  · rw [← h.globals, e.rest]
  · rw [← h.errors, e.rest]

/-- Leaving the outermost scope. -/
theorem popRoot_run {s : CS} {c : CCtx} (h : CodeWF s) (hs : Shape s.vm.instrs s.write) (hc : s.ctx = [c]) :
    popCtx s = .ub .longjmp ∨ ∃ s', popCtx s = .ok ((), bare s') ∧ Longer s s' ∧ (popCount c = 0 → s'.write = s.write) := by
  have e0 : popCtx s = (if popCount c ≠ 0 then do
      emitInt (BitVec.ofNat 32 (popCount c)) false
      emitOp 12 false
    else pure () : CM Unit) (bare s) := by
    unfold popCtx
    rw [CM.cget_bind, hc]
    rfl
  rw [e0]
  by_cases hp : popCount c ≠ 0
  · rw [if_pos hp]
    rcases addInstr_end h (BitVec.ofNat 32 7) false with r | ⟨s1, r, e1⟩
    · exact .inl (CM.bind_ub (show emitInt _ false _ = _ from CM.bind_ub r))
    rcases addInstr_end e1.wf (BitVec.ofNat 32 (popCount c)) false with r2 | ⟨s2, r2, e2⟩
    · exact .inl (CM.bind_ub (show emitInt _ false _ = _ from (CM.bind_ok r).trans r2))
    rcases addInstr_end e2.wf (BitVec.ofNat 32 12) false with r3 | ⟨s3, r3, e3⟩
    · exact .inl ((CM.bind_ok (show emitInt _ false _ = _ from (CM.bind_ok r).trans r2)).trans r3)
    refine .inr ⟨s3, (CM.bind_ok (show emitInt _ false _ = _ from (CM.bind_ok r).trans r2)).trans r3, ?_, fun hz => absurd hz hp⟩
    have w1 : s1.write = s.write + 1 := e1.write
    have w2 : s2.write = s1.write + 1 := e2.write
    have w3 : s3.write = s2.write + 1 := e3.write
    have b2 : ∀ i, i < s.write → s2.vm.instrs[i]? = s.vm.instrs[i]? := fun i hi => (e2.below i (by omega)).trans (e1.below i hi)
    have c2 : s2.vm.instrs[s.write]? = some 7#32 := (e2.below _ (by omega)).trans (e1.code 0 _ rfl)
    have l2 := hs.lit b2 c2 (by decide) (by decide)
    rw [show s.write + 2 = s2.write by omega] at l2
    have k2 : Longer s s2 := by
      refine ⟨e2.wf, l2.1, l2.2, by omega, b2, ?_, ?_, ?_⟩
      · rw [e2.rest, e1.rest]
      · rw [e2.rest, e1.rest]
      · rw [e2.rest, e1.rest]
    refine k2.step e3 ?_
    rw [w3]
    exact k2.shape.plain e3.below (e3.code 0 _ rfl) (by decide) (by unfold IsJump opOf; decide) (by decide)
  · rw [if_neg hp]
    exact .inr ⟨s, rfl, .refl h hs, fun _ => rfl⟩

/-- Finishing for good: what finishing does, and one more END where the program ended. -/
theorem finalize_run {s : CS} {Z : Base} {B : UB → Prop} (hL : B .longjmp) (h : Inv Z B s) {c : CCtx} (hc : s.ctx = [c]) :
    (∃ k, B k ∧ finalize s = .ub k) ∨ ∃ s1 s2 s', partiallyFinalize s = .ok ((), s1) ∧ Longer s1 s2 ∧ (popCount c = 0 → s2.write = s1.write) ∧
      finalize s = .ok ((), bare s') ∧ Longer s2 s' ∧ s'.write = s2.write + 1 ∧ s'.vm.instrs[s2.write]? = some 20#32 := by
  have hlen : s.ctx.length = 1 := by rw [hc]; rfl
  have e0 : finalize s = (partiallyFinalize >>= fun _ => popTo 0 1 >>= fun _ => emitOp 20 true) s := by
    unfold finalize
    rw [CM.cget_bind, if_neg (by simp [hlen])]
    dsimp only
    rw [hlen]
    refine (CM.bind_ok (a := ()) ?_).trans rfl
    unfold popTo
    rw [CM.cget_bind, if_neg (by omega)]
    rfl
  rw [e0]
  have hp := partiallyFinalize_step hL h hlen
  cases e1 : partiallyFinalize s with
  | ub k => exact .inl ⟨k, by unfold CSafe at hp; rw [e1] at hp; exact hp, CM.bind_ub e1⟩
  | ok p =>
    obtain ⟨⟨⟩, s1⟩ := p
    have hq := hp.post e1
    have hc1 : s1.ctx = [c] := hq.2.1.trans hc
    rw [CM.bind_ok e1]
    have e2 : popTo 0 1 s1 = (popCtx >>= fun _ => pure ()) s1 := by
      unfold popTo
      rw [CM.cget_bind, if_pos (by rw [hc1]; simp)]
      rfl
    rcases popRoot_run hq.1.wf hq.1.shape hc1 with r | ⟨s2, r, k2, hz⟩
    · exact .inl ⟨_, hL, CM.bind_ub (e2.trans (CM.bind_ub r))⟩
    rw [CM.bind_ok (a := ()) (s' := bare s2) (e2.trans ((CM.bind_ok r).trans rfl))]
    rcases addInstr_end k2.wf (BitVec.ofNat 32 20) true with r3 | ⟨s3, r3, e3⟩
    · exact .inl ⟨_, hL, r3⟩
    refine .inr ⟨s1, s2, s3, rfl, k2, hz, r3, (Longer.refl k2.wf k2.shape).step e3 ?_, e3.write, e3.code 0 _ rfl⟩
    rw [show s3.write = s2.write + 1 from e3.write]
    exact k2.shape.plain e3.below (e3.code 0 _ rfl) (by decide) (by unfold IsJump opOf; decide) (by decide)

end Nk.Cc
