import Verif.Lemmas.CompSafe3
/-!
# The compiler on arbitrary tokens: conditionals, loops, functions and scripts
-/
namespace Nk.Cc

variable {α β : Type} {Z : Base} {B : UB → Prop} {k p : Nat} {s s1 : CS}

/-- A statement in its own context. -/
theorem inner_step {D : Nat} {st : CM Bool} (hst : ST Z B D st) {n : Nat} {l : List CCtx} (h : Adv Z B k p s s1) (hd : D ≤ s1.depth)
    (hu : Under n l s1.ctx) {K : Bool → CM β} {Q : β → CS → Prop}
    (hK : ∀ b s2, Adv Z B 0 0 s1 s2 → Under (n + 1) l s2.ctx → (b = false → s2.vm.errors ≠ []) → CSafe B (K b) s2 Q) :
    CSafe B (do pushCtx; let b ← st; K b) s1 Q := by
  refine (pushCtx_step (Adv.refl h.inv)).bind fun _ s2 ⟨h2, c2⟩ => ?_
  have u2 : Under (n + 1) l s2.ctx := by rw [c2]; exact hu.push _
  have := h2.depth
  refine (hst s2 h2.inv (by omega)).bind fun b s3 ⟨h3, c3, e3⟩ => ?_
  exact hK b s3 (h2.zero (h3.weaken (Nat.le_refl _) (Nat.zero_le _))) (u2.to c3) e3

theorem elsePart_step (hL : B .longjmp) {D : Nat} {st : CM Bool} (hst : ST Z B D st) {skip : Nat} {q : Nat} (h : Adv Z B 1 (q + 1) s s1) (hd : D ≤ s1.depth)
    (hf : Keeps s.ctx s1.ctx) (hj : JumpAt Z.n s1.vm.instrs s1.write skip) :
    CSafe B (elsePart st skip) s1 (StQ Z B Keeps s) := by
  unfold elsePart
  refine CSafe.curType ?_
  split
  · refine expectStmt_step (by decide) h (fun s2 h2 c2 => ?_) fun s' a b c => StQ.fail a (by rw [b]; exact hf) c
    have h12 := h.tok h2
    refine (emitJump_step hL (.inl rfl) (Adv.refl h2.inv) h2.inv.shape.zero).bind fun j s3 ⟨h3, c3, j3⟩ => ?_
    refine (jumpHere_step (Adv.refl h3.inv) (h3.grew.jumpAt (h2.grew.jumpAt hj))).bind fun _ s4 ⟨h4, c4, g4⟩ => ?_
    have h14 := (h12.zero h3).zero h4
    have f4 : Keeps s.ctx s4.ctx := by
      rw [c4]
      exact hf.trans (by rw [← c2]; exact c3.keeps h2.inv.wf.ctx)
    have := h2.depth
    have := h3.depth
    have := h4.depth
    refine inner_step hst h14 (by omega) (Under.zero.mpr (Fars.refl _)) fun b s5 h5 u5 e5 => ?_
    have h15 := h14.zero h5
    have hne4 := h14.inv.wf.ctx
    cases b with
    | true =>
      rw [if_pos rfl]
      refine (pop_under hL (Adv.refl h5.inv) u5 hne4).bind fun _ s6 ⟨h6, u6⟩ => ?_
      refine (jumpHere_step (Adv.refl h6.inv) (h6.grew.jumpAt (h5.grew.jumpAt (h4.grew.jumpAt j3)))).bind fun _ s7 ⟨h7, c7, _⟩ => ?_
      refine pop_pure ((h15.zero h6).zero h7) fun s8 h8 c8 _ => StQ.done h8 ?_
      rw [c8, c7]
      exact f4.trans ((Under.zero.mp u6).keeps hne4)
    | false =>
      refine (pop_under hL (Adv.refl h5.inv) u5 hne4).bind fun _ s6 ⟨h6, u6⟩ => ?_
      refine pop_pure (h15.zero h6) fun s8 h8 c8 e8 => StQ.fail h8 ?_ ?_
      · rw [c8]; exact f4.trans ((Under.zero.mp u6).keeps hne4)
      · rw [e8]; exact h6.failed (e5 rfl)
  · exact pop_pure h fun s8 h8 c8 _ => StQ.done h8 (by rw [c8]; exact hf)

theorem ifStmt_step (hL : B .longjmp) {D : Nat} {st ce : CM Bool} (hst : ST Z B D st) (hce : CE Z B D ce) (h : Inv Z B s) (hd : D ≤ s.depth) :
    CSafe B (ifStmt st ce) s (StQ Z B Keeps s) := by
  have hne := h.wf.ctx
  unfold ifStmt
  refine (pushRec_step (Adv.refl h)).bind fun ok s1 ⟨c1, h1⟩ => ?_
  cases ok with
  | false => exact CSafe.pure (StQ.fail h1.1 ((Same.of_eq c1).keeps hne) h1.2)
  | true =>
    rw [if_pos rfl]
    replace h1 := h1.1
    have k1 : Keeps s.ctx s1.ctx := (Same.of_eq c1).keeps hne
    have no : ∀ {p : Nat} {a b : CS}, Keeps s.ctx a.ctx → Adv Z B 0 p s b → b.ctx = a.ctx → b.vm.errors ≠ [] → StQ Z B Keeps s false b :=
      fun hc hb e he => StQ.fail hb (by rw [e]; exact hc) he
    refine expectStmt_step (by decide) h1 (fun s2 h2 c2 => ?_) fun _ a b c => no k1 a b c
    have h12 := h1.tok h2
    have k2 : Keeps s.ctx s2.ctx := by rw [c2]; exact k1
    refine expectStmt_step (by decide) h12 (fun s3 h3 c3 => ?_) fun _ a b c => no k2 a b c
    have h13 := h12.tok h3
    have k3 : Keeps s.ctx s3.ctx := by rw [c3]; exact k2
    have := h13.depth
    refine (hce s3 h13.inv (by omega)).bind fun b s4 ⟨h4, c4, e4⟩ => ?_
    have h14 := h13.zero h4
    have k4 := k3.trans (c4.keeps h13.inv.wf.ctx)
    cases b with
    | false => exact pop_pure h14 fun s6 h6 c6 e6 => StQ.fail h6 (by rw [c6]; exact k4) (by rw [e6]; exact e4 rfl)
    | true =>
      rw [if_pos rfl]
      refine (emitJump_step hL (.inr rfl) (Adv.refl h14.inv) h14.inv.shape.zero).bind fun skip s5 ⟨h5, c5, j5⟩ => ?_
      have h15 := h14.zero h5
      have k5 := k4.trans (c5.keeps h14.inv.wf.ctx)
      refine expectStmt_step (by decide) h15 (fun s6 h6 c6 => ?_) fun _ a b c => no k5 a b c
      have h16 := h15.tok h6
      have k6 : Keeps s.ctx s6.ctx := by rw [c6]; exact k5
      have := h16.depth
      have hne6 := h16.inv.wf.ctx
      refine inner_step hst h16 (by omega) (Under.zero.mpr (Fars.refl _)) fun b s7 h7 u7 e7 => ?_
      have h17 := h16.zero h7
      cases b with
      | true =>
        rw [if_pos rfl]
        refine (pop_under hL (Adv.refl h7.inv) u7 hne6).bind fun _ s8 ⟨h8, u8⟩ => ?_
        refine (jumpHere_step (Adv.refl h8.inv) (h8.grew.jumpAt (h7.grew.jumpAt (h6.grew.jumpAt j5)))).bind fun _ s9 ⟨h9, c9, g9⟩ => ?_
        have h19 := (h17.zero h8).zero h9
        have := h19.depth
        refine elsePart_step hL hst h19 (by omega) ?_ (g9.jumpAt (h8.grew.jumpAt (h7.grew.jumpAt (h6.grew.jumpAt j5))))
        rw [c9]
        exact k6.trans ((Under.zero.mp u8).keeps hne6)
      | false =>
        refine (pop_under hL (Adv.refl h7.inv) u7 hne6).bind fun _ s8 ⟨h8, u8⟩ => ?_
        refine pop_pure (h17.zero h8) fun s9 h9 c9 e9 => StQ.fail h9 ?_ ?_
        · rw [c9]; exact k6.trans ((Under.zero.mp u8).keeps hne6)
        · rw [e9]; exact h8.failed (e7 rfl)

/-! ## Loops -/

theorem failPop_step (hL : B .longjmp) {l : List CCtx} (hl : l ≠ []) : ∀ (n : Nat) {s1 : CS}, Adv Z B (k + 1) p s s1 → Under n l s1.ctx →
    s1.vm.errors ≠ [] → CSafe B (failPop n) s1 fun b s2 => b = false ∧ Adv Z B k p s s2 ∧ Fars l s2.ctx ∧ s2.vm.errors ≠ []
  | 0, s1, h, hu, he => by
    unfold failPop
    exact pop_pure h fun s2 h2 c2 e2 => ⟨rfl, h2, by rw [c2]; exact Under.zero.mp hu, by rw [e2]; exact he⟩
  | n + 1, s1, h, hu, he => by
    unfold failPop
    refine (pop_under hL (Adv.refl h.inv) hu hl).bind fun _ s2 ⟨h2, u2⟩ => ?_
    exact failPop_step hL hl n (h.zero h2) u2 (h2.failed he)

theorem failQ (hL : B .longjmp) {n : Nat} (h : Adv Z B (k + 1) p s s1) (hu : Under n s.ctx s1.ctx) (hne : s.ctx ≠ [])
    (he : s1.vm.errors ≠ []) : CSafe B (failPop n) s1 (StQ Z B Keeps s) := by
  refine (failPop_step hL hne n h hu he).mono fun b s2 ⟨e, h2, f2, e2⟩ => ?_
  rw [e]; exact StQ.fail h2 (f2.keeps hne) e2

theorem expectLoop_step (hL : B .longjmp) {t : TokType} (ht : t ≠ .invalid) {n : Nat} (h : Adv Z B (k + 1) p s s1) (hu : Under n s.ctx s1.ctx)
    (hne : s.ctx ≠ []) {K : CM Bool}
    (hK : ∀ s2, Adv Z B 0 1 s1 s2 → s2.ctx = s1.ctx → CSafe B K s2 (StQ Z B Keeps s)) : CSafe B (expectLoop t n K) s1 (StQ Z B Keeps s) := by
  unfold expectLoop
  refine (expectSkip_step ht (Adv.refl h.inv)).bind fun ok s2 ⟨c2, h2⟩ => ?_
  cases ok with
  | true => exact hK s2 h2 c2
  | false => exact failQ hL (h.zero h2.1) (by rw [c2]; exact hu) hne h2.2

theorem fixupLoop_step : ∀ (as : List Nat) {s1 : CS}, Adv Z B k p s s1 → (∀ a ∈ as, JumpAt Z.n s1.vm.instrs s1.write a) →
    CSafe B (fixupLoop as) s1 fun _ s2 => Adv Z B k p s s2 ∧ s2.ctx = s1.ctx
  | [], s1, h, _ => CSafe.pure ⟨h, rfl⟩
  | a :: as, s1, h, ha => by
    unfold fixupLoop
    refine (jumpHere_step h (ha a (by simp))).bind fun _ s2 ⟨h2, c2, g2⟩ => ?_
    exact (fixupLoop_step as h2 fun b hb => g2.jumpAt (ha b (by simp [hb]))).mono fun _ s3 h3 => ⟨h3.1, h3.2.trans c2⟩

theorem fixupBreaks_step {n : Nat} {l : List CCtx} (h : Adv Z B k p s s1) (hu : Under (n + 1) l s1.ctx) :
    CSafe B fixupBreaks s1 fun _ s2 => Adv Z B k p s s2 ∧ Under (n + 1) l s2.ctx := by
  obtain ⟨c, cs, hc⟩ := hu.ne
  unfold fixupBreaks
  refine CSafe.cget ?_
  rw [hc]
  refine (fixupLoop_step c.fixups.reverse h fun a ha => h.inv.fix c (by rw [hc]; simp) a (List.mem_reverse.mp ha)).bind fun _ s2 ⟨h2, c2⟩ => ?_
  refine (modCtx_step h2 (fun c => { c with fixups := [] }) (fun _ a ha => by cases ha) (fun _ => rfl)).mono fun _ s3 ⟨h3, c3⟩ => ⟨h3, ?_⟩
  rw [c3 c cs (c2.trans hc)]
  rw [hc] at hu
  exact hu.head

theorem endLoop_step (hL : B .longjmp) {l : List CCtx} (h : Adv Z B (k + 1) p s s1) (hu : Under 2 l s1.ctx) (hl : l ≠ []) :
    CSafe B endLoop s1 fun _ s2 => Adv Z B k p s s2 ∧ Fars l s2.ctx := by
  unfold endLoop
  refine (pop_under hL h hu hl).bind fun _ s2 ⟨h2, u2⟩ => ?_
  refine (fixupBreaks_step h2 u2).bind fun _ s3 ⟨h3, u3⟩ => ?_
  refine (pop_under hL h3 u3 hl).bind fun _ s4 ⟨h4, u4⟩ => ?_
  exact (popRec_step h4).mono fun _ s5 ⟨h5, c5, _⟩ => ⟨h5, by rw [c5]; exact Under.zero.mp u4⟩

theorem pushLoop_step (h : Adv Z B k p s s1) : CSafe B pushLoop s1 fun _ s2 => Adv Z B k p s s2 ∧ Under 2 s1.ctx s2.ctx := by
  refine CSafe.ok (pushLoop_eq s1) ⟨?_, ((Under.zero.mpr (Fars.refl _)).push _).push _⟩
  exact (h.pushed (c := loopCtx s1.ctx) rfl).pushed (c := inCtx s1.ctx) rfl

theorem whileStmt_step (hL : B .longjmp) {D : Nat} {st ce : CM Bool} (hst : ST Z B D st) (hce : CE Z B D ce) (h : Inv Z B s) (hd : D ≤ s.depth) :
    CSafe B (whileStmt st ce) s (StQ Z B Keeps s) := by
  have hne := h.wf.ctx
  unfold whileStmt
  refine CSafe.cget ?_
  refine (pushRec_step (Adv.refl h)).bind fun ok s1 ⟨c1, h1⟩ => ?_
  cases ok with
  | false => exact CSafe.pure (StQ.fail h1.1 ((Same.of_eq c1).keeps hne) h1.2)
  | true =>
    rw [if_pos rfl]
    replace h1 := h1.1
    refine (pushLoop_step h1).bind fun _ s2 ⟨h2, u2⟩ => ?_
    rw [c1] at u2
    refine expectLoop_step hL (by decide) h2 u2 hne fun s3 h3 c3 => ?_
    have h13 := h2.tok h3
    have u3 : Under 2 s.ctx s3.ctx := by rw [c3]; exact u2
    refine expectLoop_step hL (by decide) h13 u3 hne fun s4 h4 c4 => ?_
    have h14 := h13.tok h4
    have u4 : Under 2 s.ctx s4.ctx := by rw [c4]; exact u3
    have := h14.depth
    refine (hce s4 h14.inv (by omega)).bind fun b s5 ⟨h5, c5, e5⟩ => ?_
    have h15 := h14.zero h5
    have u5 := u4.same c5
    cases b with
    | false => exact failQ hL h15 u5 hne (e5 rfl)
    | true =>
      rw [if_pos rfl]
      refine (emitJump_step hL (.inr rfl) (Adv.refl h15.inv) h15.inv.shape.zero).bind fun skip s6 ⟨h6, c6, j6⟩ => ?_
      have h16 := h15.zero h6
      have u6 := u5.same c6
      refine expectLoop_step hL (by decide) h16 u6 hne fun s7 h7 c7 => ?_
      have h17 := h16.tok h7
      have u7 : Under 2 s.ctx s7.ctx := by rw [c7]; exact u6
      have := h17.depth
      refine inner_step hst h17 (by omega) u7 fun b s8 h8 u8 e8 => ?_
      have h18 := h17.zero h8
      cases b with
      | false => exact failQ hL h18 u8 hne (e8 rfl)
      | true =>
        rw [if_pos rfl]
        refine (pop_under hL (Adv.refl h8.inv) u8 hne).bind fun _ s9 ⟨h9, u9⟩ => ?_
        have h19 := h18.zero h9
        refine (emitJump_step hL (.inl rfl) (Adv.refl h9.inv) h19.grew.entry).bind fun _ s10 ⟨h10, c10, _⟩ => ?_
        have h110 := h19.zero h10
        have u10 := u9.same c10
        refine (jumpHere_step (Adv.refl h10.inv) (h10.grew.jumpAt (h9.grew.jumpAt (h8.grew.jumpAt (h7.grew.jumpAt j6))))).bind
          fun _ s11 ⟨h11, c11, _⟩ => ?_
        refine (endLoop_step hL (h110.zero h11) (by rw [c11]; exact u10) hne).bind fun _ s12 ⟨h12, f12⟩ => ?_
        exact CSafe.pure (StQ.done h12 (f12.keeps hne))

theorem doStmt_step (hL : B .longjmp) {D : Nat} {st ce : CM Bool} (hst : ST Z B D st) (hce : CE Z B D ce) (h : Inv Z B s) (hd : D ≤ s.depth) :
    CSafe B (doStmt st ce) s (StQ Z B Keeps s) := by
  have hne := h.wf.ctx
  unfold doStmt
  refine CSafe.cget ?_
  refine (pushRec_step (Adv.refl h)).bind fun ok s1 ⟨c1, h1⟩ => ?_
  cases ok with
  | false => exact CSafe.pure (StQ.fail h1.1 ((Same.of_eq c1).keeps hne) h1.2)
  | true =>
    rw [if_pos rfl]
    replace h1 := h1.1
    refine (pushLoop_step h1).bind fun _ s2 ⟨h2, u2⟩ => ?_
    rw [c1] at u2
    refine expectLoop_step hL (by decide) h2 u2 hne fun s3 h3 c3 => ?_
    have h13 := h2.tok h3
    have u3 : Under 2 s.ctx s3.ctx := by rw [c3]; exact u2
    have := h13.depth
    refine inner_step hst h13 (by omega) u3 fun b s4 h4 u4 e4 => ?_
    have h14 := h13.zero h4
    cases b with
    | false => exact failQ hL h14 u4 hne (e4 rfl)
    | true =>
      rw [if_pos rfl]
      refine (pop_under hL (Adv.refl h4.inv) u4 hne).bind fun _ s5 ⟨h5, u5⟩ => ?_
      have h15 := h14.zero h5
      refine expectLoop_step hL (by decide) h15 u5 hne fun s6 h6 c6 => ?_
      have h16 := h15.tok h6
      have u6 : Under 2 s.ctx s6.ctx := by rw [c6]; exact u5
      refine expectLoop_step hL (by decide) h16 u6 hne fun s7 h7 c7 => ?_
      have h17 := h16.tok h7
      have u7 : Under 2 s.ctx s7.ctx := by rw [c7]; exact u6
      have := h17.depth
      refine (hce s7 h17.inv (by omega)).bind fun b s8 ⟨h8, c8, e8⟩ => ?_
      have h18 := h17.zero h8
      have u8 := u7.same c8
      cases b with
      | false => exact failQ hL h18 u8 hne (e8 rfl)
      | true =>
        rw [if_pos rfl]
        refine expectLoop_step hL (by decide) h18 u8 hne fun s9 h9 c9 => ?_
        have h19 := h18.tok h9
        have u9 : Under 2 s.ctx s9.ctx := by rw [c9]; exact u8
        refine (op_same hL (by decide) true (Adv.refl h9.inv)).bind fun _ s10 ⟨h10, c10⟩ => ?_
        have h110 := h19.zero h10
        have u10 := u9.same c10
        refine (emitJump_step hL (.inr rfl) (Adv.refl h10.inv) h110.grew.entry).bind fun _ s11 ⟨h11, c11, _⟩ => ?_
        refine (endLoop_step hL (h110.zero h11) (u10.same c11) hne).bind fun _ s12 ⟨h12, f12⟩ => ?_
        refine (expectSkip_step (by decide) h12).mono fun b s13 ⟨c13, h13⟩ => ?_
        cases b with
        | false => exact StQ.fail h13.1 (by rw [c13]; exact f12.keeps hne) h13.2
        | true => exact StQ.done h13 (by rw [c13]; exact f12.keeps hne)

/-- Compiling the increment of a `for`. -/
def CI (Z : Base) (B : UB → Prop) (D : Nat) (ci : CM Node) : Prop := ∀ s, Inv Z B s → D ≤ s.depth → CSafe B ci s fun v s' =>
  Adv Z B 0 0 s s' ∧ Same s.ctx s'.ctx ∧ (v = .nil → s'.vm.errors ≠ [])

theorem forStmt_step (hL : B .longjmp) {F : FloatOps} {D : Nat} {st ce : CM Bool} {ci : CM Node} (hst : ST Z B D st) (hce : CE Z B D ce)
    (hci : CI Z B D ci) (h : Inv Z B s) (hd : D ≤ s.depth) : CSafe B (forStmt F st ce ci) s (StQ Z B Keeps s) := by
  have hne := h.wf.ctx
  unfold forStmt
  refine (pushRec_step (Adv.refl h)).bind fun ok s1 ⟨c1, h1⟩ => ?_
  cases ok with
  | false => exact CSafe.pure (StQ.fail h1.1 ((Same.of_eq c1).keeps hne) h1.2)
  | true =>
    rw [if_pos rfl]
    replace h1 := h1.1
    refine (pushLoop_step h1).bind fun _ s2 ⟨h2, u2⟩ => ?_
    rw [c1] at u2
    refine expectLoop_step hL (by decide) h2 u2 hne fun s3 h3 c3 => ?_
    have h13 := h2.tok h3
    have u3 : Under 2 s.ctx s3.ctx := by rw [c3]; exact u2
    refine expectLoop_step hL (by decide) h13 u3 hne fun s4 h4 c4 => ?_
    have h14 := h13.tok h4
    have u4 : Under 2 s.ctx s4.ctx := by rw [c4]; exact u3
    have := h14.depth
    refine (hst s4 h14.inv (by omega)).bind fun b s5 ⟨h5', c5, e5⟩ => ?_
    have h5 : Adv Z B 0 0 s4 s5 := h5'.weaken (Nat.le_refl _) (Nat.zero_le _)
    have h15 := h14.zero h5
    have u5 := u4.to c5
    cases b with
    | false => exact failQ hL h15 u5 hne (e5 rfl)
    | true =>
      rw [if_pos rfl]
      refine CSafe.cget ?_
      have := h15.depth
      refine (hce s5 h15.inv (by omega)).bind fun b s6 ⟨h6, c6, e6⟩ => ?_
      have h16 := h15.zero h6
      have u6 := u5.same c6
      cases b with
      | false => exact failQ hL h16 u6 hne (e6 rfl)
      | true =>
        rw [if_pos rfl]
        refine (emitJump_step hL (.inr rfl) (Adv.refl h16.inv) h16.inv.shape.zero).bind fun skip s7 ⟨h7, c7, j7⟩ => ?_
        have h17 := h16.zero h7
        have u7 := u6.same c7
        refine expectLoop_step hL (by decide) h17 u7 hne fun s8 h8 c8 => ?_
        have h18 := h17.tok h8
        have u8 : Under 2 s.ctx s8.ctx := by rw [c8]; exact u7
        have := h18.depth
        refine (hci s8 h18.inv (by omega)).bind fun v s9 ⟨h9, c9, e9⟩ => ?_
        have h19 := h18.zero h9
        have u9 := u8.same c9
        split
        · next hv => exact failQ hL h19 u9 hne (e9 hv)
        · next hv =>
          refine expectLoop_step hL (by decide) h19 u9 hne fun s10 h10 c10 => ?_
          have h110 := h19.tok h10
          have u10 : Under 2 s.ctx s10.ctx := by rw [c10]; exact u9
          have := h110.depth
          refine inner_step hst h110 (by omega) u10 fun b s11 h11 u11 e11 => ?_
          have h111 := h110.zero h11
          cases b with
          | false => exact failQ hL h111 u11 hne (e11 rfl)
          | true =>
            rw [if_pos rfl]
            refine (pop_under hL (Adv.refl h11.inv) u11 hne).bind fun _ s12 ⟨h12, u12⟩ => ?_
            have h112 := h111.zero h12
            refine (emitExpr_step hL F v s12 h12.inv).bind fun b s13 ⟨h13, c13, e13⟩ => ?_
            have h113 := h112.zero h13
            have u13 := u12.same c13
            cases b with
            | false => exact failQ hL h113 u13 hne (e13 hv rfl)
            | true =>
              rw [if_pos rfl]
              refine (op_same hL (by decide) true (Adv.refl h13.inv)).bind fun _ s14 ⟨h14, c14⟩ => ?_
              have h114 := h113.zero h14
              have u14 := u13.same c14
              have g57 : Adv Z B 0 0 s5 s7 := h6.zero h7
              have g514 := (((((g57.tok h8).zero h9).tok h10).zero h11).zero h12).zero (h13.zero h14)
              refine (emitJump_step hL (.inl rfl) (Adv.refl h14.inv) g514.grew.entry).bind fun _ s15 ⟨h15, c15, _⟩ => ?_
              have h115 := h114.zero h15
              have j15 := h15.grew.jumpAt (h14.grew.jumpAt (h13.grew.jumpAt (h12.grew.jumpAt (h11.grew.jumpAt (h10.grew.jumpAt
                (h9.grew.jumpAt (h8.grew.jumpAt j7)))))))
              refine (jumpHere_step (Adv.refl h15.inv) j15).bind fun _ s16 ⟨h16, c16, _⟩ => ?_
              refine (endLoop_step hL (h115.zero h16) (by rw [c16]; exact u14.same c15) hne).bind fun _ s17 ⟨h17, f17⟩ => ?_
              exact CSafe.pure (StQ.done h17 (f17.keeps hne))

end Nk.Cc
