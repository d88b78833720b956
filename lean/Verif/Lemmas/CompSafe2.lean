import Verif.Lemmas.CompSafe
/-!
# The compiler on arbitrary tokens: contexts, variables and expressions
-/
namespace Nk.Cc

variable {α β : Type} {Z : Base} {B : UB → Prop} {k p : Nat} {s s1 : CS}

/-- A conditional step, as `do` writes it. -/
theorem jp_safe {c : Prop} [Decidable c] {m : CM Unit} {K : Unit → CM β} {P : Unit → CS → Prop} {Q : β → CS → Prop}
    (h1 : CSafe B (if c then m else Pure.pure ()) s P) (h2 : ∀ s', P () s' → CSafe B (K ()) s' Q) :
    CSafe B (if c then m >>= K else K ()) s Q := by
  by_cases h : c
  · rw [if_pos h] at h1 ⊢; exact h1.bind fun _ s' h' => h2 s' h'
  · rw [if_neg h] at h1 ⊢; exact h2 s h1

/-! ## Contexts -/

theorem Inv.setCtx (h : Inv Z B s) {l : List CCtx} (h1 : l ≠ []) (h2 : ∀ c ∈ l, ∀ a ∈ c.fixups, JumpAt Z.n s.vm.instrs s.write a)
    (h3 : ∀ c, l.getLast? = some c → c.isLoop = false) : Inv Z B { s with ctx := l } :=
  ⟨h.wf.congr rfl rfl rfl rfl rfl h1, h.shape, h.fns, h2, h3, h.good, h.low, h.base, h.lits, h.funs⟩

theorem Adv.setCtx (h : Adv Z B k p s s1) {l : List CCtx} (h1 : l ≠ []) (h2 : ∀ c ∈ l, ∀ a ∈ c.fixups, JumpAt Z.n s1.vm.instrs s1.write a)
    (h3 : ∀ c, l.getLast? = some c → c.isLoop = false) : Adv Z B k p s { s1 with ctx := l } :=
  { h with inv := h.inv.setCtx h1 h2 h3 }

theorem Adv.pushed (h : Adv Z B k p s s1) {c : CCtx} (hc : c.fixups = []) : Adv Z B k p s { s1 with ctx := c :: s1.ctx } := by
  refine h.setCtx (by simp) (fun d hd a ha => ?_) (fun d hd => ?_)
  · rw [List.mem_cons] at hd
    rcases hd with rfl | hd
    · rw [hc] at ha; cases ha
    · exact h.inv.fix d hd a ha
  · have := h.inv.wf.ctx
    cases hx : s1.ctx with
    | nil => exact absurd hx this
    | cons e es => rw [hx, List.getLast?_cons_cons] at hd; exact h.inv.root d (by rw [hx]; exact hd)

theorem pushCtx_step (h : Adv Z B k p s s1) : CSafe B pushCtx s1 fun _ s2 => Adv Z B k p s s2 ∧ s2.ctx = inCtx s1.ctx :: s1.ctx :=
  CSafe.ok (pushCtx_eq s1) ⟨h.pushed rfl, rfl⟩

theorem Adv.popped (h : Adv Z B k p s s1) {c : CCtx} {cs : List CCtx} (hc : s1.ctx = c :: cs) (hcs : cs ≠ []) :
    Adv Z B k p s { s1 with ctx := cs } := by
  refine h.setCtx hcs (fun d hd a ha => h.inv.fix d (by rw [hc]; simp [hd]) a ha) (fun d hd => h.inv.root d ?_)
  cases cs with
  | nil => exact absurd rfl hcs
  | cons e es => rw [hc, List.getLast?_cons_cons]; exact hd

theorem popCtx_step (hL : B .longjmp) (h : Adv Z B k p s s1) {c : CCtx} {cs : List CCtx} (hc : s1.ctx = c :: cs) (hcs : cs ≠ []) :
    CSafe B popCtx s1 fun _ s2 => Adv Z B k p s s2 ∧ s2.ctx = cs := by
  unfold popCtx
  refine CSafe.cget ?_
  rw [hc]
  refine CSafe.cmod ?_
  have h1 := h.popped hc hcs
  split
  · rcases addInstr_run h1.inv.wf (BitVec.ofNat 32 7) false with r | ⟨sa, r, ea, da, ta, ca⟩
    · exact CSafe.ub (CM.bind_ub (show emitInt _ false _ = _ from CM.bind_ub r)) hL
    rcases addInstr_run ea.wf (BitVec.ofNat 32 (popCount c)) false with r2 | ⟨sb, r2, eb, db, tb, cb⟩
    · exact CSafe.ub (CM.bind_ub (show emitInt _ false _ = _ from (CM.bind_ok r).trans r2)) hL
    rcases addInstr_run eb.wf (BitVec.ofNat 32 12) false with r3 | ⟨sc, r3, ec, dc, tc, cc⟩
    · exact CSafe.ub ((CM.bind_ok (show emitInt _ false _ = _ from (CM.bind_ok r).trans r2)).trans r3) hL
    refine CSafe.ok ((CM.bind_ok (show emitInt _ false _ = _ from (CM.bind_ok r).trans r2)).trans r3) ?_
    have w1 := (ea.wrote da (Same.of_eq ca) ta).trans (eb.wrote db (Same.of_eq cb) tb)
    have a2 : Adv Z B k p s sb := h1.lit (by decide) w1 (fun h => absurd h (by decide))
    have w2 := ec.wrote dc (Same.of_eq cc) tc
    refine ⟨a2.wrote w2 ?_ fun i k1 k2 _ h9 => ?_, ?_⟩
    · rw [w2.write]
      refine a2.inv.shape.plain w2.below (w2.code 0 _ rfl) (by decide) ?_ (by decide)
      unfold IsJump opOf; decide
    · rw [w2.write] at k2
      obtain rfl : i = sb.write := by simp at k2; omega
      have hw := w2.code 0 _ rfl
      rw [show sb.write + 0 = sb.write from rfl, h9] at hw
      exact absurd (Option.some.inj hw) (by decide)
    · rw [cc, if_neg (by decide), cb, if_neg (by decide), ca]; rfl
  · exact CSafe.pure ⟨h1, rfl⟩

theorem pop_under (hL : B .longjmp) {n : Nat} {l : List CCtx} (h : Adv Z B k p s s1) (hu : Under (n + 1) l s1.ctx) (hl : l ≠ []) :
    CSafe B popCtx s1 fun _ s2 => Adv Z B k p s s2 ∧ Under n l s2.ctx := by
  obtain ⟨c, cs, hc⟩ := hu.ne
  have hu' : Under n l cs := by rw [hc] at hu; exact hu.pop
  refine (popCtx_step hL h hc (hu'.ne' hl)).mono fun _ s2 h2 => ⟨h2.1, ?_⟩
  rw [h2.2]; exact hu'

/-- Changing the innermost context, not the breaks. -/
theorem modCtx_step (h : Adv Z B k p s s1) (f : CCtx → CCtx) (h1 : ∀ c, ∀ a ∈ (f c).fixups, a ∈ c.fixups) (h2 : ∀ c, (f c).isLoop = c.isLoop) :
    CSafe B (modCtx f) s1 fun _ s2 => Adv Z B k p s s2 ∧ ∀ c cs, s1.ctx = c :: cs → s2.ctx = f c :: cs := by
  unfold modCtx
  cases hx : s1.ctx with
  | nil => exact absurd hx h.inv.wf.ctx
  | cons c cs =>
    refine CSafe.ok (a := ()) (s' := { s1 with ctx := f c :: cs }) (by simp only [hx]) ⟨?_, fun d ds e => by cases e; rfl⟩
    refine h.setCtx (by simp) (fun d hd a ha => ?_) (fun d hd => ?_)
    · rw [List.mem_cons] at hd
      rcases hd with rfl | hd
      · exact h.inv.fix c (by rw [hx]; simp) a (h1 c a ha)
      · exact h.inv.fix d (by rw [hx]; simp [hd]) a ha
    · cases cs with
      | nil =>
        simp only [List.getLast?_singleton, Option.some.injEq] at hd
        rw [← hd, h2]; exact h.inv.root c (by rw [hx]; rfl)
      | cons e es => rw [List.getLast?_cons_cons] at hd; exact h.inv.root d (by rw [hx, List.getLast?_cons_cons]; exact hd)

theorem subOffset_step (h : Adv Z B k p s s1) (n : Nat) : CSafe B (subOffset n) s1 fun _ s2 => Adv Z B k p s s2 ∧ Same s1.ctx s2.ctx := by
  refine (modCtx_step h (fun c => { c with offset := usub c.offset n }) (fun _ _ h => h) (fun _ => rfl)).mono fun _ s2 h2 => ⟨h2.1, ?_⟩
  cases hx : s1.ctx with
  | nil => exact absurd hx h.inv.wf.ctx
  | cons c cs => exact ⟨usub c.offset n, h2.2 c cs hx⟩

theorem incOffset_step (h : Adv Z B k p s s1) : CSafe B incOffset s1 fun _ s2 => Adv Z B k p s s2 ∧ Same s1.ctx s2.ctx := by
  refine (modCtx_step h (fun c => { c with offset := u32 (c.offset + 1) }) (fun _ _ h => h) (fun _ => rfl)).mono fun _ s2 h2 => ⟨h2.1, ?_⟩
  cases hx : s1.ctx with
  | nil => exact absurd hx h.inv.wf.ctx
  | cons c cs => exact ⟨u32 (c.offset + 1), h2.2 c cs hx⟩

/-! ## Variables -/

theorem Inv.statics (h : Inv Z B s) (st : List Value) (mk n : Nat) :
    Inv Z B { s with staticCount := n, vm := { s.vm with statics := st, staticMask := mk } } :=
  h.still rfl rfl rfl rfl rfl rfl rfl (List.suffix_refl _) (Nat.le_refl _)

theorem Adv.statics (h : Adv Z B k p s s1) (st : List Value) (mk n : Nat) :
    Adv Z B k p s { s1 with staticCount := n, vm := { s1.vm with statics := st, staticMask := mk } } :=
  { h with inv := h.inv.statics st mk n }

theorem allocStatic_step (hL : B .longjmp) (h : Adv Z B k p s s1) :
    CSafe B allocStatic s1 fun _ s2 => Adv Z B k p s s2 ∧ s2.ctx = s1.ctx := by
  unfold allocStatic
  refine CSafe.cget ?_
  refine CSafe.bind (P := fun _ s2 => Adv Z B k p s s2 ∧ s2.ctx = s1.ctx) ?_ fun ok s2 ⟨h2, c2⟩ => ?_
  · split
    · refine CSafe.cmod ?_
      have h2 := h.statics s1.vm.statics (u32 (s1.vm.staticMask * 2) ||| 1) s1.staticCount
      split
      · exact CSafe.err ⟨h2.err _, rfl⟩
      · split
        · exact CSafe.ub rfl hL
        · exact CSafe.cmod ⟨h2.statics _ _ _, rfl⟩
    · exact CSafe.pure ⟨h, rfl⟩
  · split
    · refine CSafe.cmod (CSafe.cget ?_)
      have h3 := h2.statics s2.vm.statics s2.vm.staticMask (u32 (s2.staticCount + 1))
      dsimp only
      split
      · exact CSafe.err ⟨h3.err _, c2⟩
      · exact CSafe.pure ⟨h3, c2⟩
    · exact CSafe.pure ⟨h2, c2⟩

theorem consVar_near {l l' : List CCtx} {f : CCtx → CCtx} (hf : ∀ c, Near c (f c)) (hl : l ≠ []) (h : ∀ c cs, l = c :: cs → l' = f c :: cs) :
    CtxTo l l' := by
  cases l with
  | nil => exact absurd rfl hl
  | cons c cs => rw [h c cs rfl]; exact ⟨hf c, Fars.refl cs⟩

theorem addVariable_step (hL : B .longjmp) (name : Bytes) (useTop init : Bool) (h : Adv Z B k p s s1) :
    CSafe B (addVariable name useTop init) s1 fun ok s2 => Adv Z B k p s s2 ∧ CtxTo s1.ctx s2.ctx ∧ (ok = false → s2.vm.errors ≠ []) := by
  unfold addVariable
  refine CSafe.cget ?_
  have hne := h.inv.wf.ctx
  cases hx : s1.ctx with
  | nil => exact absurd hx hne
  | cons c cs =>
    dsimp only
    rw [← hx]
    have near : ∀ (v : CCtx → CVar) (c : CCtx), Near c { c with vars := v c :: c.vars } :=
      fun v c => ⟨List.suffix_cons _ _, rfl, rfl, fun _ => rfl⟩
    split
    · exact CSafe.err ⟨h.err _, CtxTo.refl hne, fun _ => (h.err' _).2⟩
    · split
      · have first : CSafe B (if (init && !useTop) = true then emitInt 0 true else Pure.pure ()) s1 fun _ s2 => Adv Z B k p s s2 ∧ Same s1.ctx s2.ctx := by
          split
          · exact emitInt_step hL _ _ h
          · exact CSafe.pure ⟨h, Same.refl _⟩
        refine jp_safe first fun s2 ⟨h2, c2⟩ => ?_
        refine (allocStatic_step hL h2).bind fun pos s3 ⟨h3, c3⟩ => ?_
        have rest : ∀ s4, Adv Z B k p s s4 → Same s3.ctx s4.ctx → CSafe B (consVar ⟨name, true, false, pos⟩ >>= fun _ => Pure.pure true) s4
            fun ok s5 => Adv Z B k p s s5 ∧ CtxTo s1.ctx s5.ctx ∧ (ok = false → s5.vm.errors ≠ []) := by
          intro s4 h4 c4
          unfold consVar
          refine (modCtx_step h4 (fun c => { c with vars := ⟨name, true, false, pos⟩ :: c.vars }) (fun _ _ h => h) (fun _ => rfl)).bind fun _ s5 ⟨h5, c5⟩ => CSafe.pure ⟨h5, ?_, (fun h => nomatch h)⟩
          have c34 : Same s1.ctx s4.ctx := (c2.trans (Same.of_eq c3)).trans c4
          exact (c34.to hne).trans (consVar_near (near fun _ => _) h4.inv.wf.ctx c5)
        split
        · refine (emitInt_step hL _ _ h3).bind fun _ s4 ⟨h4, c4⟩ => ?_
          refine (emitOp_step hL (by decide) _ h4).bind fun _ s5 ⟨h5, c5, _⟩ => ?_
          exact (emitOp_step hL (by decide) _ h5).bind fun _ s6 ⟨h6, c6, _⟩ => rest s6 h6 ((c4.trans c5).trans c6)
        · exact rest s3 h3 (Same.refl _)
      · have first : CSafe B (if (!useTop) = true then emitInt 0 true else Pure.pure ()) s1 fun _ s2 => Adv Z B k p s s2 ∧ Same s1.ctx s2.ctx := by
          split
          · exact emitInt_step hL _ _ h
          · exact CSafe.pure ⟨h, Same.refl _⟩
        refine jp_safe first fun s2 ⟨h2, c2⟩ => ?_
        refine (modCtx_step h2 (fun c => { c with vars := ⟨name, false, false, usub c.offset 1⟩ :: c.vars })
          (fun _ _ h => h) (fun _ => rfl)).bind fun _ s5 ⟨h5, c5⟩ => CSafe.pure ⟨h5, ?_, (fun h => nomatch h)⟩
        exact (c2.to hne).trans (consVar_near (near fun c => ⟨name, false, false, usub c.offset 1⟩) h2.inv.wf.ctx c5)

theorem lookupVar_step (name : Bytes) (h : Adv Z B k p s s1) :
    CSafe B (lookupVar name) s1 fun _ s2 => Adv Z B k p s s2 ∧ s2.ctx = s1.ctx := by
  unfold lookupVar
  refine CSafe.cget ?_
  split
  · exact CSafe.pure ⟨h, rfl⟩
  · exact CSafe.err ⟨h.err _, rfl⟩

theorem emitFetch_step (hL : B .longjmp) (name : Bytes) (h : Adv Z B k p s s1) :
    CSafe B (emitFetch name) s1 fun _ s2 => Adv Z B k p s s2 ∧ Same s1.ctx s2.ctx := by
  unfold emitFetch
  refine (lookupVar_step name h).bind fun o s2 ⟨h2, c2⟩ => ?_
  cases o with
  | none => exact CSafe.pure ⟨h2, Same.of_eq c2⟩
  | some v =>
    dsimp only
    split
    · refine (emitInt_step hL _ _ h2).bind fun _ s3 ⟨h3, c3⟩ => ?_
      exact (emitOp_step hL (by decide) _ h3).mono fun _ s4 ⟨h4, c4, _⟩ => ⟨h4, ((Same.of_eq c2).trans c3).trans c4⟩
    · refine CSafe.cget ?_
      cases hx : s2.ctx with
      | nil => exact absurd hx h2.inv.wf.ctx
      | cons c cs =>
        refine (emitInt_step hL _ _ h2).bind fun _ s3 ⟨h3, c3⟩ => ?_
        exact (emitOp_step hL (by decide) _ h3).mono fun _ s4 ⟨h4, c4, _⟩ => ⟨h4, ((Same.of_eq c2).trans c3).trans c4⟩

theorem emitSet_step (hL : B .longjmp) (name : Bytes) (h : Adv Z B k p s s1) :
    CSafe B (emitSet name) s1 fun _ s2 => Adv Z B k p s s2 ∧ Same s1.ctx s2.ctx := by
  unfold emitSet
  refine (lookupVar_step name h).bind fun o s2 ⟨h2, c2⟩ => ?_
  cases o with
  | none => exact CSafe.pure ⟨h2, Same.of_eq c2⟩
  | some v =>
    dsimp only
    split
    · refine (emitInt_step hL _ _ h2).bind fun _ s3 ⟨h3, c3⟩ => ?_
      exact (emitOp_step hL (by decide) _ h3).mono fun _ s4 ⟨h4, c4, _⟩ => ⟨h4, ((Same.of_eq c2).trans c3).trans c4⟩
    · refine CSafe.cget ?_
      cases hx : s2.ctx with
      | nil => exact absurd hx h2.inv.wf.ctx
      | cons c cs =>
        refine (emitInt_step hL _ _ h2).bind fun _ s3 ⟨h3, c3⟩ => ?_
        exact (emitOp_step hL (by decide) _ h3).mono fun _ s4 ⟨h4, c4, _⟩ => ⟨h4, ((Same.of_eq c2).trans c3).trans c4⟩

/-! ## Expressions -/

theorem err_same (h : Adv Z B k p s s1) (e : String) : CSafe B (Cc.err e) s1 fun _ s2 => Adv Z B k p s s2 ∧ Same s1.ctx s2.ctx :=
  (err_step h e).mono fun _ _ h => ⟨h.1, Same.of_eq h.2.1⟩

theorem op_same (hL : B .longjmp) {op : Nat} (ho : PlainOp op) (adj : Bool) (h : Adv Z B k p s s1) :
    CSafe B (emitOp op adj) s1 fun _ s2 => Adv Z B k p s s2 ∧ Same s1.ctx s2.ctx :=
  (emitOp_step hL ho adj h).mono fun _ _ h => ⟨h.1, h.2.1⟩

theorem seq_same {m : CM α} {f : α → CM β} (hm : CSafe B m s1 fun _ s2 => Adv Z B k p s s2 ∧ Same s1.ctx s2.ctx)
    (hf : ∀ a s2, Adv Z B k p s s2 → CSafe B (f a) s2 fun _ s3 => Adv Z B k p s s3 ∧ Same s2.ctx s3.ctx) :
    CSafe B (m >>= f) s1 fun _ s3 => Adv Z B k p s s3 ∧ Same s1.ctx s3.ctx :=
  hm.bind fun a s2 h2 => (hf a s2 h2.1).mono fun _ _ h3 => ⟨h3.1, h2.2.trans h3.2⟩

theorem jp_same {c : Prop} [Decidable c] {m : CM Unit} {K : Unit → CM β}
    (h1 : CSafe B (if c then m else Pure.pure ()) s1 fun _ s2 => Adv Z B k p s s2 ∧ Same s1.ctx s2.ctx)
    (hf : ∀ s2, Adv Z B k p s s2 → CSafe B (K ()) s2 fun _ s3 => Adv Z B k p s s3 ∧ Same s2.ctx s3.ctx) :
    CSafe B (if c then m >>= K else K ()) s1 fun _ s3 => Adv Z B k p s s3 ∧ Same s1.ctx s3.ctx :=
  jp_safe h1 fun s2 h2 => (hf s2 h2.1).mono fun _ _ h3 => ⟨h3.1, h2.2.trans h3.2⟩

theorem pure_same {a : α} (h : Adv Z B k p s s1) : CSafe B (Pure.pure a) s1 fun _ s2 => Adv Z B k p s s2 ∧ Same s1.ctx s2.ctx :=
  CSafe.pure ⟨h, Same.refl _⟩

theorem emitFSE_step (hL : B .longjmp) (name : Bytes) (n : Nat) (h : Adv Z B k p s s1) :
    CSafe B (emitFSE name n) s1 fun _ s2 => Adv Z B k p s s2 ∧ Same s1.ctx s2.ctx := by
  unfold emitFSE
  split
  · exact seq_same (subOffset_step h n) fun _ _ h2 => seq_same (emitInt_step hL _ _ h2) fun _ _ h3 => op_same hL (by decide) _ h3
  split
  · refine jp_same ?_ fun _ h2 => ?_
    · split
      · exact op_same hL (by decide) _ h
      · exact pure_same h
    · split
      · exact err_same h2 _
      · exact op_same hL (by decide) _ h2
  split
  · split
    · exact err_same h _
    split
    · exact err_same h _
    · refine jp_same ?_ fun _ h2 => op_same hL (by decide) _ h2
      split
      · exact op_same hL (by decide) _ h
      · exact pure_same h
  split
  · split
    · exact err_same h _
    · exact op_same hL (by decide) _ h
  split
  · split
    · exact err_same h _
    · exact op_same hL (by decide) _ h
  split
  · split
    · exact err_same h _
    · exact op_same hL (by decide) _ h
  · exact pure_same h

/-- The result of emitting or compiling an expression. -/
def ExQ (Z : Base) (B : UB → Prop) (s : CS) (b : Bool) (s' : CS) : Prop := Adv Z B 0 0 s s' ∧ Same s.ctx s'.ctx ∧ (b = false → s'.vm.errors ≠ [])

/-- The end of a function that counted its recursion. -/
theorem pop_pure {a : α} (h : Adv Z B (k + 1) p s s1) {Q : α → CS → Prop} (hq : ∀ s2, Adv Z B k p s s2 → s2.ctx = s1.ctx → s2.vm.errors = s1.vm.errors → Q a s2) :
    CSafe B (do popRec; Pure.pure a) s1 Q :=
  (popRec_step h).bind fun _ s2 h2 => CSafe.pure (hq s2 h2.1 h2.2.1 h2.2.2)

theorem simpleOp_plain {t : TokType} {b : Bool} {op : Nat} (h : simpleOp t b = some op) : PlainOp op := by
  unfold simpleOp at h
  split at h <;> first | (cases h; decide) | (cases h; done) | (cases b <;> cases h <;> decide)

theorem emitNode_step (hL : B .longjmp) (F : FloatOps) (tok : Token) (root : Bool) (r : Node) (h : Adv Z B 1 0 s s1) :
    CSafe B (emitNode F tok root r) s1 fun b s2 => Adv Z B 0 0 s s2 ∧ Same s1.ctx s2.ctx ∧ (b = false → s2.vm.errors ≠ []) := by
  have done : ∀ {m : CM Unit}, (CSafe B m s1 fun _ s2 => Adv Z B 1 0 s s2 ∧ Same s1.ctx s2.ctx) →
      CSafe B (do m; popRec; return true) s1 fun b s2 => Adv Z B 0 0 s s2 ∧ Same s1.ctx s2.ctx ∧ (b = false → s2.vm.errors ≠ []) := by
    intro m hm
    exact hm.bind fun _ s2 h2 => pop_pure h2.1 fun s3 h3 c3 _ => ⟨h3, h2.2.trans (Same.of_eq c3), (fun h => nomatch h)⟩
  have fin : ∀ {s2 : CS}, Adv Z B 1 0 s s2 → Same s1.ctx s2.ctx →
      CSafe B (do popRec; return true) s2 fun b s2 => Adv Z B 0 0 s s2 ∧ Same s1.ctx s2.ctx ∧ (b = false → s2.vm.errors ≠ []) :=
    fun h2 c2 => pop_pure h2 fun s3 h3 c3 _ => ⟨h3, c2.trans (Same.of_eq c3), (fun h => nomatch h)⟩
  unfold emitNode
  split
  · next op ho => exact done (op_same hL (simpleOp_plain ho) _ h)
  · split
    · exact done (emitFn_step hL _ _ h)
    · exact done (emitInt_step hL _ _ h)
    · exact done (emitFloat_step hL _ _ h)
    · exact done (emitStr_step hL _ _ h)
    · exact done (emitFetch_step hL _ h)
    · split
      · exact done (emitFSE_step hL _ _ h)
      · exact CSafe.err ⟨(h.err _).weaken (by omega) (by omega), Same.refl _, fun _ => (h.err' _).2⟩
    · dsimp only
      split
      · exact (emitInt_step hL _ _ h).bind fun _ _ h2 => (op_same hL (by decide) _ h2.1).bind fun _ _ h3 =>
          (subOffset_step h3.1 _).bind fun _ _ h4 => fin h4.1 ((h2.2.trans h3.2).trans h4.2)
      · exact fin h (Same.refl _)
    · dsimp only
      split
      · exact (emitInt_step hL _ _ h).bind fun _ _ h2 => (op_same hL (by decide) _ h2.1).bind fun _ _ h3 =>
          (op_same hL (by decide) _ h3.1).bind fun _ _ h4 => (subOffset_step h4.1 _).bind fun _ _ h5 =>
            fin h5.1 (((h2.2.trans h3.2).trans h4.2).trans h5.2)
      · exact fin h (Same.refl _)
    · exact (err_step h _).bind fun _ s2 h2 => pop_pure h2.1 fun s3 h3 c3 e3 =>
        ⟨h3, (Same.of_eq h2.2.1).trans (Same.of_eq c3), fun _ => by rw [e3]; exact h2.2.2⟩

/-- What emitting a child does; only an absent one fails without an error. -/
def EE (Z : Base) (B : UB → Prop) (v : Node) (e : CM Bool) : Prop :=
  ∀ s, Inv Z B s → CSafe B e s fun b s' => Adv Z B 0 0 s s' ∧ Same s.ctx s'.ctx ∧ (v ≠ .nil → b = false → s'.vm.errors ≠ [])

theorem emitAssign_step (hL : B .longjmp) {l r : Node} {er ea eb : CM Bool} (her : EE Z B r er) (hea : ∃ v, EE Z B v ea) (heb : ∃ v, EE Z B v eb)
    (h : Inv Z B s) : CSafe B (emitAssign l r er ea eb) s (ExQ Z B s) := by
  unfold emitAssign
  refine (pushRec_step (Adv.refl h)).bind fun ok s1 ⟨c1, h1⟩ => ?_
  cases ok with
  | false => exact CSafe.pure ⟨h1.1, Same.of_eq c1, fun _ => h1.2⟩
  | true =>
    replace h1 := h1.1
    have fail : ∀ {s2 : CS} (e : String), Adv Z B 1 0 s s2 → Same s.ctx s2.ctx → CSafe B (do err e; popRec; return false) s2 (ExQ Z B s) := by
      intro s2 e h2 c2
      exact (err_step h2 e).bind fun _ s3 h3 => pop_pure h3.1 fun s4 h4 c4 e4 =>
        ⟨h4, (c2.trans (Same.of_eq h3.2.1)).trans (Same.of_eq c4), fun _ => by rw [e4]; exact h3.2.2⟩
    have done : ∀ {s2 : CS}, Adv Z B 1 0 s s2 → Same s.ctx s2.ctx → CSafe B (do popRec; return true) s2 (ExQ Z B s) := by
      intro s2 h2 c2
      exact pop_pure h2 fun s4 h4 c4 e4 => ⟨h4, c2.trans (Same.of_eq c4), (fun h => nomatch h)⟩
    rw [if_pos rfl]
    split
    · exact fail _ h1 (Same.of_eq c1)
    · cases l with
      | nil => exact fail _ h1 (Same.of_eq c1)
      | mk t rt a b =>
        dsimp only
        refine (her s1 h1.inv).bind fun _ s2 ⟨h2, c2, _⟩ => ?_
        have h12 : Adv Z B 1 0 s s2 := h1.trans h2
        have c12 := (Same.of_eq c1).trans c2
        split
        · exact (emitSet_step hL _ h12).bind fun _ s3 ⟨h3, c3⟩ => done h3 (c12.trans c3)
        · split
          · obtain ⟨_, hea⟩ := hea
            obtain ⟨_, heb⟩ := heb
            refine (hea s2 h12.inv).bind fun _ s3 ⟨h3, c3, _⟩ => ?_
            have h13 : Adv Z B 1 0 s s3 := h12.trans h3
            refine (heb s3 h13.inv).bind fun _ s4 ⟨h4, c4, _⟩ => ?_
            have h14 : Adv Z B 1 0 s s4 := h13.trans h4
            exact (op_same hL (by decide) _ h14).bind fun _ s5 ⟨h5, c5⟩ => done h5 (((c12.trans c3).trans c4).trans c5)
          · exact fail _ h12 c12

theorem EE.nil (B : UB → Prop) : EE Z B .nil (Pure.pure false) := fun _ h => CSafe.pure ⟨Adv.refl h, Same.refl _, fun h => absurd rfl h⟩

theorem emitChild_step {v : Node} {e : CM Bool} (he : EE Z B v e) (h : Adv Z B k p s s1) : CSafe B (emitChild v e) s1 fun b s2 =>
    Adv Z B k p s s2 ∧ Same s1.ctx s2.ctx ∧ (b = false → s2.vm.errors ≠ []) := by
  unfold emitChild
  split
  · exact CSafe.pure ⟨h, Same.refl _, (fun h => nomatch h)⟩
  · next hn => exact (he s1 h.inv).mono fun b s2 ⟨h2, c2, e2⟩ => ⟨h.trans h2, c2, e2 hn⟩

theorem emitExpr_step (hL : B .longjmp) (F : FloatOps) : ∀ v, EE Z B v (emitExpr F v)
  | .nil => by
    intro s h
    unfold emitExpr
    refine (pushRec_step (Adv.refl h)).bind fun ok s1 ⟨c1, h1⟩ => ?_
    cases ok with
    | false => exact CSafe.pure ⟨h1.1, Same.of_eq c1, fun h => absurd rfl h⟩
    | true => exact CSafe.pure ⟨h1.1.weaken (by omega) (by omega), Same.of_eq c1, fun h => absurd rfl h⟩
  | .mk tok root .nil r => by
    intro s h
    have ih := emitExpr_step hL F r
    rw [emitExpr]
    refine (pushRec_step (Adv.refl h)).bind fun ok s1 ⟨c1, h1⟩ => ?_
    cases ok with
    | false => exact CSafe.pure ⟨h1.1, Same.of_eq c1, fun _ _ => h1.2⟩
    | true =>
      rw [if_pos rfl]
      split
      · refine (popRec_step h1.1).bind fun _ s2 ⟨h2, c2, _⟩ => ?_
        refine (emitAssign_step hL ih ⟨_, EE.nil B⟩ ⟨_, EE.nil B⟩ h2.inv).mono fun b s3 ⟨h3, c3, e3⟩ => ?_
        exact ⟨h2.trans h3, ((Same.of_eq c1).trans (Same.of_eq c2)).trans c3, fun _ => e3⟩
      · refine (emitChild_step ih h1.1).bind fun b s2 ⟨h2, c2, e2⟩ => ?_
        cases b with
        | true =>
          exact (emitNode_step hL F tok root r h2).mono fun b s3 ⟨h3, c3, e3⟩ => ⟨h3, ((Same.of_eq c1).trans c2).trans c3, fun _ => e3⟩
        | false =>
          exact pop_pure h2 fun s3 h3 c3 e3 => ⟨h3, ((Same.of_eq c1).trans c2).trans (Same.of_eq c3), fun _ _ => by rw [e3]; exact e2 rfl⟩
  | .mk tok root (.mk lt lr a b) r => by
    intro s h
    have ih := emitExpr_step hL F r
    have ia := emitExpr_step hL F a
    have ib := emitExpr_step hL F b
    have il := emitExpr_step hL F (.mk lt lr a b)
    rw [emitExpr]
    refine (pushRec_step (Adv.refl h)).bind fun ok s1 ⟨c1, h1⟩ => ?_
    cases ok with
    | false => exact CSafe.pure ⟨h1.1, Same.of_eq c1, fun _ _ => h1.2⟩
    | true =>
      rw [if_pos rfl]
      split
      · refine (popRec_step h1.1).bind fun _ s2 ⟨h2, c2, _⟩ => ?_
        refine (emitAssign_step hL ih ⟨_, ia⟩ ⟨_, ib⟩ h2.inv).mono fun b s3 ⟨h3, c3, e3⟩ => ?_
        exact ⟨h2.trans h3, ((Same.of_eq c1).trans (Same.of_eq c2)).trans c3, fun _ => e3⟩
      · refine (il s1 h1.1.inv).bind fun x s2 ⟨h2, c2, e2⟩ => ?_
        have h12 : Adv Z B 1 0 s s2 := h1.1.trans h2
        have c12 := (Same.of_eq c1).trans c2
        cases x with
        | false => exact pop_pure h12 fun s3 h3 c3 e3 => ⟨h3, c12.trans (Same.of_eq c3), fun _ _ => by rw [e3]; exact e2 (by simp) rfl⟩
        | true =>
          rw [if_pos rfl]
          refine (emitChild_step ih h12).bind fun b s3 ⟨h3, c3, e3⟩ => ?_
          cases b with
          | true => exact (emitNode_step hL F tok root r h3).mono fun b s4 ⟨h4, c4, e4⟩ => ⟨h4, (c12.trans c3).trans c4, fun _ => e4⟩
          | false =>
            exact pop_pure h3 fun s4 h4 c4 e4 => ⟨h4, (c12.trans c3).trans (Same.of_eq c4), fun _ _ => by rw [e4]; exact e3 rfl⟩

end Nk.Cc
