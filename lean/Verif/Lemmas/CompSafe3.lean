import Verif.Lemmas.CompSafe2
import Verif.Lemmas.StmtAll
/-!
# The compiler on arbitrary tokens: expressions and statements
-/
namespace Nk.Cc

variable {α β : Type} {Z : Base} {B : UB → Prop} {k p : Nat} {s s1 : CS}

/-! ## Compiling an expression -/

theorem incDecNode_ne (tok : Token) (l : Node) (d : Bool) : incDecNode tok l d ≠ .nil := by
  unfold incDecNode
  dsimp only
  split <;> simp

theorem expand_step : ∀ (v : Node) (d : Bool) {s : CS}, Inv Z B s → NodeOK v → CSafe B (expand v d) s fun w s' =>
    Adv Z B 0 0 s s' ∧ s'.ctx = s.ctx ∧ (v ≠ .nil → w ≠ .nil)
  | .nil, d, s, h, _ => by unfold expand; exact CSafe.pure ⟨Adv.refl h, rfl, fun h => absurd rfl h⟩
  | .mk tok root l r, d, s, h, hv => by
    unfold expand
    refine (pushRec_step (Adv.refl h)).bind fun ok s1 ⟨c1, h1⟩ => ?_
    cases ok with
    | false => exact CSafe.pure ⟨h1.1, c1, fun h => h⟩
    | true =>
      rw [if_pos rfl]
      split
      · next hi =>
        have := hv.2.2 hi
        rw [if_neg (by rintro (h | h); exact this.1 h; exact h this.2)]
        exact pop_pure h1.1 fun s2 h2 c2 _ => ⟨h2, c2.trans c1, fun _ => incDecNode_ne _ _ _⟩
      · refine (expand_step l false h1.1.inv hv.1).bind fun l' s2 ⟨h2, c2, _⟩ => ?_
        refine (expand_step r false h2.inv hv.2.1).bind fun r' s3 ⟨h3, c3, _⟩ => ?_
        have h13 : Adv Z B 1 0 s s3 := (h1.1.trans h2).trans h3
        exact pop_pure h13 fun s4 h4 c4 _ => ⟨h4, ((c4.trans c3).trans c2).trans c1, fun _ => by simp⟩

theorem i32_only {n : Int} {k : UB} (h : i32 n = .ub k) : k = .overflow := by
  unfold i32 at h; split at h <;> cases h; rfl

theorem someR_only {n : Int} {k : UB} (h : someR (i32 n) = .ub k) : k = .overflow := by
  cases hi : i32 n with
  | ok a => rw [hi] at h; cases h
  | ub j => rw [hi] at h; cases h; exact i32_only hi

theorem foldInt_only {op : TokType} (hf : canFold op = true) {a : BitVec 32} {b : Option (BitVec 32)} {k : UB} (h : foldInt op a b = .ub k) :
    k = .overflow := by
  unfold foldInt at h
  dsimp only at h
  split at h
  · exact someR_only h
  · split at h <;> exact someR_only h
  · exact someR_only h
  · split at h
    · cases h
    · exact someR_only h
  · next h1 h2 h3 h4 => cases op <;> first | (exact absurd rfl ‹_›) | (cases hf)

theorem foldFloat_only {F : FloatOps} {op : TokType} (hf : canFold op = true) {a : BitVec 32} {b : Option (BitVec 32)} {k : UB}
    (h : foldFloat F op a b = .ub k) : k = .overflow := by
  unfold foldFloat at h
  dsimp only at h
  split at h
  · cases h
  · split at h <;> cases h
  · cases h
  · split at h <;> cases h
  · next h1 h2 h3 h4 => cases op <;> first | (exact absurd rfl ‹_›) | (cases hf)

theorem foldNode_only (F : FloatOps) (tok : Token) (root : Bool) (l r : Node) : match foldNode F tok root l r with
    | .ok w => w ≠ .nil
    | .ub k => k = .overflow := by
  unfold foldNode
  cases l with
  | nil => simp
  | mk lt lr a b =>
    dsimp only
    by_cases hc : canFold tok.type ∧ isImm (.mk lt lr a b) ∧ (r = .nil ∨ isImm r)
    · rw [if_pos hc]
      by_cases hi : lt.type = .integer
      · rw [if_pos hi]
        generalize hf : foldInt _ _ _ = x
        cases x with
        | ub k => exact foldInt_only hc.1 hf
        | ok o => cases o <;> simp
      · rw [if_neg hi]
        generalize hf : foldFloat _ _ _ _ = x
        cases x with
        | ub k => exact foldFloat_only hc.1 hf
        | ok o => cases o <;> simp
    · rw [if_neg hc]; simp

theorem optimize_only (F : FloatOps) : ∀ v : Node, match optimize F v with
    | .ok w => v ≠ .nil → w ≠ .nil
    | .ub k => k = .overflow
  | .nil => by unfold optimize; exact fun h => h
  | .mk tok root l r => by
    unfold optimize
    have hl := optimize_only F l
    have hr := optimize_only F r
    cases h1 : optimize F l with
    | ub k => rw [h1] at hl; exact hl
    | ok l' =>
      dsimp only
      cases h2 : optimize F r with
      | ub k => rw [h2] at hr; exact hr
      | ok r' =>
        dsimp only
        have := foldNode_only F tok root l' r'
        cases h3 : foldNode F tok root l' r' with
        | ub k => rw [h3] at this; exact this
        | ok w => rw [h3] at this; exact fun _ => this

/-- What compiling an anonymous function does. -/
def FDS (Z : Base) (B : UB → Prop) (D : Nat) (fd : CM (Option Nat)) : Prop :=
  ∀ s, Inv Z B s → D ≤ s.depth → CSafe B fd s fun o s' => Adv Z B 0 (if o.isSome then 1 else 0) s s' ∧ Same s.ctx s'.ctx

/-- The invariant of the parser, seen from the state at its start. -/
def PJ (Z : Base) (B : UB → Prop) (s0 s : CS) : Prop :=
  Inv Z B s ∧ Grew s0.vm.instrs s0.write s.vm.instrs s.write ∧ Same s0.ctx s.ctx ∧ s0.vm.functions.length ≤ s.vm.functions.length

theorem PJ.closed (B : UB → Prop) (s0 : CS) : Closed B (PJ Z B s0) := by
  refine ⟨fun {s} h => ?_, fun {s} e h => ⟨h.1.err e, h.2.1, h.2.2.1, h.2.2.2⟩, fun {s} d h => ⟨h.1.dep d, h.2.1, h.2.2.1, h.2.2.2⟩,
    fun {s} h t ht => h.1.good t ht⟩
  obtain ⟨h1, h2, h3, h4, h5, h6, h7⟩ := advance_eqs s
  exact ⟨h.1.adv, by rw [h1, h3]; exact h.2.1, by rw [h6]; exact h.2.2.1, by rw [h7]; exact h.2.2.2⟩

theorem FDS.fd {D : Nat} {fd : CM (Option Nat)} (h : FDS Z B D fd) (s0 : CS) : FD B (PJ Z B s0) D fd := by
  intro s hs hd
  refine (h s hs.1 hd).mono fun o s' ⟨h1, h2⟩ => ?_
  refine ⟨⟨⟨h1.inv, hs.2.1.trans h1.grew, hs.2.2.1.trans h2, Nat.le_trans hs.2.2.2 h1.fnum⟩, by have := h1.depth; omega, h1.toks, h1.errs⟩, fun ho => ?_⟩
  have := h1.len
  rw [if_pos ho] at this
  omega

theorem compileNoEmit_step (hO : B .overflow) {F : FloatOps} {D : Nat} {fd : CM (Option Nat)} (hfd : FDS Z B D fd) (discard : Bool)
    {s : CS} (h : Inv Z B s) (hd : D ≤ s.depth) : CSafe B (compileNoEmit F fd discard) s fun v s' =>
      Adv Z B 0 0 s s' ∧ Same s.ctx s'.ctx ∧ (v = .nil → s'.vm.errors ≠ []) := by
  unfold compileNoEmit
  refine (pushRec_step (Adv.refl h)).bind fun ok s1 ⟨c1, h1⟩ => ?_
  cases ok with
  | false => exact CSafe.pure ⟨h1.1, Same.of_eq c1, fun _ => h1.2⟩
  | true =>
    rw [if_pos rfl]
    have hD := h1.1.depth
    refine (parseExpr_safe (PJ.closed B s1) (hfd.fd s1) maxDepth D (by omega) (by unfold maxDepth; omega) (by decide) s1
      ⟨h1.1.inv, h1.1.inv.shape.refl, Same.refl _, Nat.le_refl _⟩ (by omega)).bind fun v s2 ⟨g, hv⟩ => ?_
    have h2 : Adv Z B 0 0 s1 s2 := ⟨g.keep.1, g.keep.2.1, g.depth, g.toks, g.toks.length_le, g.errs, g.keep.2.2.2⟩
    have hn : NodeOK v := by
      rcases hv with hv | hv
      · exact hv.1.2.1
      · rw [hv.1]; exact trivial
    refine (expand_step v discard h2.inv hn).bind fun w s3 ⟨h3, c3, e3⟩ => ?_
    have ho := optimize_only F w
    have c13 : Same s.ctx s3.ctx := ((Same.of_eq c1).trans g.keep.2.2.1).trans (Same.of_eq c3)
    have h13 : Adv Z B 1 0 s s3 := (h1.1.trans h2).trans h3
    cases hw : optimize F w with
    | ub k => rw [hw] at ho; exact CSafe.ub rfl (ho ▸ hO)
    | ok x =>
      rw [hw] at ho
      refine CSafe.cget (pop_pure h13 fun s4 h4 c4 e4 => ⟨h4, c13.trans (Same.of_eq c4), fun hnil => ?_⟩)
      rw [e4]
      split at hnil
      · next he =>
        exfalso
        rcases hv with hv | hv
        · exact ho (e3 hv.1.1) hnil
        · have := hv.2
          have k1 := h3.errs
          rw [he] at k1
          unfold Failed at this
          simp only [List.length_nil, Nat.le_zero] at k1
          omega
      · next he => exact he

theorem compileExpr_step (hL : B .longjmp) (hO : B .overflow) {F : FloatOps} {D : Nat} {fd : CM (Option Nat)} (hfd : FDS Z B D fd) (discard : Bool)
    {s : CS} (h : Inv Z B s) (hd : D ≤ s.depth) : CSafe B (compileExpr F fd discard) s (ExQ Z B s) := by
  unfold compileExpr
  refine (pushRec_step (Adv.refl h)).bind fun ok s1 ⟨c1, h1⟩ => ?_
  cases ok with
  | false => exact CSafe.pure ⟨h1.1, Same.of_eq c1, fun _ => h1.2⟩
  | true =>
    rw [if_pos rfl]
    have hD := h1.1.depth
    refine (compileNoEmit_step hO hfd discard h1.1.inv (by omega)).bind fun v s2 ⟨h2, c2, e2⟩ => ?_
    have h12 : Adv Z B 1 0 s s2 := h1.1.trans h2
    have c12 := (Same.of_eq c1).trans c2
    split
    · next hv => exact pop_pure h12 fun s3 h3 c3 e3 => ⟨h3, c12.trans (Same.of_eq c3), fun _ => by rw [e3]; exact e2 hv⟩
    · next hv =>
      refine (emitExpr_step hL F v s2 h12.inv).bind fun b s3 ⟨h3, c3, e3⟩ => ?_
      have h13 : Adv Z B 1 0 s s3 := h12.trans h3
      exact pop_pure h13 fun s4 h4 c4 e4 => ⟨h4, (c12.trans c3).trans (Same.of_eq c4), fun hb => by rw [e4]; exact e3 hv hb⟩

/-- What compiling an expression does. -/
def CE (Z : Base) (B : UB → Prop) (D : Nat) (ce : CM Bool) : Prop := ∀ s, Inv Z B s → D ≤ s.depth → CSafe B ce s (ExQ Z B s)

/-! ## Statements -/

/-- The result of a statement, with what it may do to the contexts. -/
def StQ (Z : Base) (B : UB → Prop) (R : List CCtx → List CCtx → Prop) (s : CS) (b : Bool) (s' : CS) : Prop :=
  Adv Z B 0 (if b then 1 else 0) s s' ∧ R s.ctx s'.ctx ∧ (b = false → s'.vm.errors ≠ [])

/-- What compiling a statement does. -/
def ST (Z : Base) (B : UB → Prop) (D : Nat) (st : CM Bool) : Prop := ∀ s, Inv Z B s → D ≤ s.depth → CSafe B st s (StQ Z B CtxTo s)

/-- A statement that leaves the names as they are. -/
def Keeps (l l' : List CCtx) : Prop := CtxTo l l' ∧ names l' = names l

theorem Keeps.trans {a b c : List CCtx} (h : Keeps a b) (g : Keeps b c) : Keeps a c := ⟨h.1.trans g.1, g.2.trans h.2⟩
theorem Same.keeps {a b : List CCtx} (h : Same a b) (ha : a ≠ []) : Keeps a b := ⟨h.to ha, h.names⟩
theorem Fars.keeps {a b : List CCtx} (h : Fars a b) (ha : a ≠ []) : Keeps a b := ⟨h.to ha, h.names⟩

variable {R : List CCtx → List CCtx → Prop}

theorem StQ.done (h : Adv Z B k (p + 1) s s1) (hr : R s.ctx s1.ctx) : StQ Z B R s true s1 :=
  ⟨h.weaken (by omega) (by simp), hr, (fun h => nomatch h)⟩
theorem StQ.fail (h : Adv Z B k p s s1) (hr : R s.ctx s1.ctx) (he : s1.vm.errors ≠ []) : StQ Z B R s false s1 :=
  ⟨h.weaken (by omega) (by simp), hr, fun _ => he⟩

theorem expectStmt_step {t : TokType} (ht : t ≠ .invalid) (h : Adv Z B (k + 1) p s s1) {K : CM Bool} {Q : Bool → CS → Prop}
    (hK : ∀ s2, Adv Z B 0 1 s1 s2 → s2.ctx = s1.ctx → CSafe B K s2 Q)
    (hf : ∀ s2, Adv Z B k p s s2 → s2.ctx = s1.ctx → s2.vm.errors ≠ [] → Q false s2) : CSafe B (expectStmt t K) s1 Q := by
  unfold expectStmt
  refine (expectSkip_step ht (Adv.refl h.inv)).bind fun ok s2 ⟨c2, h2⟩ => ?_
  cases ok with
  | true => exact hK s2 h2 c2
  | false =>
    have h3 : Adv Z B (k + 1) p s s2 := h.trans h2.1
    exact pop_pure h3 fun s3 h4 c4 e4 => hf s3 h4 (c4.trans c2) (by rw [e4]; exact h2.2)

theorem Adv.tok {s2 : CS} (h : Adv Z B k p s s1) (g : Adv Z B 0 1 s1 s2) : Adv Z B k (p + 1) s s2 := h.trans g

theorem Adv.zero {s2 : CS} (h : Adv Z B k p s s1) (g : Adv Z B 0 0 s1 s2) : Adv Z B k p s s2 := h.trans g

theorem curString_safe {f : Bytes → CM β} {Q : β → CS → Prop} (h : ∀ x, CSafe B (f x) s Q) : CSafe B (curString >>= f) s Q := h _

theorem varDecl_step (hL : B .longjmp) {D : Nat} {ce : CM Bool} (hce : CE Z B D ce) (h : Inv Z B s) (hd : D ≤ s.depth) :
    CSafe B (varDecl ce) s (StQ Z B CtxTo s) := by
  have hne := h.wf.ctx
  unfold varDecl
  refine (pushRec_step (Adv.refl h)).bind fun ok s1 ⟨c1, h1⟩ => ?_
  cases ok with
  | false => exact CSafe.pure (StQ.fail h1.1 (by rw [c1]; exact CtxTo.refl hne) h1.2)
  | true =>
    rw [if_pos rfl]
    replace h1 := h1.1
    have no : ∀ {p : Nat} {a b : CS}, CtxTo s.ctx a.ctx → Adv Z B 0 p s b → b.ctx = a.ctx → b.vm.errors ≠ [] → StQ Z B CtxTo s false b :=
      fun hc hb e he => StQ.fail hb (by rw [e]; exact hc) he
    have ct1 : CtxTo s.ctx s1.ctx := by rw [c1]; exact CtxTo.refl hne
    refine expectStmt_step (by decide) h1 (fun s2 h2 c2 => ?_) fun _ a b c => no ct1 a b c
    have h12 := h1.trans h2
    have ct2 : CtxTo s.ctx s2.ctx := by rw [c2]; exact ct1
    refine CSafe.curType ?_
    split
    · refine (err_step h12 _).bind fun _ s3 h3 => ?_
      exact pop_pure h3.1 fun s4 h4 c4 e4 => StQ.fail h4 (by rw [c4, h3.2.1]; exact ct2) (by rw [e4]; exact h3.2.2)
    · refine curString_safe fun name => ?_
      refine expectStmt_step (by decide) h12 (fun s3 h3 c3 => ?_) fun _ a b c => no ct2 a b c
      have h13 := h12.trans h3
      have ct3 : CtxTo s.ctx s3.ctx := by rw [c3]; exact ct2
      have fin : ∀ {p : Nat} {s4 : CS}, Adv Z B 1 p s s4 → CtxTo s.ctx s4.ctx →
          CSafe B (expectStmt .semicolon do popRec; return true) s4 (StQ Z B CtxTo s) := by
        intro p s4 h4 ct4
        refine expectStmt_step (by decide) h4 (fun s5 h5 c5 => ?_) fun _ a b c => no ct4 a b c
        exact pop_pure (h4.tok h5) fun s6 h6 c6 _ => StQ.done h6 (by rw [c6, c5]; exact ct4)
      refine CSafe.curType ?_
      split
      · refine expectStmt_step (by decide) h13 (fun s4 h4 c4 => ?_) fun _ a b c => no ct3 a b c
        have h14 := h13.trans h4
        have ct4 : CtxTo s.ctx s4.ctx := by rw [c4]; exact ct3
        have := h14.depth
        refine (hce s4 h14.inv (by omega)).bind fun b s5 ⟨h5, c5, e5⟩ => ?_
        have h15 := h14.trans h5
        have ct5 := ct4.trans (c5.to h14.inv.wf.ctx)
        cases b with
        | false => exact pop_pure h15 fun s6 h6 c6 e6 => StQ.fail h6 (by rw [c6]; exact ct5) (by rw [e6]; exact e5 rfl)
        | true =>
          rw [if_pos rfl]
          refine (addVariable_step hL name true true h15).bind fun _ s6 ⟨h6, c6, _⟩ => ?_
          exact fin h6 (ct5.trans c6)
      · refine (addVariable_step hL name false true h13).bind fun _ s6 ⟨h6, c6, _⟩ => ?_
        exact fin h6 (ct3.trans c6)

theorem emitReturn_step (hL : B .longjmp) (h : Adv Z B k p s s1) :
    CSafe B emitReturn s1 fun _ s2 => Adv Z B k p s s2 ∧ Same s1.ctx s2.ctx := by
  unfold emitReturn
  refine CSafe.cget ?_
  split
  · exact err_same h _
  · split
    · exact err_same h _
    · split
      · next hx => exact absurd hx h.inv.wf.ctx
      · exact seq_same (emitInt_step hL _ _ h) fun _ _ h2 => op_same hL (by decide) _ h2

theorem returnStmt_step (hL : B .longjmp) {D : Nat} {ce : CM Bool} (hce : CE Z B D ce) (h : Inv Z B s) (hd : D ≤ s.depth) :
    CSafe B (returnStmt ce) s (StQ Z B Keeps s) := by
  have hne := h.wf.ctx
  unfold returnStmt
  refine (pushRec_step (Adv.refl h)).bind fun ok s1 ⟨c1, h1⟩ => ?_
  cases ok with
  | false => exact CSafe.pure (StQ.fail h1.1 ((Same.of_eq c1).keeps hne) h1.2)
  | true =>
    rw [if_pos rfl]
    replace h1 := h1.1
    have no : ∀ {p : Nat} {a b : CS}, Same s.ctx a.ctx → Adv Z B 0 p s b → b.ctx = a.ctx → b.vm.errors ≠ [] → StQ Z B Keeps s false b :=
      fun hc hb e he => StQ.fail hb ((hc.trans (Same.of_eq e)).keeps hne) he
    refine expectStmt_step (by decide) h1 (fun s2 h2 c2 => ?_) fun _ a b c => no (Same.of_eq c1) a b c
    have h12 := h1.trans h2
    have ct2 : Same s.ctx s2.ctx := (Same.of_eq c1).trans (Same.of_eq c2)
    have := h12.depth
    refine (hce s2 h12.inv (by omega)).bind fun b s3 ⟨h3, c3, e3⟩ => ?_
    have h13 := h12.trans h3
    have ct3 := ct2.trans c3
    cases b with
    | false => exact pop_pure h13 fun s6 h6 c6 e6 => StQ.fail h6 ((ct3.trans (Same.of_eq c6)).keeps hne) (by rw [e6]; exact e3 rfl)
    | true =>
      rw [if_pos rfl]
      refine (emitReturn_step hL h13).bind fun _ s4 ⟨h4, c4⟩ => ?_
      have ct4 := ct3.trans c4
      refine expectStmt_step (by decide) h4 (fun s5 h5 c5 => ?_) fun _ a b c => no ct4 a b c
      exact pop_pure (h4.tok h5) fun s6 h6 c6 _ => StQ.done h6 (((ct4.trans (Same.of_eq c5)).trans (Same.of_eq c6)).keeps hne)

theorem blockLoop_step {D : Nat} {st : CM Bool} (hst : ST Z B D st) : ∀ (n : Nat) {s : CS}, Inv Z B s → D ≤ s.depth → s.toks.length < n →
    CSafe B (blockLoop st n) s fun b s' => Adv Z B 0 0 s s' ∧ CtxTo s.ctx s'.ctx ∧ (b = false → s'.vm.errors ≠ [])
  | 0, _, _, _, hn => by omega
  | n + 1, s, h, hd, hn => by
    unfold blockLoop
    refine CSafe.curType ?_
    split
    · refine (hst s h hd).bind fun b s1 ⟨h1, c1, e1⟩ => ?_
      cases b with
      | false => exact CSafe.pure ⟨h1, c1, e1⟩
      | true =>
        rw [if_pos rfl]
        have := h1.depth
        have k2 := h1.len
        rw [if_pos rfl] at k2
        exact (blockLoop_step hst n h1.inv (by omega) (by omega)).mono fun b s2 ⟨h2, c2, e2⟩ =>
          ⟨(h1.trans h2).weaken (by omega) (by omega), c1.trans c2, e2⟩
    · exact CSafe.pure ⟨Adv.refl h, CtxTo.refl h.wf.ctx, (fun h => nomatch h)⟩

theorem sameCtx_safe {n : Nat} {f : Unit → CM β} {Q : β → CS → Prop} (hn : s.ctx.length = n) (h : CSafe B (f ()) s Q) :
    CSafe B (sameCtx n >>= f) s Q := by
  refine CSafe.bind (P := fun _ s' => s' = s) ?_ fun _ s' e => by rw [e]; exact h
  unfold sameCtx
  refine CSafe.cget ?_
  rw [if_pos hn]
  exact CSafe.pure rfl

theorem Fars.len {a b : List CCtx} (h : Fars a b) : b.length = a.length := h.length_eq.symm

theorem block_step (hL : B .longjmp) {D : Nat} {st : CM Bool} (hst : ST Z B D st) (h : Inv Z B s) (hd : D ≤ s.depth) :
    CSafe B (block st) s (StQ Z B Keeps s) := by
  have hne := h.wf.ctx
  unfold block
  refine CSafe.cget ?_
  refine (pushRec_step (Adv.refl h)).bind fun ok s1 ⟨c1, h1⟩ => ?_
  cases ok with
  | false => exact CSafe.pure (StQ.fail h1.1 ((Same.of_eq c1).keeps hne) h1.2)
  | true =>
    rw [if_pos rfl]
    replace h1 := h1.1
    refine expectStmt_step (by decide) h1 (fun s2 h2 c2 => ?_)
      fun s' a b c => StQ.fail a (by rw [b, c1]; exact (Same.refl _).keeps hne) c
    have h12 := h1.trans h2
    refine (pushCtx_step h12).bind fun _ s3 ⟨h3, c3⟩ => CSafe.cget ?_
    have u3 : Under 1 s.ctx s3.ctx := by rw [c3, c2, c1]; exact (Under.zero.mpr (Fars.refl _)).push _
    have := h3.depth
    refine (blockLoop_step hst _ h3.inv (by omega) (by omega)).bind fun b s4 ⟨h4, c4, e4⟩ => ?_
    have h14 := h3.trans h4
    have u4 := u3.to c4
    cases b with
    | false =>
      refine (pop_under hL (Adv.refl h14.inv) u4 hne).bind fun _ s5 ⟨h5, u5⟩ => ?_
      have e5 : s5.vm.errors ≠ [] := h5.failed (e4 rfl)
      exact pop_pure (h14.zero h5) fun s6 h6 c6 e6 => StQ.fail h6 (by rw [c6]; exact (Under.zero.mp u5).keeps hne) (by rw [e6]; exact e5)
    | true =>
      rw [if_pos rfl]
      refine (pop_under hL h14 u4 hne).bind fun _ s5 ⟨h5, u5⟩ => ?_
      have f5 := Under.zero.mp u5
      refine expectStmt_step (by decide) h5 (fun s6 h6 c6 => ?_) fun s' a b c => StQ.fail a (by rw [b]; exact f5.keeps hne) c
      refine sameCtx_safe (by rw [c6]; exact f5.len) ?_
      exact pop_pure (h5.tok h6) fun s7 h7 c7 _ => StQ.done h7 (by rw [c7, c6]; exact f5.keeps hne)

end Nk.Cc
