import Verif.Lemmas.StmtGen
/-!
# Compiling each kind of statement
-/
namespace Nk.Cc
open Nk.Props
variable {F : FloatOps} {H : Host}

/-! ## First tokens -/

/-- Tokens that begin an expression. -/
def startsEx (t : TokType) : Bool := isAtom t || t == .parenOpen || t == .functionStyleExpression || isPrefixOp t

theorem primary_start {E : List Token → Node → Prop} {ts : List Token} {v : Node} (h : Primary E ts v) :
    ∃ t us, ts = t :: us ∧ startsEx t.type = true := by
  cases h with
  | atom t h => exact ⟨t, [], rfl, by simp [startsEx, h]⟩
  | paren o c ho hc h => exact ⟨o, _, rfl, by simp [startsEx, ho]⟩

theorem postfixed_start {E : List Token → Node → Prop} {ts : List Token} {v : Node} (h : Postfixed E ts v) :
    ∃ t us, ts = t :: us ∧ startsEx t.type = true := by
  induction h with
  | primary h => exact primary_start h
  | fse t o c ht ho hc h => exact ⟨t, _, rfl, by simp [startsEx, ht]⟩
  | index _ _ _ _ _ _ ih | call _ _ _ _ _ _ _ ih | dot _ _ _ _ _ ih | self _ _ _ _ _ _ _ _ _ _ ih | inc _ _ _ ih | dec _ _ _ ih =>
    obtain ⟨t, us, rfl, h⟩ := ih
    exact ⟨t, _, rfl, h⟩

theorem prefixed_start {E : List Token → Node → Prop} {ts : List Token} {v : Node} (h : Prefixed E ts v) :
    ∃ t us, ts = t :: us ∧ startsEx t.type = true := by
  cases h with
  | none h => exact postfixed_start h
  | cons t ht h => exact ⟨t, _, rfl, by simp [startsEx, ht]⟩

theorem tree_start {E : List Token → Node → Prop} : ∀ {T : Tree}, T.All (Prefixed E) → ∃ t us, T.toks = t :: us ∧ startsEx t.type = true
  | .leaf ts v, h => prefixed_start h
  | .op o l r, h => by
    obtain ⟨t, us, h1, h2⟩ := tree_start (T := l) h.1
    exact ⟨t, us ++ o :: r.toks, by simp [Tree.toks, h1], h2⟩

theorem expr_start {d : Nat} {ts : List Token} {v : Node} (h : Expr d ts v) : ∃ t us, ts = t :: us ∧ startsEx t.type = true := by
  cases d with
  | zero => cases h
  | succ d =>
    obtain ⟨T, _, h2, h3, _⟩ := h
    rw [← h3]; exact tree_start h2

theorem exSrc_start {d : Nat} {b : Bool} {ts : List Token} {e : Ex} (h : ExSrc F d b ts e) :
    ∃ t us, ts = t :: us ∧ startsEx t.type = true := by
  obtain ⟨v, h, _⟩ := h
  exact expr_start h

/-- Tokens that begin a statement. -/
theorem src_start {d : Nat} {ts : List Token} {S : St} (h : Src F d ts S) :
    ∃ t us, ts = t :: us ∧ t.type ≠ .curlyClose ∧ t.type ≠ .invalid ∧ t.type ≠ .kwElse := by
  have kw : ∀ {t : Token} {y : TokType}, t.type = y → y ≠ .curlyClose → y ≠ .invalid → y ≠ .kwElse →
      t.type ≠ .curlyClose ∧ t.type ≠ .invalid ∧ t.type ≠ .kwElse := fun h a b c => by rw [h]; exact ⟨a, b, c⟩
  cases h with
  | expr h _ _ =>
    obtain ⟨t, us, rfl, hx⟩ := exSrc_start h
    have no : ∀ y, startsEx y = false → t.type ≠ y := by rintro y hy rfl; rw [hy] at hx; cases hx
    exact ⟨t, _, rfl, no _ rfl, no _ rfl, no _ rfl⟩
  | decl h => exact ⟨_, _, rfl, kw h (by decide) (by decide) (by decide)⟩
  | decl0 h => exact ⟨_, _, rfl, kw h (by decide) (by decide) (by decide)⟩
  | block h => exact ⟨_, _, rfl, kw h (by decide) (by decide) (by decide)⟩
  | ifThen h => exact ⟨_, _, rfl, kw h (by decide) (by decide) (by decide)⟩
  | ifElse h => exact ⟨_, _, rfl, kw h (by decide) (by decide) (by decide)⟩
  | «while» h => exact ⟨_, _, rfl, kw h (by decide) (by decide) (by decide)⟩
  | doWhile h => exact ⟨_, _, rfl, kw h (by decide) (by decide) (by decide)⟩
  | «for» h => exact ⟨_, _, rfl, kw h (by decide) (by decide) (by decide)⟩
  | brk h => exact ⟨_, _, rfl, kw h (by decide) (by decide) (by decide)⟩
  | ret h => exact ⟨_, _, rfl, kw h (by decide) (by decide) (by decide)⟩

mutual
theorem src_leak {d : Nat} {ts : List Token} {S : St} : Src F d ts S → S.leak ≤ d
  | .expr _ _ _ => by simp [St.leak]
  | .decl _ _ _ _ _ h => by simp only [St.leak]; omega
  | .decl0 _ _ _ h => by simp only [St.leak]; omega
  | .block _ _ h => by have := srcs_leak h; simp only [St.leak]; omega
  | .ifThen _ _ _ _ _ h => by have := src_leak h; simp only [St.leak]; omega
  | .ifElse _ _ _ _ _ h _ _ g => by have := src_leak h; have := src_leak g; simp only [St.leak]; omega
  | .while _ _ _ _ _ h => by have := src_leak h; simp only [St.leak]; omega
  | .doWhile _ h _ _ _ _ _ _ => by have := src_leak h; simp only [St.leak]; omega
  | .for _ _ h _ _ _ _ _ _ g => by have := src_leak h; have := src_leak g; simp only [St.leak]; omega
  | .brk _ _ _ => by simp [St.leak]
  | .ret _ _ _ h => by simp only [St.leak]; omega
theorem srcs_leak {d : Nat} {ts : List Token} {S : Sts} : Srcs F d ts S → S.leak ≤ d
  | .nil => by simp [Sts.leak]
  | .cons h g => by have := src_leak h; have := srcs_leak g; simp only [Sts.leak]; omega
end

/-! ## Common parts -/

theorem Plain.moved {s s1 s2 s' : CS} {size : Nat} {fx : List Nat} {P : Nat → Rel} (m : Moved s s1) (h : Plain F H s1 s2 size fx P) (p : Pre s)
    (n : Moved s2 s') (hi : s'.vm.instrs = s2.vm.instrs) : Plain F H s s' size fx P := by
  have e : offOf s1.ctx = offOf s.ctx := by rw [m.ctx]
  refine ⟨by have := (m.seg.trans h.seg).trans0 n.seg; rwa [h.seg.off (p.moved m).wf, e, List.nil_append] at this, fun K a b c d => ?_⟩
  have x := h.sim K (a.seg p m.seg) (b.grow n.grow) (by rw [m.write, ← n.write, ← hi]; exact c) (by rw [e]; exact d)
  rw [e, m.write, ← n.write] at x
  exact x

theorem stmtEnd_inv {s s' : CS} {n : Nat} {r : Bool} (h : stmtEnd n true s = .ok (r, s')) : r = true ∧ s' = { s with depth := s.depth - 1 } := by
  unfold stmtEnd at h
  rw [if_pos rfl] at h
  obtain ⟨_, s1, h1, h2⟩ := CM.bind_inv h
  unfold sameCtx at h1
  rw [CM.cget_bind] at h1
  split at h1
  · cases h1
    obtain ⟨a, _, b⟩ := popTrue_inv h2
    exact ⟨a, b⟩
  · cases h1

theorem typeOf_cons {t : Token} {ts : List Token} : typeOf (t :: ts) = t.type := rfl

/-- Words written at some time, in the finished code. -/
theorem Emit.loaded {a b c : CS} {ws : List (BitVec 32)} {g : List Nat} (e : Emit a ws b) (k : Grow b c g) {I : List (BitVec 32)} {lo hi : Nat}
    {js : List (Nat × Nat)} (h : Loaded I lo hi c.vm.instrs js) {i : Nat} {w : BitVec 32} (hw : ws[i]? = some w) (h1 : lo ≤ a.write)
    (h2 : b.write ≤ hi) (h3 : ∀ x ∈ js, a.write + i ≠ x.1 + 1) : I[a.write + i]? = some w := by
  have hi : i < ws.length := (List.getElem?_eq_some_iff.mp hw).1
  have := e.write
  exact h.at ((k.below _ (by omega)).trans (e.code i w hw)) (by omega) (by omega) h3

/-! ## `if` -/

theorem ifHead_inv {st : CM Bool} (hst : CMono st) {fd : CM (Option Nat)} (hfd : CMono fd) {S : St} {e : Ex} (w : Works F H st S)
    {d k : Nat} {ts us rest : List Token} {s s' : CS} {i o c : Token} {r : Bool} (p : Pre s)
    (ho : offOf s.ctx + (e.size + S.size + 1) < 4294967296) (hi : i.type = .kwIf) (hpo : o.type = .parenOpen) (hpc : c.type = .parenClose)
    (sx : ExSrc F k false ts e) (hk : 2 + 2 * k ≤ d) (src : Src F d us S) (hopen : S.open = true → typeOf rest ≠ .kwElse)
    (ht : s.toks = i :: o :: ts ++ c :: us ++ rest) (hd : s.depth + 1 + d ≤ 257)
    (h : ifStmt st (compileExpr F fd false) s = .ok (r, s')) (he : s'.vm.errors = []) :
    ∃ s6 q f, (jumpHere q >>= fun _ => elsePart st q) s6 = .ok (r, s') ∧ s6.vm.errors = [] ∧ s6.toks = rest ∧ s6.depth = s.depth + 1 + S.leak ∧ (S.breaks = false → f = []) ∧
      Seg s s6 f (offOf s.ctx) ∧ s.write ≤ q ∧ q + 3 ≤ s6.write ∧ (∀ a ∈ f, q + 3 ≤ a) ∧
      ∀ K T m Q, At F H K s → Has K s6 → Loaded K.I s.write s6.write s6.vm.instrs ((q, T) :: toT f K.T) → T < 4294967296 →
        K.b + offOf s.ctx + (e.size + S.size + 1) ≤ K.n → Sim K Q T m (offOf s.ctx) (offOf s.ctx) →
        (Sim K (Scope (S.exec F H K.b (envOf s).inner)) (q + 3) s6.write (offOf s.ctx) (offOf s.ctx) →
          Sim K (Scope (S.exec F H K.b (envOf s).inner)) (q + 3) m (offOf s.ctx) (offOf s.ctx)) →
        Sim K (Eval F H K.b (placeOf s.ctx) e (Test (Scope (S.exec F H K.b (envOf s).inner)) Q)) s.write m (offOf s.ctx) (offOf s.ctx) := by
  have hes := e.size_pos
  have mono := compileExpr_mono hfd F false
  unfold ifStmt at h
  have h := pushRec_same (by intro a; have := @elsePart_mono; cmono) h (he.trans p.errs.symm)
  rw [if_pos rfl] at h
  have m1 := moved_depth p.wf (s.depth + 1)
  have t1 : ({ s with depth := s.depth + 1 } : CS).toks = i :: (o :: ts ++ c :: us ++ rest) := by simpa using ht
  generalize e1 : ({ s with depth := s.depth + 1 } : CS) = s1 at *
  have d1 : s1.depth = s.depth + 1 := by rw [← e1]
  rw [expectStmt_run t1 hi] at h
  obtain ⟨m2, t2, d2⟩ := moved_skip m1.grow.wf t1
  generalize skip 1 s1 = s2 at *
  rw [expectStmt_run t2 hpo] at h
  obtain ⟨m3, t3, d3⟩ := moved_skip m2.grow.wf t2
  generalize skip 1 s2 = s3 at *
  have m := (m1.trans m2).trans m3
  have p3 := p.moved m
  have o3 : offOf s3.ctx = offOf s.ctx := by rw [m.ctx]
  obtain ⟨r1, s4, h1, h, er4⟩ := CM.bind_nil h (by intro a; have := @elsePart_mono; cmono) he
  obtain ⟨rfl, t4, d4, g4, sim4⟩ := expr_inv (H := H) hfd p3 sx (rest := c :: us ++ rest) (by simpa using t3) (by simp [isEnd, isSubEnd, hpc])
    (by omega) (by omega) h1 er4
  rw [if_pos rfl] at h
  have p4 := p3.seg g4 er4 (by omega)
  obtain ⟨q, s5, h2, h, er5⟩ := CM.bind_nil h (by intro a; have := @elsePart_mono; cmono) he
  obtain ⟨rfl, em5, d5, g5, t5⟩ := jz_inv p4.wf (k := offOf s.ctx) (by omega) (by rw [g4.off p3.wf, o3]) h2
  have t5' : s5.toks = c :: (us ++ rest) := by rw [t5, t4]; rfl
  rw [expectStmt_run t5' hpc] at h
  obtain ⟨m6, t6, d6⟩ := moved_skip g5.grow.wf t5'
  generalize skip 1 s5 = s6 at *
  have g35 := g4.trans0 g5
  have g36 := (g35.trans0 m6.seg)
  have o5 : offOf s5.ctx = offOf s.ctx := g5.off p4.wf
  rw [o5] at g36
  have p6 := p3.seg g36 (m6.errors.trans er5) (by omega)
  have o6 : offOf s6.ctx = offOf s.ctx := by rw [m6.ctx, o5]
  have ev6 : envOf s6 = envOf s := by
    rw [show envOf s6 = envOf s3 from Seg.env (by rw [o3]; exact g36)]
    exact m.seg.env
  obtain ⟨s7, f, h3, er7, t7, d7, hbr, pl⟩ := scope_inv hst w (by have := @elsePart_mono; cmono) (by cmono) p6 (by rw [o6]; omega) src t6 hopen
    (by rw [d6, d5, d4, d3, d2, d1]; exact hd) h he
  rw [ev6] at pl
  have pls := pl.seg
  rw [o6] at pls
  have g37 := g36.trans pls
  rw [List.nil_append] at g37
  have gs : Seg s s7 f (offOf s.ctx) := by have := m.seg.trans g37; rwa [List.nil_append] at this
  have hw5 : s5.write = s4.write + 3 := em5.write
  have hw6 : s6.write = s4.write + 3 := m6.write.trans hw5
  have hle := pls.grow.le
  have hf : ∀ a ∈ f, s4.write + 3 ≤ a := fun a ha => by have := (pls.grow.fix a ha).1; omega
  refine ⟨s7, s4.write, f, h3, er7, t7, by rw [d7, d6, d5, d4, d3, d2, d1], hbr, gs, by have := g4.grow.le; rw [← m.write]; exact this, by omega, hf, ?_⟩
  intro K T q' Q ha hh hl hT hn sQ hbody
  have a3 := ha.seg p m.seg
  have nin : ∀ j, j ≠ 1 → j < 3 → ∀ x ∈ ((s4.write, T) :: toT f K.T), s4.write + j ≠ x.1 + 1 := by
    intro j hj hj' x hx
    rcases List.mem_cons.mp hx with rfl | hx
    · show _ ≠ s4.write + 1; omega
    · have := hf _ (mem_toT.mp hx).1; omega
  have g57 : Grow s5 s7 f := by have := m6.grow.trans pls.grow; rwa [List.nil_append] at this
  have g47 : Grow s4 s7 f := by have := g5.grow.trans g57; rwa [List.nil_append] at this
  have l4 : Loaded K.I s3.write s4.write s4.vm.instrs [] := hl.sub (by rw [m.write]) g47.le (fun i _ hi => g47.below i hi) (by simp) (by
    intro x hx _
    rcases List.mem_cons.mp hx with rfl | hx
    · right; show s4.write ≤ s4.write + 1; omega
    · have := hf _ (mem_toT.mp hx).1; omega)
  have l7 : Loaded K.I s6.write s7.write s7.vm.instrs (toT f K.T) := hl.sub (by have := gs.grow.le; have := g4.grow.le; have := m.write; omega) (Nat.le_refl _)
    (fun _ _ _ => rfl) (fun x hx => List.mem_cons_of_mem _ hx) (by
      intro x hx hn
      rcases List.mem_cons.mp hx with rfl | hx
      · left; show s4.write + 1 < _; omega
      · exact absurd hx hn)
  have x4 := sim4 K a3 (hh.grow g47) l4 (by rw [o3]; omega)
  have x7 := pl.sim K (a3.seg p3 g36) hh l7 (by rw [o6]; omega)
  rw [o6, hw6] at x7
  have hlo : s.write ≤ s4.write := by have := g4.grow.le; rw [← m.write]; exact this
  have tst := simV_test (K := K) (P := Scope (S.exec F H K.b (envOf s).inner)) (Q := Q) (p := s4.write) (q := q') (T := T) (h := offOf s.ctx) (h' := offOf s.ctx)
    (em5.loaded g57 hl (i := 0) rfl hlo (by omega) (nin 0 (by decide) (by decide)))
    (hl.jumps (s4.write, T) (by simp)) (em5.loaded g57 hl (i := 2) rfl hlo (by omega) (nin 2 (by decide) (by decide))) hT (by omega) (hbody x7) sQ
  have := x4 _ q' (offOf s.ctx) (by rw [o3]; exact tst)
  rwa [o3, m.ctx, m.write] at this

theorem ifThen_inv {st : CM Bool} (hst : CMono st) {fd : CM (Option Nat)} (hfd : CMono fd) {S : St} {e : Ex} (w : Works F H st S)
    {d k : Nat} {ts us rest : List Token} {s s' : CS} {i o c : Token} {r : Bool} (p : Pre s)
    (ho : offOf s.ctx + (St.ifThen e S).size < 4294967296) (hi : i.type = .kwIf) (hpo : o.type = .parenOpen) (hpc : c.type = .parenClose)
    (sx : ExSrc F k false ts e) (hk : 2 + 2 * k ≤ d) (src : Src F d us S) (hopen : typeOf rest ≠ .kwElse)
    (ht : s.toks = i :: o :: ts ++ c :: us ++ rest) (hd : s.depth + 1 + d ≤ 257)
    (h : ifStmt st (compileExpr F fd false) s = .ok (r, s')) (he : s'.vm.errors = []) :
    r = true ∧ s'.toks = rest ∧ s'.depth = s.depth + S.leak ∧
      ∃ fx, ((St.ifThen e S).breaks = false → fx = []) ∧ Plain F H s s' (St.ifThen e S).size fx fun b => (St.ifThen e S).exec F H b (envOf s) := by
  obtain ⟨s6, q, f, h1, e6, t6, d6, hbr, g6, q1, q2, hf, sim⟩ := ifHead_inv hst hfd w p ho hi hpo hpc sx hk src (fun _ => hopen) ht hd h he
  obtain ⟨_, s7, h2, h3⟩ := CM.bind_inv h1
  have pa := jumpHere_inv g6.grow.wf q2 h2
  unfold elsePart at h3
  rw [curType_bind, if_neg (by rw [pa.toks, t6]; exact hopen)] at h3
  obtain ⟨rfl, _, rfl⟩ := popTrue_inv h3
  have w7 := pa.wf g6.grow.wf
  have sg := (pa.seg g6 (by simpa using q1)).trans0 (moved_depth w7 (s7.depth - 1)).seg
  have o7 : offOf s7.ctx = offOf s.ctx := by rw [pa.ctx]; exact g6.off p.wf
  rw [o7] at sg
  refine ⟨rfl, pa.toks.trans t6, by show s7.depth - 1 = _; rw [pa.depth, d6]; omega, f, hbr, sg, fun K ha hh hl hn => ?_⟩
  have hs := g6.grow.wf.small
  have hw := g6.grow.wf.write
  have hw7 := pa.write
  have hl' := pa.loaded (lo := s.write) (hi := s6.write) (by rw [← hw7]; exact hl) (by
    intro a hax
    rw [List.mem_singleton] at hax; subst hax
    refine ⟨by omega, by omega, fun x hx e => ?_⟩
    have := hf _ (mem_toT.mp hx).1; omega)
  have := sim K s6.write s6.write Done ha (Has.patch (s' := s7) ⟨hh.lits, hh.stat⟩ pa) hl' (by omega) hn sim_done id
  show Sim K _ s.write s7.write _ _
  rw [hw7]
  exact this

theorem Loaded.conv {I J J' : List (BitVec 32)} {lo hi : Nat} {js : List (Nat × Nat)} (h : Loaded I lo hi J js)
    (hJ : ∀ i, (∀ x ∈ js, i ≠ x.1 + 1) → J[i]? = J'[i]?) : Loaded I lo hi J' js :=
  ⟨fun i a b c => (h.code i a b c).trans (hJ i c), h.jumps⟩

theorem ifElse_inv {st : CM Bool} (hst : CMono st) {fd : CM (Option Nat)} (hfd : CMono fd) {S R : St} {e : Ex} (w : Works F H st S)
    (wr : Works F H st R) {d k : Nat} {ts us vs rest : List Token} {s s' : CS} {i o c el : Token} {r : Bool} (p : Pre s)
    (ho : offOf s.ctx + (St.ifElse e S R).size < 4294967296) (hi : i.type = .kwIf) (hpo : o.type = .parenOpen) (hpc : c.type = .parenClose)
    (sx : ExSrc F k false ts e) (hk : 2 + 2 * k ≤ d) (src : Src F d us S) (hno : S.open = false) (hel : el.type = .kwElse)
    (srcR : Src F (d - S.leak) vs R) (hopen : R.open = true → typeOf rest ≠ .kwElse)
    (ht : s.toks = i :: o :: ts ++ c :: us ++ el :: vs ++ rest) (hd : s.depth + 1 + d ≤ 257)
    (h : ifStmt st (compileExpr F fd false) s = .ok (r, s')) (he : s'.vm.errors = []) :
    r = true ∧ s'.toks = rest ∧ s'.depth = s.depth + (S.leak + R.leak) ∧
      ∃ fx, ((St.ifElse e S R).breaks = false → fx = []) ∧ Plain F H s s' (St.ifElse e S R).size fx fun b => (St.ifElse e S R).exec F H b (envOf s) := by
  have hlk := src_leak src
  have hsz : (St.ifElse e S R).size = e.size + S.size + R.size + 1 := rfl
  rw [hsz] at ho ⊢
  obtain ⟨s6, q, f, h1, e6, t6, d6, hbr, g6, q1, q2, hf, sim⟩ := ifHead_inv hst hfd w p (rest := el :: vs ++ rest) (by omega) hi hpo hpc sx hk src
    (fun e => by rw [hno] at e; cases e) (by simpa using ht) hd h he
  obtain ⟨_, s7, h2, h3⟩ := CM.bind_inv h1
  have pa := jumpHere_inv g6.grow.wf q2 h2
  have w7 := pa.wf g6.grow.wf
  have t7 : s7.toks = el :: (vs ++ rest) := by rw [pa.toks, t6]; rfl
  have e7 : s7.vm.errors = [] := pa.errors.trans e6
  unfold elsePart at h3
  rw [curType_bind, if_pos (by rw [t7]; exact hel), expectStmt_run t7 hel] at h3
  obtain ⟨m8, t8, d8⟩ := moved_skip w7 t7
  generalize skip 1 s7 = s8 at *
  have g7 := pa.seg g6 (by simpa using q1)
  have o7 : offOf s7.ctx = offOf s.ctx := g7.off p.wf
  have o8 : offOf s8.ctx = offOf s.ctx := by rw [m8.ctx, o7]
  have g8 := g7.trans0 m8.seg
  rw [o7] at g8
  have p8 := p.seg g8 (m8.errors.trans e7) (Nat.le_refl _)
  have hes := e.size_pos
  obtain ⟨j, s9, h4, h5, e9⟩ := CM.bind_nil h3 (by intro a; cmono) he
  obtain ⟨rfl, em9, d9, g89, t9⟩ := jump_inv p8.wf (by omega) h4
  rw [o8] at g89
  have g9 := g8.trans0 g89
  obtain ⟨_, s10, h6, h7, e10⟩ := CM.bind_nil h5 (by intro a; cmono) he
  have hw7 : s7.write = s6.write := pa.write
  have hw8 : s8.write = s6.write := m8.write.trans hw7
  have hw9 : s9.write = s6.write + 3 := by rw [em9.write, hw8]; rfl
  have pb := jumpHere_inv g9.grow.wf (a := q) (by omega) h6
  have hw10 := pb.write
  have g10 := pb.seg g9 (by simpa using q1)
  have p10 := p.seg g10 e10 (Nat.le_refl _)
  have o10 : offOf s10.ctx = offOf s.ctx := g10.off p.wf
  have ev10 : envOf s10 = envOf s := g10.env
  obtain ⟨s11, f2, h8, e11, t11, d11, hbr2, pl⟩ := scope_inv hst wr (by cmono) (by cmono) p10 (by rw [o10]; omega) srcR (by rw [pb.toks, t9, t8]) hopen
    (by rw [pb.depth, d9, d8, pa.depth, d6]; omega) h7 he
  rw [ev10] at pl
  have pls := pl.seg
  rw [o10] at pls
  obtain ⟨_, s12, h9, h10⟩ := CM.bind_inv h8
  have hle := pls.grow.le
  have pc := jumpHere_inv pls.grow.wf (a := s8.write) (by omega) h9
  have hw12 := pc.write
  obtain ⟨rfl, _, rfl⟩ := popTrue_inv h10
  have g11 := g10.trans pls
  have hle6 := g6.grow.le
  have g12 := pc.seg g11 (by intro a ha; rw [List.mem_singleton] at ha; omega)
  have o12 : offOf s12.ctx = offOf s.ctx := g12.off p.wf
  have g13 := g12.trans0 (moved_depth g12.grow.wf (s12.depth - 1)).seg
  rw [o12] at g13
  refine ⟨rfl, pc.toks.trans t11, ?_, f ++ f2, (fun hb => by
    simp only [St.breaks, Bool.or_eq_false_iff] at hb; rw [hbr hb.1, hbr2 hb.2]; rfl), g13, fun K ha hh hl hn => ?_⟩
  · show s12.depth - 1 = _
    rw [pc.depth, d11, pb.depth, d9, d8, pa.depth, d6]; omega
  have hf1 : ∀ a ∈ f, a + 3 ≤ s6.write := fun a ha => (g6.grow.fix a ha).2
  have hf2 : ∀ a ∈ f2, s10.write ≤ a ∧ a + 3 ≤ s11.write := fun a ha => pls.grow.fix a ha
  have hl1 : Loaded K.I s.write s11.write s12.vm.instrs (toT (f ++ f2) K.T) := by rw [← hw12]; exact hl
  have l11 := pc.loaded hl1 (by
    intro a hax
    rw [List.mem_singleton] at hax; subst hax
    refine ⟨by omega, by omega, fun x hx e => ?_⟩
    rcases List.mem_append.mp (mem_toT.mp hx).1 with hx | hx
    · have := hf1 _ hx; omega
    · have := hf2 _ hx; omega)
  have lb : Loaded K.I s10.write s11.write s11.vm.instrs (toT f2 K.T) := l11.sub (by omega) (Nat.le_refl _) (fun _ _ _ => rfl)
    (by intro x hx; simp [hx]) (by
      intro x hx hn
      rw [toT_append] at hx
      rcases List.mem_append.mp hx with hx | hx
      · rw [show toT [s8.write] s11.write = [(s8.write, s11.write)] from rfl, List.mem_singleton] at hx
        subst hx; left; show s8.write + 1 < _; omega
      · have := hf1 _ (mem_toT.mp ((List.mem_append.mp hx).resolve_right hn)).1; omega)
  have l10 : Loaded K.I s.write s10.write s10.vm.instrs (toT [s8.write] s11.write ++ toT f K.T) := l11.sub (Nat.le_refl _) hle
    (fun i _ hi => pls.grow.below i hi) (by
      intro x hx
      rw [toT_append]
      rcases List.mem_append.mp hx with hx | hx
      · exact List.mem_append_left _ hx
      · exact List.mem_append_right _ (List.mem_append_left _ hx)) (by
      intro x hx hn
      rw [toT_append] at hx
      rcases List.mem_append.mp hx with hx | hx
      · exact absurd (List.mem_append_left _ hx) hn
      · rcases List.mem_append.mp hx with hx | hx
        · exact absurd (List.mem_append_right _ hx) hn
        · have := hf2 _ (mem_toT.mp hx).1; omega)
  rw [hw10] at l10
  have l9 := pb.loaded l10 (by
    intro a hax
    rw [List.mem_singleton] at hax; subst hax
    refine ⟨by omega, by omega, fun x hx e => ?_⟩
    rcases List.mem_append.mp hx with hx | hx
    · have := (mem_toT.mp hx).1; rw [List.mem_singleton] at this; omega
    · have := hf _ (mem_toT.mp hx).1; omega)
  have gb : ∀ i, i < s6.write → s9.vm.instrs[i]? = s7.vm.instrs[i]? := fun i hi => by
    rw [g89.grow.below i (by omega), m8.grow.below i (by omega)]
  have l7 : Loaded K.I s.write s6.write s7.vm.instrs ((q, s9.write) :: toT f K.T) := l9.sub (Nat.le_refl _) (by omega) (fun i _ hi => gb i hi) (by
      intro x hx
      rcases List.mem_cons.mp hx with rfl | hx
      · exact List.mem_append_left _ (by simp [toT])
      · exact List.mem_append_right _ (List.mem_append_right _ hx)) (by
      intro x hx hn
      rcases List.mem_append.mp hx with hx | hx
      · rw [show toT [q] s9.write = [(q, s9.write)] from rfl, List.mem_singleton] at hx
        subst hx; exact absurd (List.mem_cons_self ..) hn
      · rcases List.mem_append.mp hx with hx | hx
        · have := (mem_toT.mp hx).1; rw [List.mem_singleton] at this; right; omega
        · exact absurd (List.mem_cons_of_mem _ hx) hn)
  have l6 := l7.conv (J' := s6.vm.instrs) fun i hi => pa.same i fun a ha => by
    rw [List.mem_singleton] at ha; subst ha; exact hi (a, s9.write) (List.mem_cons_self ..)
  have hs := pls.grow.wf.small
  have hwb := pls.grow.wf.write
  have hh11 : Has K s11 := Has.patch (s' := s12) ⟨hh.lits, hh.stat⟩ pc
  have hh10 := hh11.grow pls.grow
  have hh6 : Has K s6 := ((((hh10.patch pb).grow g89.grow).grow m8.grow).patch pa)
  have xb := pl.sim K (ha.seg p g10) hh11 lb (by rw [o10]; omega)
  rw [o10, hw10] at xb
  have nj : ∀ j, j ≠ 1 → j < 3 → ∀ x ∈ (toT [q] s9.write ++ (toT [s8.write] s11.write ++ toT f K.T)), s8.write + j ≠ x.1 + 1 := by
    intro j hj hj' x hx
    rcases List.mem_append.mp hx with hx | hx
    · have := (mem_toT.mp hx).1; rw [List.mem_singleton] at this; omega
    · rcases List.mem_append.mp hx with hx | hx
      · have := (mem_toT.mp hx).1; rw [List.mem_singleton] at this; omega
      · have := hf1 _ (mem_toT.mp hx).1; omega
  have j0 := em9.loaded (Seg.refl em9.wf).grow l9 (i := 0) rfl (by omega) (Nat.le_refl _) (nj 0 (by decide) (by decide))
  have j2 := em9.loaded (Seg.refl em9.wf).grow l9 (i := 2) rfl (by omega) (Nat.le_refl _) (nj 2 (by decide) (by decide))
  have j1 := l9.jumps (s8.write, s11.write) (List.mem_append_right _ (List.mem_append_left _ (by simp [toT])))
  have := sim K s9.write s11.write (Scope (R.exec F H K.b (envOf s).inner)) ha hh6 l6 (by omega) (by omega) xb (fun x => by
    refine sim_jump (q := s8.write) (by rw [hw8]; exact x) j0 j1 j2 (by omega) (by omega))
  show Sim K _ s.write s12.write _ _
  rw [hw12]
  exact this

/-! ## Loops -/

/-- The context of a loop. -/
def loopCtx (l : List CCtx) : CCtx := { inCtx l with isLoop := true }

/-- The state at the start of a loop. -/
def inLoop (s : CS) : CS := { s with ctx := inCtx s.ctx :: loopCtx s.ctx :: s.ctx }

theorem pushLoop_eq (s : CS) : pushLoop s = .ok ((), inLoop s) := by
  unfold pushLoop
  rw [CM.bind_ok (pushCtx_eq s)]
  have e : modCtx (fun c => { c with isLoop := true }) { s with ctx := inCtx s.ctx :: s.ctx } =
    .ok ((), { s with ctx := loopCtx s.ctx :: s.ctx }) := rfl
  rw [CM.bind_ok e, pushCtx_eq]
  rfl

theorem Pre.inLoop {s : CS} (p : Pre s) : Pre (inLoop s) := by
  refine ⟨⟨p.wf.pow, p.wf.len, p.wf.write, p.wf.str, by simp [Cc.inLoop]⟩, p.errs, by intro c cs e; cases e; rfl, Nat.le_refl _, ?_, p.stat⟩
  intro a ha
  refine p.ret a ?_
  rw [← ha]
  simp [fnArgs, Cc.inLoop, inCtx, loopCtx, findFn]

theorem envOf_inLoop (s : CS) : envOf (inLoop s) = (envOf s).inner := rfl

theorem At.inLoop {K : Cfg} {s : CS} {T : Nat} (a : At F H K s) (hT : T < 4294967296) : At F H (K.loop T (K.b + offOf s.ctx)) (inLoop s) :=
  ⟨a.f, a.h, hT, rfl, fun x hx => a.rb x (by rw [← hx]; simp [fnArgs, Cc.inLoop, inCtx, loopCtx, findFn])⟩

theorem Patch.congr {s s' : CS} {f g : List Nat} {T : Nat} (h : Patch s s' f T) (e : ∀ a, a ∈ f ↔ a ∈ g) : Patch s s' g T :=
  ⟨fun i hi => h.same i fun a ha => hi a ((e a).mp ha), fun a ha => h.set a ((e a).mpr ha), h.rest, h.len⟩

/-- The end of a loop. -/
theorem endLoop_inv {s sk s' : CS} {c : CCtx} {fx : List Nat} (p : CodeWF s) (g : Grow (inLoop s) sk fx)
    (hc : sk.ctx = c :: withFix fx (loopCtx s.ctx :: s.ctx)) (hst : sk.staticCount = s.staticCount) (h : endLoop sk = .ok ((), s')) :
    Seg s s' [] (offOf s.ctx) ∧ s'.toks = sk.toks ∧ s'.depth = sk.depth - 1 ∧ s'.vm.errors = sk.vm.errors ∧ sk.write ≤ s'.write ∧
      (∀ K, Has K s' → Has K sk) ∧
      ∀ I, Loaded I s.write s'.write s'.vm.instrs [] → Loaded I s.write sk.write sk.vm.instrs (toT fx s'.write) ∧
        ((popCount c = 0 ∧ s'.write = sk.write) ∨ (popCount c ≠ 0 ∧ s'.write = sk.write + 3 ∧ I[sk.write]? = some 7 ∧
          I[sk.write + 1]? = some (BitVec.ofNat 32 (popCount c)) ∧ I[sk.write + 2]? = some 12)) := by
  have hwf : withFix fx (loopCtx s.ctx :: s.ctx) = { loopCtx s.ctx with fixups := fx } :: s.ctx := by simp [withFix, loopCtx, inCtx]
  rw [hwf] at hc
  unfold endLoop at h
  obtain ⟨_, sa, h1, h⟩ := CM.bind_inv h
  obtain ⟨a1, a2, a3, a4, a5, a6, a7⟩ := popCtx_inv g.wf hc (by simp) h1
  obtain ⟨_, sc, h2, h⟩ := CM.bind_inv h
  unfold fixupBreaks at h2
  rw [CM.cget_bind, a1] at h2
  dsimp only at h2
  obtain ⟨_, sb, h3, h4⟩ := CM.bind_inv h2
  have hle := a6.le
  have hle0 : s.write ≤ sk.write := g.le
  have hfx : ∀ a ∈ fx, s.write ≤ a ∧ a + 3 ≤ sk.write := g.fix
  have pa := (fixupLoop_inv a6.wf (by intro a ha; have := hfx a (by simpa using ha); omega) h3).congr (g := fx) (by simp)
  have cb : sb.ctx = { loopCtx s.ctx with fixups := fx } :: s.ctx := pa.ctx.trans a1
  have hb := pa.rest
  have hb2 := pa.wf a6.wf
  have esc : sc = { sb with ctx := { loopCtx s.ctx with fixups := [] } :: s.ctx } := by
    unfold modCtx at h4
    rw [cb] at h4
    cases h4; rfl
  obtain ⟨_, sd, h5, h6⟩ := CM.bind_inv h
  have wc : CodeWF sc := by rw [esc]; exact ⟨hb2.pow, hb2.len, hb2.write, hb2.str, by simp⟩
  obtain ⟨b1, b2, b3, b4, b5, b6, b7⟩ := popCtx_inv wc (by rw [esc]) p.ctx h5
  have esd : sd = { sb with ctx := s.ctx } := by
    have : popCtx sc = .ok ((), { sb with ctx := s.ctx }) := by rw [esc]; rfl
    rw [this] at h5
    cases h5; rfl
  have e6 : s' = { sd with depth := sd.depth - 1 } := by
    unfold popRec at h6
    rw [CM.cget_bind] at h6
    split at h6
    · cases h6
    · cases h6; rfl
  have hi : s'.vm.instrs = sb.vm.instrs := by rw [e6, esd]
  have hw : s'.write = sa.write := by rw [e6, esd]; exact pa.write
  have e7 : s' = { sb with ctx := s.ctx, depth := sb.depth - 1 } := by rw [e6, esd]
  have ws : CodeWF s' := by rw [e7]; exact ⟨hb2.pow, hb2.len, hb2.write, hb2.str, p.ctx⟩
  have g1 : Grow (inLoop s) sb fx := pa.grow (g.trans0 a6) (fun a ha => (hfx a ha).1)
  refine ⟨⟨⟨ws, by rw [hw]; omega, ?_, by simp, ?_, ?_, ?_⟩, ?_, ?_⟩, ?_, ?_, ?_, by omega, ?_, ?_⟩
  · intro i hlt; rw [hi]; exact g1.below i hlt
  · intro W hW; rw [e7] at hW; exact g1.lits W hW
  · rw [e7]; exact g1.fns
  · rw [e7]; exact g1.stat
  · rw [e7, withFix_nil, setOff_off]
  · rw [e7]; show sb.staticCount = _; rw [pa.stat, a4]; exact hst
  · rw [e7]; show sb.toks = _; rw [pa.toks, a3]
  · rw [e7]; show sb.depth - 1 = _; rw [pa.depth, a2]
  · rw [e7]; show sb.vm.errors = _; rw [pa.errors, a5]
  · intro K hK
    have : Has K sb := by rw [e7] at hK; exact ⟨hK.lits, hK.stat⟩
    exact (this.patch pa).grow a6
  · intro I hl
    rw [hi, hw] at hl
    have l1 := pa.loaded hl (by intro a ha; have := hfx a ha; exact ⟨by omega, by omega, by simp⟩)
    rw [List.append_nil] at l1
    rw [hw]
    refine ⟨l1.sub (Nat.le_refl _) hle (fun i _ hi => a6.below i hi) (fun x hx => hx) (fun x hx hn => absurd hx hn), ?_⟩
    have nf : ∀ j, ∀ x ∈ toT fx sa.write, sk.write + j ≠ x.1 + 1 := fun j x hx => by
      have := hfx x.1 (mem_toT.mp hx).1; omega
    rcases a7 with a7 | ⟨a7, a8, a9, a10, a11⟩
    · exact .inl a7
    · exact .inr ⟨a7, a8, l1.at a9 (by omega) (by omega) (nf 0), l1.at a10 (by omega) (by omega) (nf 1), l1.at a11 (by omega) (by omega) (nf 2)⟩

theorem Has.loop {K : Cfg} {s : CS} {T hb : Nat} (h : Has K s) : Has (K.loop T hb) s := ⟨h.lits, h.stat⟩

theorem Seg.ctxLoop {s s' : CS} {fx : List Nat} (g : Seg (inLoop s) s' fx (offOf s.ctx)) :
    s'.ctx = inCtx s.ctx :: withFix fx (loopCtx s.ctx :: s.ctx) := by
  have := g.ctx
  rw [show setOff (offOf s.ctx) (inLoop s).ctx = (inLoop s).ctx from rfl] at this
  exact this

theorem while_inv {st : CM Bool} (hst : CMono st) {fd : CM (Option Nat)} (hfd : CMono fd) {S : St} {e : Ex} (w : Works F H st S)
    {d k : Nat} {ts us rest : List Token} {s s' : CS} {i o c : Token} {r : Bool} (p : Pre s)
    (ho : offOf s.ctx + (St.while e S).size < 4294967296) (hi : i.type = .kwWhile) (hpo : o.type = .parenOpen) (hpc : c.type = .parenClose)
    (sx : ExSrc F k false ts e) (hk : 2 + 2 * k ≤ d) (src : Src F d us S) (hopen : S.open = true → typeOf rest ≠ .kwElse)
    (ht : s.toks = i :: o :: ts ++ c :: us ++ rest) (hd : s.depth + 1 + d ≤ 257)
    (h : whileStmt st (compileExpr F fd false) s = .ok (r, s')) (he : s'.vm.errors = []) :
    r = true ∧ s'.toks = rest ∧ s'.depth = s.depth + S.leak ∧
      Plain F H s s' (St.while e S).size [] fun b => (St.while e S).exec F H b (envOf s) := by
  have hes := e.size_pos
  have hsz : (St.while e S).size = e.size + S.size + 1 := rfl
  rw [hsz] at ho ⊢
  have mono := compileExpr_mono hfd F false
  unfold whileStmt at h
  rw [CM.cget_bind] at h
  have h := pushRec_same (by intro a; have := @endLoop_mono; cmono) h (he.trans p.errs.symm)
  rw [if_pos rfl] at h
  have m0 := moved_depth p.wf (s.depth + 1)
  have t0 : ({ s with depth := s.depth + 1 } : CS).toks = i :: (o :: ts ++ c :: us ++ rest) := by simpa using ht
  generalize e0 : ({ s with depth := s.depth + 1 } : CS) = s0 at *
  have d0 : s0.depth = s.depth + 1 := by rw [← e0]
  have p0 := p.moved m0
  have o0 : offOf s0.ctx = offOf s.ctx := by rw [m0.ctx]
  have ev0 : envOf s0 = envOf s := m0.seg.env
  rw [CM.bind_ok (pushLoop_eq s0)] at h
  have pl := p0.inLoop
  have evl := envOf_inLoop s0
  have ol : offOf (inLoop s0).ctx = offOf s.ctx := o0
  have dl : (inLoop s0).depth = s.depth + 1 := d0
  have t1 : (inLoop s0).toks = i :: (o :: ts ++ c :: us ++ rest) := t0
  have wl : (inLoop s0).write = s.write := m0.write
  generalize e1 : inLoop s0 = s1 at *
  rw [expectLoop_run t1 hi] at h
  obtain ⟨m2, t2, d2⟩ := moved_skip pl.wf t1
  generalize skip 1 s1 = s2 at *
  rw [expectLoop_run t2 hpo] at h
  obtain ⟨m3, t3, d3⟩ := moved_skip m2.grow.wf t2
  generalize skip 1 s2 = s3 at *
  have m := m2.trans m3
  have p3 := pl.moved m
  have o3 : offOf s3.ctx = offOf s.ctx := by rw [m.ctx, ol]
  obtain ⟨r1, s4, h1, h, er4⟩ := CM.bind_nil h (by intro a; have := @endLoop_mono; cmono) he
  obtain ⟨rfl, t4, d4, g4, sim4⟩ := expr_inv (H := H) hfd p3 sx (rest := c :: us ++ rest) (by simpa using t3) (by simp [isEnd, isSubEnd, hpc])
    (by omega) (by omega) h1 er4
  rw [if_pos rfl] at h
  have p4 := p3.seg g4 er4 (by omega)
  obtain ⟨q, s5, h2, h, er5⟩ := CM.bind_nil h (by intro a; have := @endLoop_mono; cmono) he
  obtain ⟨rfl, em5, d5, g5, t5⟩ := jz_inv p4.wf (k := offOf s.ctx) (by omega) (by rw [g4.off p3.wf, o3]) h2
  have t5' : s5.toks = c :: (us ++ rest) := by rw [t5, t4]; rfl
  rw [expectLoop_run t5' hpc] at h
  obtain ⟨m6, t6, d6⟩ := moved_skip g5.grow.wf t5'
  generalize skip 1 s5 = s6 at *
  have g35 := g4.trans0 g5
  have g36 := (g35.trans0 m6.seg)
  have o5 : offOf s5.ctx = offOf s.ctx := g5.off p4.wf
  rw [o5] at g36
  have p6 := p3.seg g36 (m6.errors.trans er5) (by omega)
  have o6 : offOf s6.ctx = offOf s.ctx := by rw [m6.ctx, o5]
  have ev6 : envOf s6 = (envOf s).inner := by
    rw [show envOf s6 = envOf s3 from Seg.env (by rw [o3]; exact g36), show envOf s3 = envOf s1 from m.seg.env, evl, ev0]
  obtain ⟨s7, f, h3, er7, t7, d7, -, plb⟩ := scope_inv hst w (by have := @endLoop_mono; cmono) (by cmono) p6 (by rw [o6]; omega) src t6 hopen
    (by rw [d6, d5, d4, d3, d2, dl]; exact hd) h he
  rw [ev6] at plb
  have pls := plb.seg
  rw [o6] at pls
  have o7 : offOf s7.ctx = offOf s.ctx := pls.off p6.wf
  obtain ⟨_, s8, h4, h5, er8⟩ := CM.bind_nil h3 (by intro a; have := @endLoop_mono; cmono) he
  obtain ⟨_, em8, d8, g8, t8⟩ := jump_inv pls.grow.wf (by omega) h4
  rw [o7] at g8
  have hw5 : s5.write = s4.write + 3 := em5.write
  have hw6 : s6.write = s4.write + 3 := m6.write.trans hw5
  have hw8 : s8.write = s7.write + 3 := em8.write
  have hle7 := pls.grow.le
  have hle4 := g4.grow.le
  have hw3 := m.write
  have hw0 := m0.write
  obtain ⟨_, s9, h6, h7, er9⟩ := CM.bind_nil h5 (by intro a; have := @endLoop_mono; cmono) he
  have pa := jumpHere_inv g8.grow.wf (a := s4.write) (by omega) h6
  have hw9 := pa.write
  obtain ⟨_, sX, h8, h9, er10⟩ := CM.bind_nil h7 (by intro a; cmono) he
  obtain ⟨rfl, rfl⟩ := pure_inv h9
  have g38 := (g36.trans pls).trans0 g8
  rw [List.nil_append] at g38
  have g18 : Seg s1 s8 f (offOf s.ctx) := by have := m.seg.trans g38; rwa [List.nil_append] at this
  have g19 := pa.seg g18 (by intro a ha; rw [List.mem_singleton] at ha; omega)
  have hc9 : s9.ctx = inCtx s0.ctx :: withFix f (loopCtx s0.ctx :: s0.ctx) := by
    refine Seg.ctxLoop ?_; rw [e1, o0]; exact g19
  have hst9 : s9.staticCount = s0.staticCount := by rw [g19.stat, ← e1]; rfl
  obtain ⟨z1, z2, z3, z4, z5, z6, z7⟩ := endLoop_inv p0.wf (by rw [e1]; exact g19.grow) hc9 hst9 h8
  rw [o0] at z1
  have gs : Seg s s' [] (offOf s.ctx) := by have := m0.seg.trans z1; rwa [List.nil_append] at this
  refine ⟨rfl, by rw [z2, pa.toks, t8, t7], by rw [z3, pa.depth, d8, d7, d6, d5, d4, d3, d2, dl]; omega, gs, fun K ha hh hl hn => ?_⟩
  rw [toT_nil, ← m0.write] at hl
  obtain ⟨hl9, hpop⟩ := z7 K.I hl
  have hT : s'.write = s8.write := by
    rcases hpop with ⟨_, x⟩ | ⟨x, _⟩
    · rw [x, hw9]
    · exact absurd rfl x
  rw [hT] at hl9
  have hs := g8.grow.wf.small
  have hwb := g8.grow.wf.write
  have a0 : At F H (K.loop s8.write (K.b + offOf s.ctx)) s1 := by
    have := At.inLoop (T := s8.write) (ha.seg p m0.seg) (by omega); rwa [e1, o0] at this
  have hf : ∀ a ∈ f, s4.write + 3 ≤ a ∧ a + 3 ≤ s7.write := fun a ha => by have := pls.grow.fix a ha; omega
  rw [hw9] at hl9
  have l8 := pa.loaded hl9 (by
    intro a hax
    rw [List.mem_singleton] at hax; subst hax
    refine ⟨by omega, by omega, fun x hx e => ?_⟩
    have := hf _ (mem_toT.mp hx).1; omega)
  have hh9 := z6 K hh
  have hh8 : Has (K.loop s8.write (K.b + offOf s.ctx)) s8 := (hh9.patch pa).loop
  show Sim K (Catch _) _ _ _ _
  rw [hT]
  refine sim_catch (sim_loop fun X hX => ?_)
  have e2 : (K.loop s8.write (K.b + offOf s.ctx)).b = K.b := rfl
  have e3 : (K.loop s8.write (K.b + offOf s.ctx)).n = K.n := rfl
  have e4 : (K.loop s8.write (K.b + offOf s.ctx)).I = K.I := rfl
  have e5 : (K.loop s8.write (K.b + offOf s.ctx)).T = s8.write := rfl
  have a3 := a0.seg pl m.seg
  generalize K.loop s8.write (K.b + offOf s.ctx) = K' at *
  rw [← e4] at l8
  rw [← e3, ← e2] at hn
  have nin : ∀ j, j ≠ 1 → ∀ x ∈ (toT [s4.write] s8.write ++ toT f s8.write), (j < 3 → s4.write + j ≠ x.1 + 1) ∧ s7.write + j ≠ x.1 + 1 := by
    intro j hj x hx
    rcases List.mem_append.mp hx with hx | hx
    · have := (mem_toT.mp hx).1; rw [List.mem_singleton] at this; omega
    · have := hf _ (mem_toT.mp hx).1; omega
  have n7 : ∀ x ∈ (toT [s4.write] s8.write ++ toT f s8.write), s7.write + 1 ≠ x.1 + 1 := by
    intro x hx
    rcases List.mem_append.mp hx with hx | hx
    · have := (mem_toT.mp hx).1; rw [List.mem_singleton] at this; omega
    · have := hf _ (mem_toT.mp hx).1; omega
  have g58 : Grow s5 s8 f := by
    have := (m6.grow.trans pls.grow).trans0 g8.grow; rwa [List.nil_append] at this
  have g48 : Grow s4 s8 f := by have := g5.grow.trans g58; rwa [List.nil_append] at this
  have l4 : Loaded K'.I s3.write s4.write s4.vm.instrs [] := l8.sub (by omega) (by omega) (fun i _ hi => g48.below i hi) (by simp) (by
    intro x hx _
    rcases List.mem_append.mp hx with hx | hx
    · have := (mem_toT.mp hx).1; rw [List.mem_singleton] at this; omega
    · have := hf _ (mem_toT.mp hx).1; omega)
  have l7 : Loaded K'.I s6.write s7.write s7.vm.instrs (toT f K'.T) := by
    rw [e5]
    exact l8.sub (by omega) (by omega) (fun i _ hi => g8.grow.below i hi) (fun x hx => List.mem_append_right _ hx) (by
      intro x hx hn
      have := (mem_toT.mp ((List.mem_append.mp hx).resolve_right hn)).1; rw [List.mem_singleton] at this; omega)
  have x4 := sim4 K' a3 (hh8.grow g48) l4 (by rw [o3]; omega)
  have x7 := plb.sim K' (a3.seg p3 g36) (hh8.grow g8.grow) l7 (by rw [o6]; omega)
  rw [o6, hw6] at x7
  have j0 := em8.loaded (Seg.refl em8.wf).grow l8 (i := 0) rfl (by omega) (Nat.le_refl _) fun x hx => (nin 0 (by decide) x hx).2
  have j1 := em8.loaded (Seg.refl em8.wf).grow l8 (i := 1) rfl (by omega) (Nat.le_refl _) n7
  have j2 := em8.loaded (Seg.refl em8.wf).grow l8 (i := 2) rfl (by omega) (Nat.le_refl _) fun x hx => (nin 2 (by decide) x hx).2
  have xb := sim_seq (sim_jump x7 j0 j1 j2 (by omega) (by omega)) hX
  have tst := simV_test (Q := Done) (p := s4.write) (T := s8.write)
    (em5.loaded g58 l8 (i := 0) rfl (by omega) (by omega) fun x hx => (nin 0 (by decide) x hx).1 (by decide))
    (l8.jumps (s4.write, s8.write) (List.mem_append_left _ (by simp [toT])))
    (em5.loaded g58 l8 (i := 2) rfl (by omega) (by omega) fun x hx => (nin 2 (by decide) x hx).1 (by decide)) (by omega) (by omega) xb sim_done
  have := x4 _ _ _ (by rw [o3]; exact tst)
  have hpl : placeOf s3.ctx = (envOf s).Γ := by
    have := congrArg Env.Γ (show envOf s3 = envOf s1 from m.seg.env); rw [evl, ev0] at this; exact this
  rwa [o3, hpl, hw3, wl, e2] at this

theorem do_inv {st : CM Bool} (hst : CMono st) {fd : CM (Option Nat)} (hfd : CMono fd) {S : St} {e : Ex} (w : Works F H st S)
    {d k : Nat} {ts us rest : List Token} {s s' : CS} {i wh o c semi : Token} {r : Bool} (p : Pre s)
    (ho : offOf s.ctx + (St.doWhile S e).size < 4294967296) (hi : i.type = .kwDo) (hwh : wh.type = .kwWhile) (hpo : o.type = .parenOpen)
    (hpc : c.type = .parenClose) (hsemi : semi.type = .semicolon)
    (sx : ExSrc F k false ts e) (hk : 2 + 2 * k ≤ d - S.leak) (src : Src F d us S)
    (ht : s.toks = i :: us ++ wh :: o :: ts ++ [c, semi] ++ rest) (hd : s.depth + 1 + d ≤ 257)
    (h : doStmt st (compileExpr F fd false) s = .ok (r, s')) (he : s'.vm.errors = []) :
    r = true ∧ s'.toks = rest ∧ s'.depth = s.depth + S.leak ∧
      Plain F H s s' (St.doWhile S e).size [] fun b => (St.doWhile S e).exec F H b (envOf s) := by
  have hes := e.size_pos
  have hlk := src_leak src
  have hsz : (St.doWhile S e).size = e.size + S.size + 1 := rfl
  rw [hsz] at ho ⊢
  have mono := compileExpr_mono hfd F false
  unfold doStmt at h
  rw [CM.cget_bind] at h
  have h := pushRec_same (by intro a; have := @endLoop_mono; cmono) h (he.trans p.errs.symm)
  rw [if_pos rfl] at h
  have m0 := moved_depth p.wf (s.depth + 1)
  have t0 : ({ s with depth := s.depth + 1 } : CS).toks = i :: (us ++ (wh :: o :: ts ++ c :: semi :: rest)) := by simpa using ht
  generalize e0 : ({ s with depth := s.depth + 1 } : CS) = s0 at *
  have d0 : s0.depth = s.depth + 1 := by rw [← e0]
  have p0 := p.moved m0
  have o0 : offOf s0.ctx = offOf s.ctx := by rw [m0.ctx]
  have ev0 : envOf s0 = envOf s := m0.seg.env
  rw [CM.bind_ok (pushLoop_eq s0)] at h
  have pl := p0.inLoop
  have evl := envOf_inLoop s0
  have ol : offOf (inLoop s0).ctx = offOf s.ctx := o0
  have dl : (inLoop s0).depth = s.depth + 1 := d0
  have t1 : (inLoop s0).toks = i :: (us ++ (wh :: o :: ts ++ c :: semi :: rest)) := t0
  have wl : (inLoop s0).write = s.write := m0.write
  generalize e1 : inLoop s0 = s1 at *
  rw [expectLoop_run t1 hi] at h
  obtain ⟨m2, t2, d2⟩ := moved_skip pl.wf t1
  generalize skip 1 s1 = s2 at *
  have p2 := pl.moved m2
  have o2 : offOf s2.ctx = offOf s.ctx := by rw [m2.ctx, ol]
  have ev2 : envOf s2 = (envOf s).inner := by rw [show envOf s2 = envOf s1 from m2.seg.env, evl, ev0]
  obtain ⟨s3, f, h3, er3, t3, d3, -, plb⟩ := scope_inv hst w (by have := @endLoop_mono; cmono) (by cmono) p2 (by rw [o2]; omega) src t2
    (fun _ => by rw [List.cons_append, typeOf_cons, hwh]; decide) (by rw [d2, dl]; exact hd) h he
  rw [ev2] at plb
  have pls := plb.seg
  rw [o2] at pls
  have o3 : offOf s3.ctx = offOf s.ctx := pls.off p2.wf
  have t3' : s3.toks = wh :: (o :: ts ++ c :: semi :: rest) := t3
  rw [expectLoop_run t3' hwh] at h3
  obtain ⟨m4, t4, d4⟩ := moved_skip pls.grow.wf t3'
  generalize skip 1 s3 = s4 at *
  rw [expectLoop_run t4 hpo] at h3
  obtain ⟨m5, t5, d5⟩ := moved_skip m4.grow.wf t4
  generalize skip 1 s4 = s5 at *
  have m35 := m4.trans m5
  have p3 := p2.seg pls er3 (by rw [o2])
  have p5 := p3.moved m35
  have o5 : offOf s5.ctx = offOf s.ctx := by rw [m35.ctx, o3]
  obtain ⟨r1, s6, h1, h, er6⟩ := CM.bind_nil h3 (by intro a; have := @endLoop_mono; cmono) he
  obtain ⟨rfl, t6, d6, g6, sim6⟩ := expr_inv (H := H) hfd p5 sx (rest := c :: semi :: rest) (by simpa using t5) (by simp [isEnd, isSubEnd, hpc])
    (by omega) (by omega) h1 er6
  rw [if_pos rfl, expectLoop_run t6 hpc] at h
  obtain ⟨m7, t7, d7⟩ := moved_skip g6.grow.wf t6
  generalize skip 1 s6 = s7 at *
  have o6 : offOf s6.ctx = offOf s.ctx + 1 := by rw [g6.off p5.wf, o5]
  have o7 : offOf s7.ctx = offOf s.ctx + 1 := by rw [m7.ctx, o6]
  obtain ⟨_, s8, h4, h, er8⟩ := CM.bind_nil h (by intro a; have := @endLoop_mono; cmono) he
  obtain ⟨em8, d8, g8, t8⟩ := not_inv m7.grow.wf (by omega) h4
  have o8 : offOf s8.ctx = offOf s.ctx + 1 := by rw [g8.off m7.grow.wf, o7]
  obtain ⟨_, s9, h5, h, er9⟩ := CM.bind_nil h (by intro a; have := @endLoop_mono; cmono) he
  obtain ⟨_, em9, d9, g9, t9⟩ := jz_inv g8.grow.wf (k := offOf s.ctx) (by omega) o8 h5
  obtain ⟨_, s10, h8, h9, er10⟩ := CM.bind_nil h (by intro a; have := @expectSkip_mono; cmono) he
  have g29 := (pls.trans0 m35.seg).trans0 (((g6.trans0 m7.seg).trans0 g8).trans0 g9)
  have g19 : Seg s1 s9 f (offOf s.ctx) := by have := m2.seg.trans g29; rwa [List.nil_append] at this
  have hc9 : s9.ctx = inCtx s0.ctx :: withFix f (loopCtx s0.ctx :: s0.ctx) := by
    refine Seg.ctxLoop ?_; rw [e1, o0]; exact g19
  have hst9 : s9.staticCount = s0.staticCount := by rw [g19.stat, ← e1]; rfl
  obtain ⟨z1, z2, z3, z4, z5, z6, z7⟩ := endLoop_inv p0.wf (by rw [e1]; exact g19.grow) hc9 hst9 h8
  rw [o0] at z1
  have t10 : s10.toks = semi :: rest := by rw [z2, t9, t8, t7]
  have hx := expectSkip_bind t10 hsemi (fun r => (pure r : CM Bool))
  have h9' : (expectSkip .semicolon >>= fun r => (pure r : CM Bool)) s10 = .ok (r, s') := by rw [CM.bind_ok h9]; rfl
  rw [hx] at h9'
  obtain ⟨rfl, rfl⟩ := pure_inv h9'
  obtain ⟨m11, t11, d11⟩ := moved_skip z1.grow.wf t10
  have hi11 : (skip 1 s10).vm.instrs = s10.vm.instrs := by obtain ⟨a, b, c, e⟩ := skip_readTo 1 s10; rw [e]
  generalize skip 1 s10 = s11 at *
  have o10 : offOf s10.ctx = offOf s.ctx := z1.off p0.wf
  have gs : Seg s s11 [] (offOf s.ctx) := by have := (m0.seg.trans z1).trans0 m11.seg; rwa [List.nil_append, o10] at this
  refine ⟨rfl, t11, by rw [d11, z3, d9, d8, d7, d6, d5, d4, d3, d2, dl]; omega, gs, fun K ha hh hl hn => ?_⟩
  rw [toT_nil, ← m0.write, hi11, m11.write] at hl
  obtain ⟨hl9, hpop⟩ := z7 K.I hl
  have hT : s10.write = s9.write := by
    rcases hpop with ⟨_, x⟩ | ⟨x, _⟩
    · exact x
    · exact absurd rfl x
  rw [hT] at hl9
  have hs := g9.grow.wf.small
  have hwb := g9.grow.wf.write
  have a0 : At F H (K.loop s9.write (K.b + offOf s.ctx)) s1 := by
    have := At.inLoop (T := s9.write) (ha.seg p m0.seg) (by omega); rwa [e1, o0] at this
  have hh9 : Has (K.loop s9.write (K.b + offOf s.ctx)) s9 := (z6 K (hh.grow m11.grow)).loop
  show Sim K (Catch _) _ _ _ _
  rw [m11.write, hT]
  refine sim_catch (sim_loop fun X hX => ?_)
  have e2 : (K.loop s9.write (K.b + offOf s.ctx)).b = K.b := rfl
  have e3 : (K.loop s9.write (K.b + offOf s.ctx)).n = K.n := rfl
  have e4 : (K.loop s9.write (K.b + offOf s.ctx)).I = K.I := rfl
  have e5 : (K.loop s9.write (K.b + offOf s.ctx)).T = s9.write := rfl
  have a2 := a0.seg pl m2.seg
  have a5 := (a2.seg p2 pls).seg p3 m35.seg
  generalize K.loop s9.write (K.b + offOf s.ctx) = K' at *
  rw [← e4] at hl9
  rw [← e3, ← e2] at hn
  have hw0 := m0.write
  have hw2 := m2.write
  have hw5 := m35.write
  have hw7 := m7.write
  have hw8 : s8.write = s7.write + 1 := em8.write
  have hw9 : s9.write = s8.write + 3 := em9.write
  have hle3 := pls.grow.le
  have hle6 := g6.grow.le
  have hf : ∀ a ∈ f, s2.write ≤ a ∧ a + 3 ≤ s3.write := fun a ha => pls.grow.fix a ha
  have nin : ∀ i, s3.write ≤ i → ∀ x ∈ toT f s9.write, i ≠ x.1 + 1 := by
    intro i hi x hx
    have := hf _ (mem_toT.mp hx).1; omega
  have g69 : Grow s6 s9 [] := ((m7.grow.trans0 g8.grow).trans0 g9.grow)
  have g39 : Grow s3 s9 [] := (m35.grow.trans0 g6.grow).trans0 g69
  have l3 : Loaded K'.I s2.write s3.write s3.vm.instrs (toT f K'.T) := by
    rw [e5]
    exact hl9.sub (by omega) g39.le (fun i _ hi => g39.below i hi) (fun x hx => hx) (fun x hx hn => absurd hx hn)
  have l6 : Loaded K'.I s5.write s6.write s6.vm.instrs [] := hl9.sub (by omega) g69.le (fun i _ hi => g69.below i hi) (by simp) (by
    intro x hx _
    have := hf _ (mem_toT.mp hx).1; omega)
  have x3 := plb.sim K' a2 (hh9.grow g39) l3 (by rw [o2]; omega)
  rw [o2] at x3
  have x6 := sim6 K' a5 (hh9.grow g69) l6 (by rw [o5]; omega)
  have j0 := em8.loaded g9.grow hl9 (i := 0) rfl (by omega) (by omega) (nin _ (by omega))
  have j1 := em9.loaded (Seg.refl em9.wf).grow hl9 (i := 0) rfl (by omega) (Nat.le_refl _) (nin _ (by omega))
  have j2 := em9.loaded (Seg.refl em9.wf).grow hl9 (i := 1) rfl (by omega) (Nat.le_refl _) (nin _ (by omega))
  have j3 := em9.loaded (Seg.refl em9.wf).grow hl9 (i := 2) rfl (by omega) (Nat.le_refl _) (nin _ (by omega))
  rw [hw8, hw7] at j1 j2 j3
  rw [hw7] at j0
  have tst := simV_testNot (Q := Done) (p := s6.write) (T := s.write) (h := offOf s.ctx) (h' := offOf s.ctx) j0 j1 j2 j3 (by omega) (by omega) hX
    (by rw [show s9.write = s6.write + 4 by omega]; exact sim_done)
  have x6' := x6 _ _ _ (by rw [o5]; exact tst)
  have hpl : placeOf s5.ctx = (envOf s).Γ := by
    rw [m35.ctx, pls.place]
    exact congrArg Env.Γ ev2
  rw [o5, hpl, hw5] at x6'
  have := sim_seq x3 x6'
  rw [hw2, wl, e2] at this
  exact this

/-- Emitting an expression. -/
theorem emit_inv {s s' : CS} {r : Bool} {e : Ex} (p : Pre s) (ho : offOf s.ctx + e.size < 4294967296)
    (h : emitExpr F e.node s = .ok (r, s')) (he : s'.vm.errors = []) :
    r = true ∧ s'.toks = s.toks ∧ s'.depth = s.depth ∧ Seg s s' [] (offOf s.ctx + 1) ∧
      ∀ K, At F H K s → Has K s' → Loaded K.I s.write s'.write s'.vm.instrs [] → K.b + offOf s.ctx + e.size ≤ K.n →
        ∀ k q h', SimV K k s'.write q (offOf s.ctx) h' → Sim K (Eval F H K.b (placeOf s.ctx) e k) s.write q (offOf s.ctx) h' := by
  obtain ⟨rfl, ws, c, x⟩ := emit_ex F H e p.wf ho h (he.trans p.errs.symm)
  have l := c.emit.line c.depth
  refine ⟨rfl, l.toks, c.depth, ⟨l.grow, by rw [c.ctx, withFix_nil], l.stat⟩, fun K ha hh hl hn k q h' hk => ?_⟩
  have x := (x K.b).lit hh.lits
  obtain ⟨rfl, rfl⟩ := And.intro ha.f ha.h
  have hw := c.emit.write
  refine sim_eval x (fun i w hw => ?_) hn (by rw [← hw]; exact hk)
  have : i < ws.length := (List.getElem?_eq_some_iff.mp hw).1
  exact hl.at (c.emit.code i w hw) (by omega) (by omega) (by simp)

set_option maxHeartbeats 1000000 in
theorem for_inv {st : CM Bool} (hst : CMono st) {fd : CM (Option Nat)} (hfd : CMono fd) {J S : St} {e n : Ex} (wi : Works F H st J) (w : Works F H st S)
    {d k m : Nat} {is ts ns us rest : List Token} {s s' : CS} {i o semi c : Token} {r : Bool} (p : Pre s)
    (ho : offOf s.ctx + (St.for J e n S).size < 4294967296) (hi : i.type = .kwFor) (hpo : o.type = .parenOpen) (hse : semi.type = .semicolon)
    (hpc : c.type = .parenClose) (srcI : Src F d is J)
    (sx : ExSrc F k false ts e) (hk : 2 + 2 * k ≤ d - J.leak) (sn : ExSrc F m true ns n) (hm : 1 + 2 * m ≤ d - J.leak)
    (src : Src F (d - J.leak) us S) (hopen : S.open = true → typeOf rest ≠ .kwElse)
    (hex : ∀ t ts', ts = t :: ts' → t.type ≠ .kwElse)
    (ht : s.toks = i :: o :: is ++ ts ++ semi :: ns ++ c :: us ++ rest) (hd : s.depth + 1 + d ≤ 257)
    (h : forStmt F st (compileExpr F fd false) (compileNoEmit F fd true) s = .ok (r, s')) (he : s'.vm.errors = []) :
    r = true ∧ s'.toks = rest ∧ s'.depth = s.depth + (J.leak + S.leak) ∧
      Plain F H s s' (St.for J e n S).size [] fun b => (St.for J e n S).exec F H b (envOf s) := by
  have hes := e.size_pos
  have hns := n.size_pos
  have hlk := src_leak srcI
  have hsz : (St.for J e n S).size = J.size + e.size + n.size + S.size + 1 := rfl
  rw [hsz] at ho ⊢
  have mono := compileExpr_mono hfd F false
  have mono2 := compileNoEmit_mono hfd F true
  have mono3 := emitExpr_mono F
  unfold forStmt at h
  have h := pushRec_same (by intro a; have := @endLoop_mono; cmono) h (he.trans p.errs.symm)
  rw [if_pos rfl] at h
  have m0 := moved_depth p.wf (s.depth + 1)
  have t0 : ({ s with depth := s.depth + 1 } : CS).toks = i :: (o :: (is ++ (ts ++ semi :: (ns ++ c :: (us ++ rest))))) := by simpa using ht
  generalize e0 : ({ s with depth := s.depth + 1 } : CS) = s0 at *
  have d0 : s0.depth = s.depth + 1 := by rw [← e0]
  have p0 := p.moved m0
  have o0 : offOf s0.ctx = offOf s.ctx := by rw [m0.ctx]
  have ev0 : envOf s0 = envOf s := m0.seg.env
  rw [CM.bind_ok (pushLoop_eq s0)] at h
  have pl := p0.inLoop
  have evl := envOf_inLoop s0
  have ol : offOf (inLoop s0).ctx = offOf s.ctx := o0
  have dl : (inLoop s0).depth = s.depth + 1 := d0
  have t1 : (inLoop s0).toks = i :: (o :: (is ++ (ts ++ semi :: (ns ++ c :: (us ++ rest))))) := t0
  have wl : (inLoop s0).write = s.write := m0.write
  have cl : (inLoop s0).ctx = inCtx s0.ctx :: loopCtx s0.ctx :: s0.ctx := rfl
  have sl : (inLoop s0).staticCount = s0.staticCount := rfl
  generalize e1 : inLoop s0 = s1 at *
  rw [expectLoop_run t1 hi] at h
  obtain ⟨m2, t2, d2⟩ := moved_skip pl.wf t1
  generalize skip 1 s1 = s2 at *
  rw [expectLoop_run t2 hpo] at h
  obtain ⟨m3, t3, d3⟩ := moved_skip m2.grow.wf t2
  generalize skip 1 s2 = s3 at *
  have m13 := m2.trans m3
  have p3 := pl.moved m13
  have o3 : offOf s3.ctx = offOf s.ctx := by rw [m13.ctx, ol]
  have ev3 : envOf s3 = (envOf s).inner := by rw [show envOf s3 = envOf s1 from m13.seg.env, evl, ev0]
  obtain ⟨r1, s4, h1, h, er4⟩ := CM.bind_nil h (by intro a; have := @endLoop_mono; cmono) he
  obtain ⟨rfl, t4, d4, f1, -, post⟩ := wi _ _ _ _ _ _ p3 (by rw [o3]; omega) srcI t3
    (fun _ => by
      cases ts with
      | nil => rw [List.nil_append, typeOf_cons, hse]; decide
      | cons t ts => rw [List.cons_append, typeOf_cons]; exact hex _ _ rfl) (by omega) h1 er4
  rw [ev3] at post
  have p4 := post.pre p3 er4
  obtain ⟨-, -, k3, k4, -, k6⟩ := post.ctx' p3
  rw [o3] at k3 k4
  rw [if_pos rfl, CM.cget_bind] at h
  obtain ⟨r2, s5, h2, h, er5⟩ := CM.bind_nil h (by intro a; have := @endLoop_mono; cmono) he
  obtain ⟨rfl, t5, d5, g5, sim5⟩ := expr_inv (H := H) hfd p4 sx (rest := semi :: (ns ++ c :: (us ++ rest))) t4 (by simp [isEnd, isSubEnd, hse])
    (by omega) (by omega) h2 er5
  have p5 := p4.seg g5 er5 (by omega)
  rw [if_pos rfl] at h
  obtain ⟨q, s6, h3, h, er6⟩ := CM.bind_nil h (by intro a; have := @endLoop_mono; cmono) he
  obtain ⟨rfl, em6, d6, g6, t6⟩ := jz_inv p5.wf (k := offOf s4.ctx) (by omega) (g5.off p4.wf) h3
  have t6' : s6.toks = semi :: (ns ++ c :: (us ++ rest)) := t6.trans t5
  rw [expectLoop_run t6' hse] at h
  obtain ⟨m7, t7, d7⟩ := moved_skip g6.grow.wf t6'
  generalize skip 1 s6 = s7 at *
  have o6 : offOf s6.ctx = offOf s4.ctx := g6.off p5.wf
  obtain ⟨inc, s8, h4, h, er8⟩ := CM.bind_nil h (by intro a; have := @endLoop_mono; cmono) he
  obtain ⟨rfl, m8, t8, d8⟩ := compileNoEmit_inv hfd sn t7 (by simp [isEnd, isSubEnd, hpc]) (by omega) m7.grow.wf h4 (m7.errors.trans er6) er8
  rw [if_neg n.node_ne, expectLoop_run t8 hpc] at h
  obtain ⟨m9, t9, d9⟩ := moved_skip m8.grow.wf t8
  generalize skip 1 s8 = s9 at *
  have m69 := (m7.trans m8).trans m9
  have g49 := (g5.trans0 g6).trans0 m69.seg
  rw [o6] at g49
  have p9 := p4.seg g49 (m69.errors.trans er6) (Nat.le_refl _)
  have o9 : offOf s9.ctx = offOf s4.ctx := by rw [m69.ctx, o6]
  have ev9 : envOf s9 = envOf s4 := g49.env
  have k6' : s9.ctx ≠ [] := p9.wf.ctx
  obtain ⟨s10, f2, h5, er10, t10, d10, -, plb⟩ := scope_inv hst w (by have := @endLoop_mono; cmono) (by cmono) p9 (by rw [o9]; omega) src t9 hopen
    (by omega) h he
  rw [ev9] at plb
  have pls := plb.seg
  rw [o9] at pls
  have p10 := p9.seg pls er10 (by rw [o9])
  have o10 : offOf s10.ctx = offOf s4.ctx := pls.off p9.wf
  obtain ⟨r3, s11, h6, h7, er11⟩ := CM.bind_nil h5 (by intro a; have := @endLoop_mono; cmono) he
  obtain ⟨rfl, t11, d11, g11, sim11⟩ := emit_inv (H := H) p10 (by omega) h6 er11
  rw [if_pos rfl] at h7
  obtain ⟨_, s12, h8, h9, er12⟩ := CM.bind_nil h7 (by intro a; have := @endLoop_mono; cmono) he
  obtain ⟨em12, d12, g12, t12⟩ := pop_inv g11.grow.wf (k := offOf s4.ctx) (by omega) (by rw [g11.off p10.wf, o10]) h8
  have o12 : offOf s12.ctx = offOf s4.ctx := g12.off g11.grow.wf
  obtain ⟨_, s13, h10, h11, er13⟩ := CM.bind_nil h9 (by intro a; have := @endLoop_mono; cmono) he
  obtain ⟨_, em13, d13, g13, t13⟩ := jump_inv g12.grow.wf (by omega) h10
  rw [o12] at g13
  have hw6 : s6.write = s5.write + 3 := em6.write
  have hw12 : s12.write = s11.write + 1 := em12.write
  have hw13 : s13.write = s12.write + 3 := em13.write
  have hle4 := post.grow.le
  have hle5 := g5.grow.le
  have hle10 := pls.grow.le
  have hle11 := g11.grow.le
  have hw9 := m69.write
  have hw3 := m13.write
  have hw0 := m0.write
  obtain ⟨_, s14, h12, h13, er14⟩ := CM.bind_nil h11 (by intro a; have := @endLoop_mono; cmono) he
  have pa := jumpHere_inv g13.grow.wf (a := s5.write) (by omega) h12
  have hw14 := pa.write
  obtain ⟨_, s15, h14, h15, er15⟩ := CM.bind_nil h13 (by intro a; cmono) he
  obtain ⟨rfl, rfl⟩ := pure_inv h15
  have g913 := ((pls.trans0 g11).trans0 g12).trans0 g13
  have g413 : Seg s4 s13 f2 (offOf s4.ctx) := by have := g49.trans g913; rwa [List.nil_append] at this
  have g414 := pa.seg g413 (by intro a ha; rw [List.mem_singleton] at ha; omega)
  obtain ⟨b, c', cs, a1, a2, a3, a4, a5, a6, a7, a8⟩ := post.ctx
  rw [m13.ctx, cl] at a1
  cases a1
  have hc14 : s14.ctx = c' :: withFix (f1 ++ f2) (loopCtx s0.ctx :: s0.ctx) := by
    have hl : c'.isLoop = false := a3
    rw [g414.ctx, setOff_off, a2, ← withFix_append]
    simp [withFix, hl]
  have hst14 : s14.staticCount = s0.staticCount := by
    rw [g414.stat, post.glob (by rw [m13.ctx, cl]; simp), m13.stat, sl]
  have g114 : Grow s1 s14 (f1 ++ f2) := by
    have := m13.grow.trans (post.grow.trans g414.grow); rwa [List.nil_append] at this
  obtain ⟨z1, z2, z3, z4, z5, z6, z7⟩ := endLoop_inv p0.wf (by rw [e1]; exact g114) hc14 hst14 h14
  rw [o0] at z1
  have gs : Seg s s' [] (offOf s.ctx) := by have := m0.seg.trans z1; rwa [List.nil_append] at this
  refine ⟨rfl, by rw [z2, pa.toks, t13, t12, t11, t10], by rw [z3, pa.depth, d13, d12, d11, d10, d9, d8, d7, d6, d5, d4, d3, d2, dl]; omega,
    gs, fun K ha hh hl hn => ?_⟩
  rw [toT_nil, ← m0.write] at hl
  obtain ⟨hl14, hpop⟩ := z7 K.I hl
  have hs := z1.grow.wf.small
  have hwb := z1.grow.wf.write
  have a0 : At F H (K.loop s'.write (K.b + offOf s.ctx)) s1 := by
    have := At.inLoop (T := s'.write) (ha.seg p m0.seg) (by omega); rwa [e1, o0] at this
  have hh13 : Has (K.loop s'.write (K.b + offOf s.ctx)) s13 := ((z6 K hh).patch pa).loop
  show Sim K (Catch _) _ _ _ _
  refine sim_catch ?_
  have e2 : (K.loop s'.write (K.b + offOf s.ctx)).b = K.b := rfl
  have e3 : (K.loop s'.write (K.b + offOf s.ctx)).n = K.n := rfl
  have e4 : (K.loop s'.write (K.b + offOf s.ctx)).I = K.I := rfl
  have e5 : (K.loop s'.write (K.b + offOf s.ctx)).T = s'.write := rfl
  have b3 := a0.seg pl m13.seg
  have b4 := post.at p3 b3
  generalize K.loop s'.write (K.b + offOf s.ctx) = K' at *
  rw [← e4] at hl14 hpop
  rw [← e3, ← e2] at hn
  rw [← e5] at hl14
  have hf1 : ∀ a ∈ f1, s3.write ≤ a ∧ a + 3 ≤ s4.write := fun a ha => post.grow.fix a ha
  have hf2 : ∀ a ∈ f2, s9.write ≤ a ∧ a + 3 ≤ s10.write := fun a ha => pls.grow.fix a ha
  rw [hw14] at hl14
  have l13 := pa.loaded hl14 (by
    intro a hax
    rw [List.mem_singleton] at hax; subst hax
    refine ⟨by omega, by omega, fun x hx e => ?_⟩
    rcases List.mem_append.mp (mem_toT.mp hx).1 with hx | hx
    · have := hf1 _ hx; omega
    · have := hf2 _ hx; omega)
  have js : ∀ x ∈ toT [s5.write] s13.write ++ toT (f1 ++ f2) K'.T, (x ∈ toT f1 K'.T ∧ x.1 + 3 ≤ s4.write) ∨ x = (s5.write, s13.write) ∨
      (x ∈ toT f2 K'.T ∧ s9.write ≤ x.1 ∧ x.1 + 3 ≤ s10.write) := by
    intro x hx
    rw [toT_append] at hx
    rcases List.mem_append.mp hx with hx | hx
    · right; left; simpa [toT] using hx
    · rcases List.mem_append.mp hx with hx | hx
      · exact .inl ⟨hx, (hf1 _ (mem_toT.mp hx).1).2⟩
      · exact .inr (.inr ⟨hx, hf2 _ (mem_toT.mp hx).1⟩)
  have g1013 := ((g11.grow.trans0 g12.grow).trans0 g13.grow)
  have g613 : Grow s6 s13 f2 := by have := m69.grow.trans g913.grow; rwa [List.nil_append] at this
  have g513 : Grow s5 s13 f2 := by have := g6.grow.trans g613; rwa [List.nil_append] at this
  have l4 : Loaded K'.I s3.write s4.write s4.vm.instrs (toT f1 K'.T) := l13.sub (by omega) (by omega) (fun i _ hi => g413.grow.below i hi)
    (by intro x hx; rw [toT_append]; exact List.mem_append_right _ (List.mem_append_left _ hx)) (by
      intro x hx hn
      rcases js x hx with ⟨hx, _⟩ | rfl | ⟨_, hx⟩
      · exact absurd hx hn
      · right; show s4.write ≤ s5.write + 1; omega
      · omega)
  have x4 := post.sim K' b3 (hh13.grow g413.grow) l4 (by rw [o3]; omega)
  have ew : s4.ctx = c' :: withFix f1 (loopCtx s0.ctx :: s0.ctx) := a2
  have oc : offOf s4.ctx = c'.offset := by rw [a2]; rfl
  rw [o3, hw3, wl] at x4
  have ec : (inCtx s0.ctx).offset = offOf s.ctx := o0
  rw [ec] at a6 a7 a8
  have epop : popCount (inCtx s0.ctx) = 0 := rfl
  rw [epop, Nat.zero_add] at a8
  rw [hw14] at hpop
  rw [e2] at x4
  rcases a8 with ⟨a8, e8⟩ | a8
  swap
  · refine sim_popped (k := popCount c') (h' := offOf s4.ctx) (sim_seq_dead x4 (a8 _)) hpop (.inr ?_) (by omega) (by omega) (by omega)
    intro l W l' W' hP
    cases hP with
    | next x y => exact a8 _ _ _ _ _ x
    | stop x y => exact y rfl
  refine sim_popped (k := popCount c') (h' := offOf s4.ctx) (sim_seq x4 ?_) hpop (.inl (by omega)) (by omega) (by omega) (by omega)
  refine sim_loop fun X hX => ?_
  have l5 : Loaded K'.I s4.write s5.write s5.vm.instrs [] := l13.sub (by omega) (by omega) (fun i _ hi => g513.below i hi) (by simp) (by
      intro x hx hn
      rcases js x hx with ⟨_, hx⟩ | rfl | ⟨_, hx⟩
      · omega
      · right; show s5.write ≤ s5.write + 1; omega
      · omega)
  have l10 : Loaded K'.I s9.write s10.write s10.vm.instrs (toT f2 K'.T) := l13.sub (by omega) (by omega) (fun i _ hi => g1013.below i hi)
    (by intro x hx; rw [toT_append]; exact List.mem_append_right _ (List.mem_append_right _ hx)) (by
      intro x hx hn
      rcases js x hx with ⟨_, hx⟩ | rfl | ⟨hx, _⟩
      · omega
      · left; show s5.write + 1 < _; omega
      · exact absurd hx hn)
  have l11 : Loaded K'.I s10.write s11.write s11.vm.instrs [] := l13.sub (by omega) (by omega)
    (fun i _ hi => (g12.grow.trans0 g13.grow).below i hi) (by simp) (by
      intro x hx hn
      rcases js x hx with ⟨_, hx⟩ | rfl | ⟨_, hx⟩
      · omega
      · left; show s5.write + 1 < _; omega
      · omega)
  have nin5 : ∀ j, j ≠ 1 → j < 3 → ∀ x ∈ toT [s5.write] s13.write ++ toT (f1 ++ f2) K'.T, s5.write + j ≠ x.1 + 1 := by
    intro j hj hj' x hx
    rcases js x hx with ⟨_, hx⟩ | rfl | ⟨_, hx⟩
    · omega
    · show _ ≠ s5.write + 1; omega
    · omega
  have nin : ∀ i, s10.write ≤ i → ∀ x ∈ toT [s5.write] s13.write ++ toT (f1 ++ f2) K'.T, i ≠ x.1 + 1 := by
    intro i hi x hx
    rcases js x hx with ⟨_, hx⟩ | rfl | ⟨_, hx⟩
    · omega
    · show _ ≠ s5.write + 1; omega
    · omega
  have b9 := b4.seg p4 g49
  have b10 := b9.seg p9 pls
  have hh10 := hh13.grow g1013
  have x5 := sim5 K' b4 (hh13.grow g513) l5 (by omega)
  have x10 := plb.sim K' b9 hh10 l10 (by rw [o9]; omega)
  rw [o9] at x10
  have x11 := sim11 K' b10 ((hh13.grow g13.grow).grow g12.grow) l11 (by rw [o10]; omega)
  rw [o10] at x11
  have i12 := em12.loaded g13.grow l13 (i := 0) rfl (by omega) (by omega) (nin _ (by omega))
  have i0 := em13.loaded (Seg.refl em13.wf).grow l13 (i := 0) rfl (by omega) (Nat.le_refl _) (nin _ (by omega))
  have i1 := em13.loaded (Seg.refl em13.wf).grow l13 (i := 1) rfl (by omega) (Nat.le_refl _) (nin _ (by omega))
  have i2 := em13.loaded (Seg.refl em13.wf).grow l13 (i := 2) rfl (by omega) (Nat.le_refl _) (nin _ (by omega))
  have xinc := x11 _ _ _ (simV_pop (h := offOf s4.ctx) i12)
  rw [← hw12] at xinc
  have xbody := sim_seq x10 (sim_seq (sim_jump xinc i0 i1 i2 (by omega) (by omega)) hX)
  rw [hw9, hw6] at xbody
  have tst := simV_test (Q := Done) (p := s5.write) (T := s13.write)
    (em6.loaded g613 l13 (i := 0) rfl (by omega) (by omega) (nin5 0 (by decide) (by decide)))
    (l13.jumps (s5.write, s13.write) (List.mem_append_left _ (by simp [toT])))
    (em6.loaded g613 l13 (i := 2) rfl (by omega) (by omega) (nin5 2 (by decide) (by decide))) (by omega) (by omega) xbody sim_done
  have res := x5 _ _ _ tst
  have hp10 : placeOf s10.ctx = placeOf s4.ctx := by rw [pls.place, g49.place]
  have hp4 : placeOf s4.ctx = (J.bind (envOf s).inner).Γ := congrArg Env.Γ e8
  have hin : (envOf s4).inner = J.bind (envOf s).inner := by
    rw [e8]
    have : ∀ E : Env, E.g = none → (J.bind E).inner = J.bind E := by
      intro E hE
      cases J <;> simp [St.bind, Env.inner, Env.bind, hE] <;> (cases E; simp_all)
    exact this _ rfl
  rw [hp10, hp4, e2, hin] at res
  exact res

end Nk.Cc
