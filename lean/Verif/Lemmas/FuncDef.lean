import Verif.Lemmas.FuncComp
/-!
# The definition of a function
-/
namespace Nk.Cc
open Nk.Props
variable {F : FloatOps} {H : Host}

/-- A function for a new variable. -/
theorem sim_fnLit {K : Cfg} {E : Env} {p q h h' id : Nat} (h0 : K.I[p]? = some 10) (h1 : K.I[p + 1]? = some (BitVec.ofNat 32 id)) (hid : id < 4294967296)
    (hn : K.b + h < K.n) (a : SimV K (fun v => Declare E v) (p + 2) q h h') : Sim K (Declare E (.fn id)) p q h h' := by
  intro W l vm o l' W' f hl m hP
  obtain ⟨vm1, r1, m1⟩ := m.literal K.F K.H (op := 10) (mk := fun w => .fn w.toNat) (w := BitVec.ofNat 32 id) f.good (by decide) (fun _ => rfl)
    (CodeAt.cons.mpr ⟨by rw [f.instrs]; exact h0, CodeAt.cons.mpr ⟨by rw [f.instrs]; exact h1, fun i w hw => by simp at hw⟩⟩) f.space (by omega)
  rw [BitVec.toNat_ofNat, Nat.mod_eq_of_lt hid] at m1
  exact (a _ _ _ _ _ _ _ f hl m1 hP).before (.one r1) (.refl f.good.str)

/-- A function has been defined: `s` is before, `s'` after. -/
structure FnPost (F : FloatOps) (H : Host) (s s' : CS) (f : Bytes) (ps : List Bytes) (ss : Sts) : Prop where
  pre : Pre s'
  grew : Extends s s'
  nodup : ps.Nodup
  ctx : ∃ c c', s.ctx = [c] ∧ s'.ctx = [c'] ∧ c'.fnId = c.fnId ∧ c'.isLoop = c.isLoop ∧ c'.fixups = c.fixups ∧ c'.offset = c.offset
  env : envOf s' = (envOf s).bind f
  sim : ∀ K, At F H K s → Has K s' → Loaded K.I s.write s'.write s'.vm.instrs [] → K.b + offOf s.ctx + 2 ≤ K.n →
    Sim K (Declare (envOf s) (.fn s.vm.functions.length)) s.write s'.write (offOf s.ctx) (offOf s.ctx)
  body : ∃ first, s.write ≤ first ∧ first < s'.write ∧ s'.vm.functions = s.vm.functions ++ [⟨ps.length, first, UINT_MAX⟩] ∧
    ∀ K, K.F = F → K.H = H → K.T < 4294967296 → K.hb = K.b → K.rb = K.b + ps.length + 2 → Has K s' →
      Loaded K.I s.write s'.write s'.vm.instrs [] → K.b + (ps.length + 2) + (ss.size + 2) ≤ K.n →
      Sim K (Body F H K.b (fnEnv ps ((envOf s).bind f).Γ) ss) first s'.write (ps.length + 2) (ps.length + 3)

theorem fnArgs_root {c : CCtx} (h : c.fnId = UINT_MAX) (fns : List Func) : fnArgs fns [c] = none := by
  unfold fnArgs findFn
  rw [if_pos h]
  rfl

/-- Adding a function to the table. -/
theorem onCreate_inv {s s' : CS} {root : CCtx} {id : Nat} (p : Pre s) (hc : s.ctx = [root]) (hr : root.fnId = UINT_MAX) (h : onVM createFunction s = .ok (id, s')) :
    id = s.vm.functions.length ∧ id < UINT_MAX ∧ Pre s' ∧ s'.toks = s.toks ∧ s'.depth = s.depth ∧ s'.write = s.write ∧ s'.ctx = s.ctx ∧
      s'.staticCount = s.staticCount ∧ s'.vm.instrs = s.vm.instrs ∧ (∀ W, Lits s'.vm W → Lits s.vm W) ∧
      s'.vm.functions = s.vm.functions ++ [{ argc := 0, first := 0, extId := UINT_MAX }] := by
  unfold onVM at h
  cases hx : createFunction s.vm with
  | ub k => rw [hx] at h; cases h
  | ok x =>
    obtain ⟨i, vm'⟩ := x
    rw [hx] at h
    obtain ⟨h1, h2, h3⟩ := createFunction_cases hx
    cases h
    subst h3
    refine ⟨h1, h2, ⟨⟨p.wf.pow, p.wf.len, p.wf.write, CodeWF.str' p.wf.str rfl rfl, p.wf.ctx⟩, p.errs, p.head, p.loop, ?_, p.stat⟩, rfl, rfl, rfl, rfl, rfl, rfl, fun _ h => h, rfl⟩
    intro a ha
    have ha : fnArgs _ s.ctx = some a := ha
    rw [hc, fnArgs_root hr] at ha
    cases ha

theorem curString_bind {β : Type} {s : CS} {t : Token} {ts : List Token} (h : s.toks = t :: ts) (f : Bytes → CM β) : (curString >>= f) s = f t.str s := by
  unfold curString
  rw [CM.assoc, CM.cget_bind, h]
  rfl

theorem functionDef_inv {ss : Sts} {n d : Nat} {us ts rest : List Token} {ps : List Bytes} {s s' : CS} {k f o c bo bc : Token} {root : CCtx} {r : Option Nat}
    (p : Pre s) (hc : s.ctx = [root]) (hr : root.fnId = UINT_MAX) (hk : k.type = .kwFunction) (hf : f.type = .identifier)
    (hpo : o.type = .parenOpen) (hps : Params us ps) (hpc : c.type = .parenClose)
    (hbo : bo.type = .curlyOpen) (src : Srcs F d ts ss) (hbc : bc.type = .curlyClose) (hbr : ss.breaks = false)
    (hof : offOf s.ctx + 2 < 4294967296)
    (ho : ps.length + ss.size + 4 < 4294967296) (ht : s.toks = k :: f :: (o :: us ++ c :: bo :: ts ++ [bc] ++ rest)) (hd : s.depth + 3 + d ≤ 257)
    (h : functionDef (statement F (n + 1)) false s = .ok (r, s')) (he : s'.vm.errors = []) :
    r.isSome = true ∧ s'.toks = rest ∧ s'.depth = s.depth + ss.leak ∧ FnPost F H s s' f.str ps ss := by
  have ms := statement_mono F (n + 1)
  have mf := functionBody_mono ms
  unfold functionDef at h
  have h := pushRec_same (by intro a; cmono) h (he.trans p.errs.symm)
  rw [if_pos rfl] at h
  have m0 := moved_depth p.wf (s.depth + 1)
  have p0 := p.moved m0
  obtain ⟨id, s1, h1, h, e1⟩ := CM.bind_nil h (by intro a; cmono) he
  obtain ⟨hid, hid', p1, t1, d1, w1, c1, st1, i1, l1, f1⟩ := onCreate_inv p0 hc hr h1
  have t1 := t1.trans ht
  rw [expectSkip_bind t1 hk, if_pos rfl, if_neg (by decide)] at h
  obtain ⟨m2, t2, d2⟩ := moved_skip p1.wf t1
  generalize skip 1 s1 = s2 at *
  rw [curType_bind, if_pos (by rw [t2]; exact hf), curString_bind t2, nextTok_bind] at h
  obtain ⟨m3, t3, d3⟩ := moved_skip m2.grow.wf t2
  generalize skip 1 s2 = s3 at *
  have m3 := m2.trans m3
  have p3 := p1.moved m3
  obtain ⟨_, s4, h4, h, e4⟩ := CM.bind_nil h (by intro a; cmono) he
  obtain ⟨a1, a2, a3⟩ := emitLit_inv p3.wf (op := 10) (by decide) h4
  have o3 : offOf s3.ctx = offOf s.ctx := by rw [m3.ctx, c1]
  rw [if_pos rfl, show stackOffset 10 = 1 from rfl, show addInt (offOf s3.ctx) 1 = offOf s3.ctx + 1 from addInt_pos (n := 1) (by omega)] at a3
  have g4 := a1.seg a2 a3
  obtain ⟨r5, s5, h5, h, e5⟩ := CM.bind_nil h (by intro a; cmono) he
  have w3 : s3.write = s.write := m3.write.trans w1
  have w4 : s4.write = s.write + 2 := by rw [a1.write, w3]; rfl
  have er4 := a1.errors.trans p3.errs
  obtain ⟨post, t5, d5⟩ := declared (F := F) (H := H) (size := 2) (P := fun _ => Declare (envOf s3) (.fn id)) p3 g4 er4 (by omega) (Nat.le_refl _) h5 e5 (moved_depth (addVar_inv (p3.seg g4 er4 (by omega)) (g4.off p3.wf) (by omega) h5 e5).1.wf s5.depth) (by
    intro K q h' at' hh hl hn hk
    have c0 := hl.at (a1.code 0 _ rfl) (by omega) (by omega) (by simp)
    have c1 := hl.at (a1.code 1 _ rfl) (by omega) (by omega) (by simp)
    exact sim_fnLit c0 c1 (by unfold UINT_MAX at hid'; omega) (by omega) (by rw [show s3.write + 2 = s4.write by omega]; exact hk))
  have post : StPost F H s3 s5 2 [] ((envOf s3).bind f.str) fun _ => Declare (envOf s3) (.fn id) := post
  have p5 := post.pre p3 e5
  have ev3 : envOf s3 = envOf s := by
    unfold envOf
    rw [m3.ctx, c1, m3.stat, st1]
  obtain ⟨c0, c', cs, x1, x2, x3, x4, x5, x6, x7, x8⟩ := post.ctx
  have hx : [root] = c0 :: cs := by rw [← x1, m3.ctx, c1]; exact hc.symm
  injection hx with hx1 hx2
  subst hx1 hx2
  have x2 : s5.ctx = [c'] := x2
  have hg : (envOf s3).g = some s3.staticCount := by
    show (if _ then _ else _) = _
    rw [if_pos (by rw [m3.ctx, c1]; show s.ctx.tail = []; rw [hc]; rfl)]
  have hdead : ¬Dead fun _ => Declare (envOf s3) (.fn id) := by
    intro hd
    refine hd 0 [] { VM.create with statics := List.replicate (s3.staticCount + 1) .nil } _ _ (.glob (n := s3.staticCount) hg (by simp))
  have x8 := x8.resolve_right hdead
  have f5 : s5.vm.functions = s.vm.functions ++ [{ argc := 0, first := 0, extId := UINT_MAX }] := by
    rw [post.grow.fns, m3.grow.fns]; exact f1
  have hid : id = s.vm.functions.length := hid
  have t5 := t5.trans ((a1.line a2).toks.trans t3)
  have dd5 : s5.depth = s.depth + 1 := by rw [d5, a2, d3, d2, d1]
  obtain ⟨q1, q2, q3, q4⟩ := functionBody_inv (H := H) p5 x2 (by rw [f5]; simp; omega) hid' hpo hps hpc hbo src hbc hbr ho t5
    (by rw [dd5]; omega) h he
  have x9 := x8.2
  have of' : c'.offset = root.offset := by
    have : (envOf s5).h = ((envOf s3).bind f.str).h := by rw [x9]
    unfold Env.bind at this
    rw [hg] at this
    have : offOf s5.ctx = offOf s3.ctx := this
    rw [x2, o3, hc] at this
    exact this
  have ev5 : envOf s5 = (envOf s).bind f.str := by rw [x9, ev3]
  have w5 := post.grow.le
  have w6 := q4.write
  have f6 : s'.vm.functions = s.vm.functions ++ [⟨ps.length, s5.write + 3, UINT_MAX⟩] := by
    rw [q4.fns, f5, hid]
    apply List.ext_getElem?
    intro i
    rw [List.getElem?_modify]
    rcases Nat.lt_trichotomy i s.vm.functions.length with hi | hi | hi
    · rw [List.getElem?_append_left hi, List.getElem?_append_left hi]; simp [show ¬s.vm.functions.length = i by omega]
    · subst hi; simp
    · rw [List.getElem?_eq_none (by simp; omega), List.getElem?_eq_none (by simp; omega)]; rfl
  have gr : Extends s s' := ⟨by omega, fun i hi => (q4.below i (by omega)).trans ((post.grow.below i (by omega)).trans ((m3.grow.below i (by rw [w1]; exact hi)).trans (by rw [i1]))),
    fun W hW => l1 W (m3.grow.lits W (post.grow.lits W (q4.lits W hW))), by rw [q4.stat]; exact Nat.le_trans (by rw [m3.stat, st1]) post.grow.stat,
    _, f6⟩
  have x2' : s'.ctx = [c'] := q4.ctx.trans x2
  have hw5 : s'.write < 4294967296 := by have := q4.wf.write; have := q4.wf.small; omega
  refine ⟨by rw [q1]; rfl, q2, by rw [q3, dd5]; omega, ⟨⟨q4.wf, he, ?_, ?_, ?_, by rw [q4.stat]; exact post.stat⟩, gr, q4.nodup, ⟨root, c', hc, x2', x4, x3, x5, of'⟩, ?_, ?_, ?_⟩⟩
  · rw [q4.ctx]; exact p5.head
  · rw [q4.ctx]; exact p5.loop
  · rw [x2', fnArgs_root (x4.trans hr)]; intro a ha; cases ha
  · rw [← ev5]; unfold envOf; rw [q4.ctx, q4.stat]
  · intro K at' hh hl hn
    have l5 : Loaded K.I s3.write s5.write s5.vm.instrs [] := hl.sub (by omega) (by omega) (fun i _ hi => q4.below i hi) (by simp) (by simp)
    have y := post.sim K ⟨at'.f, at'.h, at'.T, by rw [m3.ctx, c1]; exact at'.hb, fun a ha => by rw [m3.ctx, c1] at ha; have ha : fnArgs _ s.ctx = some a := ha; rw [hc, fnArgs_root hr] at ha; cases ha⟩
      ⟨fun W hW => q4.lits W (hh.lits W hW), by have := hh.stat; rw [q4.stat] at this; exact this⟩ l5 (by omega)
    have o5 : offOf s5.ctx = offOf s.ctx := by rw [x2, hc]; exact of'
    rw [ev3, o3, o5, w3, hid] at y
    obtain ⟨j1, j2, j3⟩ := q4.jump
    exact sim_jump y (hl.at j1 (by omega) (by omega) (by simp)) (hl.at j2 (by omega) (by omega) (by simp)) (hl.at j3 (by omega) (by omega) (by simp)) hw5 (by omega)
  · refine ⟨s5.write + 3, by omega, by omega, f6, fun K k1 k2 k3 k4 k5 k6 k7 k8 => ?_⟩
    have y := q4.sim K k1 k2 k3 k4 k5 k6 (k7.sub (by omega) (Nat.le_refl _) (fun i _ hi => rfl) (by simp) (by simp)) k8
    rw [show placeOf s5.ctx = ((envOf s).bind f.str).Γ by rw [← ev5]; rfl] at y
    exact y

/-- The definition of a function as a statement. -/
theorem fnStmt_inv {ss : Sts} {n d : Nat} {f : Bytes} {ts rest : List Token} {ps : List Bytes} {s s' : CS} {root : CCtx} {r : Bool}
    (p : Pre s) (hc : s.ctx = [root]) (hr : root.fnId = UINT_MAX) (src : FnSrc F d ts f ps ss) (hbr : ss.breaks = false)
    (hof : offOf s.ctx + 2 < 4294967296) (ho : ps.length + ss.size + 4 < 4294967296) (ht : s.toks = ts ++ rest) (hd : s.depth + d ≤ 257)
    (h : statement F (n + 2) s = .ok (r, s')) (he : s'.vm.errors = []) :
    r = true ∧ s'.toks = rest ∧ s'.depth = s.depth + ss.leak ∧ FnPost F H s s' f ps ss := by
  have h := statement_rec p h he
  obtain ⟨hk, hf, hpo, hps, hpc, hbo, src, hbc⟩ := src
  rename_i d us ts k f o c bo bc
  have ht : s.toks = k :: f :: (o :: us ++ c :: bo :: ts ++ [bc] ++ rest) := by rw [ht]; simp
  rw [show typeOf s.toks = .kwFunction by rw [ht]; exact hk] at h
  dsimp only at h
  unfold peekType at h
  rw [CM.assoc, CM.cget_bind, CM.pure_bind, if_pos (by show typeOf s.toks.tail = _; rw [ht]; exact hf)] at h
  have m0 := moved_depth p.wf (s.depth + 1)
  have p0 := p.moved m0
  obtain ⟨r1, s1, h1, h2, e1⟩ := CM.bind_nil h (by intro a; have := @stmtEnd_mono; cmono) he
  obtain ⟨k1, k2, k3, k4⟩ := functionDef_inv (H := H) p0 hc hr hk hf hpo hps hpc hbo src hbc hbr hof ho ht (by show s.depth + 1 + 3 + d ≤ _; omega) h1 e1
  rw [k1] at h2
  obtain ⟨rfl, rfl⟩ := stmtEnd_inv h2
  refine ⟨rfl, k2, by show s1.depth - 1 = _; rw [k3]; show s.depth + 1 + _ - 1 = _; omega, ?_⟩
  have m1 := moved_depth k4.pre.wf (s1.depth - 1)
  exact ⟨k4.pre.moved m1, ⟨k4.grew.le, k4.grew.below, k4.grew.lits, k4.grew.stat, k4.grew.fns⟩, k4.nodup, k4.ctx, k4.env,
    fun K a b c d => k4.sim K ⟨a.f, a.h, a.T, a.hb, a.rb⟩ ⟨b.lits, b.stat⟩ c d,
    by
      obtain ⟨first, y1, y2, y3, y4⟩ := k4.body
      exact ⟨first, y1, y2, y3, fun K a b c d e f => y4 K a b c d e ⟨f.lits, f.stat⟩⟩⟩

end Nk.Cc
