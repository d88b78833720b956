import Verif.Lemmas.StmtAll
import Verif.Lemmas.Registry
import Verif.Spec.Func
/-!
# The head of a function
-/
namespace Nk.Cc
open Nk.Props
variable {F : FloatOps} {H : Host}

/-- Tokens were read, and the contexts and the functions are new. -/
def HeadTo (s s' : CS) (toks : List Token) (ctx : List CCtx) (fns : List Func) : Prop :=
  ∃ line file markers, s' = { s with
    toks := toks, line := line, file := file, ctx := ctx
    vm := { s.vm with markers := markers, functions := fns } }

theorem HeadTo.trans {a b c : CS} {t t' : List Token} {x x' : List CCtx} {f f' : List Func} (h : HeadTo a b t x f) (g : HeadTo b c t' x' f') :
    HeadTo a c t' x' f' := by
  obtain ⟨_, _, _, rfl⟩ := h
  obtain ⟨l, i, m, rfl⟩ := g
  exact ⟨l, i, m, rfl⟩

theorem headTo_skip {s : CS} {t : Token} {rest : List Token} (h : s.toks = t :: rest) : HeadTo s (skip 1 s) rest s.ctx s.vm.functions := by
  obtain ⟨a, b, c, e⟩ := skip_readTo 1 s
  rw [h] at e
  exact ⟨a, b, c, e⟩

theorem headTo_ctx {s : CS} (ctx : List CCtx) : HeadTo s { s with ctx := ctx } s.toks ctx s.vm.functions := ⟨_, _, _, rfl⟩

theorem headTo_fns {s : CS} (fns : List Func) : HeadTo s { s with vm := { s.vm with functions := fns } } s.toks s.ctx fns := ⟨_, _, _, rfl⟩

theorem HeadTo.wf {s s' : CS} {t : List Token} {x : List CCtx} {f : List Func} (h : HeadTo s s' t x f) (w : CodeWF s) (hx : x ≠ []) : CodeWF s' := by
  obtain ⟨_, _, _, rfl⟩ := h
  exact ⟨w.pow, w.len, w.write, CodeWF.str' w.str rfl rfl, hx⟩

theorem HeadTo.toks {s s' : CS} {t : List Token} {x : List CCtx} {f : List Func} (h : HeadTo s s' t x f) : s'.toks = t := by
  obtain ⟨_, _, _, rfl⟩ := h; rfl
theorem HeadTo.ctx {s s' : CS} {t : List Token} {x : List CCtx} {f : List Func} (h : HeadTo s s' t x f) : s'.ctx = x := by
  obtain ⟨_, _, _, rfl⟩ := h; rfl
theorem HeadTo.fns {s s' : CS} {t : List Token} {x : List CCtx} {f : List Func} (h : HeadTo s s' t x f) : s'.vm.functions = f := by
  obtain ⟨_, _, _, rfl⟩ := h; rfl
theorem HeadTo.write {s s' : CS} {t : List Token} {x : List CCtx} {f : List Func} (h : HeadTo s s' t x f) : s'.write = s.write := by
  obtain ⟨_, _, _, rfl⟩ := h; rfl
theorem HeadTo.errors {s s' : CS} {t : List Token} {x : List CCtx} {f : List Func} (h : HeadTo s s' t x f) : s'.vm.errors = s.vm.errors := by
  obtain ⟨_, _, _, rfl⟩ := h; rfl
theorem HeadTo.depth {s s' : CS} {t : List Token} {x : List CCtx} {f : List Func} (h : HeadTo s s' t x f) : s'.depth = s.depth := by
  obtain ⟨_, _, _, rfl⟩ := h; rfl
theorem HeadTo.stat {s s' : CS} {t : List Token} {x : List CCtx} {f : List Func} (h : HeadTo s s' t x f) : s'.staticCount = s.staticCount := by
  obtain ⟨_, _, _, rfl⟩ := h; rfl
theorem HeadTo.instrs {s s' : CS} {t : List Token} {x : List CCtx} {f : List Func} (h : HeadTo s s' t x f) : s'.vm.instrs = s.vm.instrs := by
  obtain ⟨_, _, _, rfl⟩ := h; rfl
theorem HeadTo.lits {s s' : CS} {t : List Token} {x : List CCtx} {f : List Func} (h : HeadTo s s' t x f) {W : VM} (g : Lits s'.vm W) : Lits s.vm W := by
  obtain ⟨_, _, _, rfl⟩ := h; exact g

theorem findVar_any {x : Bytes} : ∀ {vs : List CVar}, ¬((vs.any fun v => strcmp v.name x = 0) = true) → findVar x vs = none
  | [], _ => rfl
  | v :: vs, h => by
    simp only [List.any_cons, Bool.or_eq_true, not_or] at h
    unfold findVar
    rw [if_neg (by simpa using h.1)]
    exact findVar_any h.2

theorem addParam_inv {x : Bytes} {s s' : CS} {c : CCtx} {cs : List CCtx} (hc : s.ctx = c :: cs) (hcs : cs ≠ []) (h : addParam x s = .ok ((), s'))
    (he : s'.vm.errors = []) : findVar x c.vars = none ∧
      s' = { s with ctx := { c with vars := ⟨x, false, true, usub c.offset 1⟩ :: c.vars } :: cs } := by
  unfold addParam at h
  obtain ⟨r, s1, h1, h2, e1⟩ := CM.bind_nil h (by intro a; cmono) he
  unfold addVariable at h1
  rw [CM.cget_bind, hc] at h1
  dsimp only at h1
  split at h1
  · exact absurd e1 (err_bind_ne (by cmono) h1)
  · next hn =>
    refine ⟨findVar_any hn, ?_⟩
    have h1 : (modCtx (fun c => { c with vars := ⟨x, false, false, usub c.offset 1⟩ :: c.vars }) >>= fun _ => pure true : CM Bool) s = .ok (r, s1) := h1
    obtain ⟨_, s2, h3, h4⟩ := CM.bind_inv h1
    unfold modCtx at h3
    rw [hc] at h3
    cases h3
    obtain ⟨rfl, rfl⟩ := pure_inv h4
    rw [if_pos rfl] at h2
    unfold modCtx at h2
    cases h2
    rfl

theorem incOffset_inv {s s' : CS} {c : CCtx} {cs : List CCtx} (hc : s.ctx = c :: cs) (h : incOffset s = .ok ((), s')) :
    s' = { s with ctx := { c with offset := u32 (c.offset + 1) } :: cs } := by
  unfold incOffset modCtx at h
  rw [hc] at h
  cases h; rfl

theorem HeadTo.param {s a b : CS} {t : List Token} {c : CCtx} {cs : List CCtx} {f : List Func} (h : HeadTo s a t (c :: cs) f) (hcs : cs ≠ []) {x : Bytes} {k : Nat}
    (hk : usub c.offset 1 = k) (hp : addParam x a = .ok ((), b)) (he : b.vm.errors = []) :
    findVar x c.vars = none ∧ HeadTo s b t ({ c with vars := ⟨x, false, true, k⟩ :: c.vars } :: cs) f := by
  obtain ⟨h1, h2⟩ := addParam_inv h.ctx hcs hp he
  subst hk
  refine ⟨h1, ?_⟩
  obtain ⟨l, i, m, rfl⟩ := h
  exact ⟨l, i, m, h2⟩

theorem HeadTo.inc {s a b : CS} {t : List Token} {c : CCtx} {cs : List CCtx} {f : List Func} (h : HeadTo s a t (c :: cs) f) {k : Nat}
    (hk : u32 (c.offset + 1) = k) (hp : incOffset a = .ok ((), b)) : HeadTo s b t ({ c with offset := k } :: cs) f := by
  have h2 := incOffset_inv h.ctx hp
  subst hk
  obtain ⟨l, i, m, rfl⟩ := h
  exact ⟨l, i, m, h2⟩

theorem HeadTo.setFunction {s a b : CS} {t : List Token} {x : List CCtx} {f : List Func} (h : HeadTo s a t x f) {id n first : Nat}
    (hp : setFunction id n first a = .ok ((), b)) :
    HeadTo s b t x (f.modify id fun f => { f with argc := n, first := first }) := by
  unfold Cc.setFunction at hp
  obtain ⟨l, i, m, rfl⟩ := h
  split at hp
  · cases hp
    exact ⟨l, i, m, rfl⟩
  · cases hp

theorem HeadTo.skip {s a : CS} {y : Token} {t : List Token} {x : List CCtx} {f : List Func} (h : HeadTo s a (y :: t) x f) : HeadTo s (skip 1 a) t x f := by
  have := h.trans (headTo_skip h.toks)
  rwa [h.ctx, h.fns] at this

/-- The variables of parameters. -/
def paramVars : Nat → List Bytes → List CVar → List CVar
  | _, [], acc => acc
  | k, p :: ps, acc => paramVars (k + 1) ps (⟨p, false, true, k⟩ :: acc)

theorem findVar_cons {x y : Bytes} {g np : Bool} {n : Nat} {vs : List CVar} :
    findVar y (⟨x, g, np, n⟩ :: vs) = if x = y then some ⟨x, g, np, n⟩ else findVar y vs := by
  show (if strcmp x y = 0 then some ⟨x, g, np, n⟩ else findVar y vs) = _
  by_cases h : x = y
  · rw [if_pos ((strcmp_eq).mpr h), if_pos h]
  · rw [if_neg (fun e => h ((strcmp_eq).mp e)), if_neg h]

theorem findVar_params {x : Bytes} : ∀ {ps : List Bytes} {k : Nat} {acc : List CVar}, ps.Nodup →
    findVar x (paramVars k ps acc) = match ps.idxOf? x with
      | some i => some ⟨x, false, true, k + i⟩
      | none => findVar x acc
  | [], _, _, _ => rfl
  | p :: ps, k, acc, h => by
    rw [List.nodup_cons] at h
    unfold paramVars
    rw [findVar_params h.2, findVar_cons]
    rw [List.idxOf?_cons]
    by_cases hp : p = x
    · subst hp
      have : ps.idxOf? p = none := by rw [List.idxOf?_eq_none_iff]; exact h.1
      simp [this]
    · have : (p == x) = false := by simpa using hp
      rw [this]
      cases hi : ps.idxOf? x with
      | none => simp [hp]
      | some i => simp; omega

theorem findVar_params_none {x : Bytes} : ∀ {ps : List Bytes} {k : Nat} {acc : List CVar}, findVar x (paramVars k ps acc) = none →
    x ∉ ps ∧ findVar x acc = none
  | [], _, _, h => ⟨by simp, h⟩
  | p :: ps, k, acc, h => by
    unfold paramVars at h
    obtain ⟨h1, h2⟩ := findVar_params_none h
    rw [findVar_cons] at h2
    by_cases hp : p = x
    · rw [if_pos hp] at h2; cases h2
    · rw [if_neg hp] at h2
      exact ⟨by simp [h1, Ne.symm hp], h2⟩

theorem popCount_params : ∀ {ps : List Bytes} {k : Nat} {acc : List CVar}, ((paramVars k ps acc).filter fun v => !v.noPop && !v.isGlobal) =
    acc.filter fun v => !v.noPop && !v.isGlobal
  | [], _, _ => rfl
  | p :: ps, k, acc => by
    unfold paramVars
    rw [popCount_params]; simp

/-- The parameters. -/
theorem paramLoop_inv {cl : Token} (hcl : cl.type = .parenClose) : ∀ {ts : List Token} {ps : List Bytes}, Params ts ps → ∀ {n k a argc : Nat} {ok : Bool}
    {rest : List Token} {s s' : CS} {c : CCtx} {cs : List CCtx}, s.toks = ts ++ cl :: rest → s.ctx = c :: cs → cs ≠ [] →
    c.offset = k + 1 → k + ps.length + 1 < 4294967296 → paramLoop n argc s = .ok ((ok, a), s') → s'.vm.errors = [] →
    ok = true ∧ a = argc + ps.length ∧ ps.Nodup ∧ (∀ x ∈ ps, findVar x c.vars = none) ∧
      HeadTo s s' (cl :: rest) ({ c with vars := paramVars k ps c.vars, offset := k + 1 + ps.length } :: cs) s.vm.functions := by
  intro ts ps hp
  have one : ∀ {n k a argc : Nat} {ok : Bool} {x : Token} {tl : List Token} {s s' : CS} {c : CCtx} {cs : List CCtx}, x.type = .identifier →
      s.toks = x :: tl → s.ctx = c :: cs → cs ≠ [] → c.offset = k + 1 → k + 2 < 4294967296 →
      paramLoop (n + 1) argc s = .ok ((ok, a), s') → s'.vm.errors = [] →
      findVar x.str c.vars = none ∧ ∃ s1, HeadTo s s1 tl ({ c with vars := ⟨x.str, false, true, k⟩ :: c.vars, offset := k + 2 } :: cs) s.vm.functions ∧
        (if typeOf tl = .parenClose then pure (true, argc + 1)
         else if typeOf tl = .comma then nextTok >>= fun _ => paramLoop n (argc + 1)
         else do
          err "Expected ')' or ','."
          paramLoop n (argc + 1) : CM (Bool × Nat)) s1 = .ok ((ok, a), s') := by
    intro n k a argc ok x tl s s' c cs hx ht hc hcs ho hb h he
    have mp : CMono (paramLoop n (argc + 1)) := paramLoop_mono _ _
    rw [paramLoop, curType_bind, ht] at h
    rw [if_neg (by rw [typeOf_cons, hx]; decide), if_pos (by rw [typeOf_cons]; exact hx)] at h
    have hcs' : curString s = .ok (x.str, s) := by
      unfold curString
      rw [CM.cget_bind, ht]; rfl
    rw [CM.bind_ok hcs'] at h
    obtain ⟨_, s1, h1, h, e1⟩ := CM.bind_nil h (by intro a; cmono) he
    obtain ⟨f1, rfl⟩ := addParam_inv hc hcs h1 e1
    obtain ⟨_, s2, h2, h, e2⟩ := CM.bind_nil h (by intro a; cmono) he
    have := incOffset_inv (c := { c with vars := ⟨x.str, false, true, usub c.offset 1⟩ :: c.vars }) (cs := cs) rfl h2
    subst this
    rw [nextTok_bind, curType_bind] at h
    have hs := headTo_skip (s := { s with ctx := { c with vars := ⟨x.str, false, true, usub c.offset 1⟩ :: c.vars, offset := u32 (c.offset + 1) } :: cs }) ht
    rw [hs.toks] at h
    refine ⟨f1, skip 1 { s with ctx := { c with vars := ⟨x.str, false, true, usub c.offset 1⟩ :: c.vars, offset := u32 (c.offset + 1) } :: cs }, ?_, h⟩
    · have u1 : usub c.offset 1 = k := by rw [ho]; unfold usub u32 U32; omega
      have u2 : u32 (c.offset + 1) = k + 2 := by rw [ho]; unfold u32 U32; omega
      rw [u1, u2] at hs ⊢
      exact (headTo_ctx _).trans hs
  induction hp with
  | nil =>
    intro n k a argc ok rest s s' c cs ht hc hcs ho hb h he
    cases n with
    | zero => cases h
    | succ n =>
      rw [paramLoop, curType_bind, ht] at h
      rw [List.nil_append] at h
      rw [if_neg (by rw [typeOf_cons, hcl]; decide), if_neg (by rw [typeOf_cons, hcl]; decide), if_pos (by rw [typeOf_cons]; exact hcl)] at h
      obtain ⟨e, rfl⟩ := pure_inv h
      cases e
      refine ⟨rfl, rfl, List.nodup_nil, by simp, ?_⟩
      refine ⟨s'.line, s'.file, s'.vm.markers, ?_⟩
      rw [List.nil_append] at ht
      show s' = { s' with toks := cl :: rest, ctx := { c with offset := k + 1 } :: cs }
      rw [← ho, ← ht, ← hc]
  | one hx =>
    intro n k a argc ok rest s s' c cs ht hc hcs ho hb h he
    cases n with
    | zero => cases h
    | succ n =>
      obtain ⟨f1, s1, g1, h⟩ := one hx ht hc hcs ho (by simpa using hb) h he
      rw [if_pos (show typeOf (List.append [] (cl :: rest)) = _ from hcl)] at h
      obtain ⟨e, rfl⟩ := pure_inv h
      cases e
      refine ⟨rfl, rfl, by simp, by simpa using f1, ?_⟩
      exact g1
  | @cons x cm ts ps hx hcm _ ih =>
    intro n k a argc ok rest s s' c cs ht hc hcs ho hb h he
    cases n with
    | zero => cases h
    | succ n =>
      simp only [List.length_cons] at hb
      obtain ⟨f1, s1, g1, h⟩ := one (tl := cm :: (ts ++ cl :: rest)) hx (by simpa using ht) hc hcs ho (by omega) h he
      rw [if_neg (by rw [typeOf_cons, hcm]; decide), if_pos (by rw [typeOf_cons]; exact hcm), nextTok_bind] at h
      have g2 := headTo_skip g1.toks
      obtain ⟨rfl, rfl, h3, h4, h5⟩ := ih (k := k + 1) (c := { c with vars := ⟨x.str, false, true, k⟩ :: c.vars, offset := k + 2 }) g2.toks (g2.ctx.trans g1.ctx) hcs rfl (by omega) h he
      refine ⟨rfl, by simp; omega, ?_, ?_, ?_⟩
      · rw [List.nodup_cons]
        refine ⟨fun hm => ?_, h3⟩
        have := h4 _ hm
        rw [findVar_cons, if_pos rfl] at this
        cases this
      · intro y hy
        rcases List.mem_cons.mp hy with rfl | hy
        · exact f1
        · have := h4 y hy
          rw [findVar_cons] at this
          split at this
          · cases this
          · exact this
      · have := (g1.trans g2).trans h5
        rw [g2.fns, g1.fns] at this
        simp only [List.length_cons, paramVars]
        rw [show k + 1 + (ps.length + 1) = k + 1 + 1 + ps.length by omega]
        exact this

end Nk.Cc
