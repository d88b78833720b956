import Verif.Lemmas.CodeExpr
/-!
# What the compiler emits for expressions
-/
namespace Nk.Cc
open Nk.Props
variable {α β : Type}

/-! ## Inversion -/

theorem prefix_same {α : Type} {a b c : List α} (h : a <+: b) (g : b <+: c) (e : c = a) : b = a := by
  have h1 := h.length_le
  have h2 := g.length_le
  rw [e] at h2
  exact (h.eq_of_length (by omega)).symm

theorem CM.bind_same {m : CM α} {f : α → CM β} {s s' : CS} {b : β} (hm : CMono m) (hf : ∀ a, CMono (f a))
    (h : (m >>= f) s = .ok (b, s')) (he : s'.vm.errors = s.vm.errors) :
    ∃ a s1, m s = .ok (a, s1) ∧ f a s1 = .ok (b, s') ∧ s1.vm.errors = s.vm.errors ∧ s'.vm.errors = s1.vm.errors := by
  obtain ⟨a, s1, h1, h2⟩ := CM.bind_inv h
  have := prefix_same (hm.run _ _ _ h1) ((hf a).run _ _ _ h2) he
  exact ⟨a, s1, h1, h2, this, by rw [he, this]⟩

/-- `pushRec`, when no error is recorded. -/
theorem pushRec_same {m : Bool → CM β} {s s' : CS} {b : β} (hf : ∀ a, CMono (m a)) (h : (pushRec >>= m) s = .ok (b, s'))
    (he : s'.vm.errors = s.vm.errors) : m true { s with depth := s.depth + 1 } = .ok (b, s') := by
  obtain ⟨a, s1, h1, h2, h3, h4⟩ := CM.bind_same pushRec_mono hf h he
  unfold pushRec at h1
  rw [CM.cget_bind] at h1
  split at h1
  · obtain ⟨_, s2, k1, k2⟩ := CM.bind_inv h1
    cases k1
    cases k2
    simp [VM.addErr, addError] at h3
  · cases h1
    exact h2

theorem popRec_inv {m : CM β} {s s' : CS} {b : β} (h : (popRec >>= fun _ => m) s = .ok (b, s')) :
    s.depth ≠ 0 ∧ m { s with depth := s.depth - 1 } = .ok (b, s') := by
  obtain ⟨_, s1, h1, h2⟩ := CM.bind_inv h
  unfold popRec at h1
  rw [CM.cget_bind] at h1
  split at h1
  · cases h1
  · next hd => cases h1; exact ⟨hd, h2⟩

theorem pure_inv {a b : β} {s s' : CS} (h : (pure a : CM β) s = .ok (b, s')) : b = a ∧ s' = s := by cases h; exact ⟨rfl, rfl⟩

/-- The end of a case of `emitNode`. -/
theorem popTrue_inv {s s' : CS} {r : Bool} (h : (popRec >>= fun _ => (pure true : CM Bool)) s = .ok (r, s')) :
    r = true ∧ s.depth ≠ 0 ∧ s' = { s with depth := s.depth - 1 } := by
  obtain ⟨h1, h2⟩ := popRec_inv h
  obtain ⟨h3, h4⟩ := pure_inv h2
  exact ⟨h3, h1, h4⟩

theorem emitExpr_bin {F : FloatOps} {tok : Token} {root : Bool} {l r : Node} (hl : l ≠ .nil) (ht : tok.type ≠ .assignment) :
    emitExpr F (.mk tok root l r) = (pushRec >>= fun ok => if ok then
      emitExpr F l >>= fun a => if a then
        emitChild r (emitExpr F r) >>= fun c => if c then emitNode F tok root r else popRec >>= fun _ => pure false
        else popRec >>= fun _ => pure false
      else pure false) := by
  cases l with
  | nil => exact absurd rfl hl
  | mk lt lr a b =>
    rw [emitExpr]
    simp only [ht, if_false]

theorem emitExpr_nilL {F : FloatOps} {tok : Token} {root : Bool} {r : Node} (ht : tok.type ≠ .assignment) :
    emitExpr F (.mk tok root .nil r) = (pushRec >>= fun ok => if ok then
      emitChild r (emitExpr F r) >>= fun c => if c then emitNode F tok root r else popRec >>= fun _ => pure false
      else pure false) := by
  rw [emitExpr]
  simp only [ht, if_false]

theorem emitExpr_leaf {F : FloatOps} {tok : Token} {root : Bool} (ht : tok.type ≠ .assignment) :
    emitExpr F (.mk tok root .nil .nil) = (pushRec >>= fun ok => if ok then emitNode F tok root .nil else pure false) := by
  rw [emitExpr]
  simp only [ht, if_false]
  rfl

theorem emitExpr_assign {F : FloatOps} {tok lt : Token} {root lr : Bool} {a b r : Node} (ht : tok.type = .assignment) :
    emitExpr F (.mk tok root (.mk lt lr a b) r) = (pushRec >>= fun ok => if ok then
      popRec >>= fun _ => emitAssign (.mk lt lr a b) r (emitExpr F r) (emitExpr F a) (emitExpr F b) else pure false) := by
  rw [emitExpr]
  simp only [ht, if_true]

theorem Ex.node_ne (e : Ex) : e.node ≠ .nil := by cases e <;> simp [Ex.node]
theorem Exs.argCount (t : Token) : ∀ (as : Exs), argCount (as.node t) = as.count
  | .nil => rfl
  | .cons a as => by simp [Exs.node, Cc.argCount, Exs.count, Exs.argCount t as]

/-- A node without children. -/
theorem leaf_same {F : FloatOps} {tok : Token} {root r : Bool} {s s' : CS} (ht : tok.type ≠ .assignment)
    (h : emitExpr F (.mk tok root .nil .nil) s = .ok (r, s')) (he : s'.vm.errors = s.vm.errors) :
    emitNode F tok root .nil { s with depth := s.depth + 1 } = .ok (r, s') := by
  rw [emitExpr_leaf ht] at h
  have := pushRec_same (by intro a; cmono) h he
  simpa using this

theorem CodeWF.depth {s : CS} (h : CodeWF s) (n : Nat) : CodeWF { s with depth := n } := (Emit.depth h n).wf

/-- An emitted sequence between two recursion counts. -/
theorem Emit.wrap {s s1 s2 : CS} {ws : List (BitVec 32)} (h : CodeWF s) {n m : Nat}
    (e : Emit { s with depth := n } ws s1) (h2 : s2 = { s1 with depth := m }) : Emit s ws s2 := by
  subst h2
  have := ((Emit.depth h n).trans e).trans (Emit.depth e.wf m)
  simpa using this

/-- What compiling an expression amounts to. -/
structure Compiled (F : FloatOps) (H : Host) (s : CS) (k : Nat) (s' : CS) (ws : List (BitVec 32)) : Prop where
  emit : Emit s ws s'
  depth : s'.depth = s.depth
  ctx : s'.ctx = setOff (offOf s.ctx + k) s.ctx

theorem leaf_done {F : FloatOps} {H : Host} {s s1 s' : CS} {ws : List (BitVec 32)} {r : Bool} (hw : CodeWF s) (ho : offOf s.ctx + 1 < 4294967296)
    (e : Emit { s with depth := s.depth + 1 } ws s1) (hd : s1.depth = s.depth + 1)
    (hc : s1.ctx = if true then setOff (addInt (offOf s.ctx) 1) s.ctx else s.ctx)
    (h : (popRec >>= fun _ => (pure true : CM Bool)) s1 = .ok (r, s')) : r = true ∧ Compiled F H s 1 s' ws := by
  obtain ⟨h1, h2, h3⟩ := popTrue_inv h
  refine ⟨h1, e.wrap hw h3, ?_, ?_⟩
  · rw [h3]; show s1.depth - 1 = _; omega
  · rw [h3]; show s1.ctx = _
    rw [hc, if_pos rfl, show (1 : Int) = ((1 : Nat) : Int) from rfl, addInt_pos ho]

/-- Reading a variable. -/
theorem emitFetch_inv {s s' : CS} (hw : CodeWF s) {name : Bytes} (h : emitFetch name s = .ok ((), s'))
    (he : s'.vm.errors = s.vm.errors) :
    ∃ v ws, findCtx name s.ctx = some v ∧ Emit s ws s' ∧ s'.depth = s.depth ∧
      s'.ctx = (if true then setOff (addInt (offOf s.ctx) 1) s.ctx else s.ctx) ∧
      ws = if v.isGlobal then [7, BitVec.ofNat 32 v.position, 16] else [7, BitVec.ofNat 32 (usub v.position (offOf s.ctx)), 13] := by
  unfold emitFetch at h
  obtain ⟨ov, s1, h1, h2, h3, h4⟩ := CM.bind_same lookupVar_mono (by intro a; cmono) h he
  unfold lookupVar at h1
  rw [CM.cget_bind] at h1
  cases hf : findCtx name s.ctx with
  | none =>
    rw [hf] at h1
    obtain ⟨_, s2, k1, k2⟩ := CM.bind_inv h1
    cases k1; cases k2
    simp [addError] at h3
  | some v =>
    rw [hf] at h1
    cases h1
    dsimp only at h2
    by_cases hg : v.isGlobal
    · rw [if_pos hg] at h2
      obtain ⟨_, s2, k1, k2⟩ := CM.bind_inv h2
      obtain ⟨a1, a2, a3⟩ := emitInt_inv hw k1
      obtain ⟨b1, b2, b3⟩ := emitOp_inv a1.wf (op := 16) (by decide) k2
      exact ⟨v, _, rfl, a1.trans b1, b2.trans a2, by rw [b3, ← a3]; rfl, by rw [if_pos hg]; rfl⟩
    · rw [if_neg hg] at h2
      rw [CM.cget_bind] at h2
      cases hc : s.ctx with
      | nil => exact absurd hc hw.ctx
      | cons c cs =>
        rw [hc] at h2
        dsimp only at h2
        obtain ⟨_, s2, k1, k2⟩ := CM.bind_inv h2
        obtain ⟨a1, a2, a3⟩ := emitInt_inv hw k1
        obtain ⟨b1, b2, b3⟩ := emitOp_inv a1.wf (op := 13) (by decide) k2
        exact ⟨v, _, rfl, a1.trans b1, b2.trans a2, by rw [b3, ← hc, ← a3]; rfl, by rw [if_neg hg]; rfl⟩

/-- Setting a variable. -/
theorem emitSet_inv {s s' : CS} (hw : CodeWF s) (ho : offOf s.ctx + 1 < 4294967296) {name : Bytes}
    (h : emitSet name s = .ok ((), s')) (he : s'.vm.errors = s.vm.errors) :
    ∃ v ws, findCtx name s.ctx = some v ∧ Emit s ws s' ∧ s'.depth = s.depth ∧ s'.ctx = s.ctx ∧
      ws = if v.isGlobal then [7, BitVec.ofNat 32 v.position, 15] else [7, BitVec.ofNat 32 (usub v.position (offOf s.ctx)), 14] := by
  have back : setOff (addInt (offOf (setOff (addInt (offOf s.ctx) 1) s.ctx)) (-1)) (setOff (addInt (offOf s.ctx) 1) s.ctx) = s.ctx := by
    rw [show (1 : Int) = ((1 : Nat) : Int) from rfl, addInt_pos ho, offOf_setOff _ hw.ctx, addInt_neg (by omega) ho, setOff_setOff]
    simp
  unfold emitSet at h
  obtain ⟨ov, s1, h1, h2, h3, h4⟩ := CM.bind_same lookupVar_mono (by intro a; cmono) h he
  unfold lookupVar at h1
  rw [CM.cget_bind] at h1
  cases hf : findCtx name s.ctx with
  | none =>
    rw [hf] at h1
    obtain ⟨_, s2, k1, k2⟩ := CM.bind_inv h1
    cases k1; cases k2
    simp [addError] at h3
  | some v =>
    rw [hf] at h1
    cases h1
    dsimp only at h2
    by_cases hg : v.isGlobal
    · rw [if_pos hg] at h2
      obtain ⟨_, s2, k1, k2⟩ := CM.bind_inv h2
      obtain ⟨a1, a2, a3⟩ := emitInt_inv hw k1
      obtain ⟨b1, b2, b3⟩ := emitOp_inv a1.wf (op := 15) (by decide) k2
      refine ⟨v, _, rfl, a1.trans b1, b2.trans a2, ?_, by rw [if_pos hg]; rfl⟩
      rw [b3, a3]; exact back
    · rw [if_neg hg] at h2
      rw [CM.cget_bind] at h2
      cases hc : s.ctx with
      | nil => exact absurd hc hw.ctx
      | cons c cs =>
        rw [hc] at h2
        dsimp only at h2
        obtain ⟨_, s2, k1, k2⟩ := CM.bind_inv h2
        obtain ⟨a1, a2, a3⟩ := emitInt_inv hw k1
        obtain ⟨b1, b2, b3⟩ := emitOp_inv a1.wf (op := 14) (by decide) k2
        refine ⟨v, _, rfl, a1.trans b1, b2.trans a2, ?_, by rw [if_neg hg]; rfl⟩
        rw [b3, a3, ← hc]; exact back

theorem emitChild_mono' {F : FloatOps} {n : Node} : CMono (emitChild n (emitExpr F n)) := by
  unfold emitChild; cmono
macro_rules | `(tactic| cmono_step) => `(tactic| with_reducible exact emitChild_mono')

theorem emitAssign_mono' {F : FloatOps} {l r a b c : Node} : CMono (emitAssign l r (emitExpr F a) (emitExpr F b) (emitExpr F c)) :=
  emitAssign_mono (emitExpr_mono _ _) (emitExpr_mono _ _) (emitExpr_mono _ _)
macro_rules | `(tactic| cmono_step) => `(tactic| with_reducible exact emitAssign_mono')

theorem subOffset_inv {s s' : CS} (hw : CodeWF s) {n : Nat} (h : subOffset n s = .ok ((), s')) (hn : n ≤ offOf s.ctx)
    (ho : offOf s.ctx < 4294967296) : s' = { s with ctx := setOff (offOf s.ctx - n) s.ctx } := by
  unfold subOffset modCtx at h
  cases hc : s.ctx with
  | nil => exact absurd hc hw.ctx
  | cons c cs =>
    rw [hc] at h hn ho
    cases h
    have : usub c.offset n = c.offset - n := by
      simp only [offOf] at hn ho
      unfold usub u32 U32; omega
    dsimp only
    rw [this]
    rfl

theorem Emit.ctxs {s : CS} (h : CodeWF s) {c : List CCtx} (hc : c ≠ []) : Emit s [] { s with ctx := c } :=
  ⟨⟨h.pow, h.len, h.write, h.str, hc⟩, rfl, fun _ _ => rfl, fun i w hw => by simp at hw, rfl, fun _ h => h⟩

/-- Following the children: what remains after the operands have been emitted. -/
theorem emit_operand {F : FloatOps} {s s' : CS} {r : Bool} {m : CM Bool} {k : CM Bool} (hm : CMono m) (hk : CMono k)
    (h : (m >>= fun a => if a then k else popRec >>= fun _ => pure false) s = .ok (r, s')) (he : s'.vm.errors = s.vm.errors) :
    ∃ a s1, m s = .ok (a, s1) ∧ s1.vm.errors = s.vm.errors ∧ s'.vm.errors = s1.vm.errors ∧
      (a = true → k s1 = .ok (r, s')) := by
  obtain ⟨a, s1, h1, h2, h3, h4⟩ := CM.bind_same hm (by intro a; cmono) h he
  refine ⟨a, s1, h1, h3, h4, fun ha => ?_⟩
  rw [if_pos ha] at h2
  exact h2

theorem simpleOp_bin (o : BinOp) : simpleOp o.type true = some o.code := by cases o <;> rfl
theorem simpleOp_un (o : UnOp) : simpleOp o.type false = some o.code := by cases o <;> rfl
theorem type_bin (o : BinOp) : o.type ≠ .assignment := by cases o <;> decide
theorem type_un (o : UnOp) : o.type ≠ .assignment := by cases o <;> decide
theorem offset_bin (o : BinOp) : stackOffset o.code = -1 := by cases o <;> rfl
theorem offset_un (o : UnOp) : stackOffset o.code = 0 := by cases o <;> rfl

theorem Compiled.off {F : FloatOps} {H : Host} {s s' : CS} {k : Nat} {ws : List (BitVec 32)} (h : Compiled F H s k s' ws)
    (hw : CodeWF s) : offOf s'.ctx = offOf s.ctx + k := by rw [h.ctx, offOf_setOff _ hw.ctx]

theorem Compiled.place {F : FloatOps} {H : Host} {s s' : CS} {k : Nat} {ws : List (BitVec 32)} (h : Compiled F H s k s' ws) :
    placeOf s'.ctx = placeOf s.ctx := by rw [h.ctx, placeOf_setOff]

theorem simple_node {F : FloatOps} {tok : Token} {root : Bool} {n : Node} {op : Nat} (h : simpleOp tok.type (n ≠ .nil) = some op) :
    emitNode F tok root n = (emitOp op true >>= fun _ => popRec >>= fun _ => pure true) := by
  unfold emitNode; rw [h]

/-- The code of a built-in function after its arguments. -/
theorem emitFSE_inv {f : Builtin} {n : Nat} {s s' : CS} (hw : CodeWF s) (hn : n ≤ offOf s.ctx) (ho : offOf s.ctx + 1 < 4294967296)
    (h : emitFSE f.name n s = .ok ((), s')) (he : s'.vm.errors = s.vm.errors) :
    ∃ xs, f.extra n = some xs ∧ Emit s (extraCode xs ++ [BitVec.ofNat 32 f.code]) s' ∧ s'.depth = s.depth ∧
      s'.ctx = setOff (offOf s.ctx - n + 1) s.ctx := by
  have bad : ∀ {e : String}, err e s = .ok ((), s') → False := by
    intro e h
    cases h
    simp [VM.addErr, addError] at he
  have one : ∀ {op : Nat} {a : CS}, op < 64 → CodeWF a → emitOp op true a = .ok ((), s') →
      Emit a [BitVec.ofNat 32 op] s' ∧ s'.depth = a.depth ∧ s'.ctx = setOff (addInt (offOf a.ctx) (stackOffset op)) a.ctx := by
    intro op a hop ha h
    obtain ⟨a1, a2, a3⟩ := emitOp_inv ha hop h
    exact ⟨a1, a2, by rw [a3, if_pos rfl]⟩
  unfold emitFSE at h
  cases f with
  | coroutine =>
    rw [if_pos (show Builtin.coroutine.name = cs "coroutine" from rfl)] at h
    obtain ⟨_, s1, h1, h2⟩ := CM.bind_inv h
    have e1 := subOffset_inv hw h1 hn (by omega)
    have w1 : Emit s [] s1 := by rw [e1]; exact .ctxs hw (setOff_ne hw.ctx)
    obtain ⟨_, s2, h3, h4⟩ := CM.bind_inv h2
    obtain ⟨a1, a2, a3⟩ := emitInt_inv w1.wf h3
    obtain ⟨b1, b2, b3⟩ := one (by decide) a1.wf h4
    have e2 : s2.ctx = s1.ctx := by rw [a3, if_neg (by decide)]
    have e3 : offOf s1.ctx = offOf s.ctx - n := by rw [e1]; exact offOf_setOff _ hw.ctx
    refine ⟨_, by unfold Builtin.extra; rfl, ?_, ?_, ?_⟩
    · have : BitVec.ofNat 32 (usub n 1) = BitVec.ofNat 32 n - 1 := by
        apply BitVec.eq_of_toNat_eq
        rw [BitVec.toNat_ofNat, BitVec.toNat_sub, BitVec.toNat_ofNat]
        show _ = (2 ^ 32 - 1 + n % 2 ^ 32) % 2 ^ 32
        unfold usub u32 U32; omega
      rw [this] at a1
      exact w1.trans (a1.trans b1)
    · rw [b2, a2, e1]
    · rw [b3, e2, e3]
      show setOff (addInt _ ((1 : Nat) : Int)) s1.ctx = _
      rw [addInt_pos (by omega), e1, setOff_setOff]
  | yield =>
    rw [if_neg (by decide), if_pos (show Builtin.yield.name = cs "yield" from rfl)] at h
    match n, hn with
    | 0, _ =>
      rw [if_pos rfl] at h
      obtain ⟨_, s1, h1, h2⟩ := CM.bind_inv h
      obtain ⟨a1, a2, a3⟩ := emitOp_inv hw (op := 37) (by decide) h1
      rw [if_neg (by decide)] at h2
      obtain ⟨b1, b2, b3⟩ := one (by decide) a1.wf h2
      refine ⟨_, rfl, a1.trans b1, by rw [b2, a2], ?_⟩
      rw [b3, a3, if_pos rfl, offOf_setOff _ hw.ctx, setOff_setOff]
      show setOff (addInt (addInt _ ((1 : Nat) : Int)) ((0 : Nat) : Int)) _ = _
      rw [addInt_pos ho, addInt_pos (by omega)]
      rfl
    | 1, hn =>
      rw [if_neg (by decide)] at h
      have h2 : (if 1 > 1 then err "Too many arguments to yield()." else emitOp 39 true) s = .ok ((), s') := h
      rw [if_neg (by decide)] at h2
      obtain ⟨b1, b2, b3⟩ := one (by decide) hw h2
      refine ⟨_, rfl, b1, b2, ?_⟩
      rw [b3]
      show setOff (addInt _ ((0 : Nat) : Int)) _ = _
      rw [addInt_pos (by omega), show offOf s.ctx - 1 + 1 = offOf s.ctx + 0 by omega]
    | k + 2, _ =>
      rw [if_neg (by omega)] at h
      have h2 : (if k + 2 > 1 then err "Too many arguments to yield()." else emitOp 39 true) s = .ok ((), s') := h
      rw [if_pos (by omega)] at h2
      exact (bad h2).elim
  | resume =>
    rw [if_neg (by decide), if_neg (by decide), if_pos (show Builtin.resume.name = cs "resume" from rfl)] at h
    match n, hn with
    | 0, _ =>
      rw [if_neg (by decide), if_pos (by decide)] at h
      exact (bad h).elim
    | 1, hn =>
      rw [if_neg (by decide), if_neg (by decide), if_pos rfl] at h
      obtain ⟨_, s1, h1, h2⟩ := CM.bind_inv h
      obtain ⟨a1, a2, a3⟩ := emitOp_inv hw (op := 37) (by decide) h1
      obtain ⟨b1, b2, b3⟩ := one (by decide) a1.wf h2
      refine ⟨_, rfl, a1.trans b1, by rw [b2, a2], ?_⟩
      rw [b3, a3, if_pos rfl, offOf_setOff _ hw.ctx, setOff_setOff]
      show setOff (addInt (addInt _ ((1 : Nat) : Int)) (-((1 : Nat) : Int))) _ = _
      rw [addInt_pos ho, addInt_neg (by omega) (by omega), show offOf s.ctx - 1 + 1 = offOf s.ctx + 1 - 1 by omega]
    | 2, hn =>
      rw [if_neg (by decide), if_neg (by decide), if_neg (by decide)] at h
      have h2 : emitOp 40 true s = .ok ((), s') := h
      obtain ⟨b1, b2, b3⟩ := one (by decide) hw h2
      refine ⟨_, rfl, b1, b2, ?_⟩
      rw [b3]
      show setOff (addInt _ (-((1 : Nat) : Int))) _ = _
      rw [addInt_neg (by omega) (by omega), show offOf s.ctx - 2 + 1 = offOf s.ctx - 1 by omega]
    | k + 3, _ =>
      rw [if_pos (by omega)] at h
      exact (bad h).elim
  | object =>
    rw [if_neg (by decide), if_neg (by decide), if_neg (by decide), if_neg (by decide), if_pos (show Builtin.object.name = cs "object" from rfl)] at h
    match n, hn with
    | 0, _ =>
      rw [if_neg (by decide)] at h
      obtain ⟨b1, b2, b3⟩ := one (by decide) hw h
      refine ⟨_, rfl, b1, b2, ?_⟩
      rw [b3]
      show setOff (addInt _ ((1 : Nat) : Int)) _ = _
      rw [addInt_pos ho]; rfl
    | k + 1, _ =>
      rw [if_pos (by omega)] at h
      exact (bad h).elim
  | len =>
    rw [if_neg (by decide), if_neg (by decide), if_neg (by decide), if_neg (by decide), if_neg (by decide), if_pos (show Builtin.len.name = cs "len" from rfl)] at h
    match n, hn with
    | 0, _ =>
      rw [if_pos (by decide)] at h
      exact (bad h).elim
    | 1, hn =>
      rw [if_neg (by decide)] at h
      obtain ⟨b1, b2, b3⟩ := one (by decide) hw h
      refine ⟨_, rfl, b1, b2, ?_⟩
      rw [b3]
      show setOff (addInt _ ((0 : Nat) : Int)) _ = _
      rw [addInt_pos (by omega), show offOf s.ctx - 1 + 1 = offOf s.ctx + 0 by omega]
    | k + 2, _ =>
      rw [if_pos (by omega)] at h
      exact (bad h).elim

mutual
theorem emit_ex (F : FloatOps) (H : Host) : ∀ (e : Ex) {s s' : CS} {r : Bool}, CodeWF s → offOf s.ctx + e.size < 4294967296 →
    emitExpr F e.node s = .ok (r, s') → s'.vm.errors = s.vm.errors →
    r = true ∧ ∃ ws, Compiled F H s 1 s' ws ∧ ∀ b, SimX F H s'.vm (placeOf s.ctx) b (offOf s.ctx) ws e
  | .int t, s, s', r, hw, ho, h, he => by
    simp only [Ex.size] at ho
    have h1 := leaf_same (by simp [ofType]) h he
    obtain ⟨_, s1, k1, k2⟩ := CM.bind_inv h1
    obtain ⟨a1, a2, a3⟩ := emitInt_inv (hw.depth _) k1
    obtain ⟨b1, b2⟩ := leaf_done (F := F) (H := H) hw ho a1 a2 a3 k2
    exact ⟨b1, _, b2, fun b => sim_int t⟩
  | .float t, s, s', r, hw, ho, h, he => by
    simp only [Ex.size] at ho
    have h1 := leaf_same (by simp [ofType]) h he
    obtain ⟨_, s1, k1, k2⟩ := CM.bind_inv h1
    obtain ⟨a1, a2, a3⟩ := emitLit_inv (op := 8) (hw.depth _) (by decide) k1
    obtain ⟨b1, b2⟩ := leaf_done (F := F) (H := H) hw ho a1 a2 a3 k2
    exact ⟨b1, _, b2, fun b => sim_float t⟩
  | .fn t, s, s', r, hw, ho, h, he => by
    simp only [Ex.size] at ho
    have h1 := leaf_same (by simp [ofType]) h he
    obtain ⟨_, s1, k1, k2⟩ := CM.bind_inv h1
    obtain ⟨a1, a2, a3⟩ := emitLit_inv (op := 10) (hw.depth _) (by decide) k1
    obtain ⟨b1, b2⟩ := leaf_done (F := F) (H := H) hw ho a1 a2 a3 k2
    exact ⟨b1, _, b2, fun b => sim_fn t⟩
  | .str t, s, s', r, hw, ho, h, he => by
    simp only [Ex.size] at ho
    have h1 := leaf_same (by simp [ofType]) h he
    obtain ⟨_, s1, k1, k2, k3, k4⟩ := CM.bind_same (emitStr_mono) (by intro a; cmono) h1 he
    obtain ⟨id, a1, a2, a4, a5, a3⟩ := emitStr_inv (hw.depth _) k1 k3
    obtain ⟨b1, b2⟩ := leaf_done (F := F) (H := H) hw ho a1 a2 a3 k2
    refine ⟨b1, _, b2, fun b => sim_str t a4 fun W hW => a5 W ?_⟩
    rw [(popTrue_inv k2).2.2] at hW
    exact hW
  | .nil t, s, s', r, hw, ho, h, he => by
    simp only [Ex.size] at ho
    have h1 := leaf_same (by simp [ofType]) h he
    rw [simple_node (op := 37) rfl] at h1
    obtain ⟨_, s1, k1, k2⟩ := CM.bind_inv h1
    obtain ⟨a1, a2, a3⟩ := emitOp_inv (hw.depth _) (by decide) k1
    obtain ⟨b1, b2⟩ := leaf_done (F := F) (H := H) hw ho a1 a2 a3 k2
    exact ⟨b1, _, b2, fun b => sim_nil t⟩
  | .newObj t, s, s', r, hw, ho, h, he => by
    simp only [Ex.size] at ho
    have h1 := leaf_same (by simp [ofType]) h he
    rw [simple_node (op := 32) rfl] at h1
    obtain ⟨_, s1, k1, k2⟩ := CM.bind_inv h1
    obtain ⟨a1, a2, a3⟩ := emitOp_inv (hw.depth _) (by decide) k1
    obtain ⟨b1, b2⟩ := leaf_done (F := F) (H := H) hw ho a1 a2 a3 k2
    exact ⟨b1, _, b2, fun b => sim_newObj t⟩
  | .var t, s, s', r, hw, ho, h, he => by
    simp only [Ex.size] at ho
    have h1 := leaf_same (by simp [ofType]) h he
    obtain ⟨_, s1, k1, k2, k3, k4⟩ := CM.bind_same (emitFetch_mono _) (by intro a; cmono) h1 he
    obtain ⟨v, ws, c1, a1, a2, a3, c2⟩ := emitFetch_inv (hw.depth _) k1 k3
    obtain ⟨b1, b2⟩ := leaf_done (F := F) (H := H) hw ho a1 a2 a3 k2
    have c1 : findCtx t.str s.ctx = some v := c1
    refine ⟨b1, _, b2, fun b => ?_⟩
    by_cases hg : v.isGlobal
    · rw [if_pos hg] at c2
      rw [c2]
      exact sim_glob t (by unfold placeOf; rw [c1]; simp [hg])
    · rw [if_neg hg] at c2
      rw [c2]
      exact sim_loc t (by unfold placeOf; rw [c1]; simp [hg])
  | .un o t e, s, s', r, hw, ho, h, he => by
    simp only [Ex.size] at ho
    rw [Ex.node, emitExpr_bin e.node_ne (type_un o)] at h
    have h := pushRec_same (by intro a; cmono) h he
    rw [if_pos rfl] at h
    obtain ⟨a, s1, h1, h2, h3, h4⟩ := emit_operand (F := F) (emitExpr_mono _ _) (by cmono) h he
    obtain ⟨ha, w, d1, d2⟩ := emit_ex F H e (hw.depth _) (by show offOf s.ctx + _ < _; omega) h1 h2
    have h := h4 ha
    unfold emitChild at h
    rw [if_pos rfl] at h
    obtain ⟨c, s2, k1, k2⟩ := CM.bind_inv h
    cases k1
    rw [if_pos rfl, simple_node (op := o.code) (by have := simpleOp_un o; simpa [ofType] using this)] at k2
    obtain ⟨_, s3, j1, j2⟩ := CM.bind_inv k2
    obtain ⟨e1, e2, e3⟩ := emitOp_inv d1.emit.wf o.code_lt.1 j1
    obtain ⟨i1, i2, i3⟩ := popTrue_inv j2
    have hd : s1.depth = s.depth + 1 := d1.depth
    refine ⟨i1, _, ⟨(d1.emit.trans e1).wrap hw i3, ?_, ?_⟩, fun b => ?_⟩
    · rw [i3]; show s3.depth - 1 = _; omega
    · rw [i3]; show s3.ctx = _
      rw [e3, if_pos rfl, offset_un, d1.ctx, offOf_setOff _ hw.ctx, setOff_setOff]
      show setOff (addInt _ ((0 : Nat) : Int)) _ = _
      rw [addInt_pos (by show offOf s.ctx + 1 + 0 < _; have := e.size_pos; omega)]
    · exact (sim_un ((d2 b).lit e1.lits) o t).lit (fun W hW => by rw [i3] at hW; exact hW)
  | .bin o t e f, s, s', r, hw, ho, h, he => by
    simp only [Ex.size] at ho
    have hfp := f.size_pos
    rw [Ex.node, emitExpr_bin e.node_ne (type_bin o)] at h
    have h := pushRec_same (by intro a; cmono) h he
    rw [if_pos rfl] at h
    obtain ⟨a, s1, h1, h2, h3, h4⟩ := emit_operand (F := F) (emitExpr_mono _ _) (by cmono) h he
    obtain ⟨ha, w, d1, d2⟩ := emit_ex F H e (hw.depth _) (by show offOf s.ctx + _ < _; omega) h1 h2
    have h := h4 ha
    unfold emitChild at h
    rw [if_neg f.node_ne] at h
    obtain ⟨c, s2, g1, g2, g3, g4⟩ := emit_operand (F := F) (emitExpr_mono _ _) (by cmono) h h3
    have o1 : offOf s1.ctx = offOf s.ctx + 1 := d1.off (hw.depth _)
    obtain ⟨hc, w2, q1, q2⟩ := emit_ex F H f d1.emit.wf (by omega) g1 g2
    have k2 := g4 hc
    rw [simple_node (op := o.code) (by rw [show decide (f.node ≠ .nil) = true by simp [f.node_ne]]; exact simpleOp_bin o)] at k2
    obtain ⟨_, s3, j1, j2⟩ := CM.bind_inv k2
    obtain ⟨e1, e2, e3⟩ := emitOp_inv q1.emit.wf o.code_lt.1 j1
    obtain ⟨i1, i2, i3⟩ := popTrue_inv j2
    have hd : s1.depth = s.depth + 1 := d1.depth
    have hd2 := q1.depth
    refine ⟨i1, _, ⟨(d1.emit.trans (q1.emit.trans e1)).wrap hw i3, ?_, ?_⟩, fun b => ?_⟩
    · rw [i3]; show s3.depth - 1 = _; omega
    · rw [i3]; show s3.ctx = _
      rw [e3, if_pos rfl, offset_bin, q1.off d1.emit.wf, o1, q1.ctx, d1.ctx, setOff_setOff, setOff_setOff]
      show setOff (addInt _ (-((1 : Nat) : Int))) _ = _
      rw [addInt_neg (by omega) (by omega)]
      rfl
    · have hp : placeOf s1.ctx = placeOf s.ctx := d1.place
      have q2b := q2 b
      rw [hp, o1] at q2b
      exact (sim_bin ((d2 b).lit fun W hW => q1.emit.lits W (e1.lits W hW)) (q2b.lit e1.lits) o t).lit
        (fun W hW => by rw [i3] at hW; exact hW)
  | .setVar t x e, s, s', r, hw, ho, h, he => by
    simp only [Ex.size] at ho
    have hep := e.size_pos
    rw [Ex.node, emitExpr_assign rfl] at h
    have h := pushRec_same (by intro a; cmono) h he
    rw [if_pos rfl] at h
    obtain ⟨_, h⟩ := popRec_inv h
    unfold emitAssign at h
    have h := pushRec_same (by intro a; cmono) h he
    rw [if_pos rfl, if_neg e.node_ne] at h
    dsimp only [ofType] at h
    obtain ⟨a, s1, h1, h2, h3, h4⟩ := CM.bind_same (emitExpr_mono _ _) (by intro a; cmono) h he
    obtain ⟨ha, w, d1, d2⟩ := emit_ex F H e (hw.depth _) (by show offOf s.ctx + _ < _; omega) h1 h3
    have o1 : offOf s1.ctx = offOf s.ctx + 1 := d1.off (hw.depth _)
    rw [if_pos rfl] at h2
    obtain ⟨_, s2, k1, k2, k3, k4⟩ := CM.bind_same (emitSet_mono _) (by intro a; cmono) h2 h4
    obtain ⟨v, ws, c1, a1, a2, a3, c2⟩ := emitSet_inv d1.emit.wf (by omega) k1 k3
    obtain ⟨i1, i2, i3⟩ := popTrue_inv k2
    have hd : s1.depth = s.depth + 1 := d1.depth
    have hp : placeOf s1.ctx = placeOf s.ctx := d1.place
    refine ⟨i1, _, ⟨(d1.emit.trans a1).wrap hw i3, ?_, ?_⟩, fun b => ?_⟩
    · rw [i3]; show s2.depth - 1 = _; omega
    · rw [i3]; show s2.ctx = _
      rw [a3, d1.ctx]
    · refine SimX.lit (cvm := s2.vm) ?_ (fun W hW => by rw [i3] at hW; exact hW)
      by_cases hg : v.isGlobal
      · rw [if_pos hg] at c2
        rw [c2]
        exact sim_setGlob ((d2 b).lit a1.lits) t x (by show placeOf s.ctx _ = _; rw [← hp]; unfold placeOf; rw [c1]; simp [hg])
      · rw [if_neg hg, o1] at c2
        rw [c2]
        exact sim_setLoc ((d2 b).lit a1.lits) t x (by show placeOf s.ctx _ = _; rw [← hp]; unfold placeOf; rw [c1]; simp [hg])
  | .setField t u o k e, s, s', r, hw, ho, h, he => by
    simp only [Ex.size] at ho
    have hep := e.size_pos
    have hop := o.size_pos
    have hkp := k.size_pos
    rw [Ex.node, emitExpr_assign rfl] at h
    have h := pushRec_same (by intro a; cmono) h he
    rw [if_pos rfl] at h
    obtain ⟨_, h⟩ := popRec_inv h
    unfold emitAssign at h
    have h := pushRec_same (by intro a; cmono) h he
    rw [if_pos rfl, if_neg e.node_ne] at h
    dsimp only [ofType] at h
    obtain ⟨a, s1, h1, h2, h3, h4⟩ := CM.bind_same (emitExpr_mono _ _) (by intro a; cmono) h he
    obtain ⟨ha, w, d1, d2⟩ := emit_ex F H e (hw.depth _) (by show offOf s.ctx + _ < _; omega) h1 h3
    have o1 : offOf s1.ctx = offOf s.ctx + 1 := d1.off (hw.depth _)
    rw [if_neg (by decide), if_pos rfl] at h2
    obtain ⟨a, s2, k1, k2, k3, k4⟩ := CM.bind_same (emitExpr_mono _ _) (by intro a; cmono) h2 h4
    obtain ⟨_, w1, f1, f2⟩ := emit_ex F H o d1.emit.wf (by omega) k1 k3
    have o2 : offOf s2.ctx = offOf s.ctx + 2 := by rw [f1.off d1.emit.wf, o1]
    obtain ⟨a, s3, l1, l2, l3, l4⟩ := CM.bind_same (emitExpr_mono _ _) (by intro a; cmono) k2 k4
    obtain ⟨_, w2, g1, g2⟩ := emit_ex F H k f1.emit.wf (by omega) l1 l3
    have o3 : offOf s3.ctx = offOf s.ctx + 3 := by rw [g1.off f1.emit.wf, o2]
    obtain ⟨_, s4, j1, j2⟩ := CM.bind_inv l2
    obtain ⟨e1, e2, e3⟩ := emitOp_inv g1.emit.wf (by decide) j1
    obtain ⟨i1, i2, i3⟩ := popTrue_inv j2
    have hd : s1.depth = s.depth + 1 := d1.depth
    have hd2 := f1.depth
    have hd3 := g1.depth
    have hp : placeOf s1.ctx = placeOf s.ctx := d1.place
    have hp2 : placeOf s2.ctx = placeOf s.ctx := f1.place.trans hp
    refine ⟨i1, _, ⟨(d1.emit.trans (f1.emit.trans (g1.emit.trans e1))).wrap hw i3, ?_, ?_⟩, fun b => ?_⟩
    · rw [i3]; show s4.depth - 1 = _; omega
    · rw [i3]; show s4.ctx = _
      rw [e3, if_pos rfl, o3, g1.ctx, f1.ctx, d1.ctx, setOff_setOff, setOff_setOff, setOff_setOff]
      show setOff (addInt _ (-((2 : Nat) : Int))) _ = _
      rw [addInt_neg (by omega) (by omega)]
      rfl
    · have f2b := f2 b
      have g2b := g2 b
      rw [hp, o1] at f2b
      rw [hp2, o2] at g2b
      exact (sim_setField ((d2 b).lit fun W hW => f1.emit.lits W (g1.emit.lits W (e1.lits W hW)))
        (f2b.lit fun W hW => g1.emit.lits W (e1.lits W hW)) (g2b.lit e1.lits) t u).lit
        (fun W hW => by rw [i3] at hW; exact hW)
  | .call t f as, s, s', r, hw, ho, h, he => by
    simp only [Ex.size] at ho
    have hfp := f.size_pos
    have hac := as.size_ge
    rw [Ex.node, emitExpr_bin f.node_ne (by simp [ofType])] at h
    have h := pushRec_same (by intro a; cmono) h he
    rw [if_pos rfl] at h
    obtain ⟨a, s1, h1, h2, h3, h4⟩ := emit_operand (F := F) (emitExpr_mono _ _) (by cmono) h he
    obtain ⟨ha, w, d1, d2⟩ := emit_ex F H f (hw.depth _) (by show offOf s.ctx + _ < _; omega) h1 h2
    have h := h4 ha
    obtain ⟨c, s2, g1, g2, g3, g4⟩ := emit_operand (F := F) (by cmono) (by cmono) h h3
    have o1 : offOf s1.ctx = offOf s.ctx + 1 := d1.off (hw.depth _)
    obtain ⟨hc, w2, q1, q2⟩ := emit_exs F H as (.inl rfl) d1.emit.wf (by omega) g1 g2
    have o2 : offOf s2.ctx = offOf s.ctx + 1 + as.count := by rw [q1.off d1.emit.wf, o1]
    have k2 := g4 hc
    unfold emitNode at k2
    simp only [ofType, simpleOp, if_true] at k2
    rw [Exs.argCount] at k2
    obtain ⟨_, s3, j1, j2⟩ := CM.bind_inv k2
    obtain ⟨e1, e2, e3⟩ := emitInt_inv q1.emit.wf j1
    obtain ⟨_, s4, j3, j4⟩ := CM.bind_inv j2
    obtain ⟨r1, r2, r3⟩ := emitOp_inv e1.wf (by decide) j3
    obtain ⟨_, s5, j5, j6⟩ := CM.bind_inv j4
    have hs4 : s4.ctx = s2.ctx := by rw [r3, if_neg (by decide), e3, if_neg (by decide)]
    have hof4 : offOf s4.ctx = offOf s.ctx + 1 + as.count := by rw [hs4, o2]
    have hs5 := subOffset_inv r1.wf j5 (by omega) (by omega)
    obtain ⟨i1, i2, i3⟩ := popTrue_inv j6
    have hd : s1.depth = s.depth + 1 := d1.depth
    have hd2 := q1.depth
    have hd5 : s5.depth = s4.depth := by rw [hs5]
    have e5 : Emit s4 [] s5 := by rw [hs5]; exact .ctxs r1.wf (setOff_ne r1.wf.ctx)
    refine ⟨i1, _, ⟨(d1.emit.trans (q1.emit.trans (e1.trans (r1.trans e5)))).wrap hw i3, ?_, ?_⟩, fun b => ?_⟩
    · rw [i3]; show s5.depth - 1 = _; omega
    · rw [i3]; show s5.ctx = _
      rw [hs5]
      show setOff _ s4.ctx = _
      rw [hof4, hs4, q1.ctx, d1.ctx, setOff_setOff, setOff_setOff]
      show setOff _ s.ctx = _
      rw [show offOf s.ctx + 1 + as.count - as.count = offOf s.ctx + 1 by omega]
    · have hp : placeOf s1.ctx = placeOf s.ctx := d1.place
      have q2b := q2 b
      rw [hp, o1] at q2b
      have l5 : ∀ W, Lits s'.vm W → Lits s2.vm W := fun W hW =>
        e1.lits W (r1.lits W (e5.lits W (by rw [i3] at hW; exact hW)))
      exact sim_call ((d2 b).lit fun W hW => q1.emit.lits W (l5 W hW)) (q2b.lit l5) t
  | .method t u o k as, s, s', r, hw, ho, h, he => by
    simp only [Ex.size] at ho
    have hop := o.size_pos
    have hkp := k.size_pos
    have hac := as.size_ge
    rw [Ex.node, emitExpr_bin (by simp) (by simp [ofType])] at h
    have h := pushRec_same (by intro a; cmono) h he
    rw [if_pos rfl] at h
    obtain ⟨a0, s3, h1, h2, h3, h4⟩ := emit_operand (F := F) (emitExpr_mono _ _) (by cmono) h he
    rw [emitExpr_bin o.node_ne (by simp [ofType])] at h1
    have h1 := pushRec_same (by intro a; cmono) h1 h2
    rw [if_pos rfl] at h1
    obtain ⟨a1, s1, f1, f2, f3, f4⟩ := emit_operand (F := F) (emitExpr_mono _ _) (by cmono) h1 h2
    obtain ⟨ha1, w1, d1, d2⟩ := emit_ex F H o ((hw.depth _).depth _) (by show offOf s.ctx + _ < _; omega) f1 f2
    have f4 := f4 ha1
    unfold emitChild at f4
    rw [if_neg k.node_ne] at f4
    obtain ⟨a2, s2, g1, g2, g3, g4⟩ := emit_operand (F := F) (emitExpr_mono _ _) (by cmono) f4 f3
    have o1 : offOf s1.ctx = offOf s.ctx + 1 := d1.off ((hw.depth _).depth _)
    obtain ⟨ha2, w2, q1, q2⟩ := emit_ex F H k d1.emit.wf (by omega) g1 g2
    have o2 : offOf s2.ctx = offOf s.ctx + 2 := by rw [q1.off d1.emit.wf, o1]
    have g4 := g4 ha2
    rw [simple_node (op := 35) rfl] at g4
    obtain ⟨_, s2', j1, j2⟩ := CM.bind_inv g4
    obtain ⟨e1, e2, e3⟩ := emitOp_inv q1.emit.wf (by decide) j1
    obtain ⟨i1, i2, i3⟩ := popTrue_inv j2
    have c2 : s2'.ctx = s2.ctx := by
      rw [e3, if_pos rfl]
      show setOff (addInt _ ((0 : Nat) : Int)) _ = _
      rw [addInt_pos (by omega), Nat.add_zero, setOff_off]
    have m3 : Emit s2' [] s3 := by rw [i3]; exact .depth e1.wf _
    have c3 : s3.ctx = s2.ctx := by rw [i3]; exact c2
    have o3 : offOf s3.ctx = offOf s.ctx + 2 := by rw [c3, o2]
    have h := h4 i1
    obtain ⟨a3, s4, t1, t2, t3, t4⟩ := emit_operand (F := F) (by cmono) (by cmono) h h3
    obtain ⟨ha3, w3, u1, u2⟩ := emit_exs F H as (.inr rfl) m3.wf (by omega) t1 t2
    have o4 : offOf s4.ctx = offOf s.ctx + 2 + as.count := by rw [u1.off m3.wf, o3]
    have k2 := t4 ha3
    unfold emitNode at k2
    simp only [ofType, simpleOp, if_true] at k2
    rw [Exs.argCount] at k2
    obtain ⟨_, s5, x1, x2⟩ := CM.bind_inv k2
    obtain ⟨y1, y2, y3⟩ := emitInt_inv u1.emit.wf x1
    obtain ⟨_, s6, x3, x4⟩ := CM.bind_inv x2
    obtain ⟨z1, z2, z3⟩ := emitOp_inv y1.wf (by decide) x3
    obtain ⟨_, s7, x5, x6⟩ := CM.bind_inv x4
    obtain ⟨r1, r2, r3⟩ := emitOp_inv z1.wf (by decide) x5
    obtain ⟨_, s8, x7, x8⟩ := CM.bind_inv x6
    have c7 : s7.ctx = s4.ctx := by rw [r3, if_neg (by decide), z3, if_neg (by decide), y3, if_neg (by decide)]
    have o7 : offOf s7.ctx = offOf s.ctx + 2 + as.count := by rw [c7, o4]
    have hs8 := subOffset_inv r1.wf x7 (by omega) (by omega)
    obtain ⟨l1, l2, l3⟩ := popTrue_inv x8
    have b1 : s1.depth = s.depth + 1 + 1 := d1.depth
    have b2 := q1.depth
    have b3 : s3.depth = s2'.depth - 1 := by rw [i3]
    have b4 := u1.depth
    have b8 : s8.depth = s7.depth := by rw [hs8]
    have m8 : Emit s7 [] s8 := by rw [hs8]; exact .ctxs r1.wf (setOff_ne r1.wf.ctx)
    have first : Emit { s with depth := s.depth + 1 } (w1 ++ (w2 ++ ([35] ++ []))) s3 :=
      (Emit.depth (hw.depth _) _).trans (d1.emit.trans (q1.emit.trans (e1.trans m3)))
    have all := first.trans (u1.emit.trans (y1.trans (z1.trans (r1.trans m8))))
    have hws : (w1 ++ (w2 ++ ([35] ++ []))) ++ (w3 ++ ([7, BitVec.ofNat 32 as.count] ++ ([BitVec.ofNat 32 36] ++ ([BitVec.ofNat 32 18] ++ [])))) =
        w1 ++ (w2 ++ ([35] ++ (w3 ++ ([7, BitVec.ofNat 32 as.count] ++ ([36] ++ [18]))))) := by simp
    rw [hws] at all
    refine ⟨l1, _, ⟨all.wrap hw l3, ?_, ?_⟩, fun b => ?_⟩
    · rw [l3]; show s8.depth - 1 = _; omega
    · rw [l3]; show s8.ctx = _
      rw [hs8]
      show setOff _ s7.ctx = _
      rw [o7, c7, u1.ctx, c3, q1.ctx, d1.ctx, setOff_setOff, setOff_setOff, setOff_setOff]
      show setOff _ s.ctx = _
      rw [show offOf s.ctx + 2 + as.count - (as.count + 1) = offOf s.ctx + 1 by omega]
    · have p1 : placeOf s1.ctx = placeOf s.ctx := d1.place
      have p3 : placeOf s3.ctx = placeOf s.ctx := by rw [c3, q1.place, p1]
      have q2b := q2 b
      rw [p1, o1] at q2b
      have u2b := u2 b
      rw [p3, o3] at u2b
      have l4 : ∀ W, Lits s'.vm W → Lits s4.vm W := fun W hW =>
        y1.lits W (z1.lits W (r1.lits W (m8.lits W (by rw [l3] at hW; exact hW))))
      have l2 : ∀ W, Lits s'.vm W → Lits s2.vm W := fun W hW => e1.lits W (m3.lits W (u1.emit.lits W (l4 W hW)))
      exact sim_method ((d2 b).lit fun W hW => q1.emit.lits W (l2 W hW)) (q2b.lit l2) (u2b.lit l4) t u
  | .builtin f m t as, s, s', r, hw, ho, h, he => by
    simp only [Ex.size] at ho
    have hac := as.size_ge
    rw [Ex.node, emitExpr_nilL (by simp)] at h
    have h := pushRec_same (by intro a; cmono) h he
    rw [if_pos rfl] at h
    obtain ⟨a, s1, h1, h2, h3, h4⟩ := emit_operand (F := F) (by cmono) (by cmono) h he
    obtain ⟨ha, w, d1, d2⟩ := emit_exs F H as (.inl rfl) (hw.depth _) (by show offOf s.ctx + _ < _; omega) h1 h2
    have o1 : offOf s1.ctx = offOf s.ctx + as.count := d1.off (hw.depth _)
    have h := h4 ha
    unfold emitNode at h
    simp only [simpleOp, if_true] at h
    rw [Exs.argCount] at h
    obtain ⟨_, s2, k1, k2, k3, k4⟩ := CM.bind_same (emitFSE_mono _ _) (by intro a; cmono) h h3
    obtain ⟨xs, e1, e2, e3, e4⟩ := emitFSE_inv d1.emit.wf (by omega) (by omega) k1 k3
    obtain ⟨i1, i2, i3⟩ := popTrue_inv k2
    have hd : s1.depth = s.depth + 1 := d1.depth
    refine ⟨i1, _, ⟨(d1.emit.trans e2).wrap hw i3, ?_, ?_⟩, fun b => ?_⟩
    · rw [i3]; show s2.depth - 1 = _; omega
    · rw [i3]; show s2.ctx = _
      rw [e4, o1, d1.ctx, setOff_setOff]
      show setOff _ s.ctx = _
      rw [show offOf s.ctx + as.count - as.count + 1 = offOf s.ctx + 1 by omega]
    · exact (sim_builtin ((d2 b).lit e2.lits) f m t e1).lit (fun W hW => by rw [i3] at hW; exact hW)
theorem emit_exs (F : FloatOps) (H : Host) : ∀ (as : Exs) {t : Token} {s s' : CS} {r : Bool},
    t.type = .parenOpen ∨ t.type = .functionCallWithSelf → CodeWF s → offOf s.ctx + as.size < 4294967296 →
    emitChild (as.node t) (emitExpr F (as.node t)) s = .ok (r, s') → s'.vm.errors = s.vm.errors →
    r = true ∧ ∃ ws, Compiled F H s as.count s' ws ∧ ∀ b, SimA F H s'.vm (placeOf s.ctx) b (offOf s.ctx) ws as
  | .nil, t, s, s', r, ht, hw, ho, h, he => by
    unfold emitChild at h
    rw [Exs.node, if_pos rfl] at h
    cases h
    refine ⟨rfl, [], ⟨.refl hw, rfl, ?_⟩, fun b => sim_args_nil⟩
    simp [Exs.count]
  | .cons a as, t, s, s', r, ht, hw, ho, h, he => by
    simp only [Exs.size] at ho
    have hfp := a.size_pos
    have hac := as.size_ge
    unfold emitChild at h
    rw [Exs.node, if_neg (by simp), emitExpr_bin a.node_ne (by rcases ht with ht | ht <;> rw [ht] <;> decide)] at h
    have h := pushRec_same (by intro a; cmono) h he
    rw [if_pos rfl] at h
    obtain ⟨_, s1, h1, h2, h3, h4⟩ := emit_operand (F := F) (emitExpr_mono _ _) (by cmono) h he
    obtain ⟨ha, w, d1, d2⟩ := emit_ex F H a (hw.depth _) (by show offOf s.ctx + _ < _; omega) h1 h2
    have h := h4 ha
    obtain ⟨c, s2, g1, g2, g3, g4⟩ := emit_operand (F := F) (by cmono) (by cmono) h h3
    have o1 : offOf s1.ctx = offOf s.ctx + 1 := d1.off (hw.depth _)
    obtain ⟨hc, w2, q1, q2⟩ := emit_exs F H as ht d1.emit.wf (by omega) g1 g2
    have k2 := g4 hc
    have k2 : (popRec >>= fun _ => (pure true : CM Bool)) s2 = .ok (r, s') := by
      unfold emitNode at k2
      rcases ht with ht | ht <;> simp only [ht, simpleOp, Bool.false_eq_true, if_false] at k2 <;> exact k2
    obtain ⟨i1, i2, i3⟩ := popTrue_inv k2
    have hd : s1.depth = s.depth + 1 := d1.depth
    have hd2 := q1.depth
    refine ⟨i1, _, ⟨(d1.emit.trans q1.emit).wrap hw i3, ?_, ?_⟩, fun b => ?_⟩
    · rw [i3]; show s2.depth - 1 = _; omega
    · rw [i3]; show s2.ctx = _
      rw [q1.ctx, o1, d1.ctx, setOff_setOff]
      show setOff _ s.ctx = _
      rw [show offOf s.ctx + 1 + as.count = offOf s.ctx + (Exs.cons a as).count by simp only [Exs.count]; omega]
    · have hp : placeOf s1.ctx = placeOf s.ctx := d1.place
      have q2b := q2 b
      rw [hp, o1] at q2b
      exact (sim_args_cons ((d2 b).lit q1.emit.lits) q2b).lit (fun W hW => by rw [i3] at hW; exact hW)
end

end Nk.Cc
