import Verif.Props.Code
import Verif.Spec.Fold
/-!
# Constant folding
-/
namespace Nk.Props
open Nk.Cc
variable (F : FloatOps) (H : Host)

mutual
/-- An expression, and what it is after the replacement of constant subexpressions. -/
inductive Folds : Ex → Ex → Prop
  | refl (e : Ex) : Folds e e
  | un {o t e e'} : Folds e e' → Folds (.un o t e) (.un o t e')
  | bin {o t l l' r r'} : Folds l l' → Folds r r' → Folds (.bin o t l r) (.bin o t l' r')
  | setVar {t x e e'} : Folds e e' → Folds (.setVar t x e) (.setVar t x e')
  | setField {t u o o' k k' e e'} : Folds o o' → Folds k k' → Folds e e' → Folds (.setField t u o k e) (.setField t u o' k' e')
  | call {t f f' as as'} : Folds f f' → FoldsArgs as as' → Folds (.call t f as) (.call t f' as')
  | method {t u o o' k k' as as'} : Folds o o' → Folds k k' → FoldsArgs as as' → Folds (.method t u o k as) (.method t u o' k' as')
  | builtin {f n t as as'} : FoldsArgs as as' → Folds (.builtin f n t as) (.builtin f n t as')
  | neg {t e a c} : Folds e (.int a) → Fits (-(atoi32 a.str).toInt) → (atoi32 c.str).toInt = -(atoi32 a.str).toInt →
      Folds (.un .neg t e) (.int c)
  | arith (o : Arith) {t l r a b c} : Folds l (.int a) → Folds r (.int b) → ¬o.refused (atoi32 a.str).toInt (atoi32 b.str).toInt →
      Fits (o.exact (atoi32 a.str).toInt (atoi32 b.str).toInt) →
      (atoi32 c.str).toInt = o.exact (atoi32 a.str).toInt (atoi32 b.str).toInt → Folds (.bin o.op t l r) (.int c)
  | negF {t e a c} : Folds e (.float a) → c.str = F.print (fneg (F.atof a.str)) → Folds (.un .neg t e) (.float c)
  | arithF (o : Arith) {op} {t l r a b c} : Folds l (.float a) → Folds r (.float b) → o.float F = some op →
      c.str = F.print (op (F.atof a.str) (F.atof b.str)) → Folds (.bin o.op t l r) (.float c)
/-- The same for arguments. -/
inductive FoldsArgs : Exs → Exs → Prop
  | nil : FoldsArgs .nil .nil
  | cons {a a' as as'} : Folds a a' → FoldsArgs as as' → FoldsArgs (.cons a as) (.cons a' as')
end

variable {F H}

/-! ## The optimizer's result -/

theorem isImm_int (e : Ex) (h : isImm e.node = true) : (∃ t, e = .int t) ∨ ∃ t, e = .float t := by
  cases e with
  | int t => exact .inl ⟨t, rfl⟩
  | float t => exact .inr ⟨t, rfl⟩
  | un o t e => cases o <;> cases h
  | bin o t l r => cases o <;> cases h
  | _ => cases h

theorem node_ne_nil (e : Ex) : e.node ≠ .nil := by cases e <;> simp [Ex.node]

theorem i32_inv {n : Int} {k : BitVec 32} (h : i32 n = .ok k) : Fits n ∧ k.toInt = n := by
  unfold i32 at h
  split at h
  · next hn =>
    have hf : Fits n := by unfold Fits; omega
    cases h
    exact ⟨hf, toInt_num hf⟩
  · cases h

theorem someR_inv {r : Res α} {o : Option α} (h : someR r = .ok o) : ∃ a, r = .ok a ∧ o = some a := by
  cases r with
  | ok a => cases h; exact ⟨a, rfl, rfl⟩
  | ub k => cases h

/-- The arithmetic operator of a foldable token. -/
theorem canFold_arith {o : BinOp} (h : canFold o.type = true) :
    ∃ a : Arith, o = a.op ∧ a ≠ .mod ∧ (o = .add ∨ o = .sub ∨ o = .mul ∨ o = .div) := by
  cases o <;> first | (cases h; done) | skip
  · exact ⟨.add, rfl, nofun, by simp⟩
  · exact ⟨.sub, rfl, nofun, by simp⟩
  · exact ⟨.mul, rfl, nofun, by simp⟩
  · exact ⟨.div, rfl, nofun, by simp⟩

theorem foldInt_inv {o : Arith} (ho : o ≠ .mod) {a b : BitVec 32} {r : Option (BitVec 32)} (h : foldInt o.op.type a (some b) = .ok r) :
    r = none ∨ ∃ k, r = some k ∧ ¬o.refused a.toInt b.toInt ∧ Fits (o.exact a.toInt b.toInt) ∧ k.toInt = o.exact a.toInt b.toInt := by
  cases o with
  | mod => exact absurd rfl ho
  | div =>
    have h : (if b.toInt = 0 ∨ (b.toInt = -1 ∧ a.toInt = -2147483648) then (.ok none : Res (Option (BitVec 32))) else someR (i32 (a.toInt.tdiv b.toInt))) = .ok r := h
    split at h
    · cases h; exact .inl rfl
    · next hn =>
      obtain ⟨k, h1, rfl⟩ := someR_inv h
      exact .inr ⟨k, rfl, fun h => hn (by simp only [Arith.refused] at h; omega), (i32_inv h1).1, (i32_inv h1).2⟩
  | _ =>
    obtain ⟨k, h1, rfl⟩ := someR_inv h
    exact .inr ⟨k, rfl, by simp [Arith.refused], (i32_inv h1).1, (i32_inv h1).2⟩

theorem foldFloat_inv {o : Arith} (ho : o ≠ .mod) {a b : BitVec 32} {r : Option (BitVec 32)} (h : foldFloat F o.op.type a (some b) = .ok r) :
    r = none ∨ ∃ op, o.float F = some op ∧ r = some (op a b) := by
  cases o with
  | mod => exact absurd rfl ho
  | div =>
    have h : (if fIsZero b = true then (.ok none : Res (Option (BitVec 32))) else .ok (some (F.div a b))) = .ok r := h
    split at h
    · cases h; exact .inl rfl
    · cases h; exact .inr ⟨_, rfl, rfl⟩
  | _ => cases h; exact .inr ⟨_, rfl, rfl⟩

theorem isImm_bin (o : BinOp) (t : Token) (l r : Ex) : isImm (Ex.bin o t l r).node = false := by cases o <;> rfl
theorem isImm_un (o : UnOp) (t : Token) (l : Ex) : isImm (Ex.un o t l).node = false := by cases o <;> rfl

/-- Folding a node with two operands. -/
theorem fold_bin {o : BinOp} {t : Token} {l l' r r' : Ex} {n : Node} (hl : Folds F l l') (hr : Folds F r r')
    (kl : isImm l'.node = true → constKind l = constKind l') (kr : isImm r'.node = true → constKind r = constKind r')
    (hm : constKind l = none ∨ constKind r = none ∨ constKind l = constKind r)
    (h : foldNode F (ofType t o.type) false l'.node r'.node = .ok n) :
    ∃ e', n = e'.node ∧ Folds F (.bin o t l r) e' ∧ (isImm n = true → constKind (.bin o t l r) = constKind e') := by
  have same : n = (Ex.bin o t l' r').node → ∃ e', n = e'.node ∧ Folds F (.bin o t l r) e' ∧ (isImm n = true → constKind (.bin o t l r) = constKind e') := by
    rintro rfl
    exact ⟨_, rfl, .bin hl hr, fun h => by rw [isImm_bin] at h; cases h⟩
  by_cases hc : canFold (ofType t o.type).type = true ∧ isImm l'.node = true ∧ (r'.node = .nil ∨ isImm r'.node = true)
  · obtain ⟨c1, c2, c3⟩ := hc
    have c3 := c3.resolve_left (node_ne_nil r')
    obtain ⟨a, rfl, am, ao⟩ := canFold_arith c1
    rw [kl c2, kr c3] at hm
    have kc : constKind (.bin a.op t l r) = constKind l' := by
      rw [constKind, if_pos ao, kl c2, kr c3, if_neg]
      rcases isImm_int _ c3 with ⟨x, rfl⟩ | ⟨x, rfl⟩ <;> simp [constKind]
    rcases isImm_int _ c2 with ⟨x, rfl⟩ | ⟨x, rfl⟩ <;> rcases isImm_int _ c3 with ⟨y, rfl⟩ | ⟨y, rfl⟩
    · have h : (match foldInt a.op.type (atoi32 x.str) (some (atoi32 y.str)) with
        | .ub k => .ub k
        | .ok none => .ok ((Ex.bin a.op t (.int x) (.int y)).node)
        | .ok (some v) => .ok (.mk (made .integer (itoa v) x.line) false .nil .nil)) = Res.ok n := by
        unfold foldNode at h
        rw [Ex.node, Ex.node] at h
        dsimp only at h
        rw [if_pos ⟨c1, c2, .inr c3⟩, if_pos (show (ofType x .integer).type = .integer from rfl), if_neg (by simp)] at h
        exact h
      split at h
      · cases h
      · cases h; exact same rfl
      · next v hv =>
        obtain hv | ⟨k, hk, e1, e2, e3⟩ := foldInt_inv am hv
        · cases hv
        cases hk; cases h
        exact ⟨.int (made .integer (itoa v) x.line), rfl, .arith a hl hr e1 e2 (by show (atoi32 (itoa v)).toInt = _; rw [atoi32_itoa, e3]), fun _ => kc⟩
    · simp [constKind] at hm
    · simp [constKind] at hm
    · have h : (match foldFloat F a.op.type (F.atof x.str) (some (F.atof y.str)) with
        | .ub k => .ub k
        | .ok none => .ok ((Ex.bin a.op t (.float x) (.float y)).node)
        | .ok (some v) => .ok (.mk (made .float (F.print v) x.line) false .nil .nil)) = Res.ok n := by
        unfold foldNode at h
        rw [Ex.node, Ex.node] at h
        dsimp only at h
        rw [if_pos ⟨c1, c2, .inr c3⟩, if_neg (show ¬((ofType x .float).type = .integer) by show ¬(TokType.float = .integer); decide), if_neg (by simp)] at h
        exact h
      split at h
      · cases h
      · cases h; exact same rfl
      · next v hv =>
        obtain hv | ⟨op, e1, e2⟩ := foldFloat_inv am hv
        · cases hv
        cases e2; cases h
        exact ⟨.float (made .float (F.print _) x.line), rfl, .arithF a hl hr e1 rfl, fun _ => kc⟩
  · apply same
    unfold foldNode at h
    cases hn : l'.node with
    | nil => exact absurd hn (node_ne_nil l')
    | mk a b c d =>
      rw [hn] at h hc
      dsimp only at h
      rw [if_neg hc] at h
      cases h
      rw [Ex.node, hn]

/-- Folding a node with one operand. -/
theorem fold_un {o : UnOp} {t : Token} {l l' : Ex} {n : Node} (hl : Folds F l l')
    (kl : isImm l'.node = true → constKind l = constKind l')
    (h : foldNode F (ofType t o.type) false l'.node .nil = .ok n) :
    ∃ e', n = e'.node ∧ Folds F (.un o t l) e' ∧ (isImm n = true → constKind (.un o t l) = constKind e') := by
  by_cases hc : canFold (ofType t o.type).type = true ∧ isImm l'.node = true
  · obtain ⟨c1, c2⟩ := hc
    cases o with
    | not => cases c1
    | neg =>
    rcases isImm_int _ c2 with ⟨x, rfl⟩ | ⟨x, rfl⟩
    · have h : (match someR (i32 (-(atoi32 x.str).toInt)) with
        | .ub k => .ub k
        | .ok none => .ok ((Ex.un .neg t (.int x)).node)
        | .ok (some v) => .ok (.mk (made .integer (itoa v) x.line) false .nil .nil)) = Res.ok n := by
        unfold foldNode at h
        rw [Ex.node] at h
        dsimp only at h
        rw [if_pos ⟨c1, c2, .inl rfl⟩, if_pos (show (ofType x .integer).type = .integer from rfl), if_pos rfl] at h
        exact h
      split at h
      · cases h
      · next hv => obtain ⟨_, _, hv⟩ := someR_inv hv; cases hv
      · next v hv =>
        obtain ⟨k, hk, e⟩ := someR_inv hv
        cases e; cases h
        obtain ⟨e1, e2⟩ := i32_inv hk
        exact ⟨.int (made .integer (itoa v) x.line), rfl, .neg hl e1 (by show (atoi32 (itoa v)).toInt = _; rw [atoi32_itoa, e2]), fun _ => kl c2⟩
    · have h : (.ok (.mk (made .float (F.print (fneg (F.atof x.str))) x.line) false .nil .nil)) = Res.ok n := by
        unfold foldNode at h
        rw [Ex.node] at h
        dsimp only at h
        rw [if_pos ⟨c1, c2, .inl rfl⟩, if_neg (show ¬((ofType x .float).type = .integer) by show ¬(TokType.float = .integer); decide), if_pos rfl] at h
        exact h
      cases h
      exact ⟨.float (made .float (F.print (fneg (F.atof x.str))) x.line), rfl, .negF hl rfl, fun _ => kl c2⟩
  · unfold foldNode at h
    cases hn : l'.node with
    | nil => exact absurd hn (node_ne_nil l')
    | mk a b c d =>
      rw [hn] at h hc
      dsimp only at h
      rw [if_neg (fun x => hc ⟨x.1, x.2.1⟩)] at h
      cases h
      exact ⟨.un o t l', by rw [Ex.node, hn], .un hl, fun h => by cases o <;> cases h⟩

/-- Nodes that are not folded. -/
theorem fold_none {t : Token} {root : Bool} {l r n : Node} (ht : canFold t.type = false) (h : foldNode F t root l r = .ok n) : n = .mk t root l r := by
  unfold foldNode at h
  cases l with
  | nil => cases h; rfl
  | mk => 
    dsimp only at h
    rw [if_neg (by simp [ht])] at h
    cases h; rfl

theorem optimize_inv {tok : Token} {root : Bool} {l r n : Node} (h : optimize F (.mk tok root l r) = .ok n) :
    ∃ l' r', optimize F l = .ok l' ∧ optimize F r = .ok r' ∧ foldNode F tok root l' r' = .ok n := by
  rw [optimize] at h
  cases h1 : optimize F l with
  | ub k => rw [h1] at h; cases h
  | ok l' =>
    cases h2 : optimize F r with
    | ub k => rw [h1, h2] at h; cases h
    | ok r' => rw [h1, h2] at h; exact ⟨l', r', rfl, rfl, h⟩

mutual
theorem optimize_folds : ∀ (e : Ex) {n : Node}, Unmixed e → optimize F e.node = .ok n →
    ∃ e', n = e'.node ∧ Folds F e e' ∧ (isImm n = true → constKind e = constKind e')
  | .int t, n, _, h => by cases h; exact ⟨_, rfl, .refl _, fun _ => rfl⟩
  | .float t, n, _, h => by cases h; exact ⟨_, rfl, .refl _, fun _ => rfl⟩
  | .str t, n, _, h => by cases h; exact ⟨_, rfl, .refl _, fun _ => rfl⟩
  | .fn t, n, _, h => by cases h; exact ⟨_, rfl, .refl _, fun _ => rfl⟩
  | .nil t, n, _, h => by cases h; exact ⟨_, rfl, .refl _, fun _ => rfl⟩
  | .newObj t, n, _, h => by cases h; exact ⟨_, rfl, .refl _, fun _ => rfl⟩
  | .var t, n, _, h => by cases h; exact ⟨_, rfl, .refl _, fun _ => rfl⟩
  | .un o t e, n, u, h => by
    rw [Ex.node] at h
    obtain ⟨l', r', h1, h2, h3⟩ := optimize_inv h
    cases h2
    obtain ⟨e', rfl, b, c⟩ := optimize_folds e u h1
    exact fold_un b c h3
  | .bin o t l r, n, ⟨u1, u2, u3⟩, h => by
    rw [Ex.node] at h
    obtain ⟨l', r', h1, h2, h3⟩ := optimize_inv h
    obtain ⟨e1, rfl, b1, c1⟩ := optimize_folds l u1 h1
    obtain ⟨e2, rfl, b2, c2⟩ := optimize_folds r u2 h2
    exact fold_bin b1 b2 c1 c2 u3 h3
  | .setVar t x e, n, u, h => by
    rw [Ex.node] at h
    obtain ⟨l', r', h1, h2, h3⟩ := optimize_inv h
    cases h1
    obtain ⟨e', rfl, b, c⟩ := optimize_folds e u h2
    rw [fold_none rfl h3]
    exact ⟨.setVar t x e', rfl, .setVar b, fun h => by cases h⟩
  | .setField t u o k e, n, ⟨u1, u2, u3⟩, h => by
    rw [Ex.node] at h
    obtain ⟨l', r', h1, h2, h3⟩ := optimize_inv h
    obtain ⟨l1, l2, g1, g2, g3⟩ := optimize_inv h1
    obtain ⟨e1, rfl, b1, c1⟩ := optimize_folds o u1 g1
    obtain ⟨e2, rfl, b2, c2⟩ := optimize_folds k u2 g2
    obtain ⟨e3, rfl, b3, c3⟩ := optimize_folds e u3 h2
    rw [fold_none rfl h3, fold_none rfl g3]
    exact ⟨.setField t u e1 e2 e3, rfl, .setField b1 b2 b3, fun h => by cases h⟩
  | .call t f as, n, ⟨u1, u2⟩, h => by
    rw [Ex.node] at h
    obtain ⟨l', r', h1, h2, h3⟩ := optimize_inv h
    obtain ⟨e1, rfl, b1, c1⟩ := optimize_folds f u1 h1
    obtain ⟨e2, rfl, b2⟩ := optimize_foldsArgs rfl as u2 h2
    rw [fold_none rfl h3]
    exact ⟨.call t e1 e2, rfl, .call b1 b2, fun h => by cases h⟩
  | .method t u o k as, n, ⟨u1, u2, u3⟩, h => by
    rw [Ex.node] at h
    obtain ⟨l', r', h1, h2, h3⟩ := optimize_inv h
    obtain ⟨l1, l2, g1, g2, g3⟩ := optimize_inv h1
    obtain ⟨e1, rfl, b1, c1⟩ := optimize_folds o u1 g1
    obtain ⟨e2, rfl, b2, c2⟩ := optimize_folds k u2 g2
    obtain ⟨e3, rfl, b3⟩ := optimize_foldsArgs rfl as u3 h2
    rw [fold_none rfl h3, fold_none rfl g3]
    exact ⟨.method t u e1 e2 e3, rfl, .method b1 b2 b3, fun h => by cases h⟩
  | .builtin f m t as, n, u, h => by
    rw [Ex.node] at h
    obtain ⟨l', r', h1, h2, h3⟩ := optimize_inv h
    cases h1
    obtain ⟨e', rfl, b⟩ := optimize_foldsArgs rfl as u h2
    rw [fold_none rfl h3]
    exact ⟨.builtin f m t e', rfl, .builtin b, fun h => by cases h⟩
theorem optimize_foldsArgs {t : Token} (ht : canFold t.type = false) : ∀ (e : Exs) {n : Node}, UnmixedArgs e → optimize F (e.node t) = .ok n → ∃ e', n = e'.node t ∧ FoldsArgs F e e'
  | .nil, n, _, h => by cases h; exact ⟨.nil, rfl, .nil⟩
  | .cons a as, n, ⟨u1, u2⟩, h => by
    rw [Exs.node] at h
    obtain ⟨l', r', h1, h2, h3⟩ := optimize_inv h
    obtain ⟨e1, rfl, b1, c1⟩ := optimize_folds a u1 h1
    obtain ⟨e2, rfl, b2⟩ := optimize_foldsArgs ht as u2 h2
    rw [fold_none ht h3]
    exact ⟨.cons e1 e2, rfl, .cons b1 b2⟩
end

/-! ## The meaning of the result -/

/-- Doing the operation on two integers. -/
theorem does_arith {W : VM} (hg : Good W) {l : List Value} {a b c : BitVec 32} (o : Arith) (hn : ¬o.refused a.toInt b.toInt)
    (hf : Fits (o.exact a.toInt b.toInt)) (hc : c.toInt = o.exact a.toInt b.toInt) : Does F H o.op.code l [.int a, .int b] W (.int c) W := by
  refine does_yields (BinOp.code_lt _) hg fun vm cc h hs => ?_
  obtain ⟨vm', k, h1, h2, h3⟩ := C23_exact F H h o hn hf
  have : k = c := BitVec.eq_of_toInt_eq (h3.trans hc.symm)
  subst this
  exact ⟨vm', by cases o <;> exact h1, h2⟩

theorem does_arithF {W : VM} (hg : Good W) {l : List Value} {a b : BitVec 32} (o : Arith) {op : BitVec 32 → BitVec 32 → BitVec 32}
    (ho : o.float F = some op) : Does F H o.op.code l [.float a, .float b] W (.float (op a b)) W := by
  refine does_yields (BinOp.code_lt _) hg fun vm cc h hs => ?_
  obtain ⟨vm', h1, h2⟩ := C59_float_left F H hs h (.float b) o ho
  exact ⟨vm', by cases o <;> exact h1, h2⟩

theorem does_negF {W : VM} (hg : Good W) {l : List Value} {a : BitVec 32} : Does F H 5 l [.float a] W (.float (fneg a)) W := by
  refine does_yields (by decide) hg fun vm cc h hs => ?_
  obtain ⟨s, g1, g2, g3, _⟩ := pop1 h (fun a => match a with
    | .int i => do
      let r ← liftR (i32 (-i.toInt))
      pushInt r
    | .float x => push (.float (fneg x))
    | a => addError ("Negation unimplemented for type " ++ typeName a.ty ++ "."))
  obtain ⟨vm', k1, k2⟩ := push_yields h.at_ g2 g3 (.float (fneg a))
  exact ⟨vm', g1.trans k1, k2⟩

variable {Γ : Bytes → Option Place} {b : Nat}

theorem _root_.Nk.Cc.Exact.un {o : UnOp} {t : Token} {e : Ex} (h : Exact F (.un o t e)) : Exact F e := h.imp (fun h => by simpa [NoFloat] using h) id
theorem _root_.Nk.Cc.Exact.bin {o : BinOp} {t : Token} {l r : Ex} (h : Exact F (.bin o t l r)) : Exact F l ∧ Exact F r := by
  rcases h with h | h
  · rw [NoFloat] at h; exact ⟨.inl h.1, .inl h.2⟩
  · exact ⟨.inr h, .inr h⟩
theorem _root_.Nk.Cc.Exact.setVar {t x : Token} {e : Ex} (h : Exact F (.setVar t x e)) : Exact F e := h.imp (fun h => by simpa [NoFloat] using h) id
theorem _root_.Nk.Cc.Exact.setField {t u : Token} {o k e : Ex} (h : Exact F (.setField t u o k e)) : Exact F o ∧ Exact F k ∧ Exact F e := by
  rcases h with h | h
  · rw [NoFloat] at h; exact ⟨.inl h.1, .inl h.2.1, .inl h.2.2⟩
  · exact ⟨.inr h, .inr h, .inr h⟩
theorem _root_.Nk.Cc.Exact.call {t : Token} {f : Ex} {as : Exs} (h : Exact F (.call t f as)) : Exact F f ∧ ExactArgs F as := by
  rcases h with h | h
  · rw [NoFloat] at h; exact ⟨.inl h.1, .inl h.2⟩
  · exact ⟨.inr h, .inr h⟩
theorem _root_.Nk.Cc.Exact.method {t u : Token} {o k : Ex} {as : Exs} (h : Exact F (.method t u o k as)) :
    Exact F o ∧ Exact F k ∧ ExactArgs F as := by
  rcases h with h | h
  · rw [NoFloat] at h; exact ⟨.inl h.1, .inl h.2.1, .inl h.2.2⟩
  · exact ⟨.inr h, .inr h, .inr h⟩
theorem _root_.Nk.Cc.Exact.builtin {f : Builtin} {n t : Token} {as : Exs} (h : Exact F (.builtin f n t as)) : ExactArgs F as :=
  h.imp (fun h => by simpa [NoFloat] using h) id
theorem _root_.Nk.Cc.ExactArgs.cons {a : Ex} {as : Exs} (h : ExactArgs F (.cons a as)) : Exact F a ∧ ExactArgs F as := by
  rcases h with h | h
  · rw [NoFloatArgs] at h; exact ⟨.inl h.1, .inl h.2⟩
  · exact ⟨.inr h, .inr h⟩

mutual
theorem folds_noFloat : ∀ {e e' : Ex}, Folds F e e' → NoFloat e → NoFloat e'
  | _, _, .refl _, h => h
  | _, _, .un h0, h => by rw [NoFloat] at *; exact folds_noFloat h0 h
  | _, _, .bin h1 h2, h => by rw [NoFloat] at *; exact ⟨folds_noFloat h1 h.1, folds_noFloat h2 h.2⟩
  | _, _, .setVar h0, h => by rw [NoFloat] at *; exact folds_noFloat h0 h
  | _, _, .setField h1 h2 h3, h => by rw [NoFloat] at *; exact ⟨folds_noFloat h1 h.1, folds_noFloat h2 h.2.1, folds_noFloat h3 h.2.2⟩
  | _, _, .call h1 h2, h => by rw [NoFloat] at *; exact ⟨folds_noFloat h1 h.1, foldsArgs_noFloat h2 h.2⟩
  | _, _, .method h1 h2 h3, h => by
    rw [NoFloat] at *; exact ⟨folds_noFloat h1 h.1, folds_noFloat h2 h.2.1, foldsArgs_noFloat h3 h.2.2⟩
  | _, _, .builtin h0, h => by rw [NoFloat] at *; exact foldsArgs_noFloat h0 h
  | _, _, .neg _ _ _, h => by simp [NoFloat]
  | _, _, .arith _ _ _ _ _ _, h => by simp [NoFloat]
  | _, _, .negF h0 _, h => by rw [NoFloat] at h; have := folds_noFloat h0 h; simp [NoFloat] at this
  | _, _, .arithF _ h0 _ _ _, h => by rw [NoFloat] at h; have := folds_noFloat h0 h.1; simp [NoFloat] at this
theorem foldsArgs_noFloat : ∀ {e e' : Exs}, FoldsArgs F e e' → NoFloatArgs e → NoFloatArgs e'
  | _, _, .nil, h => h
  | _, _, .cons h1 h2, h => by rw [NoFloatArgs] at *; exact ⟨folds_noFloat h1 h.1, foldsArgs_noFloat h2 h.2⟩
end

theorem _root_.Nk.Cc.Exact.float {e : Ex} {a : Token} (h : Exact F e) (hf : Folds F e (.float a)) : ∀ v, F.atof (F.print v) = v := by
  rcases h with h | h
  · have := folds_noFloat hf h; simp [NoFloat] at this
  · exact h

mutual
theorem folds_ev : ∀ {e e' : Ex}, Folds F e e' → Exact F e → ∀ {l : List Value} {W : VM} {v : Value} {l' : List Value} {W' : VM}, Good W →
    Ev F H Γ b l W e' v l' W' → Ev F H Γ b l W e v l' W'
  | _, _, .refl _, _, _, _, _, _, _, _, h => h
  | _, _, .un h0, hf, _, _, _, _, _, g, .un h1 h2 => .un (folds_ev h0 hf.un g h1) h2
  | _, _, .bin ha hb, hf, _, _, _, _, _, g, .bin h1 h2 h3 =>
    .bin (folds_ev ha hf.bin.1 g h1) (folds_ev hb hf.bin.2 ((Ev.keep _ g.str h1).1.good g) h2) h3
  | _, _, .setVar h0, hf, _, _, _, _, _, g, .setLoc h1 h2 h3 => .setLoc (folds_ev h0 hf.setVar g h1) h2 h3
  | _, _, .setVar h0, hf, _, _, _, _, _, g, .setGlob h1 h2 h3 => .setGlob (folds_ev h0 hf.setVar g h1) h2 h3
  | _, _, .setField ho hk he, hf, _, _, _, _, _, g, .setField h1 h2 h3 h4 => by
    have g1 := (Ev.keep _ g.str h1).1.good g
    exact .setField (folds_ev he hf.setField.2.2 g h1) (folds_ev ho hf.setField.1 g1 h2)
      (folds_ev hk hf.setField.2.1 ((Ev.keep _ g1.str h2).1.good g1) h3) h4
  | _, _, .call ha hb, hf, _, _, _, _, _, g, .call h1 h2 h3 =>
    .call (folds_ev ha hf.call.1 g h1) (foldsArgs_ev hb hf.call.2 ((Ev.keep _ g.str h1).1.good g) h2) h3
  | _, _, .method ho hk ha, hf, _, _, _, _, _, g, .method h1 h2 h3 h4 h5 => by
    have g1 := (Ev.keep _ g.str h1).1.good g
    exact .method (folds_ev ho hf.method.1 g h1) (folds_ev hk hf.method.2.1 g1 h2) h3
      (foldsArgs_ev ha hf.method.2.2 (h3.1.good ((Ev.keep _ g1.str h2).1.good g1)) h4) h5
  | _, _, .builtin h0, hf, _, _, _, _, _, g, .builtin h1 h2 h3 => .builtin (foldsArgs_ev h0 hf.builtin g h1) h2 h3
  | _, _, .neg h0 h1 h2, hf, _, _, _, _, _, g, .int _ => by
    refine .un (folds_ev h0 hf.un g (.int _)) (does_yields (by decide) g fun vm c h hs => ?_)
    obtain ⟨vm', k, k1, k2, k3⟩ := C23_negate F H h h1
    rw [BitVec.eq_of_toInt_eq (h2.trans k3.symm)]
    exact ⟨vm', k1, k2⟩
  | _, _, .arith o ha hb h1 h2 h3, hf, _, _, _, _, _, g, .int _ =>
    .bin (folds_ev ha hf.bin.1 g (.int _)) (folds_ev hb hf.bin.2 g (.int _)) (does_arith g o h1 h2 h3)
  | _, _, .negF h0 h1, hf, _, _, _, _, _, g, .float _ => by
    rw [h1, hf.un.float h0]
    exact .un (folds_ev h0 hf.un g (.float _)) (does_negF g)
  | _, _, .arithF o ha hb h1 h2, hf, _, _, _, _, _, g, .float _ => by
    rw [h2, hf.bin.1.float ha]
    exact .bin (folds_ev ha hf.bin.1 g (.float _)) (folds_ev hb hf.bin.2 g (.float _)) (does_arithF g o h1)
theorem foldsArgs_ev : ∀ {e e' : Exs}, FoldsArgs F e e' → ExactArgs F e → ∀ {l : List Value} {W : VM} {v : List Value} {l' : List Value} {W' : VM}, Good W →
    EvArgs F H Γ b l W e' v l' W' → EvArgs F H Γ b l W e v l' W'
  | _, _, .nil, _, _, _, _, _, _, _, h => h
  | _, _, .cons ha hb, hf, _, _, _, _, _, g, .cons h1 h2 =>
    .cons (folds_ev ha hf.cons.1 g h1) (foldsArgs_ev hb hf.cons.2 ((Ev.keep _ g.str h1).1.good g) h2)
end

mutual
theorem folds_err : ∀ {e e' : Ex}, Folds F e e' → Exact F e → ∀ {l : List Value} {W : VM}, Good W →
    EvErr F H Γ b l W e' → EvErr F H Γ b l W e
  | _, _, .refl _, _, _, _, _, h => h
  | _, _, .un h0, hf, _, _, g, h => by
    cases h with
    | unArg h1 => exact .unArg (folds_err h0 hf.un g h1)
    | un h1 h2 => exact .un (folds_ev h0 hf.un g h1) h2
  | _, _, .bin ha hb, hf, _, _, g, h => by
    cases h with
    | binL h1 => exact .binL (folds_err ha hf.bin.1 g h1)
    | binR h1 h2 => exact .binR (folds_ev ha hf.bin.1 g h1) (folds_err hb hf.bin.2 ((Ev.keep _ g.str h1).1.good g) h2)
    | bin h1 h2 h3 => exact .bin (folds_ev ha hf.bin.1 g h1) (folds_ev hb hf.bin.2 ((Ev.keep _ g.str h1).1.good g) h2) h3
  | _, _, .setVar h0, hf, _, _, g, h => by
    cases h with
    | setVar h1 => exact .setVar (folds_err h0 hf.setVar g h1)
  | _, _, .setField ho hk he, hf, _, _, g, h => by
    cases h with
    | setFieldE h1 => exact .setFieldE (folds_err he hf.setField.2.2 g h1)
    | setFieldO h1 h2 =>
      exact .setFieldO (folds_ev he hf.setField.2.2 g h1) (folds_err ho hf.setField.1 ((Ev.keep _ g.str h1).1.good g) h2)
    | setFieldK h1 h2 h3 =>
      have g1 := (Ev.keep _ g.str h1).1.good g
      exact .setFieldK (folds_ev he hf.setField.2.2 g h1) (folds_ev ho hf.setField.1 g1 h2)
        (folds_err hk hf.setField.2.1 ((Ev.keep _ g1.str h2).1.good g1) h3)
    | setField h1 h2 h3 h4 =>
      have g1 := (Ev.keep _ g.str h1).1.good g
      exact .setField (folds_ev he hf.setField.2.2 g h1) (folds_ev ho hf.setField.1 g1 h2)
        (folds_ev hk hf.setField.2.1 ((Ev.keep _ g1.str h2).1.good g1) h3) h4
  | _, _, .call ha hb, hf, _, _, g, h => by
    cases h with
    | callF h1 => exact .callF (folds_err ha hf.call.1 g h1)
    | callArgs h1 h2 => exact .callArgs (folds_ev ha hf.call.1 g h1) (foldsArgs_err hb hf.call.2 ((Ev.keep _ g.str h1).1.good g) h2)
    | call h1 h2 h3 => exact .call (folds_ev ha hf.call.1 g h1) (foldsArgs_ev hb hf.call.2 ((Ev.keep _ g.str h1).1.good g) h2) h3
  | _, _, .method ho hk ha, hf, _, _, g, h => by
    cases h with
    | methodO h1 => exact .methodO (folds_err ho hf.method.1 g h1)
    | methodK h1 h2 => exact .methodK (folds_ev ho hf.method.1 g h1) (folds_err hk hf.method.2.1 ((Ev.keep _ g.str h1).1.good g) h2)
    | methodF h1 h2 h3 =>
      exact .methodF (folds_ev ho hf.method.1 g h1) (folds_ev hk hf.method.2.1 ((Ev.keep _ g.str h1).1.good g) h2) h3
    | methodArgs h1 h2 h3 h4 =>
      have g1 := (Ev.keep _ g.str h1).1.good g
      exact .methodArgs (folds_ev ho hf.method.1 g h1) (folds_ev hk hf.method.2.1 g1 h2) h3
        (foldsArgs_err ha hf.method.2.2 (h3.1.good ((Ev.keep _ g1.str h2).1.good g1)) h4)
    | method h1 h2 h3 h4 h5 =>
      have g1 := (Ev.keep _ g.str h1).1.good g
      exact .method (folds_ev ho hf.method.1 g h1) (folds_ev hk hf.method.2.1 g1 h2) h3
        (foldsArgs_ev ha hf.method.2.2 (h3.1.good ((Ev.keep _ g1.str h2).1.good g1)) h4) h5
  | _, _, .builtin h0, hf, _, _, g, h => by
    cases h with
    | builtinArgs h1 => exact .builtinArgs (foldsArgs_err h0 hf.builtin g h1)
    | builtin h1 h2 h3 => exact .builtin (foldsArgs_ev h0 hf.builtin g h1) h2 h3
  | _, _, .neg _ _ _, _, _, _, _, h => by cases h
  | _, _, .arith _ _ _ _ _ _, _, _, _, _, h => by cases h
  | _, _, .negF _ _, _, _, _, _, h => by cases h
  | _, _, .arithF _ _ _ _ _, _, _, _, _, h => by cases h
theorem foldsArgs_err : ∀ {e e' : Exs}, FoldsArgs F e e' → ExactArgs F e → ∀ {l : List Value} {W : VM}, Good W →
    EvErrArgs F H Γ b l W e' → EvErrArgs F H Γ b l W e
  | _, _, .nil, _, _, _, _, h => by cases h
  | _, _, .cons ha hb, hf, _, _, g, h => by
    cases h with
    | head h1 => exact .head (folds_err ha hf.cons.1 g h1)
    | tail h1 h2 => exact .tail (folds_ev ha hf.cons.1 g h1) (foldsArgs_err hb hf.cons.2 ((Ev.keep _ g.str h1).1.good g) h2)
end

/-! ## Integers -/

variable {ρ : Bytes → Int → Prop}

theorem Arith.op_inj {o o' : Arith} (h : o.op = o'.op) : o = o' := by cases o <;> cases o' <;> first | rfl | cases h
theorem Rel.op_inj {o o' : Rel} (h : o.op = o'.op) : o = o' := by cases o <;> cases o' <;> first | rfl | cases h
theorem arith_ne_rel {o : Arith} {r : Rel} : o.op ≠ r.op := by cases o <;> cases r <;> nofun

theorem num_bin {p : BinOp} {t : Token} {l r : Ex} {z : Int} (h : Num ρ (.bin p t l r) z) : ∃ x y, Num ρ l x ∧ Num ρ r y ∧
    ((∃ o : Arith, p = o.op ∧ ¬o.refused x y ∧ Fits (o.exact x y) ∧ z = o.exact x y) ∨ ∃ o : Rel, p = o.op ∧ z = if o.holds x y then 1 else 0) := by
  generalize he : Ex.bin p t l r = e at h
  cases h with
  | arith o u h1 h2 h3 h4 => cases he; exact ⟨_, _, h1, h2, .inl ⟨o, rfl, h3, h4, rfl⟩⟩
  | rel o u h1 h2 => cases he; exact ⟨_, _, h1, h2, .inr ⟨o, rfl, rfl⟩⟩
  | _ => cases he

theorem num_un {p : UnOp} {t : Token} {l : Ex} {z : Int} (h : Num ρ (.un p t l) z) : ∃ x, Num ρ l x ∧
    ((p = .neg ∧ Fits (-x) ∧ z = -x) ∨ (p = .not ∧ z = if x = 0 then 1 else 0)) := by
  cases h with
  | neg _ h1 h2 => exact ⟨_, h1, .inl ⟨rfl, h2, rfl⟩⟩
  | not _ h1 => exact ⟨_, h1, .inr ⟨rfl, rfl⟩⟩

theorem num_lit {t : Token} {x : Int} (h : Num ρ (.int t) x) : x = (atoi32 t.str).toInt := by cases h; rfl

theorem numErr_bin {p : BinOp} {t : Token} {l r : Ex} (h : NumErr ρ (.bin p t l r)) : NumErr ρ l ∨ (∃ x, Num ρ l x ∧ NumErr ρ r) ∨
    ∃ x y, ∃ o : Arith, Num ρ l x ∧ Num ρ r y ∧ p = o.op ∧ o.refused x y := by
  generalize he : Ex.bin p t l r = e at h
  cases h with
  | left o u h1 => cases he; exact .inl h1
  | right o u h1 h2 => cases he; exact .inr (.inl ⟨_, h1, h2⟩)
  | here o u h1 h2 h3 => cases he; exact .inr (.inr ⟨_, _, o, h1, h2, rfl, h3⟩)
  | _ => cases he

/-- The same numbers. -/
theorem folds_num {e e' : Ex} (h : Folds F e e') : (∀ x, Num ρ e' x ↔ Num ρ e x) ∧ (NumErr ρ e' ↔ NumErr ρ e) := by
  refine h.rec (motive_1 := fun e e' _ => (∀ x, Num ρ e' x ↔ Num ρ e x) ∧ (NumErr ρ e' ↔ NumErr ρ e)) (motive_2 := fun _ _ _ => True)
    ?_ ?_ ?_ ?_ ?_ ?_ ?_ ?_ ?_ ?_ ?_ ?_ ?_ ?_
  · exact fun _ => ⟨fun _ => .rfl, .rfl⟩
  · intro o t e e' _ ⟨ih, ie⟩
    refine ⟨fun x => ⟨fun h => ?_, fun h => ?_⟩, ⟨fun h => ?_, fun h => ?_⟩⟩
    · obtain ⟨y, h1, ⟨rfl, h2, rfl⟩ | ⟨rfl, rfl⟩⟩ := num_un h
      · exact .neg t ((ih _).mp h1) h2
      · exact .not t ((ih _).mp h1)
    · obtain ⟨y, h1, ⟨rfl, h2, rfl⟩ | ⟨rfl, rfl⟩⟩ := num_un h
      · exact .neg t ((ih _).mpr h1) h2
      · exact .not t ((ih _).mpr h1)
    · cases h with
      | neg _ h => exact .neg t (ie.mp h)
      | not _ h => exact .not t (ie.mp h)
    · cases h with
      | neg _ h => exact .neg t (ie.mpr h)
      | not _ h => exact .not t (ie.mpr h)
  · intro o t l l' r r' _ _ ⟨il, el⟩ ⟨ir, er⟩
    refine ⟨fun x => ⟨fun h => ?_, fun h => ?_⟩, ⟨fun h => ?_, fun h => ?_⟩⟩
    · obtain ⟨x, y, h1, h2, ⟨o, rfl, h3, h4, rfl⟩ | ⟨o, rfl, rfl⟩⟩ := num_bin h
      · exact .arith o t ((il _).mp h1) ((ir _).mp h2) h3 h4
      · exact .rel o t ((il _).mp h1) ((ir _).mp h2)
    · obtain ⟨x, y, h1, h2, ⟨o, rfl, h3, h4, rfl⟩ | ⟨o, rfl, rfl⟩⟩ := num_bin h
      · exact .arith o t ((il _).mpr h1) ((ir _).mpr h2) h3 h4
      · exact .rel o t ((il _).mpr h1) ((ir _).mpr h2)
    · obtain h | ⟨x, h1, h2⟩ | ⟨x, y, o, h1, h2, rfl, h3⟩ := numErr_bin h
      · exact .left _ t (el.mp h)
      · exact .right _ t ((il _).mp h1) (er.mp h2)
      · exact .here o t ((il _).mp h1) ((ir _).mp h2) h3
    · obtain h | ⟨x, h1, h2⟩ | ⟨x, y, o, h1, h2, rfl, h3⟩ := numErr_bin h
      · exact .left _ t (el.mpr h)
      · exact .right _ t ((il _).mpr h1) (er.mpr h2)
      · exact .here o t ((il _).mpr h1) ((ir _).mpr h2) h3
  · intros; exact ⟨fun x => ⟨nofun, nofun⟩, ⟨nofun, nofun⟩⟩
  · intros; exact ⟨fun x => ⟨nofun, nofun⟩, ⟨nofun, nofun⟩⟩
  · intros; exact ⟨fun x => ⟨nofun, nofun⟩, ⟨nofun, nofun⟩⟩
  · intros; exact ⟨fun x => ⟨nofun, nofun⟩, ⟨nofun, nofun⟩⟩
  · intros; exact ⟨fun x => ⟨nofun, nofun⟩, ⟨nofun, nofun⟩⟩
  · intro t e a c _ hf hc ⟨ih, ie⟩
    refine ⟨fun x => ⟨fun h => ?_, fun h => ?_⟩, ⟨nofun, fun h => ?_⟩⟩
    · rw [num_lit h, hc]
      exact .neg t ((ih _).mp (.lit a)) hf
    · obtain ⟨y, h1, ⟨_, h2, rfl⟩ | ⟨h, _⟩⟩ := num_un h
      · rw [num_lit ((ih _).mpr h1), ← hc]; exact .lit c
      · cases h
    · cases h with
      | neg _ h => cases ie.mpr h
  · intro o t l r a b' c _ _ hn hf hc ⟨il, el⟩ ⟨ir, er⟩
    refine ⟨fun x => ⟨fun h => ?_, fun h => ?_⟩, ⟨nofun, fun h => ?_⟩⟩
    · rw [num_lit h, hc]
      exact .arith o t ((il _).mp (.lit a)) ((ir _).mp (.lit b')) hn hf
    · obtain ⟨x, y, h1, h2, ⟨o', ho, h3, h4, rfl⟩ | ⟨o', ho, _⟩⟩ := num_bin h
      · cases Arith.op_inj ho
        rw [num_lit ((il _).mpr h1), num_lit ((ir _).mpr h2), ← hc]; exact .lit c
      · exact absurd ho arith_ne_rel
    · obtain h | ⟨x, h1, h2⟩ | ⟨x, y, o', h1, h2, ho, h3⟩ := numErr_bin h
      · cases el.mpr h
      · cases er.mpr h2
      · cases Arith.op_inj ho
        rw [num_lit ((il _).mpr h1), num_lit ((ir _).mpr h2)] at h3
        exact absurd h3 hn
  · intro t e a c _ _ ⟨ih, ie⟩
    refine ⟨fun x => ⟨nofun, fun h => ?_⟩, ⟨nofun, fun h => ?_⟩⟩
    · obtain ⟨y, h1, _⟩ := num_un h
      cases (ih _).mpr h1
    · cases h with
      | neg _ h => cases ie.mpr h
  · intro o op t l r a b' c _ _ _ _ ⟨il, el⟩ ⟨ir, er⟩
    refine ⟨fun x => ⟨nofun, fun h => ?_⟩, ⟨nofun, fun h => ?_⟩⟩
    · obtain ⟨x, y, h1, _⟩ := num_bin h
      cases (il _).mpr h1
    · obtain h | ⟨x, h1, h2⟩ | ⟨x, y, o', h1, h2, ho, h3⟩ := numErr_bin h
      · cases el.mpr h
      · cases (il _).mpr h1
      · cases (il _).mpr h1
  · trivial
  · intros; trivial

/-- An error of numbers is an error. -/
theorem numErr_ev {l : List Value} {W : VM} (hg : Good W) {e : Ex} (h : NumErr (HoldsInt Γ b l W) e) : ∀ ts, EvErr F H Γ b (l ++ ts) W e := by
  induction h with
  | neg t _ ih => exact fun ts => .unArg (ih ts)
  | not t _ ih => exact fun ts => .unArg (ih ts)
  | left o t _ ih => exact fun ts => .binL (ih ts)
  | @right o t e f x h1 _ ih =>
    intro ts
    refine .binR ((num_ev hg h1).2 ts) ?_
    rw [List.append_assoc]
    exact ih _
  | @here o t e f x y h1 h2 h3 =>
    intro ts
    have k1 := num_ev (F := F) (H := H) hg h1
    have k2 := num_ev (F := F) (H := H) hg h2
    have k3 := k2.2 (ts ++ [num x])
    rw [← List.append_assoc] at k3
    refine .bin (k1.2 ts) k3 (fails_error (BinOp.code_lt _) hg fun vm c h _ => ?_)
    obtain ⟨vm', e, s, g1, _, g2, g3⟩ := C23_refused F H h o (by rw [toInt_num k1.1, toInt_num k2.1]; exact h3)
    exact ⟨vm', e, s, by cases o <;> exact g1, g2, g3⟩

/-- Folding makes nothing bigger. -/
theorem folds_size {e e' : Ex} (h : Folds F e e') : e'.size ≤ e.size := by
  refine h.rec (motive_1 := fun e e' _ => e'.size ≤ e.size) (motive_2 := fun e e' _ => e'.size ≤ e.size)
    ?_ ?_ ?_ ?_ ?_ ?_ ?_ ?_ ?_ ?_ ?_ ?_ ?_ ?_ <;> intros <;> first | exact Nat.le_refl _ | (simp only [Ex.size, Exs.size] at *; omega)

end Nk.Props
