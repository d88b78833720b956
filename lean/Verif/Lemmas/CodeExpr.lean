import Verif.Lemmas.CodeEmit
/-!
# The code of expressions
-/
namespace Nk.Cc
open Nk.Props

/-! ## Values of expressions -/

section
variable {F : FloatOps} {H : Host} {Γ : Bytes → Option Place} {b : Nat}

theorem Keep.setStatic {W : VM} (h : StrWF W) (i : Nat) (v : Value) : Keep W { W with statics := W.statics.set i v } :=
  ⟨rfl, rfl, rfl, by simp, rfl, rfl, ⟨h.tab, h.blen, h.nodup, h.mem, h.hash, h.bucket, h.inj⟩, fun _ _ h => h, fun _ _ h => h⟩

mutual
theorem Ev.keep : ∀ (e : Ex) {l : List Value} {W : VM} {v : Value} {l' : List Value} {W' : VM}, StrWF W →
    Ev F H Γ b l W e v l' W' → Keep W W' ∧ l'.length = l.length
  | .int _, _, _, _, _, _, hs, .int _ => ⟨.refl hs, rfl⟩
  | .float _, _, _, _, _, _, hs, .float _ => ⟨.refl hs, rfl⟩
  | .str _, _, _, _, _, _, hs, .str _ _ => ⟨.refl hs, rfl⟩
  | .fn _, _, _, _, _, _, hs, .fn _ => ⟨.refl hs, rfl⟩
  | .nil _, _, _, _, _, _, hs, .nil _ => ⟨.refl hs, rfl⟩
  | .newObj _, _, _, _, _, _, _, .newObj _ hd => ⟨hd.1, rfl⟩
  | .var _, _, _, _, _, _, hs, .loc _ _ _ => ⟨.refl hs, rfl⟩
  | .var _, _, _, _, _, _, hs, .glob _ _ _ => ⟨.refl hs, rfl⟩
  | .un _ _ e, _, _, _, _, _, hs, .un he hd => by
    obtain ⟨h1, h2⟩ := Ev.keep e hs he
    exact ⟨h1.trans hd.1, h2⟩
  | .bin _ _ e f, _, _, _, _, _, hs, .bin he hf hd => by
    obtain ⟨h1, h2⟩ := Ev.keep e hs he
    obtain ⟨g1, g2⟩ := Ev.keep f h1.str hf
    refine ⟨(h1.trans g1).trans hd.1, ?_⟩
    simp at g2; omega
  | .setVar _ _ e, _, _, _, _, _, hs, .setLoc he _ _ => by
    obtain ⟨h1, h2⟩ := Ev.keep e hs he
    exact ⟨h1, by simpa using h2⟩
  | .setVar _ _ e, _, _, _, _, _, hs, .setGlob he _ _ => by
    obtain ⟨h1, h2⟩ := Ev.keep e hs he
    exact ⟨h1.trans (Keep.setStatic h1.str _ _), h2⟩
  | .setField _ _ o k e, _, _, _, _, _, hs, .setField he ho hk hd => by
    obtain ⟨h1, h2⟩ := Ev.keep e hs he
    obtain ⟨g1, g2⟩ := Ev.keep o h1.str ho
    obtain ⟨k1, k2⟩ := Ev.keep k g1.str hk
    refine ⟨((h1.trans g1).trans k1).trans hd.1, ?_⟩
    simp at g2 k2; omega
  | .call _ f as, _, _, _, _, _, hs, .call hf ha hd => by
    obtain ⟨h1, h2⟩ := Ev.keep f hs hf
    obtain ⟨g1, g2, _⟩ := EvArgs.keep as h1.str ha
    refine ⟨(h1.trans g1).trans hd.1, ?_⟩
    simp at g2; omega
  | .method _ _ o k as, _, _, _, _, _, hs, .method ho hk hf ha hd => by
    obtain ⟨h1, h2⟩ := Ev.keep o hs ho
    obtain ⟨g1, g2⟩ := Ev.keep k h1.str hk
    obtain ⟨k1, k2, _⟩ := EvArgs.keep as hf.1.str ha
    refine ⟨(((h1.trans g1).trans hf.1).trans k1).trans hd.1, ?_⟩
    simp at g2 k2; omega
  | .builtin _ _ _ as, _, _, _, _, _, hs, .builtin ha _ hd => by
    obtain ⟨g1, g2, _⟩ := EvArgs.keep as hs ha
    exact ⟨g1.trans hd.1, g2⟩
theorem EvArgs.keep : ∀ (e : Exs) {l : List Value} {W : VM} {v : List Value} {l' : List Value} {W' : VM}, StrWF W →
    EvArgs F H Γ b l W e v l' W' → Keep W W' ∧ l'.length = l.length ∧ v.length = e.count
  | .nil, _, _, _, _, _, hs, .nil => ⟨.refl hs, rfl, rfl⟩
  | .cons a as, _, _, _, _, _, hs, .cons he ha => by
    obtain ⟨h1, h2⟩ := Ev.keep a hs he
    obtain ⟨g1, g2, g3⟩ := EvArgs.keep as h1.str ha
    refine ⟨h1.trans g1, by simp at g2; omega, by simp [Exs.count, g3]⟩
end
end

/-! ## The rest of the stack -/

section
variable {F : FloatOps} {H : Host} {Γ : Bytes → Option Place} {b : Nat}

theorem get_app {α : Type} {l m : List α} {k : Nat} (h : k < l.length) : (l ++ m)[k]? = l[k]? := List.getElem?_append_left h

mutual
theorem Ev.frame : ∀ (e : Ex) {l : List Value} {W : VM} {v : Value} {l' : List Value} {W' : VM},
    Ev F H Γ b l W e v l' W' → l'.length = l.length ∧
      ∀ k, (∀ name i, Γ name = some (.loc i) → k ≠ b + i) → k < l.length → l'[k]? = l[k]?
  | .int _, _, _, _, _, _, .int _ => ⟨rfl, fun _ _ _ => rfl⟩
  | .float _, _, _, _, _, _, .float _ => ⟨rfl, fun _ _ _ => rfl⟩
  | .str _, _, _, _, _, _, .str _ _ => ⟨rfl, fun _ _ _ => rfl⟩
  | .fn _, _, _, _, _, _, .fn _ => ⟨rfl, fun _ _ _ => rfl⟩
  | .nil _, _, _, _, _, _, .nil _ => ⟨rfl, fun _ _ _ => rfl⟩
  | .newObj _, _, _, _, _, _, .newObj _ _ => ⟨rfl, fun _ _ _ => rfl⟩
  | .var _, _, _, _, _, _, .loc _ _ _ => ⟨rfl, fun _ _ _ => rfl⟩
  | .var _, _, _, _, _, _, .glob _ _ _ => ⟨rfl, fun _ _ _ => rfl⟩
  | .un _ _ e, _, _, _, _, _, .un he _ => Ev.frame e he
  | .bin _ _ e f, _, _, _, _, _, .bin he hf hd => by
    obtain ⟨h1, h2⟩ := Ev.frame e he
    obtain ⟨g1, g2⟩ := Ev.frame f hf
    simp only [List.length_append, List.length_singleton] at g1 g2
    refine ⟨by omega, fun k hk hl => ?_⟩
    have := g2 k hk (by omega)
    rw [get_app (by omega), get_app (by omega)] at this
    rw [this, h2 k hk hl]
  | .setVar _ _ e, _, _, _, _, _, .setLoc he hg _ => by
    obtain ⟨h1, h2⟩ := Ev.frame e he
    refine ⟨by simpa using h1, fun k hk hl => ?_⟩
    rw [List.getElem?_set_ne (fun hh => hk _ _ hg hh.symm), h2 k hk hl]
  | .setVar _ _ e, _, _, _, _, _, .setGlob he _ _ => Ev.frame e he
  | .setField _ _ o k e, _, _, _, _, _, .setField he ho hk hd => by
    obtain ⟨h1, h2⟩ := Ev.frame e he
    obtain ⟨g1, g2⟩ := Ev.frame o ho
    obtain ⟨k1, k2⟩ := Ev.frame k hk
    simp only [List.length_append, List.length_singleton, List.length_cons, List.length_nil] at g1 g2 k1 k2
    refine ⟨by omega, fun j hj hl => ?_⟩
    have a1 := g2 j hj (by omega)
    have a2 := k2 j hj (by omega)
    rw [get_app (by omega), get_app (by omega)] at a1 a2
    rw [a2, a1, h2 j hj hl]
  | .call _ f as, _, _, _, _, _, .call hf ha hd => by
    obtain ⟨h1, h2⟩ := Ev.frame f hf
    obtain ⟨g1, g2⟩ := EvArgs.frame as ha
    simp only [List.length_append, List.length_singleton] at g1 g2
    refine ⟨by omega, fun k hk hl => ?_⟩
    have := g2 k hk (by omega)
    rw [get_app (by omega), get_app (by omega)] at this
    rw [this, h2 k hk hl]
  | .method _ _ o k as, _, _, _, _, _, .method ho hk hf ha hd => by
    obtain ⟨h1, h2⟩ := Ev.frame o ho
    obtain ⟨g1, g2⟩ := Ev.frame k hk
    obtain ⟨k1, k2⟩ := EvArgs.frame as ha
    simp only [List.length_append, List.length_singleton, List.length_cons, List.length_nil] at g1 g2 k1 k2
    refine ⟨by omega, fun j hj hl => ?_⟩
    have a1 := g2 j hj (by omega)
    have a2 := k2 j hj (by omega)
    rw [get_app (by omega), get_app (by omega)] at a1 a2
    rw [a2, a1, h2 j hj hl]
  | .builtin _ _ _ as, _, _, _, _, _, .builtin ha _ _ => EvArgs.frame as ha
theorem EvArgs.frame : ∀ (e : Exs) {l : List Value} {W : VM} {v : List Value} {l' : List Value} {W' : VM},
    EvArgs F H Γ b l W e v l' W' → l'.length = l.length ∧
      ∀ k, (∀ name i, Γ name = some (.loc i) → k ≠ b + i) → k < l.length → l'[k]? = l[k]?
  | .nil, _, _, _, _, _, .nil => ⟨rfl, fun _ _ _ => rfl⟩
  | .cons a as, _, _, _, _, _, .cons he ha => by
    obtain ⟨h1, h2⟩ := Ev.frame a he
    obtain ⟨g1, g2⟩ := EvArgs.frame as ha
    simp only [List.length_append, List.length_singleton] at g1 g2
    refine ⟨by omega, fun k hk hl => ?_⟩
    have := g2 k hk (by omega)
    rw [get_app (by omega), get_app (by omega)] at this
    rw [this, h2 k hk hl]
end
end

/-! ## Where variables are -/

theorem placeOf_setOff (n : Nat) (ctx : List CCtx) : placeOf (setOff n ctx) = placeOf ctx := by
  funext x
  cases ctx <;> rfl

/-! ## Running -/

/-- The machine is about to run the code `ws` at `p`. -/
structure Ready (cvm W : VM) (p : Nat) (l : List Value) (n : Nat) (ws : List (BitVec 32)) (vm : VM) : Prop where
  good : Good W
  lits : Lits cvm W
  code : CodeAt W p ws
  space : Space W n
  mach : Mach W p l vm

theorem Lits.keep {cvm W W' : VM} (h : Lits cvm W) (k : Keep W W') : Lits cvm W' :=
  fun id e he hd => k.texts _ _ (h id e he hd)

theorem Ready.left {cvm W vm : VM} {p n : Nat} {l : List Value} {a b : List (BitVec 32)} (h : Ready cvm W p l n (a ++ b) vm) :
    Ready cvm W p l n a vm := ⟨h.good, h.lits, (CodeAt.append.mp h.code).1, h.space, h.mach⟩

theorem Ready.right {cvm W W' vm vm' : VM} {p n : Nat} {l l' : List Value} {a b : List (BitVec 32)}
    (h : Ready cvm W p l n (a ++ b) vm) (k : Keep W W') (m : Mach W' (p + a.length) l' vm') :
    Ready cvm W' (p + a.length) l' n b vm' :=
  ⟨k.good h.good, h.lits.keep k, k.code (CodeAt.append.mp h.code).2, k.space h.space, m⟩

theorem Ready.lit {cvm cvm' W vm : VM} {p n : Nat} {l : List Value} {a : List (BitVec 32)} (h : Ready cvm W p l n a vm)
    (hc : ∀ W, Lits cvm W → Lits cvm' W) : Ready cvm' W p l n a vm := ⟨h.good, hc W h.lits, h.code, h.space, h.mach⟩

section
variable (F : FloatOps) (H : Host)

/-- An error gets recorded. -/
def Erred (W vm : VM) : Prop := ∃ vm', Runs F H vm vm' ∧ W.errors.length < vm'.errors.length

variable {F H}
theorem Erred.after {W W' vm vm' : VM} (r : Runs F H vm vm') (k : Keep W W') (h : Erred F H W' vm') : Erred F H W vm := by
  obtain ⟨u, h1, h2⟩ := h
  exact ⟨u, r.trans h1, by rw [k.errors] at h2; exact h2⟩

variable (F H)
/-- The code `ws` does what `e` means. -/
def SimX (cvm : VM) (Γ : Bytes → Option Place) (b o : Nat) (ws : List (BitVec 32)) (e : Ex) : Prop :=
  ∀ W p l n vm, Ready cvm W p l n ws vm → l.length = b + o → l.length + e.size ≤ n →
    (∀ v l' W', Ev F H Γ b l W e v l' W' → ∃ vm', Runs F H vm vm' ∧ Mach W' (p + ws.length) (l' ++ [v]) vm') ∧
    (EvErr F H Γ b l W e → Erred F H W vm)

/-- The code `ws` does what `as` means. -/
def SimA (cvm : VM) (Γ : Bytes → Option Place) (b o : Nat) (ws : List (BitVec 32)) (as : Exs) : Prop :=
  ∀ W p l n vm, Ready cvm W p l n ws vm → l.length = b + o → l.length + as.size ≤ n →
    (∀ vs l' W', EvArgs F H Γ b l W as vs l' W' → ∃ vm', Runs F H vm vm' ∧ Mach W' (p + ws.length) (l' ++ vs) vm') ∧
    (EvErrArgs F H Γ b l W as → Erred F H W vm)

variable {F H}

theorem SimX.lit {cvm cvm' : VM} {Γ : Bytes → Option Place} {b o : Nat} {ws : List (BitVec 32)} {e : Ex}
    (h : SimX F H cvm Γ b o ws e) (hc : ∀ W, Lits cvm' W → Lits cvm W) : SimX F H cvm' Γ b o ws e :=
  fun W p l n vm r => h W p l n vm (r.lit hc)

theorem SimA.lit {cvm cvm' : VM} {Γ : Bytes → Option Place} {b o : Nat} {ws : List (BitVec 32)} {e : Exs}
    (h : SimA F H cvm Γ b o ws e) (hc : ∀ W, Lits cvm' W → Lits cvm W) : SimA F H cvm' Γ b o ws e :=
  fun W p l n vm r => h W p l n vm (r.lit hc)

theorem Ex.size_pos (e : Ex) : 1 ≤ e.size := by cases e <;> simp only [Ex.size] <;> omega
theorem Exs.size_ge : ∀ (as : Exs), 2 * as.count ≤ as.size
  | .nil => by simp [Exs.count, Exs.size]
  | .cons a as => by
    have := Exs.size_ge as
    have := a.size_pos
    simp only [Exs.count, Exs.size]; omega

theorem UnOp.code_lt (o : UnOp) : o.code < 64 ∧ o.code ≠ 20 := by cases o <;> decide
theorem BinOp.code_lt (o : BinOp) : o.code < 64 ∧ o.code ≠ 20 := by cases o <;> decide

variable {cvm : VM} {Γ : Bytes → Option Place} {b o : Nat}

theorem sim_int (t : Token) : SimX F H cvm Γ b o [7, atoi32 t.str] (.int t) := by
  intro W p l n vm r hl hn
  simp only [Ex.size] at hn
  refine ⟨fun v l' W' h => ?_, fun h => nomatch h⟩
  cases h
  obtain ⟨vm', h1, h2⟩ := r.mach.literal F H r.good (op := 7) (by decide) (fun _ => rfl) r.code r.space (by omega)
  exact ⟨vm', .one h1, h2⟩

theorem sim_float (t : Token) : SimX F H cvm Γ b o [8, F.atof t.str] (.float t) := by
  intro W p l n vm r hl hn
  simp only [Ex.size] at hn
  refine ⟨fun v l' W' h => ?_, fun h => nomatch h⟩
  cases h
  obtain ⟨vm', h1, h2⟩ := r.mach.literal F H r.good (op := 8) (by decide) (fun _ => rfl) r.code r.space (by omega)
  exact ⟨vm', .one h1, h2⟩

theorem sim_fn (t : Token) : SimX F H cvm Γ b o [10, atoi32 t.str] (.fn t) := by
  intro W p l n vm r hl hn
  simp only [Ex.size] at hn
  refine ⟨fun v l' W' h => ?_, fun h => nomatch h⟩
  cases h
  obtain ⟨vm', h1, h2⟩ := r.mach.literal F H r.good (op := 10) (by decide) (fun _ => rfl) r.code r.space (by omega)
  exact ⟨vm', .one h1, h2⟩

theorem sim_str (t : Token) {id : Nat} (hid : id < 4294967296) (ht : ∀ W, Lits cvm W → TextIs W id t.str) :
    SimX F H cvm Γ b o [9, BitVec.ofNat 32 id] (.str t) := by
  intro W p l n vm r hl hn
  simp only [Ex.size] at hn
  refine ⟨fun v l' W' h => ?_, fun h => nomatch h⟩
  cases h with
  | str _ hx =>
    obtain ⟨vm', h1, h2⟩ := r.mach.literal F H r.good (op := 9) (by decide) (fun _ => rfl) r.code r.space (by omega)
    refine ⟨vm', .one h1, ?_⟩
    obtain ⟨e1, a1, a2⟩ := ht W r.lits
    obtain ⟨e2, b1, b2⟩ := hx
    have := r.good.str.inj _ _ _ _ a1 b1 (a2.trans b2.symm)
    subst this
    rwa [BitVec.toNat_ofNat, Nat.mod_eq_of_lt hid] at h2

theorem sim_nil (t : Token) : SimX F H cvm Γ b o [37] (.nil t) := by
  intro W p l n vm r hl hn
  simp only [Ex.size] at hn
  refine ⟨fun v l' W' h => ?_, fun h => nomatch h⟩
  cases h
  obtain ⟨vm', h1, h2⟩ := r.mach.pushNil F H r.good (by simpa using r.code 0 37 rfl) r.space (by omega)
  exact ⟨vm', .one h1, h2⟩

theorem sim_newObj (t : Token) : SimX F H cvm Γ b o [32] (.newObj t) := by
  intro W p l n vm r hl hn
  simp only [Ex.size] at hn
  have hc : W.instrs[p]? = some (BitVec.ofNat 32 32) := by simpa using r.code 0 32 rfl
  refine ⟨fun v l' W' h => ?_, fun h => ?_⟩
  · cases h with
    | newObj _ hd => exact hd.2 p vm (by simpa using r.mach) hc
  · cases h with
    | newObj _ hd => exact hd p vm (by simpa using r.mach) hc

/-- The index for a local variable refers to its slot. -/
theorem slot_local {pos off n : Nat} (hp : pos < off) (ho : off ≤ 65536) (hn : n = b + off) :
    slotOf (BitVec.ofNat 32 (usub pos off)) n = (b + pos : Nat) := by
  have h1 : usub pos off = 4294967296 + pos - off := by unfold usub u32 U32; omega
  have h2 : (BitVec.ofNat 32 (usub pos off)).toNat = usub pos off := by
    rw [BitVec.toNat_ofNat]; omega
  have h3 := BitVec.toInt_eq_toNat_cond (BitVec.ofNat 32 (usub pos off))
  rw [h2] at h3
  unfold slotOf
  split at h3 <;> split <;> omega

theorem sim_loc (t : Token) {pos : Nat} (hΓ : Γ t.str = some (.loc pos)) :
    SimX F H cvm Γ b o [7, BitVec.ofNat 32 (usub pos o), 13] (.var t) := by
  intro W p l n vm r hl hn
  simp only [Ex.size] at hn
  refine ⟨fun v l' W' h => ?_, fun h => nomatch h⟩
  have hsm := r.space.small
  have r' : Ready cvm W p l n ([7, BitVec.ofNat 32 (usub pos o)] ++ [13]) vm := r
  obtain ⟨vm', h1, h2⟩ := r.mach.literal F H r.good (op := 7) (mk := .int) (by decide) (fun _ => rfl) r'.left.code r.space (by omega)
  have hc := (r'.right (.refl r.good.str) h2).code
  have hc : W.instrs[p + 2]? = some 13 := (CodeAt.cons.mp hc).1
  cases h with
  | loc _ hg hx =>
    rw [hΓ] at hg; cases hg
    have := (List.getElem?_eq_some_iff.mp hx).1
    obtain ⟨vm2, k1, k2⟩ := h2.readLoc F H r.good hc (slot_local (b := b) (by omega) (by omega) hl) hx
    exact ⟨vm2, .step h1 (.one k1), k2⟩
  | glob _ hg hx => rw [hΓ] at hg; cases hg

theorem sim_glob (t : Token) {pos : Nat} (hΓ : Γ t.str = some (.glob pos)) :
    SimX F H cvm Γ b o [7, BitVec.ofNat 32 pos, 16] (.var t) := by
  intro W p l n vm r hl hn
  simp only [Ex.size] at hn
  refine ⟨fun v l' W' h => ?_, fun h => nomatch h⟩
  have r' : Ready cvm W p l n ([7, BitVec.ofNat 32 pos] ++ [16]) vm := r
  obtain ⟨vm', h1, h2⟩ := r.mach.literal F H r.good (op := 7) (mk := .int) (by decide) (fun _ => rfl) r'.left.code r.space (by omega)
  have hc := (r'.right (.refl r.good.str) h2).code
  have hc : W.instrs[p + 2]? = some 16 := (CodeAt.cons.mp hc).1
  cases h with
  | loc _ hg hx => rw [hΓ] at hg; cases hg
  | glob _ hg hx =>
    rw [hΓ] at hg; cases hg
    have hlt := (List.getElem?_eq_some_iff.mp hx).1
    have := r.good.smask
    obtain ⟨k, hk, ek⟩ := r.good.spow
    have : 2 ^ k ≤ 2 ^ 31 := Nat.pow_le_pow_right (by decide) hk
    obtain ⟨vm2, k1, k2⟩ := h2.readGlob F H (i := BitVec.ofNat 32 pos) r.good hc
      (by rw [BitVec.toNat_ofNat, Nat.mod_eq_of_lt (by omega)]; exact hx)
    exact ⟨vm2, .step h1 (.one k1), k2⟩

theorem sim_un {w : List (BitVec 32)} {e : Ex} (h : SimX F H cvm Γ b o w e) (u : UnOp) (t : Token) :
    SimX F H cvm Γ b o (w ++ [BitVec.ofNat 32 u.code]) (.un u t e) := by
  intro W p l n vm r hl hn
  simp only [Ex.size] at hn
  obtain ⟨h1, h2⟩ := h W p l n vm r.left hl (by omega)
  refine ⟨fun v l' W' g => ?_, fun g => ?_⟩
  · cases g with
    | un he hd =>
      obtain ⟨vm1, k1, k2⟩ := h1 _ _ _ he
      have r1 := r.right (Ev.keep e r.good.str he).1 k2
      obtain ⟨vm2, j1, j2⟩ := hd.2 _ _ k2 (CodeAt.cons.mp r1.code).1
      exact ⟨vm2, k1.trans j1, by simpa [Nat.add_assoc] using j2⟩
  · cases g with
    | unArg g => exact h2 g
    | un he hd =>
      obtain ⟨vm1, k1, k2⟩ := h1 _ _ _ he
      have r1 := r.right (Ev.keep e r.good.str he).1 k2
      exact .after k1 (Ev.keep e r.good.str he).1 (hd _ _ k2 (CodeAt.cons.mp r1.code).1)

theorem sim_bin {w1 w2 : List (BitVec 32)} {e f : Ex} (h : SimX F H cvm Γ b o w1 e) (h' : SimX F H cvm Γ b (o + 1) w2 f)
    (u : BinOp) (t : Token) : SimX F H cvm Γ b o (w1 ++ (w2 ++ [BitVec.ofNat 32 u.code])) (.bin u t e f) := by
  intro W p l n vm r hl hn
  simp only [Ex.size] at hn
  have hp := f.size_pos
  obtain ⟨h1, h2⟩ := h W p l n vm r.left hl (by omega)
  have second : ∀ {x l1 W1}, Ev F H Γ b l W e x l1 W1 → ∃ vm1, Runs F H vm vm1 ∧ Keep W W1 ∧
      Ready cvm W1 (p + w1.length) (l1 ++ [x]) n (w2 ++ [BitVec.ofNat 32 u.code]) vm1 ∧ (l1 ++ [x]).length = b + (o + 1) := by
    intro x l1 W1 he
    obtain ⟨vm1, k1, k2⟩ := h1 _ _ _ he
    obtain ⟨a1, a2⟩ := Ev.keep e r.good.str he
    exact ⟨vm1, k1, a1, r.right a1 k2, by simp; omega⟩
  have third : ∀ {x l1 W1 y l2 W2}, Ev F H Γ b l W e x l1 W1 → Ev F H Γ b (l1 ++ [x]) W1 f y (l2 ++ [x]) W2 →
      ∃ vm2, Runs F H vm vm2 ∧ Keep W W2 ∧ Mach W2 (p + w1.length + w2.length) (l2 ++ [x, y]) vm2 ∧
        W2.instrs[p + w1.length + w2.length]? = some (BitVec.ofNat 32 u.code) := by
    intro x l1 W1 y l2 W2 he hf
    obtain ⟨vm1, k1, k2, r1, hl1⟩ := second he
    obtain ⟨vm2, j1, j2⟩ := (h' W1 _ _ n vm1 r1.left hl1 (by omega)).1 _ _ _ hf
    have kf := (Ev.keep f r1.good.str hf).1
    have r2 := r1.right kf j2
    exact ⟨vm2, k1.trans j1, k2.trans kf, by simpa using j2, (CodeAt.cons.mp r2.code).1⟩
  refine ⟨fun v l' W' g => ?_, fun g => ?_⟩
  · cases g with
    | bin he hf hd =>
      obtain ⟨vm2, k1, k2, k3, k4⟩ := third he hf
      obtain ⟨vm3, j1, j2⟩ := hd.2 _ _ k3 k4
      exact ⟨vm3, k1.trans j1, by simpa [Nat.add_assoc] using j2⟩
  · cases g with
    | binL g => exact h2 g
    | binR he g =>
      obtain ⟨vm1, k1, k2, r1, hl1⟩ := second he
      exact .after k1 k2 ((h' _ _ _ n vm1 r1.left hl1 (by omega)).2 g)
    | bin he hf hd =>
      obtain ⟨vm2, k1, k2, k3, k4⟩ := third he hf
      exact .after k1 k2 (hd _ _ k3 k4)

theorem sim_setLoc {w : List (BitVec 32)} {e : Ex} (h : SimX F H cvm Γ b o w e) (t x : Token) {pos : Nat}
    (hΓ : Γ x.str = some (.loc pos)) :
    SimX F H cvm Γ b o (w ++ ([7, BitVec.ofNat 32 (usub pos (o + 1))] ++ [14])) (.setVar t x e) := by
  intro W p l n vm r hl hn
  simp only [Ex.size] at hn
  obtain ⟨h1, h2⟩ := h W p l n vm r.left hl (by omega)
  have hsm := r.space.small
  refine ⟨fun v l' W' g => ?_, fun g => ?_⟩
  · cases g with
    | setGlob _ hg => rw [hΓ] at hg; cases hg
    | setLoc he hg hx =>
      rw [hΓ] at hg; cases hg
      obtain ⟨vm1, k1, k2⟩ := h1 _ _ _ he
      obtain ⟨a1, a2⟩ := Ev.keep e r.good.str he
      have r1 := r.right a1 k2
      obtain ⟨vm2, j1, j2⟩ := k2.literal F H (op := 7) (mk := .int) (a1.good r.good) (by decide) (fun _ => rfl) r1.left.code r1.space (by simp; omega)
      have r2 := r1.right (.refl a1.str) j2
      have hc := (CodeAt.cons.mp r2.code).1
      rw [List.append_assoc, List.singleton_append] at j2
      obtain ⟨vm3, i1, i2⟩ := j2.writeLoc F H r2.good hc (k := b + pos) (slot_local (b := b) (off := o + 1) (by omega) (by omega) (by omega)) hx
      refine ⟨vm3, k1.trans (.step j1 (.one i1)), ?_⟩
      simpa [Nat.add_assoc] using i2
  · cases g with
    | setVar g => exact h2 g

theorem sim_setGlob {w : List (BitVec 32)} {e : Ex} (h : SimX F H cvm Γ b o w e) (t x : Token) {pos : Nat}
    (hΓ : Γ x.str = some (.glob pos)) :
    SimX F H cvm Γ b o (w ++ ([7, BitVec.ofNat 32 pos] ++ [15])) (.setVar t x e) := by
  intro W p l n vm r hl hn
  simp only [Ex.size] at hn
  obtain ⟨h1, h2⟩ := h W p l n vm r.left hl (by omega)
  refine ⟨fun v l' W' g => ?_, fun g => ?_⟩
  · cases g with
    | setLoc _ hg => rw [hΓ] at hg; cases hg
    | @setGlob _ _ _ _ _ _ _ W1 _ he hg hx =>
      rw [hΓ] at hg; cases hg
      obtain ⟨vm1, k1, k2⟩ := h1 _ _ _ he
      obtain ⟨a1, a2⟩ := Ev.keep e r.good.str he
      have r1 := r.right a1 k2
      obtain ⟨vm2, j1, j2⟩ := k2.literal F H (op := 7) (mk := .int) (a1.good r.good) (by decide) (fun _ => rfl) r1.left.code r1.space (by simp; omega)
      have r2 := r1.right (.refl a1.str) j2
      have hc := (CodeAt.cons.mp r2.code).1
      rw [List.append_assoc, List.singleton_append] at j2
      have hm : W1.statics.length = W1.staticMask + 1 := r2.good.smask
      obtain ⟨k, hk, ek⟩ := r2.good.spow
      have : 2 ^ k ≤ 2 ^ 31 := Nat.pow_le_pow_right (by decide) hk
      have hpos : (BitVec.ofNat 32 pos).toNat = pos := by
        rw [BitVec.toNat_ofNat, Nat.mod_eq_of_lt (by omega)]
      obtain ⟨vm3, i1, i2⟩ := j2.writeGlob F H r2.good hc (by rw [hpos]; exact hx)
      rw [hpos] at i2
      refine ⟨vm3, k1.trans (.step j1 (.one i1)), ?_⟩
      simpa [Nat.add_assoc] using i2
  · cases g with
    | setVar g => exact h2 g

theorem sim_setField {w0 w1 w2 : List (BitVec 32)} {c k e : Ex} (h : SimX F H cvm Γ b o w0 e)
    (h' : SimX F H cvm Γ b (o + 1) w1 c) (h'' : SimX F H cvm Γ b (o + 2) w2 k) (t u : Token) :
    SimX F H cvm Γ b o (w0 ++ (w1 ++ (w2 ++ [34]))) (.setField t u c k e) := by
  intro W p l n vm r hl hn
  simp only [Ex.size] at hn
  have hp := e.size_pos
  obtain ⟨h1, h2⟩ := h W p l n vm r.left hl (by omega)
  have second : ∀ {x l1 W1}, Ev F H Γ b l W e x l1 W1 → ∃ vm1, Runs F H vm vm1 ∧ Keep W W1 ∧
      Ready cvm W1 (p + w0.length) (l1 ++ [x]) n (w1 ++ (w2 ++ [34])) vm1 ∧ (l1 ++ [x]).length = b + (o + 1) := by
    intro x l1 W1 he
    obtain ⟨vm1, k1, k2⟩ := h1 _ _ _ he
    obtain ⟨a1, a2⟩ := Ev.keep e r.good.str he
    exact ⟨vm1, k1, a1, r.right a1 k2, by simp; omega⟩
  have third : ∀ {v l1 W1 x l2 W2}, Ev F H Γ b l W e v l1 W1 → Ev F H Γ b (l1 ++ [v]) W1 c x (l2 ++ [v]) W2 →
      ∃ vm2, Runs F H vm vm2 ∧ Keep W W2 ∧ Ready cvm W2 (p + w0.length + w1.length) (l2 ++ [v, x]) n (w2 ++ [34]) vm2 ∧
        (l2 ++ [v, x]).length = b + (o + 2) := by
    intro x l1 W1 y l2 W2 he hf
    obtain ⟨vm1, k1, k2, r1, hl1⟩ := second he
    obtain ⟨vm2, j1, j2⟩ := (h' W1 _ _ n vm1 r1.left hl1 (by omega)).1 _ _ _ hf
    obtain ⟨kf, kl⟩ := (Ev.keep c r1.good.str hf)
    have r2 := r1.right kf j2
    refine ⟨vm2, k1.trans j1, k2.trans kf, by simpa using r2, by simp at hl1 kl ⊢; omega⟩
  have fourth : ∀ {v l1 W1 x l2 W2 y l3 W3}, Ev F H Γ b l W e v l1 W1 → Ev F H Γ b (l1 ++ [v]) W1 c x (l2 ++ [v]) W2 →
      Ev F H Γ b (l2 ++ [v, x]) W2 k y (l3 ++ [v, x]) W3 →
      ∃ vm3, Runs F H vm vm3 ∧ Keep W W3 ∧ Mach W3 (p + w0.length + w1.length + w2.length) (l3 ++ [v, x, y]) vm3 ∧
        W3.instrs[p + w0.length + w1.length + w2.length]? = some (BitVec.ofNat 32 34) := by
    intro v l1 W1 x l2 W2 y l3 W3 he hf hk
    obtain ⟨vm2, k1, k2, r2, hl2⟩ := third he hf
    obtain ⟨vm3, j1, j2⟩ := (h'' W2 _ _ n vm2 r2.left hl2 (by omega)).1 _ _ _ hk
    obtain ⟨kf, kl⟩ := (Ev.keep k r2.good.str hk)
    have r3 := r2.right kf j2
    exact ⟨vm3, k1.trans j1, k2.trans kf, by simpa using j2, (CodeAt.cons.mp r3.code).1⟩
  refine ⟨fun v l' W' g => ?_, fun g => ?_⟩
  · cases g with
    | setField he hf hk hd =>
      obtain ⟨vm2, k1, k2, k3, k4⟩ := fourth he hf hk
      obtain ⟨vm3, j1, j2⟩ := hd.2 _ _ k3 k4
      exact ⟨vm3, k1.trans j1, by simpa [Nat.add_assoc] using j2⟩
  · cases g with
    | setFieldE g => exact h2 g
    | setFieldO he g =>
      obtain ⟨vm1, k1, k2, r1, hl1⟩ := second he
      exact .after k1 k2 ((h' _ _ _ n vm1 r1.left hl1 (by omega)).2 g)
    | setFieldK he hf g =>
      obtain ⟨vm2, k1, k2, r2, hl2⟩ := third he hf
      exact .after k1 k2 ((h'' _ _ _ n vm2 r2.left hl2 (by omega)).2 g)
    | setField he hf hk hd =>
      obtain ⟨vm2, k1, k2, k3, k4⟩ := fourth he hf hk
      exact .after k1 k2 (hd _ _ k3 k4)

theorem sim_args_nil : SimA F H cvm Γ b o [] .nil := by
  intro W p l n vm r hl hn
  refine ⟨fun vs l' W' g => ?_, fun g => nomatch g⟩
  cases g
  exact ⟨vm, .refl _, by simpa using r.mach⟩

theorem sim_args_cons {w1 w2 : List (BitVec 32)} {a : Ex} {as : Exs} (h : SimX F H cvm Γ b o w1 a)
    (h' : SimA F H cvm Γ b (o + 1) w2 as) : SimA F H cvm Γ b o (w1 ++ w2) (.cons a as) := by
  intro W p l n vm r hl hn
  simp only [Exs.size] at hn
  obtain ⟨h1, h2⟩ := h W p l n vm r.left hl (by omega)
  have second : ∀ {x l1 W1}, Ev F H Γ b l W a x l1 W1 → ∃ vm1, Runs F H vm vm1 ∧ Keep W W1 ∧
      Ready cvm W1 (p + w1.length) (l1 ++ [x]) n w2 vm1 ∧ (l1 ++ [x]).length = b + (o + 1) := by
    intro x l1 W1 he
    obtain ⟨vm1, k1, k2⟩ := h1 _ _ _ he
    obtain ⟨a1, a2⟩ := Ev.keep a r.good.str he
    exact ⟨vm1, k1, a1, r.right a1 k2, by simp; omega⟩
  refine ⟨fun v l' W' g => ?_, fun g => ?_⟩
  · cases g with
    | cons he ha =>
      obtain ⟨vm1, k1, k2, r1, hl1⟩ := second he
      obtain ⟨vm2, j1, j2⟩ := (h' _ _ _ n vm1 r1 hl1 (by simp at hl1 ⊢; omega)).1 _ _ _ ha
      exact ⟨vm2, k1.trans j1, by simpa [Nat.add_assoc] using j2⟩
  · cases g with
    | head g => exact h2 g
    | tail he g =>
      obtain ⟨vm1, k1, k2, r1, hl1⟩ := second he
      exact .after k1 k2 ((h' _ _ _ n vm1 r1 hl1 (by simp at hl1 ⊢; omega)).2 g)

theorem sim_call {w1 w2 : List (BitVec 32)} {f : Ex} {as : Exs} (h : SimX F H cvm Γ b o w1 f)
    (h' : SimA F H cvm Γ b (o + 1) w2 as) (t : Token) :
    SimX F H cvm Γ b o (w1 ++ (w2 ++ ([7, BitVec.ofNat 32 as.count] ++ [18]))) (.call t f as) := by
  intro W p l n vm r hl hn
  simp only [Ex.size] at hn
  have hp := f.size_pos
  have hc := as.size_ge
  obtain ⟨h1, h2⟩ := h W p l n vm r.left hl (by omega)
  have second : ∀ {x l1 W1}, Ev F H Γ b l W f x l1 W1 → ∃ vm1, Runs F H vm vm1 ∧ Keep W W1 ∧
      Ready cvm W1 (p + w1.length) (l1 ++ [x]) n (w2 ++ ([7, BitVec.ofNat 32 as.count] ++ [18])) vm1 ∧ (l1 ++ [x]).length = b + (o + 1) := by
    intro x l1 W1 he
    obtain ⟨vm1, k1, k2⟩ := h1 _ _ _ he
    obtain ⟨a1, a2⟩ := Ev.keep f r.good.str he
    exact ⟨vm1, k1, a1, r.right a1 k2, by simp; omega⟩
  have third : ∀ {x l1 W1 vs l2 W2}, Ev F H Γ b l W f x l1 W1 → EvArgs F H Γ b (l1 ++ [x]) W1 as vs (l2 ++ [x]) W2 →
      ∃ vm2, Runs F H vm vm2 ∧ Keep W W2 ∧ Mach W2 (p + w1.length + w2.length + 2) (l2 ++ (x :: vs ++ [.int (BitVec.ofNat 32 vs.length)])) vm2 ∧
        W2.instrs[p + w1.length + w2.length + 2]? = some (BitVec.ofNat 32 18) := by
    intro x l1 W1 vs l2 W2 he ha
    obtain ⟨vm1, k1, k2, r1, hl1⟩ := second he
    obtain ⟨vm2, j1, j2⟩ := (h' W1 _ _ n vm1 r1.left hl1 (by simp at hl1 ⊢; omega)).1 _ _ _ ha
    obtain ⟨kf, kl, kv⟩ := EvArgs.keep as r1.good.str ha
    have r2 := r1.right kf j2
    simp at kl hl1
    obtain ⟨vm3, i1, i2⟩ := r2.mach.literal F H (op := 7) (mk := .int) r2.good (by decide) (fun _ => rfl) r2.left.code r2.space (by simp; omega)
    have r3 := r2.right (.refl kf.str) i2
    refine ⟨vm3, (k1.trans j1).trans (.one i1), k2.trans kf, ?_, (CodeAt.cons.mp r3.code).1⟩
    rw [kv]
    simpa using i2
  refine ⟨fun v l' W' g => ?_, fun g => ?_⟩
  · cases g with
    | call he ha hd =>
      obtain ⟨vm2, k1, k2, k3, k4⟩ := third he ha
      obtain ⟨vm3, j1, j2⟩ := hd.2 _ _ k3 k4
      exact ⟨vm3, k1.trans j1, by simpa [Nat.add_assoc] using j2⟩
  · cases g with
    | callF g => exact h2 g
    | callArgs he g =>
      obtain ⟨vm1, k1, k2, r1, hl1⟩ := second he
      exact .after k1 k2 ((h' _ _ _ n vm1 r1.left hl1 (by simp at hl1 ⊢; omega)).2 g)
    | call he ha hd =>
      obtain ⟨vm2, k1, k2, k3, k4⟩ := third he ha
      exact .after k1 k2 (hd _ _ k3 k4)

theorem sim_method {w1 w2 w3 : List (BitVec 32)} {c k : Ex} {as : Exs} (h : SimX F H cvm Γ b o w1 c)
    (h' : SimX F H cvm Γ b (o + 1) w2 k) (h'' : SimA F H cvm Γ b (o + 2) w3 as) (t u : Token) :
    SimX F H cvm Γ b o (w1 ++ (w2 ++ ([35] ++ (w3 ++ ([7, BitVec.ofNat 32 as.count] ++ ([36] ++ [18])))))) (.method t u c k as) := by
  intro W p l n vm r hl hn
  simp only [Ex.size] at hn
  have hp := c.size_pos
  have hkp := k.size_pos
  have hc := as.size_ge
  have hsm := r.space.small
  obtain ⟨h1, h2⟩ := h W p l n vm r.left hl (by omega)
  have second : ∀ {x l1 W1}, Ev F H Γ b l W c x l1 W1 → ∃ vm1, Runs F H vm vm1 ∧ Keep W W1 ∧
      Ready cvm W1 (p + w1.length) (l1 ++ [x]) n (w2 ++ ([35] ++ (w3 ++ ([7, BitVec.ofNat 32 as.count] ++ ([36] ++ [18]))))) vm1 ∧
      (l1 ++ [x]).length = b + (o + 1) := by
    intro x l1 W1 he
    obtain ⟨vm1, k1, k2⟩ := h1 _ _ _ he
    obtain ⟨a1, a2⟩ := Ev.keep c r.good.str he
    exact ⟨vm1, k1, a1, r.right a1 k2, by simp; omega⟩
  have third : ∀ {x l1 W1 y l2 W2}, Ev F H Γ b l W c x l1 W1 → Ev F H Γ b (l1 ++ [x]) W1 k y (l2 ++ [x]) W2 →
      ∃ vm2, Runs F H vm vm2 ∧ Keep W W2 ∧ Ready cvm W2 (p + w1.length + w2.length) ((l2 ++ [x]) ++ [y]) n
        ([35] ++ (w3 ++ ([7, BitVec.ofNat 32 as.count] ++ ([36] ++ [18])))) vm2 ∧ l2.length = b + o := by
    intro x l1 W1 y l2 W2 he hk
    obtain ⟨vm1, k1, k2, r1, hl1⟩ := second he
    obtain ⟨vm2, j1, j2⟩ := (h' W1 _ _ n vm1 r1.left hl1 (by omega)).1 _ _ _ hk
    obtain ⟨kf, kl⟩ := Ev.keep k r1.good.str hk
    exact ⟨vm2, k1.trans j1, k2.trans kf, r1.right kf j2, by simp at hl1 kl; omega⟩
  have fourth : ∀ {x l1 W1 y l2 W2 f W3}, Ev F H Γ b l W c x l1 W1 → Ev F H Γ b (l1 ++ [x]) W1 k y (l2 ++ [x]) W2 →
      Does F H 35 (l2 ++ [x]) [y] W2 f W3 →
      ∃ vm3, Runs F H vm vm3 ∧ Keep W W3 ∧ Ready cvm W3 (p + w1.length + w2.length + 1) (l2 ++ [x, f]) n
        (w3 ++ ([7, BitVec.ofNat 32 as.count] ++ ([36] ++ [18]))) vm3 ∧ (l2 ++ [x, f]).length = b + (o + 2) := by
    intro x l1 W1 y l2 W2 f W3 he hk hd
    obtain ⟨vm2, k1, k2, r2, hl2⟩ := third he hk
    obtain ⟨vm3, j1, j2⟩ := hd.2 _ _ r2.mach (CodeAt.cons.mp r2.code).1
    refine ⟨vm3, k1.trans j1, k2.trans hd.1, ?_, by simp; omega⟩
    have := r2.right hd.1 (l' := l2 ++ [x] ++ [f]) (vm' := vm3) (by simpa using j2)
    simpa using this
  have fifth : ∀ {x l1 W1 y l2 W2 f W3 vs l3 W4}, Ev F H Γ b l W c x l1 W1 → Ev F H Γ b (l1 ++ [x]) W1 k y (l2 ++ [x]) W2 →
      Does F H 35 (l2 ++ [x]) [y] W2 f W3 → EvArgs F H Γ b (l2 ++ [x, f]) W3 as vs (l3 ++ [x, f]) W4 →
      ∃ vm4, Runs F H vm vm4 ∧ Keep W W4 ∧ Mach W4 (p + w1.length + w2.length + 1 + w3.length + 2 + 1)
        (l3 ++ (f :: x :: vs ++ [.int (BitVec.ofNat 32 (vs.length + 1))])) vm4 ∧
        W4.instrs[p + w1.length + w2.length + 1 + w3.length + 2 + 1]? = some (BitVec.ofNat 32 18) := by
    intro x l1 W1 y l2 W2 f W3 vs l3 W4 he hk hd ha
    obtain ⟨vm3, k1, k2, r3, hl3⟩ := fourth he hk hd
    obtain ⟨vm4, j1, j2⟩ := (h'' W3 _ _ n vm3 r3.left hl3 (by omega)).1 _ _ _ ha
    obtain ⟨kf, kl, kv⟩ := EvArgs.keep as r3.good.str ha
    have r4 := r3.right kf j2
    simp at kl hl3
    obtain ⟨vm5, i1, i2⟩ := r4.mach.literal F H (op := 7) (mk := .int) r4.good (by decide) (fun _ => rfl) r4.left.code r4.space (by simp; omega)
    have r5 := r4.right (.refl kf.str) i2
    obtain ⟨vm6, u1, u2⟩ := Mach.prepare F H (l := l3) (x := x) (f := f) (vs := vs) (by rw [kv]; simpa using i2) r5.good
      (CodeAt.cons.mp r5.code).1 (by omega)
    have r6 := r5.right (a := [36]) (.refl kf.str) u2
    exact ⟨vm6, ((k1.trans j1).trans (.one i1)).trans (.one u1), k2.trans kf, u2, (CodeAt.cons.mp r6.code).1⟩
  refine ⟨fun v l' W' g => ?_, fun g => ?_⟩
  · cases g with
    | method he hk hf ha hd =>
      obtain ⟨vm2, k1, k2, k3, k4⟩ := fifth he hk hf ha
      obtain ⟨vm3, j1, j2⟩ := hd.2 _ _ k3 k4
      refine ⟨vm3, k1.trans j1, ?_⟩
      have e : ∀ q, q = p + w1.length + w2.length + 1 + w3.length + 2 + 1 + 1 → Mach W' q (l' ++ [v]) vm3 := fun q hq => hq ▸ j2
      exact e _ (by simp; omega)
  · cases g with
    | methodO g => exact h2 g
    | methodK he g =>
      obtain ⟨vm1, k1, k2, r1, hl1⟩ := second he
      exact .after k1 k2 ((h' _ _ _ n vm1 r1.left hl1 (by omega)).2 g)
    | methodF he hk hd =>
      obtain ⟨vm2, k1, k2, r2, hl2⟩ := third he hk
      exact .after k1 k2 (hd _ _ r2.mach (CodeAt.cons.mp r2.code).1)
    | methodArgs he hk hf g =>
      obtain ⟨vm3, k1, k2, r3, hl3⟩ := fourth he hk hf
      exact .after k1 k2 ((h'' _ _ _ n vm3 r3.left hl3 (by omega)).2 g)
    | method he hk hf ha hd =>
      obtain ⟨vm2, k1, k2, k3, k4⟩ := fifth he hk hf ha
      exact .after k1 k2 (hd _ _ k3 k4)

/-- The code for a value the compiler adds to the arguments of a built-in function. -/
def extraCode : List Value → List (BitVec 32)
  | [] => []
  | .nil :: _ => [37]
  | .int i :: _ => [7, i]
  | _ => []

theorem Builtin.code_lt (f : Builtin) : f.code < 64 ∧ f.code ≠ 20 := by cases f <;> decide

theorem Builtin.extra_cases {f : Builtin} {n : Nat} {xs : List Value} (h : f.extra n = some xs) :
    xs = [] ∨ xs = [.nil] ∨ ∃ i, xs = [.int i] := by
  unfold Builtin.extra at h
  split at h <;> cases h <;> simp

theorem sim_builtin {w1 : List (BitVec 32)} {as : Exs} (h : SimA F H cvm Γ b o w1 as) (f : Builtin) (m t : Token) {xs : List Value}
    (hx : f.extra as.count = some xs) :
    SimX F H cvm Γ b o (w1 ++ (extraCode xs ++ [BitVec.ofNat 32 f.code])) (.builtin f m t as) := by
  intro W p l n vm r hl hn
  simp only [Ex.size] at hn
  have hc := as.size_ge
  obtain ⟨h1, h2⟩ := h W p l n vm r.left hl (by omega)
  have second : ∀ {vs l1 W1 ys}, EvArgs F H Γ b l W as vs l1 W1 → f.extra vs.length = some ys →
      ∃ vm2, Runs F H vm vm2 ∧ Keep W W1 ∧ Mach W1 (p + w1.length + (extraCode xs).length) (l1 ++ (vs ++ ys)) vm2 ∧
        W1.instrs[p + w1.length + (extraCode xs).length]? = some (BitVec.ofNat 32 f.code) := by
    intro vs l1 W1 ys ha hy
    obtain ⟨vm1, j1, j2⟩ := h1 _ _ _ ha
    obtain ⟨kf, kl, kv⟩ := EvArgs.keep as r.good.str ha
    have r1 := r.right kf j2
    rw [kv, hx] at hy
    cases hy
    have hlast : ∀ {vm2}, Mach W1 (p + w1.length + (extraCode xs).length) (l1 ++ (vs ++ xs)) vm2 →
        W1.instrs[p + w1.length + (extraCode xs).length]? = some (BitVec.ofNat 32 f.code) :=
      fun m2 => (CodeAt.cons.mp (r1.right (.refl kf.str) m2).code).1
    rcases Builtin.extra_cases hx with rfl | rfl | ⟨i, rfl⟩
    · have : Mach W1 (p + w1.length + (extraCode []).length) (l1 ++ (vs ++ [])) vm1 := by simpa [extraCode] using j2
      exact ⟨vm1, j1, kf, this, hlast this⟩
    · obtain ⟨vm2, i1, i2⟩ := r1.mach.pushNil F H r1.good (CodeAt.cons.mp r1.left.code).1 r1.space (by simp; omega)
      have : Mach W1 (p + w1.length + (extraCode [.nil]).length) (l1 ++ (vs ++ [.nil])) vm2 := by simpa [extraCode] using i2
      exact ⟨vm2, j1.trans (.one i1), kf, this, hlast this⟩
    · obtain ⟨vm2, i1, i2⟩ := r1.mach.literal F H (op := 7) (mk := .int) r1.good (by decide) (fun _ => rfl) r1.left.code r1.space (by simp; omega)
      have : Mach W1 (p + w1.length + (extraCode [.int i]).length) (l1 ++ (vs ++ [.int i])) vm2 := by simpa [extraCode] using i2
      exact ⟨vm2, j1.trans (.one i1), kf, this, hlast this⟩
  refine ⟨fun v l' W' g => ?_, fun g => ?_⟩
  · cases g with
    | builtin ha hy hd =>
      obtain ⟨vm2, k1, k2, k3, k4⟩ := second ha hy
      obtain ⟨vm3, j1, j2⟩ := hd.2 _ _ k3 k4
      exact ⟨vm3, k1.trans j1, by simpa [Nat.add_assoc] using j2⟩
  · cases g with
    | builtinArgs g => exact h2 g
    | builtin ha hy hd =>
      obtain ⟨vm2, k1, k2, k3, k4⟩ := second ha hy
      exact .after k1 k2 (hd _ _ k3 k4)

end
end Nk.Cc
