import Verif.Lemmas.Fold
/-!
# C55: constant folding
-/
namespace Nk.Props
open Nk.Cc
variable {F : FloatOps} {H : Host}

/-- **C55**, any expression: what the optimizer makes of an expression is an expression again; a value (and what is left on the
stack and in the machine) it has is a value of the original, and if it is an error then so is the original.  The expression may
contain anything, variables, calls, objects, around its constants.  Missing for the whole property: floats, unless the host reads
a float it has printed as the same float (`Exact`; the code prints with six decimals, so see `C55_violated`), and operations on
an integer constant and a float constant (`Unmixed`; see `C55_mixed_violated`). -/
theorem C55_value_partial {e : Ex} {n : Node} (hu : Unmixed e) (hx : Exact F e) (ho : optimize F e.node = .ok n) :
    ∃ e', n = e'.node ∧ e'.size ≤ e.size ∧ ∀ (Γ : Bytes → Option Place) (b : Nat) (l : List Value) (W : VM), Good W →
      (∀ v l' W', Ev F H Γ b l W e' v l' W' → Ev F H Γ b l W e v l' W') ∧ (EvErr F H Γ b l W e' → EvErr F H Γ b l W e) := by
  obtain ⟨e', h1, h2, -⟩ := optimize_folds e hu ho
  exact ⟨e', h1, folds_size h2, fun Γ b l W g => ⟨fun v l' W' h => folds_ev h2 hx g h, fun h => folds_err h2 hx g h⟩⟩

/-- **C55**, the code: in a machine with the code of an expression at `p`, and the code of what the optimizer made of it at
`p'`, both push the same value and leave the same stack and machine, or both record an error. -/
theorem C55_code_partial {e : Ex} {n : Node} (hu : Unmixed e) (hx : Exact F e) (ho : optimize F e.node = .ok n)
    {s s1 s2 : CS} {r1 r2 : Bool} {c : CCtx} {cs : List CCtx} (hw : CodeWF s) (hc : s.ctx = c :: cs) (hs : c.offset + e.size < 4294967296)
    (h1 : emitExpr F e.node s = .ok (r1, s1)) (he1 : s1.vm.errors = s.vm.errors)
    (h2 : emitExpr F n s = .ok (r2, s2)) (he2 : s2.vm.errors = s.vm.errors) :
    ∃ e' ws ws', n = e'.node ∧ Emit s ws s1 ∧ Emit s ws' s2 ∧ ∀ (b p p' : Nat) (l : List Value) (W vm vm' : VM), Good W → Lits s1.vm W →
      Lits s2.vm W → CodeAt W p ws → CodeAt W p' ws' → l.length = b + c.offset → Space W (l.length + e.size) →
      Mach W p l vm → Mach W p' l vm' →
      (∀ v l' W', Ev F H (placeOf s.ctx) b l W e' v l' W' →
        (∃ vm1, Runs F H vm vm1 ∧ Mach W' (p + ws.length) (l' ++ [v]) vm1) ∧ ∃ vm2, Runs F H vm' vm2 ∧ Mach W' (p' + ws'.length) (l' ++ [v]) vm2) ∧
      (EvErr F H (placeOf s.ctx) b l W e' →
        (∃ vm1, Runs F H vm vm1 ∧ W.errors.length < vm1.errors.length) ∧ ∃ vm2, Runs F H vm' vm2 ∧ W.errors.length < vm2.errors.length) := by
  obtain ⟨e', rfl, k2, k3⟩ := C55_value_partial (H := H) hu hx ho
  obtain ⟨ws, a1, _, a3⟩ := C50_expression F H e hw hc hs h1 he1
  obtain ⟨ws', b1, _, b3⟩ := C50_expression F H e' hw hc (by omega) h2 he2
  refine ⟨e', ws, ws', rfl, a1, b1, fun b p p' l W vm vm' g1 g2 g3 g4 g5 g6 g7 g8 g9 => ?_⟩
  have A := a3 b p l W vm g1 g2 g4 g6 g7 g8
  have B := b3 b p' l W vm' g1 g3 g5 g6 (g7.mono (by omega)) g9
  have K := k3 (placeOf s.ctx) b l W g1
  exact ⟨fun v l' W' h => ⟨A.1 _ _ _ (K.1 _ _ _ h), B.1 _ _ _ h⟩, fun h => ⟨A.2 (K.2 h), B.2 h⟩⟩

/-- **C55** for expressions over integers: the code of what the optimizer made of an expression pushes exactly the integer the
*original* expression denotes, and records an error exactly for a division the original would have refused at run time. -/
theorem C55_integers_partial {e : Ex} {n : Node} (hu : Unmixed e) (ho : optimize F e.node = .ok n)
    {s s' : CS} {r : Bool} {c : CCtx} {cs : List CCtx} (hw : CodeWF s) (hc : s.ctx = c :: cs)
    (hs : c.offset + e.size < 4294967296) (h : emitExpr F n s = .ok (r, s')) (he : s'.vm.errors = s.vm.errors) :
    ∃ ws, Emit s ws s' ∧ ∀ (b p : Nat) (l : List Value) (W vm : VM), Good W → Lits s'.vm W → CodeAt W p ws →
      l.length = b + c.offset → Space W (l.length + e.size) → Mach W p l vm →
        (∀ x, Num (HoldsInt (placeOf s.ctx) b l W) e x → ∃ vm', Runs F H vm vm' ∧ Mach W (p + ws.length) (l ++ [num x]) vm') ∧
        (NumErr (HoldsInt (placeOf s.ctx) b l W) e → ∃ vm', Runs F H vm vm' ∧ W.errors.length < vm'.errors.length) := by
  obtain ⟨e', rfl, h2, -⟩ := optimize_folds e hu ho
  have hz := folds_size h2
  obtain ⟨ws, a1, _, a3⟩ := C50_expression F H e' hw hc (by omega) h he
  refine ⟨ws, a1, fun b p l W vm g1 g2 g3 g4 g5 g6 => ?_⟩
  have A := a3 b p l W vm g1 g2 g3 g4 (g5.mono (by omega)) g6
  refine ⟨fun x hx => ?_, fun hx => A.2 ?_⟩
  · have := (num_ev (F := F) (H := H) g1 (((folds_num h2).1 x).mpr hx)).2 []
    rw [List.append_nil] at this
    exact A.1 _ _ _ this
  · have := numErr_ev (F := F) (H := H) g1 ((folds_num h2).2.mpr hx) []
    rwa [List.append_nil] at this

/-! ### Examples -/

namespace FoldEx

/-- A token. -/
def tok (str : String) : Token := { type := .invalid, str := cs str, line := 1, file := 0, actualLine := 1 }

/-- `x + 2 * (3 + -1)` -/
def e : Ex := .bin .add (tok "+") (.var (tok "x")) (.bin .mul (tok "*") (.int (tok "2")) (.bin .add (tok "+") (.int (tok "3")) (.un .neg (tok "-") (.int (tok "1")))))

/-- It becomes `x + 4`. -/
example : optimize Sample.F e.node = .ok (Ex.bin .add (tok "+") (.var (tok "x")) (.int ⟨.integer, cs "4", 1, 0, 0⟩)).node := by decide +kernel

example : Unmixed e ∧ NoFloat e := by simp [e, Unmixed, NoFloat, constKind]

/-- `1 / 0` stays what it is, also inside of a constant. -/
example : let d : Ex := .bin .add (tok "+") (.int (tok "1")) (.bin .div (tok "/") (.int (tok "1")) (.int (tok "0")))
    optimize Sample.F d.node = .ok d.node ∧ Unmixed d ∧ ∀ ρ, NumErr ρ d := by
  refine ⟨by decide +kernel, by simp [Unmixed, constKind], fun ρ => ?_⟩
  exact .right _ _ (.lit _) (.here .div _ (.lit _) (.lit _) (by simp only [Arith.refused]; decide))

/-- `1 + 0.99999999` -/
def mixed : Ex := .bin .add (tok "+") (.int (tok "1")) (.float (tok "0.99999999"))

/-- `0.0001 * 0.0001` -/
def tiny : Ex := .bin .mul (tok "*") (.float (tok "0.0001")) (.float (tok "0.0001"))

end FoldEx

/-- C55 is false as stated.  On every host where the product of `0.0001` with itself is a float other than zero that prints with
six decimals as `0.000000`, which is read as zero (so it is in C), the expression `0.0001 * 0.0001` is zero after the
replacement, and the product without it. -/
theorem C55_violated {p : BitVec 32} (hp : F.mul (F.atof (cs "0.0001")) (F.atof (cs "0.0001")) = p) (h0 : p ≠ 0) (hs : F.print p = cs "0.000000")
    (hr : F.atof (cs "0.000000") = 0) : ∃ e', optimize F FoldEx.tiny.node = .ok e'.node ∧
      ∀ Γ b l W, Good W → Ev F H Γ b l W e' (.float 0) l W ∧ (∀ v l' W', Ev F H Γ b l W e' v l' W' → v = .float 0) ∧
        Ev F H Γ b l W FoldEx.tiny (.float p) l W ∧ Value.float p ≠ .float 0 := by
  refine ⟨.float (made .float (cs "0.000000") 1), ?_, fun Γ b l W hg => ⟨?_, fun v l' W' h => ?_, ?_, fun h => h0 (by injection h)⟩⟩
  · rw [← hs, ← hp]; rfl
  · have := Ev.float (F := F) (H := H) (Γ := Γ) (b := b) (l := l) (W := W) (made .float (cs "0.000000") 1)
    rwa [show (made .float (cs "0.000000") 1).str = cs "0.000000" from rfl, hr] at this
  · cases h
    rw [show (made .float (cs "0.000000") 1).str = cs "0.000000" from rfl, hr]
  · rw [← hp]
    exact .bin (.float _) (.float _) (does_arithF hg .mul rfl)

/-- A host like that. -/
example : let F : FloatOps := { Sample.F with mul := fun _ _ => 0x322bcc76 }
    F.mul (F.atof (cs "0.0001")) (F.atof (cs "0.0001")) = 0x322bcc76 ∧ (0x322bcc76 : BitVec 32) ≠ 0 ∧ F.print 0x322bcc76 = cs "0.000000" ∧
      F.atof (cs "0.000000") = 0 := by
  refine ⟨rfl, by decide, rfl, rfl⟩

/-- Nor is it true for an integer and a float.  The optimizer reads the float as an integer with `atol`, which looks at the digits before
the point; the machine converts the float it has.  On every host where `0.99999999` is read as the float 1.0, the one next to it, the
expression `1 + 0.99999999` is 1 after the replacement and 2 without it. -/
theorem C55_mixed_violated (hr : F.atof (cs "0.99999999") = 0x3f800000) : ∃ e', optimize F FoldEx.mixed.node = .ok e'.node ∧
      ∀ Γ b l W, Good W → Ev F H Γ b l W e' (.int 1) l W ∧ (∀ v l' W', Ev F H Γ b l W e' v l' W' → v = .int 1) ∧
        Ev F H Γ b l W FoldEx.mixed (.int 2) l W := by
  refine ⟨.int (made .integer (cs "1") 1), ?_, fun Γ b l W hg => ⟨?_, fun v l' W' h => ?_, ?_⟩⟩
  · have e1 : foldInt .plus (atoi32 (cs "1")) (some (atoi32 (cs "0.99999999"))) = .ok (some 1) := by decide +kernel
    have e2 : itoa 1 = cs "1" := by decide +kernel
    show (match foldInt .plus (atoi32 (cs "1")) (some (atoi32 (cs "0.99999999"))) with
      | .ub k => Res.ub k
      | .ok none => Res.ok FoldEx.mixed.node
      | .ok (some v) => Res.ok (Node.mk (made .integer (itoa v) 1) false .nil .nil)) = _
    rw [e1]
    dsimp only
    rw [e2]; rfl
  · exact Ev.int (F := F) (H := H) (Γ := Γ) (b := b) (l := l) (W := W) (made .integer (cs "1") 1)
  · cases h; rfl
  · refine .bin (.int _) (.float _) ?_
    rw [show (FoldEx.tok "0.99999999").str = cs "0.99999999" from rfl, hr]
    refine does_yields (BinOp.code_lt _) hg fun vm cc h hs => ?_
    obtain ⟨vm', k, h1, h2, h3⟩ := C59_int_left F H hs h (j := 1) (.float (by decide) (by decide +kernel)) .add (by intro h; exact h) (by unfold Fits; decide +kernel)
    have : k = 2 := BitVec.eq_of_toInt_eq (h3.trans (by decide))
    subst this
    exact ⟨vm', h1, h2⟩

/-- A host like that. -/
example : let F : FloatOps := { Sample.F with atof := fun _ => 0x3f800000 }
    F.atof (cs "0.99999999") = 0x3f800000 := rfl

end Nk.Props
