import Verif.Lemmas.ParseSafe
import Verif.Lemmas.Pres
/-!
# The compiler never removes an error
-/
namespace Nk.Cc

variable {α β : Type}

theorem CM.bind_inv {m : CM α} {f : α → CM β} {s s' : CS} {b : β} (h : (m >>= f) s = .ok (b, s')) :
    ∃ a s1, m s = .ok (a, s1) ∧ f a s1 = .ok (b, s') := by
  have e : CM.bind m f s = .ok (b, s') := h
  unfold CM.bind at e
  cases hm : m s with
  | ub k => rw [hm] at e; cases e
  | ok p => rw [hm] at e; exact ⟨p.1, p.2, rfl, e⟩

namespace CMono

theorem bind {m : CM α} {f : α → CM β} (h : CMono m) (hf : ∀ a, CMono (f a)) : CMono (m >>= f) := by
  refine ⟨fun s b s' e => ?_⟩
  obtain ⟨a, s1, h1, h2⟩ := CM.bind_inv e
  exact (h.run _ _ _ h1).trans ((hf a).run _ _ _ h2)

theorem pure {a : α} : CMono (Pure.pure a) := ⟨fun s b s' e => by cases e; exact List.prefix_rfl⟩
theorem cget : CMono Cc.cget := ⟨fun s b s' e => by cases e; exact List.prefix_rfl⟩
theorem cub {k : UB} : CMono (Cc.cub k : CM α) := ⟨fun s b s' e => by cases e⟩
theorem cmod {g : CS → CS} (h : ∀ s, (g s).vm.errors = s.vm.errors) : CMono (Cc.cmod g) :=
  ⟨fun s b s' e => by cases e; rw [h]; exact List.prefix_rfl⟩
theorem modCtx {g : CCtx → CCtx} : CMono (Cc.modCtx g) := ⟨fun s b s' e => by
  unfold Cc.modCtx at e
  split at e <;> cases e
  exact List.prefix_rfl⟩
theorem onVM {m : M α} (h : ∀ vm a vm', m vm = .ok (a, vm') → vm.errors <+: vm'.errors) : CMono (Cc.onVM m) := ⟨fun s b s' e => by
  unfold Cc.onVM at e
  split at e
  · next hm => cases e; exact h _ _ _ hm
  · cases e⟩

end CMono

syntax "cmono_step" : tactic
macro_rules | `(tactic| cmono_step) => `(tactic| with_reducible exact CMono.pure)
macro_rules | `(tactic| cmono_step) => `(tactic| with_reducible exact CMono.cget)
macro_rules | `(tactic| cmono_step) => `(tactic| with_reducible exact CMono.cub)
macro_rules | `(tactic| cmono_step) => `(tactic| with_reducible exact CMono.modCtx)
macro_rules | `(tactic| cmono_step) => `(tactic| (with_reducible refine CMono.cmod ?_; intro _; rfl))

/-- Proves `CMono` goals by following the structure of the program. -/
macro "cmono" : tactic => `(tactic| repeat' (first | cmono_step | intro _ | with_reducible refine CMono.bind ?_ ?_ | assumption | split | dsimp only))

theorem err_mono {e : String} : CMono (err e) := CMono.onVM fun vm a vm' h => by
  cases h; exact List.prefix_append _ _
macro_rules | `(tactic| cmono_step) => `(tactic| with_reducible exact err_mono)
theorem pushRec_mono : CMono pushRec := by unfold pushRec; cmono
macro_rules | `(tactic| cmono_step) => `(tactic| with_reducible exact pushRec_mono)
theorem popRec_mono : CMono popRec := by unfold popRec; cmono
macro_rules | `(tactic| cmono_step) => `(tactic| with_reducible exact popRec_mono)
theorem nextTok_mono : CMono nextTok := CMono.cmod advance_errs
macro_rules | `(tactic| cmono_step) => `(tactic| with_reducible exact nextTok_mono)
theorem curType_mono : CMono curType := by unfold curType; cmono
macro_rules | `(tactic| cmono_step) => `(tactic| with_reducible exact curType_mono)
theorem expectSkip_mono {t : TokType} : CMono (expectSkip t) := by unfold expectSkip; cmono
macro_rules | `(tactic| cmono_step) => `(tactic| with_reducible exact expectSkip_mono)
theorem growInstrs_mono : CMono growInstrs := by unfold growInstrs; cmono
macro_rules | `(tactic| cmono_step) => `(tactic| with_reducible exact growInstrs_mono)
theorem writeInstr_mono {i : Nat} {w : BitVec 32} : CMono (writeInstr i w) := ⟨fun s b s' e => by
  unfold writeInstr at e
  split at e <;> cases e
  exact List.prefix_rfl⟩
macro_rules | `(tactic| cmono_step) => `(tactic| with_reducible exact writeInstr_mono)
theorem addInstr_mono {w : BitVec 32} {b : Bool} : CMono (addInstr w b) := by unfold addInstr; cmono
macro_rules | `(tactic| cmono_step) => `(tactic| with_reducible exact addInstr_mono)
theorem emitOp_mono {n : Nat} {b : Bool} : CMono (emitOp n b) := addInstr_mono
macro_rules | `(tactic| cmono_step) => `(tactic| with_reducible exact emitOp_mono)
theorem emitInt_mono {n : BitVec 32} {b : Bool} : CMono (emitInt n b) := by unfold emitInt; cmono
macro_rules | `(tactic| cmono_step) => `(tactic| with_reducible exact emitInt_mono)
theorem emitFn_mono {n : BitVec 32} {b : Bool} : CMono (emitFn n b) := by unfold emitFn; cmono
macro_rules | `(tactic| cmono_step) => `(tactic| with_reducible exact emitFn_mono)
theorem emitFloat_mono {n : BitVec 32} {b : Bool} : CMono (emitFloat n b) := by unfold emitFloat; cmono
macro_rules | `(tactic| cmono_step) => `(tactic| with_reducible exact emitFloat_mono)

theorem errors_pres {m : M α} (h : ∀ e0, Pres (fun vm => e0 <+: vm.errors) m) (vm : VM) (a : α) (vm' : VM) (e : m vm = .ok (a, vm')) :
    vm.errors <+: vm'.errors := (h vm.errors).run vm a vm' List.prefix_rfl e

theorem errors_frame (e0 : List String) : Frame (fun vm => e0 <+: vm.errors) :=
  ⟨fun _ _ h => h.trans (List.prefix_append _ _), fun _ _ _ _ h => h, fun _ _ h => h, fun _ _ _ h => h, fun _ _ _ _ _ _ _ h => h,
    fun _ _ h => h⟩

theorem emitStr_mono {n : Bytes} {b : Bool} : CMono (emitStr n b) := by
  unfold emitStr
  refine CMono.bind emitOp_mono fun _ => CMono.bind (CMono.onVM (errors_pres fun e0 => findOrAddString_pres (errors_frame e0))) fun id => ?_
  refine CMono.bind addInstr_mono fun _ => CMono.onVM ?_
  intro vm a vm' h
  unfold keepString at h
  split at h
  · cases h
  · cases h; exact List.prefix_rfl
  · split at h <;> cases h
    exact List.prefix_rfl
macro_rules | `(tactic| cmono_step) => `(tactic| with_reducible exact emitStr_mono)
theorem pushCtx_mono : CMono pushCtx := by unfold pushCtx; cmono
macro_rules | `(tactic| cmono_step) => `(tactic| with_reducible exact pushCtx_mono)
theorem popCtx_mono : CMono popCtx := by unfold popCtx; cmono
macro_rules | `(tactic| cmono_step) => `(tactic| with_reducible exact popCtx_mono)
theorem allocStatic_mono : CMono allocStatic := by unfold allocStatic; cmono
macro_rules | `(tactic| cmono_step) => `(tactic| with_reducible exact allocStatic_mono)
theorem consVar_mono {v : CVar} : CMono (consVar v) := by unfold consVar; cmono
macro_rules | `(tactic| cmono_step) => `(tactic| with_reducible exact consVar_mono)
theorem addVariable_mono {n : Bytes} {a b : Bool} : CMono (addVariable n a b) := by unfold addVariable; cmono
macro_rules | `(tactic| cmono_step) => `(tactic| with_reducible exact addVariable_mono)
theorem lookupVar_mono {n : Bytes} : CMono (lookupVar n) := by unfold lookupVar; cmono
macro_rules | `(tactic| cmono_step) => `(tactic| with_reducible exact lookupVar_mono)

/-! ## The parser -/

theorem prefixLoop_mono (n : Nat) (acc : List Token) : CMono (prefixLoop n acc) := by
  induction n generalizing acc with
  | zero => exact CMono.cub
  | succ n ih => unfold prefixLoop; cmono; exact ih _
macro_rules | `(tactic| cmono_step) => `(tactic| with_reducible exact prefixLoop_mono _ _)

section
variable {pe : CM Node} (hp : CMono pe) {fd : CM (Option Nat)} (hf : CMono fd)
include hp
theorem argLoop_mono (n : Nat) (acc : List Node) : CMono (argLoop pe n acc) := by
  induction n generalizing acc with
  | zero => exact CMono.cub
  | succ n ih => unfold argLoop; cmono <;> exact ih _
macro_rules | `(tactic| cmono_step) => `(tactic| with_reducible exact argLoop_mono ‹_› _ _)
theorem parseCall_mono : CMono (parseCall pe) := by unfold parseCall; cmono
macro_rules | `(tactic| cmono_step) => `(tactic| with_reducible exact parseCall_mono ‹_›)
theorem parseDot_mono (i : Bool) : CMono (parseDot pe i) := by unfold parseDot; cmono
macro_rules | `(tactic| cmono_step) => `(tactic| with_reducible exact parseDot_mono ‹_› _)
theorem parsePost_mono (t : Token) : CMono (parsePost pe t) := by unfold parsePost; cmono
macro_rules | `(tactic| cmono_step) => `(tactic| with_reducible exact parsePost_mono ‹_› _)
theorem postLoop_mono (n : Nat) (acc : List Post) : CMono (postLoop pe n acc) := by
  induction n generalizing acc with
  | zero => exact CMono.cub
  | succ n ih => unfold postLoop; cmono <;> exact ih _
macro_rules | `(tactic| cmono_step) => `(tactic| with_reducible exact postLoop_mono ‹_› _ _)
include hf
theorem parseValue_mono : CMono (parseValue pe fd) := by unfold parseValue; cmono
macro_rules | `(tactic| cmono_step) => `(tactic| with_reducible exact parseValue_mono ‹_› ‹_›)
theorem operand_mono : CMono (operand pe fd) := by
  unfold operand
  cmono
  · exact ⟨fun s b s' e => by cases e; exact List.prefix_rfl⟩
  · exact ⟨fun s b s' e => by cases e⟩
macro_rules | `(tactic| cmono_step) => `(tactic| with_reducible exact operand_mono ‹_› ‹_›)
theorem exprLoop_mono (n : Nat) (o : List Token) (v : List Node) : CMono (exprLoop pe fd n o v) := by
  induction n generalizing o v with
  | zero => exact CMono.cub
  | succ n ih => unfold exprLoop; cmono; exact ih _ _
macro_rules | `(tactic| cmono_step) => `(tactic| with_reducible exact exprLoop_mono ‹_› ‹_› _ _ _)
omit hp hf
theorem parseEnd_mono (o : List Token) (v : List Node) : CMono (parseEnd o v) := by unfold parseEnd; cmono
macro_rules | `(tactic| cmono_step) => `(tactic| with_reducible exact parseEnd_mono _ _)
include hp hf
theorem parseExprBody_mono : CMono (parseExprBody fd pe) := by unfold parseExprBody; cmono
end

theorem parseExpr_mono {fd : CM (Option Nat)} (hf : CMono fd) (n : Nat) : CMono (parseExpr fd n) := by
  induction n with
  | zero => exact CMono.cub
  | succ n ih => exact parseExprBody_mono ih hf
macro_rules | `(tactic| cmono_step) => `(tactic| with_reducible exact parseExpr_mono ‹_› _)

/-! ## Emitting -/

theorem expand_mono (n : Node) (d : Bool) : CMono (expand n d) := by
  induction n generalizing d with
  | nil => exact CMono.pure
  | mk t r l r' ih1 ih2 => unfold expand; cmono <;> first | exact ih1 _ | exact ih2 _
macro_rules | `(tactic| cmono_step) => `(tactic| with_reducible exact expand_mono _ _)
theorem subOffset_mono (n : Nat) : CMono (subOffset n) := by unfold subOffset; cmono
macro_rules | `(tactic| cmono_step) => `(tactic| with_reducible exact subOffset_mono _)
theorem emitFSE_mono (s : Bytes) (n : Nat) : CMono (emitFSE s n) := by unfold emitFSE; cmono
macro_rules | `(tactic| cmono_step) => `(tactic| with_reducible exact emitFSE_mono _ _)
theorem emitFetch_mono (s : Bytes) : CMono (emitFetch s) := by unfold emitFetch; cmono
macro_rules | `(tactic| cmono_step) => `(tactic| with_reducible exact emitFetch_mono _)
theorem emitSet_mono (s : Bytes) : CMono (emitSet s) := by unfold emitSet; cmono
macro_rules | `(tactic| cmono_step) => `(tactic| with_reducible exact emitSet_mono _)
theorem emitAssign_mono {l r : Node} {a b c : CM Bool} (ha : CMono a) (hb : CMono b) (hc : CMono c) : CMono (emitAssign l r a b c) := by
  unfold emitAssign; cmono
theorem emitNode_mono (F : FloatOps) (t : Token) (b : Bool) (r : Node) : CMono (emitNode F t b r) := by unfold emitNode; cmono
macro_rules | `(tactic| cmono_step) => `(tactic| with_reducible exact emitNode_mono _ _ _ _)
theorem emitChild_mono {n : Node} {e : CM Bool} (h : CMono e) : CMono (emitChild n e) := by unfold emitChild; cmono

theorem emitExpr_mono (F : FloatOps) : ∀ n, CMono (emitExpr F n)
  | .nil => by unfold emitExpr; cmono
  | .mk tok root .nil r => by
    have h := emitExpr_mono F r
    unfold emitExpr
    cmono
    · exact emitAssign_mono h CMono.pure CMono.pure
    · exact emitChild_mono h
  | .mk tok root (.mk lt lr a b) r => by
    have h := emitExpr_mono F r
    have h1 := emitExpr_mono F (.mk lt lr a b)
    have h2 := emitExpr_mono F a
    have h3 := emitExpr_mono F b
    unfold emitExpr
    cmono
    · exact emitAssign_mono h h2 h3
    · exact emitChild_mono h
macro_rules | `(tactic| cmono_step) => `(tactic| with_reducible exact emitExpr_mono _ _)

section
variable {fd : CM (Option Nat)} (hf : CMono fd)
include hf
theorem compileNoEmit_mono (F : FloatOps) (d : Bool) : CMono (compileNoEmit F fd d) := by unfold compileNoEmit; cmono
macro_rules | `(tactic| cmono_step) => `(tactic| with_reducible exact compileNoEmit_mono ‹_› _ _)
theorem compileExpr_mono (F : FloatOps) (d : Bool) : CMono (compileExpr F fd d) := by unfold compileExpr; cmono
macro_rules | `(tactic| cmono_step) => `(tactic| with_reducible exact compileExpr_mono ‹_› _ _)
end

/-! ## Statements -/

theorem curString_mono : CMono curString := by unfold curString; cmono
macro_rules | `(tactic| cmono_step) => `(tactic| with_reducible exact curString_mono)
theorem expectStmt_mono {t : TokType} {k : CM Bool} (h : CMono k) : CMono (expectStmt t k) := by unfold expectStmt; cmono
macro_rules | `(tactic| cmono_step) => `(tactic| with_reducible refine expectStmt_mono ?_)
theorem emitReturn_mono : CMono emitReturn := by unfold emitReturn; cmono
macro_rules | `(tactic| cmono_step) => `(tactic| with_reducible exact emitReturn_mono)
theorem sameCtx_mono (n : Nat) : CMono (sameCtx n) := by unfold sameCtx; cmono
macro_rules | `(tactic| cmono_step) => `(tactic| with_reducible exact sameCtx_mono _)
theorem emitJump_mono (o t : Nat) : CMono (emitJump o t) := by unfold emitJump; cmono
macro_rules | `(tactic| cmono_step) => `(tactic| with_reducible exact emitJump_mono _ _)
theorem instrWord_mono (a : Nat) : CMono (instrWord a) := ⟨fun s b s' e => by
  unfold instrWord at e
  split at e <;> cases e
  exact List.prefix_rfl⟩
macro_rules | `(tactic| cmono_step) => `(tactic| with_reducible exact instrWord_mono _)
theorem modifyJump_mono (a b : Nat) : CMono (modifyJump a b) := by unfold modifyJump; cmono
macro_rules | `(tactic| cmono_step) => `(tactic| with_reducible exact modifyJump_mono _ _)
theorem jumpHere_mono (a : Nat) : CMono (jumpHere a) := by unfold jumpHere; cmono
macro_rules | `(tactic| cmono_step) => `(tactic| with_reducible exact jumpHere_mono _)
theorem fixupLoop_mono (l : List Nat) : CMono (fixupLoop l) := by
  induction l with
  | nil => exact CMono.pure
  | cons a l ih => unfold fixupLoop; cmono
macro_rules | `(tactic| cmono_step) => `(tactic| with_reducible exact fixupLoop_mono _)
theorem fixupBreaks_mono : CMono fixupBreaks := by unfold fixupBreaks; cmono
macro_rules | `(tactic| cmono_step) => `(tactic| with_reducible exact fixupBreaks_mono)
theorem failPop_mono (n : Nat) : CMono (failPop n) := by
  induction n with
  | zero => unfold failPop; cmono
  | succ n ih => unfold failPop; cmono
macro_rules | `(tactic| cmono_step) => `(tactic| with_reducible exact failPop_mono _)
theorem pushLoop_mono : CMono pushLoop := by unfold pushLoop; cmono
macro_rules | `(tactic| cmono_step) => `(tactic| with_reducible exact pushLoop_mono)
theorem endLoop_mono : CMono endLoop := by unfold endLoop; cmono
macro_rules | `(tactic| cmono_step) => `(tactic| with_reducible exact endLoop_mono)
theorem expectLoop_mono {t : TokType} {n : Nat} {k : CM Bool} (h : CMono k) : CMono (expectLoop t n k) := by unfold expectLoop; cmono
macro_rules | `(tactic| cmono_step) => `(tactic| with_reducible refine expectLoop_mono ?_)
theorem breakStmt_mono : CMono breakStmt := by unfold breakStmt; cmono
macro_rules | `(tactic| cmono_step) => `(tactic| with_reducible exact breakStmt_mono)
theorem addParam_mono (n : Bytes) : CMono (addParam n) := by unfold addParam; cmono
macro_rules | `(tactic| cmono_step) => `(tactic| with_reducible exact addParam_mono _)
theorem incOffset_mono : CMono incOffset := by unfold incOffset; cmono
macro_rules | `(tactic| cmono_step) => `(tactic| with_reducible exact incOffset_mono)
theorem paramLoop_mono (n a : Nat) : CMono (paramLoop n a) := by
  induction n generalizing a with
  | zero => exact CMono.cub
  | succ n ih => unfold paramLoop; cmono <;> exact ih _
macro_rules | `(tactic| cmono_step) => `(tactic| with_reducible exact paramLoop_mono _ _)
theorem setFunction_mono (a b c : Nat) : CMono (setFunction a b c) := ⟨fun s x s' e => by
  unfold setFunction at e
  split at e <;> cases e
  exact List.prefix_rfl⟩
macro_rules | `(tactic| cmono_step) => `(tactic| with_reducible exact setFunction_mono _ _ _)
theorem skipOr_mono (t : TokType) (e : String) : CMono (skipOr t e) := by unfold skipOr; cmono
macro_rules | `(tactic| cmono_step) => `(tactic| with_reducible exact skipOr_mono _ _)
theorem createFunction_mono : CMono (onVM createFunction) := CMono.onVM (errors_pres fun e0 => by
  unfold createFunction
  refine Pres.bind .get fun vm => ?_
  split
  · exact .lift
  · exact Pres.bind (Pres.modify fun vm h => h) fun _ => .pure)
macro_rules | `(tactic| cmono_step) => `(tactic| with_reducible exact createFunction_mono)
theorem peekType_mono : CMono peekType := by unfold peekType; cmono
macro_rules | `(tactic| cmono_step) => `(tactic| with_reducible exact peekType_mono)
theorem stmtEnd_mono (n : Nat) (b : Bool) : CMono (stmtEnd n b) := by unfold stmtEnd; cmono
macro_rules | `(tactic| cmono_step) => `(tactic| with_reducible exact stmtEnd_mono _ _)

section
variable {st ce : CM Bool} {ci : CM Node} (hs : CMono st) (he : CMono ce) (hi : CMono ci)
include he
theorem varDecl_mono : CMono (varDecl ce) := by unfold varDecl; cmono
macro_rules | `(tactic| cmono_step) => `(tactic| with_reducible exact varDecl_mono ‹_›)
theorem returnStmt_mono : CMono (returnStmt ce) := by unfold returnStmt; cmono
macro_rules | `(tactic| cmono_step) => `(tactic| with_reducible exact returnStmt_mono ‹_›)
theorem exprStmt_mono (n : Nat) : CMono (exprStmt ce n) := by unfold exprStmt; cmono
omit he
include hs
theorem blockLoop_mono (n : Nat) : CMono (blockLoop st n) := by
  induction n with
  | zero => exact CMono.cub
  | succ n ih => unfold blockLoop; cmono
macro_rules | `(tactic| cmono_step) => `(tactic| with_reducible exact blockLoop_mono ‹_› _)
theorem block_mono : CMono (block st) := by unfold block; cmono
theorem script_mono : CMono (script st) := by unfold script; cmono
theorem elsePart_mono (n : Nat) : CMono (elsePart st n) := by unfold elsePart; cmono
macro_rules | `(tactic| cmono_step) => `(tactic| with_reducible exact elsePart_mono ‹_› _)
theorem functionBody_mono (n : Nat) : CMono (functionBody st n) := by unfold functionBody; cmono
macro_rules | `(tactic| cmono_step) => `(tactic| with_reducible exact functionBody_mono ‹_› _)
theorem functionDef_mono (b : Bool) : CMono (functionDef st b) := by unfold functionDef; cmono
include he
theorem ifStmt_mono : CMono (ifStmt st ce) := by unfold ifStmt; cmono
theorem whileStmt_mono : CMono (whileStmt st ce) := by unfold whileStmt; cmono
theorem doStmt_mono : CMono (doStmt st ce) := by unfold doStmt; cmono
include hi
theorem forStmt_mono (F : FloatOps) : CMono (forStmt F st ce ci) := by unfold forStmt; cmono
end

theorem statementBody_mono (F : FloatOps) {st : CM Bool} (hs : CMono st) : CMono (statementBody F st) := by
  have hf := functionDef_mono hs true
  have hf2 := functionDef_mono hs false
  have he := compileExpr_mono hf F false
  have he2 := compileExpr_mono hf F true
  have hi := compileNoEmit_mono hf F true
  have h1 := block_mono hs
  have h2 := ifStmt_mono hs he
  have h3 := whileStmt_mono hs he
  have h4 := doStmt_mono hs he
  have h5 := forStmt_mono hs he hi F
  have h6 := varDecl_mono he
  have h7 := returnStmt_mono he
  unfold statementBody
  refine CMono.bind .cget fun s => CMono.bind pushRec_mono fun b => ?_
  split
  · refine CMono.bind curType_mono fun t => ?_
    split
    all_goals first
      | assumption
      | exact exprStmt_mono he2 _
      | exact CMono.bind (by assumption) fun _ => stmtEnd_mono _ _
      | exact CMono.bind breakStmt_mono fun _ => stmtEnd_mono _ _
      | exact CMono.bind err_mono fun _ => .pure
      | skip
    refine CMono.bind peekType_mono fun p => ?_
    split
    · exact CMono.bind hf2 fun _ => stmtEnd_mono _ _
    · exact exprStmt_mono he2 _
  · exact .pure

theorem statement_mono (F : FloatOps) (n : Nat) : CMono (statement F n) := by
  induction n with
  | zero => exact CMono.cub
  | succ n ih => exact statementBody_mono F ih

end Nk.Cc
