import Verif.Lemmas.CompMono
import Verif.Lemmas.TokKinds
/-!
# What every part of the compiler keeps

`CKeep P m`: if `P` holds of the VM before `m`, it holds after it.  `CFrame` lists what is needed of `P` for the whole
compiler to keep it.
-/
namespace Nk.Cc

variable {α β : Type}

/-- `m` keeps `P` true of the state of the compiler. -/
structure CKeep (P : CS → Prop) (m : CM α) : Prop where
  run : ∀ s a s', P s → m s = .ok (a, s') → P s'

/-- The elementary changes the compiler makes while it compiles a script keep `P`. -/
class CFrame (P : CS → Prop) : Prop where
  of : ∀ s s', s'.vm = s.vm → s'.toks = s.toks → s'.line = s.line → s'.file = s.file → s'.write = s.write →
    s'.staticCount = s.staticCount → P s → P s'
  err : ∀ s e, P s → P { s with vm := { s.vm with errors := s.vm.errors ++ [e] } }
  next : ∀ s, P s → P (advance s)
  code : ∀ s i w, P s → P { s with vm := { s.vm with instrs := s.vm.instrs.set i w } }
  add : ∀ w b, CKeep P (addInstr w b)
  alloc : CKeep P allocStatic
  intern : ∀ t, CKeep P (onVM (findOrAddString t))
  keep : ∀ i, CKeep P (onVM (keepString i))
  fns : ∀ s l, P s → P { s with vm := { s.vm with functions := l } }

/-- The elementary changes the compiler makes to the VM keep `P`. -/
class VFrame (P : VM → Prop) : Prop where
  err : ∀ vm e, P vm → P { vm with errors := vm.errors ++ [e] }
  mark : ∀ vm l, P vm → P { vm with markers := l }
  code : ∀ vm i w, P vm → P { vm with instrs := vm.instrs.set i w }
  grow : CKeep (fun s => P s.vm) growInstrs
  alloc : CKeep (fun s => P s.vm) allocStatic
  intern : ∀ t, Pres P (findOrAddString t)
  keep : ∀ i, Pres P (keepString i)
  fns : ∀ vm l, P vm → P { vm with functions := l }
  files : ∀ vm es fs, vm.errors <+: es → P vm → P { vm with errors := es, sourceFiles := fs }
  names : ∀ vm l, P vm → P { vm with globals := l }
  put : ∀ vm i v, P vm → P { vm with statics := vm.statics.set i v }
  native : ∀ name cb, Pres P (registerNative name cb)
  inner : ∀ e, Pres P (internalFor e)

variable {P : CS → Prop}

namespace CKeep

theorem bind {m : CM α} {f : α → CM β} (h : CKeep P m) (hf : ∀ a, CKeep P (f a)) : CKeep P (m >>= f) := by
  refine ⟨fun s b s' hp e => ?_⟩
  obtain ⟨a, s1, h1, h2⟩ := CM.bind_inv e
  exact (hf a).run _ _ _ (h.run _ _ _ hp h1) h2

theorem pure {a : α} : CKeep P (Pure.pure a) := ⟨fun s b s' hp e => by cases e; exact hp⟩
theorem cget : CKeep P Cc.cget := ⟨fun s b s' hp e => by cases e; exact hp⟩
theorem cub {k : UB} : CKeep P (Cc.cub k : CM α) := ⟨fun s b s' hp e => by cases e⟩
theorem cmod' {g : CS → CS} (h : ∀ s, P s → P (g s)) : CKeep P (Cc.cmod g) :=
  ⟨fun s b s' hp e => by cases e; exact h _ hp⟩
theorem cmodV {V : VM → Prop} {g : CS → CS} (h : ∀ s, (g s).vm = s.vm) : CKeep (fun s => V s.vm) (Cc.cmod g) :=
  cmod' fun s hp => by show V _; rw [h]; exact hp
theorem cmod [f : CFrame P] {g : CS → CS} (h : ∀ s, (g s).vm = s.vm) (h1 : ∀ s, (g s).toks = s.toks) (h2 : ∀ s, (g s).line = s.line)
    (h3 : ∀ s, (g s).file = s.file) (h4 : ∀ s, (g s).write = s.write) (h5 : ∀ s, (g s).staticCount = s.staticCount) : CKeep P (Cc.cmod g) :=
  cmod' fun s hp => f.of s _ (h s) (h1 s) (h2 s) (h3 s) (h4 s) (h5 s) hp
theorem modCtx [f : CFrame P] {g : CCtx → CCtx} : CKeep P (Cc.modCtx g) := ⟨fun s b s' hp e => by
  unfold Cc.modCtx at e
  split at e <;> cases e
  exact f.of s _ rfl rfl rfl rfl rfl rfl hp⟩
theorem onVM {V : VM → Prop} {m : M α} (h : Pres V m) : CKeep (fun s => V s.vm) (Cc.onVM m) := ⟨fun s b s' hp e => by
  unfold Cc.onVM at e
  split at e
  · next hm => cases e; exact h.run _ _ _ hp hm
  · cases e⟩

end CKeep

syntax "ckeep_step" : tactic
macro_rules | `(tactic| ckeep_step) => `(tactic| with_reducible exact CKeep.pure)
macro_rules | `(tactic| ckeep_step) => `(tactic| with_reducible exact CKeep.cget)
macro_rules | `(tactic| ckeep_step) => `(tactic| with_reducible exact CKeep.cub)
macro_rules | `(tactic| ckeep_step) => `(tactic| with_reducible exact CKeep.modCtx)
macro_rules | `(tactic| ckeep_step) => `(tactic| (with_reducible refine CKeep.cmod ?_ ?_ ?_ ?_ ?_ ?_ <;> intro _ <;> rfl))

/-- Proves `CKeep` goals by following the structure of the program. -/
macro "ckeep" : tactic => `(tactic| repeat' (first | ckeep_step | intro _ | with_reducible refine CKeep.bind ?_ ?_ | assumption | split | dsimp only))

variable [f : CFrame P]

theorem err_keep {e : String} : CKeep P (err e) := ⟨fun s a s' h r => by cases r; exact f.err s e h⟩
macro_rules | `(tactic| ckeep_step) => `(tactic| with_reducible exact err_keep)
theorem pushRec_keep : CKeep P pushRec := by unfold pushRec; ckeep
macro_rules | `(tactic| ckeep_step) => `(tactic| with_reducible exact pushRec_keep)
theorem popRec_keep : CKeep P popRec := by unfold popRec; ckeep
macro_rules | `(tactic| ckeep_step) => `(tactic| with_reducible exact popRec_keep)
theorem nextTok_keep : CKeep P nextTok := CKeep.cmod' f.next
macro_rules | `(tactic| ckeep_step) => `(tactic| with_reducible exact nextTok_keep)
theorem curType_keep : CKeep P curType := by unfold curType; ckeep
macro_rules | `(tactic| ckeep_step) => `(tactic| with_reducible exact curType_keep)
theorem expectSkip_keep {t : TokType} : CKeep P (expectSkip t) := by unfold expectSkip; ckeep
macro_rules | `(tactic| ckeep_step) => `(tactic| with_reducible exact expectSkip_keep)
theorem writeInstr_keep {i : Nat} {w : BitVec 32} : CKeep P (writeInstr i w) := ⟨fun s b s' h e => by
  unfold writeInstr at e
  split at e <;> cases e
  exact f.code s i w h⟩
macro_rules | `(tactic| ckeep_step) => `(tactic| with_reducible exact writeInstr_keep)
theorem addInstr_keep {w : BitVec 32} {b : Bool} : CKeep P (addInstr w b) := f.add w b
macro_rules | `(tactic| ckeep_step) => `(tactic| with_reducible exact addInstr_keep)
theorem emitOp_keep {n : Nat} {b : Bool} : CKeep P (emitOp n b) := addInstr_keep
macro_rules | `(tactic| ckeep_step) => `(tactic| with_reducible exact emitOp_keep)
theorem emitInt_keep {n : BitVec 32} {b : Bool} : CKeep P (emitInt n b) := by unfold emitInt; ckeep
macro_rules | `(tactic| ckeep_step) => `(tactic| with_reducible exact emitInt_keep)
theorem emitFn_keep {n : BitVec 32} {b : Bool} : CKeep P (emitFn n b) := by unfold emitFn; ckeep
macro_rules | `(tactic| ckeep_step) => `(tactic| with_reducible exact emitFn_keep)
theorem emitFloat_keep {n : BitVec 32} {b : Bool} : CKeep P (emitFloat n b) := by unfold emitFloat; ckeep
macro_rules | `(tactic| ckeep_step) => `(tactic| with_reducible exact emitFloat_keep)
theorem emitStr_keep {n : Bytes} {b : Bool} : CKeep P (emitStr n b) := by
  unfold emitStr
  exact CKeep.bind emitOp_keep fun _ => CKeep.bind (f.intern _) fun id => CKeep.bind addInstr_keep fun _ => f.keep _
macro_rules | `(tactic| ckeep_step) => `(tactic| with_reducible exact emitStr_keep)
theorem pushCtx_keep : CKeep P pushCtx := by unfold pushCtx; ckeep
macro_rules | `(tactic| ckeep_step) => `(tactic| with_reducible exact pushCtx_keep)
theorem popCtx_keep : CKeep P popCtx := by unfold popCtx; ckeep
macro_rules | `(tactic| ckeep_step) => `(tactic| with_reducible exact popCtx_keep)
theorem allocStatic_keep : CKeep P allocStatic := f.alloc
macro_rules | `(tactic| ckeep_step) => `(tactic| with_reducible exact allocStatic_keep)
theorem consVar_keep {v : CVar} : CKeep P (consVar v) := by unfold consVar; ckeep
macro_rules | `(tactic| ckeep_step) => `(tactic| with_reducible exact consVar_keep)
theorem addVariable_keep {n : Bytes} {a b : Bool} : CKeep P (addVariable n a b) := by unfold addVariable; ckeep
macro_rules | `(tactic| ckeep_step) => `(tactic| with_reducible exact addVariable_keep)
theorem lookupVar_keep {n : Bytes} : CKeep P (lookupVar n) := by unfold lookupVar; ckeep
macro_rules | `(tactic| ckeep_step) => `(tactic| with_reducible exact lookupVar_keep)

/-! ## The parser -/

theorem prefixLoop_keep (n : Nat) (acc : List Token) : CKeep P (prefixLoop n acc) := by
  induction n generalizing acc with
  | zero => exact CKeep.cub
  | succ n ih => unfold prefixLoop; ckeep; exact ih _
macro_rules | `(tactic| ckeep_step) => `(tactic| with_reducible exact prefixLoop_keep _ _)

section
variable {pe : CM Node} (hp : CKeep P pe) {fd : CM (Option Nat)} (hf : CKeep P fd)
include hp
theorem argLoop_keep (n : Nat) (acc : List Node) : CKeep P (argLoop pe n acc) := by
  induction n generalizing acc with
  | zero => exact CKeep.cub
  | succ n ih => unfold argLoop; ckeep <;> exact ih _
macro_rules | `(tactic| ckeep_step) => `(tactic| with_reducible exact argLoop_keep ‹_› _ _)
theorem parseCall_keep : CKeep P (parseCall pe) := by unfold parseCall; ckeep
macro_rules | `(tactic| ckeep_step) => `(tactic| with_reducible exact parseCall_keep ‹_›)
theorem parseDot_keep (i : Bool) : CKeep P (parseDot pe i) := by unfold parseDot; ckeep
macro_rules | `(tactic| ckeep_step) => `(tactic| with_reducible exact parseDot_keep ‹_› _)
theorem parsePost_keep (t : Token) : CKeep P (parsePost pe t) := by unfold parsePost; ckeep
macro_rules | `(tactic| ckeep_step) => `(tactic| with_reducible exact parsePost_keep ‹_› _)
theorem postLoop_keep (n : Nat) (acc : List Post) : CKeep P (postLoop pe n acc) := by
  induction n generalizing acc with
  | zero => exact CKeep.cub
  | succ n ih => unfold postLoop; ckeep <;> exact ih _
macro_rules | `(tactic| ckeep_step) => `(tactic| with_reducible exact postLoop_keep ‹_› _ _)
include hf
theorem parseValue_keep : CKeep P (parseValue pe fd) := by unfold parseValue; ckeep
macro_rules | `(tactic| ckeep_step) => `(tactic| with_reducible exact parseValue_keep ‹_› ‹_›)
theorem operand_keep : CKeep P (operand pe fd) := by
  unfold operand
  ckeep
  · exact ⟨fun s b s' h e => by cases e; exact h⟩
  · exact ⟨fun s b s' h e => by cases e⟩
macro_rules | `(tactic| ckeep_step) => `(tactic| with_reducible exact operand_keep ‹_› ‹_›)
theorem exprLoop_keep (n : Nat) (o : List Token) (v : List Node) : CKeep P (exprLoop pe fd n o v) := by
  induction n generalizing o v with
  | zero => exact CKeep.cub
  | succ n ih => unfold exprLoop; ckeep; exact ih _ _
macro_rules | `(tactic| ckeep_step) => `(tactic| with_reducible exact exprLoop_keep ‹_› ‹_› _ _ _)
omit hp hf
theorem parseEnd_keep (o : List Token) (v : List Node) : CKeep P (parseEnd o v) := by unfold parseEnd; ckeep
macro_rules | `(tactic| ckeep_step) => `(tactic| with_reducible exact parseEnd_keep _ _)
include hp hf
theorem parseExprBody_keep : CKeep P (parseExprBody fd pe) := by unfold parseExprBody; ckeep
end

theorem parseExpr_keep {fd : CM (Option Nat)} (hf : CKeep P fd) (n : Nat) : CKeep P (parseExpr fd n) := by
  induction n with
  | zero => exact CKeep.cub
  | succ n ih => exact parseExprBody_keep ih hf
macro_rules | `(tactic| ckeep_step) => `(tactic| with_reducible exact parseExpr_keep ‹_› _)

/-! ## Emitting -/

theorem expand_keep (n : Node) (d : Bool) : CKeep P (expand n d) := by
  induction n generalizing d with
  | nil => exact CKeep.pure
  | mk t r l r' ih1 ih2 => unfold expand; ckeep <;> first | exact ih1 _ | exact ih2 _
macro_rules | `(tactic| ckeep_step) => `(tactic| with_reducible exact expand_keep _ _)
theorem subOffset_keep (n : Nat) : CKeep P (subOffset n) := by unfold subOffset; ckeep
macro_rules | `(tactic| ckeep_step) => `(tactic| with_reducible exact subOffset_keep _)
theorem emitFSE_keep (s : Bytes) (n : Nat) : CKeep P (emitFSE s n) := by unfold emitFSE; ckeep
macro_rules | `(tactic| ckeep_step) => `(tactic| with_reducible exact emitFSE_keep _ _)
theorem emitFetch_keep (s : Bytes) : CKeep P (emitFetch s) := by unfold emitFetch; ckeep
macro_rules | `(tactic| ckeep_step) => `(tactic| with_reducible exact emitFetch_keep _)
theorem emitSet_keep (s : Bytes) : CKeep P (emitSet s) := by unfold emitSet; ckeep
macro_rules | `(tactic| ckeep_step) => `(tactic| with_reducible exact emitSet_keep _)
theorem emitAssign_keep {l r : Node} {a b c : CM Bool} (ha : CKeep P a) (hb : CKeep P b) (hc : CKeep P c) : CKeep P (emitAssign l r a b c) := by
  unfold emitAssign; ckeep
theorem emitNode_keep (F : FloatOps) (t : Token) (b : Bool) (r : Node) : CKeep P (emitNode F t b r) := by unfold emitNode; ckeep
macro_rules | `(tactic| ckeep_step) => `(tactic| with_reducible exact emitNode_keep _ _ _ _)
theorem emitChild_keep {n : Node} {e : CM Bool} (h : CKeep P e) : CKeep P (emitChild n e) := by unfold emitChild; ckeep

theorem emitExpr_keep (F : FloatOps) : ∀ n, CKeep P (emitExpr F n)
  | .nil => by unfold emitExpr; ckeep
  | .mk tok root .nil r => by
    have h := emitExpr_keep F r
    unfold emitExpr
    ckeep
    · exact emitAssign_keep h CKeep.pure CKeep.pure
    · exact emitChild_keep h
  | .mk tok root (.mk lt lr a b) r => by
    have h := emitExpr_keep F r
    have h1 := emitExpr_keep F (.mk lt lr a b)
    have h2 := emitExpr_keep F a
    have h3 := emitExpr_keep F b
    unfold emitExpr
    ckeep
    · exact emitAssign_keep h h2 h3
    · exact emitChild_keep h
macro_rules | `(tactic| ckeep_step) => `(tactic| with_reducible exact emitExpr_keep _ _)

section
variable {fd : CM (Option Nat)} (hf : CKeep P fd)
include hf
theorem compileNoEmit_keep (F : FloatOps) (d : Bool) : CKeep P (compileNoEmit F fd d) := by unfold compileNoEmit; ckeep
macro_rules | `(tactic| ckeep_step) => `(tactic| with_reducible exact compileNoEmit_keep ‹_› _ _)
theorem compileExpr_keep (F : FloatOps) (d : Bool) : CKeep P (compileExpr F fd d) := by unfold compileExpr; ckeep
macro_rules | `(tactic| ckeep_step) => `(tactic| with_reducible exact compileExpr_keep ‹_› _ _)
end

/-! ## Statements -/

theorem curString_keep : CKeep P curString := by unfold curString; ckeep
macro_rules | `(tactic| ckeep_step) => `(tactic| with_reducible exact curString_keep)
theorem expectStmt_keep {t : TokType} {k : CM Bool} (h : CKeep P k) : CKeep P (expectStmt t k) := by unfold expectStmt; ckeep
macro_rules | `(tactic| ckeep_step) => `(tactic| with_reducible refine expectStmt_keep ?_)
theorem emitReturn_keep : CKeep P emitReturn := by unfold emitReturn; ckeep
macro_rules | `(tactic| ckeep_step) => `(tactic| with_reducible exact emitReturn_keep)
theorem sameCtx_keep (n : Nat) : CKeep P (sameCtx n) := by unfold sameCtx; ckeep
macro_rules | `(tactic| ckeep_step) => `(tactic| with_reducible exact sameCtx_keep _)
theorem emitJump_keep (o t : Nat) : CKeep P (emitJump o t) := by unfold emitJump; ckeep
macro_rules | `(tactic| ckeep_step) => `(tactic| with_reducible exact emitJump_keep _ _)
theorem instrWord_keep (a : Nat) : CKeep P (instrWord a) := ⟨fun s b s' h e => by
  unfold instrWord at e
  split at e <;> cases e
  exact h⟩
macro_rules | `(tactic| ckeep_step) => `(tactic| with_reducible exact instrWord_keep _)
theorem modifyJump_keep (a b : Nat) : CKeep P (modifyJump a b) := by unfold modifyJump; ckeep
macro_rules | `(tactic| ckeep_step) => `(tactic| with_reducible exact modifyJump_keep _ _)
theorem jumpHere_keep (a : Nat) : CKeep P (jumpHere a) := by unfold jumpHere; ckeep
macro_rules | `(tactic| ckeep_step) => `(tactic| with_reducible exact jumpHere_keep _)
theorem fixupLoop_keep (l : List Nat) : CKeep P (fixupLoop l) := by
  induction l with
  | nil => exact CKeep.pure
  | cons a l ih => unfold fixupLoop; ckeep
macro_rules | `(tactic| ckeep_step) => `(tactic| with_reducible exact fixupLoop_keep _)
theorem fixupBreaks_keep : CKeep P fixupBreaks := by unfold fixupBreaks; ckeep
macro_rules | `(tactic| ckeep_step) => `(tactic| with_reducible exact fixupBreaks_keep)
theorem failPop_keep (n : Nat) : CKeep P (failPop n) := by
  induction n with
  | zero => unfold failPop; ckeep
  | succ n ih => unfold failPop; ckeep
macro_rules | `(tactic| ckeep_step) => `(tactic| with_reducible exact failPop_keep _)
theorem pushLoop_keep : CKeep P pushLoop := by unfold pushLoop; ckeep
macro_rules | `(tactic| ckeep_step) => `(tactic| with_reducible exact pushLoop_keep)
theorem endLoop_keep : CKeep P endLoop := by unfold endLoop; ckeep
macro_rules | `(tactic| ckeep_step) => `(tactic| with_reducible exact endLoop_keep)
theorem expectLoop_keep {t : TokType} {n : Nat} {k : CM Bool} (h : CKeep P k) : CKeep P (expectLoop t n k) := by unfold expectLoop; ckeep
macro_rules | `(tactic| ckeep_step) => `(tactic| with_reducible refine expectLoop_keep ?_)
theorem breakStmt_keep : CKeep P breakStmt := by unfold breakStmt; ckeep
macro_rules | `(tactic| ckeep_step) => `(tactic| with_reducible exact breakStmt_keep)
theorem addParam_keep (n : Bytes) : CKeep P (addParam n) := by unfold addParam; ckeep
macro_rules | `(tactic| ckeep_step) => `(tactic| with_reducible exact addParam_keep _)
theorem incOffset_keep : CKeep P incOffset := by unfold incOffset; ckeep
macro_rules | `(tactic| ckeep_step) => `(tactic| with_reducible exact incOffset_keep)
theorem paramLoop_keep (n a : Nat) : CKeep P (paramLoop n a) := by
  induction n generalizing a with
  | zero => exact CKeep.cub
  | succ n ih => unfold paramLoop; ckeep <;> exact ih _
macro_rules | `(tactic| ckeep_step) => `(tactic| with_reducible exact paramLoop_keep _ _)
theorem setFunction_keep (a b c : Nat) : CKeep P (setFunction a b c) := ⟨fun s x s' h e => by
  unfold setFunction at e
  split at e <;> cases e
  exact f.fns s _ h⟩
macro_rules | `(tactic| ckeep_step) => `(tactic| with_reducible exact setFunction_keep _ _ _)
theorem skipOr_keep (t : TokType) (e : String) : CKeep P (skipOr t e) := by unfold skipOr; ckeep
macro_rules | `(tactic| ckeep_step) => `(tactic| with_reducible exact skipOr_keep _ _)
theorem createFunction_keep : CKeep P (onVM createFunction) := ⟨fun s a s' h e => by
  unfold onVM createFunction at e
  rw [M.bind_ok (get_run _)] at e
  split at e
  · next hm =>
    split at hm
    · cases hm
    · cases hm; cases e; exact f.fns s _ h
  · cases e⟩
macro_rules | `(tactic| ckeep_step) => `(tactic| with_reducible exact createFunction_keep)
theorem peekType_keep : CKeep P peekType := by unfold peekType; ckeep
macro_rules | `(tactic| ckeep_step) => `(tactic| with_reducible exact peekType_keep)
theorem stmtEnd_keep (n : Nat) (b : Bool) : CKeep P (stmtEnd n b) := by unfold stmtEnd; ckeep
macro_rules | `(tactic| ckeep_step) => `(tactic| with_reducible exact stmtEnd_keep _ _)

section
variable {st ce : CM Bool} {ci : CM Node} (hs : CKeep P st) (he : CKeep P ce) (hi : CKeep P ci)
include he
theorem varDecl_keep : CKeep P (varDecl ce) := by unfold varDecl; ckeep
macro_rules | `(tactic| ckeep_step) => `(tactic| with_reducible exact varDecl_keep ‹_›)
theorem returnStmt_keep : CKeep P (returnStmt ce) := by unfold returnStmt; ckeep
macro_rules | `(tactic| ckeep_step) => `(tactic| with_reducible exact returnStmt_keep ‹_›)
theorem exprStmt_keep (n : Nat) : CKeep P (exprStmt ce n) := by unfold exprStmt; ckeep
omit he
include hs
theorem blockLoop_keep (n : Nat) : CKeep P (blockLoop st n) := by
  induction n with
  | zero => exact CKeep.cub
  | succ n ih => unfold blockLoop; ckeep
macro_rules | `(tactic| ckeep_step) => `(tactic| with_reducible exact blockLoop_keep ‹_› _)
theorem block_keep : CKeep P (block st) := by unfold block; ckeep
theorem script_keep : CKeep P (script st) := by unfold script; ckeep
theorem elsePart_keep (n : Nat) : CKeep P (elsePart st n) := by unfold elsePart; ckeep
macro_rules | `(tactic| ckeep_step) => `(tactic| with_reducible exact elsePart_keep ‹_› _)
theorem functionBody_keep (n : Nat) : CKeep P (functionBody st n) := by unfold functionBody; ckeep
macro_rules | `(tactic| ckeep_step) => `(tactic| with_reducible exact functionBody_keep ‹_› _)
theorem functionDef_keep (b : Bool) : CKeep P (functionDef st b) := by unfold functionDef; ckeep
include he
theorem ifStmt_keep : CKeep P (ifStmt st ce) := by unfold ifStmt; ckeep
theorem whileStmt_keep : CKeep P (whileStmt st ce) := by unfold whileStmt; ckeep
theorem doStmt_keep : CKeep P (doStmt st ce) := by unfold doStmt; ckeep
include hi
theorem forStmt_keep (F : FloatOps) : CKeep P (forStmt F st ce ci) := by unfold forStmt; ckeep
end

theorem statementBody_keep (F : FloatOps) {st : CM Bool} (hs : CKeep P st) : CKeep P (statementBody F st) := by
  have hf := functionDef_keep hs true
  have hf2 := functionDef_keep hs false
  have he := compileExpr_keep hf F false
  have he2 := compileExpr_keep hf F true
  have hi := compileNoEmit_keep hf F true
  have h1 := block_keep hs
  have h2 := ifStmt_keep hs he
  have h3 := whileStmt_keep hs he
  have h4 := doStmt_keep hs he
  have h5 := forStmt_keep hs he hi F
  have h6 := varDecl_keep he
  have h7 := returnStmt_keep he
  unfold statementBody
  refine CKeep.bind .cget fun s => CKeep.bind pushRec_keep fun b => ?_
  split
  · refine CKeep.bind curType_keep fun t => ?_
    split
    all_goals first
      | assumption
      | exact exprStmt_keep he2 _
      | exact CKeep.bind (by assumption) fun _ => stmtEnd_keep _ _
      | exact CKeep.bind breakStmt_keep fun _ => stmtEnd_keep _ _
      | exact CKeep.bind err_keep fun _ => .pure
      | skip
    refine CKeep.bind peekType_keep fun p => ?_
    split
    · exact CKeep.bind hf2 fun _ => stmtEnd_keep _ _
    · exact exprStmt_keep he2 _
  · exact .pure

theorem statement_keep (F : FloatOps) (n : Nat) : CKeep P (statement F n) := by
  induction n with
  | zero => exact CKeep.cub
  | succ n ih => exact statementBody_keep F ih

/-! ## The whole compiler, for what is said about the VM -/

section
variable {V : VM → Prop} [g : VFrame V]

instance : CFrame (fun s => V s.vm) where
  of s s' h _ _ _ _ _ hp := by show V _; rw [h]; exact hp
  err s e h := g.err s.vm e h
  next s h := by
    unfold advance
    split
    · exact h
    · exact h
    · exact g.mark s.vm _ h
  code s i w h := g.code s.vm i w h
  add w b := by
    have hw : ∀ i, CKeep (fun s => V s.vm) (writeInstr i w) := fun i => ⟨fun s a s' h e => by
      unfold writeInstr at e
      split at e <;> cases e
      exact g.code _ _ _ h⟩
    have hm : ∀ k, CKeep (fun s => V s.vm) (modCtx k) := fun k => ⟨fun s a s' h e => by
      unfold modCtx at e
      split at e <;> cases e
      exact h⟩
    have hc : CKeep (fun s => V s.vm) (cmod fun s => { s with write := u32 (s.write + 1) }) := CKeep.cmodV fun _ => rfl
    unfold addInstr
    refine CKeep.bind .cget fun s => ?_
    repeat' first | exact hw _ | exact hm _ | exact hc | exact g.grow | exact CKeep.pure | (intro _) | (refine CKeep.bind ?_ ?_) | split
  alloc := g.alloc
  intern t := CKeep.onVM (g.intern t)
  keep i := CKeep.onVM (g.keep i)
  fns s l h := g.fns s.vm l h

theorem tokenize_keep (hdr : Nat) (junk : Nat → UInt8) (b n : Bytes) : CKeep (fun s => V s.vm) (onVM (Tok.tokenize hdr junk b n)) :=
  CKeep.onVM ⟨fun vm o vm' h e => by
    obtain ⟨⟨es, fs, rfl, hl⟩, _⟩ := Tok.tokenize_ret hdr junk b n vm o vm' e
    exact g.files vm es fs hl h⟩
macro_rules | `(tactic| ckeep_step) => `(tactic| with_reducible exact tokenize_keep _ _ _ _)

theorem compileTokens_keep (F : FloatOps) (ts : List Token) : CKeep (fun s => V s.vm) (compileTokens F ts) := by
  have := script_keep (statement_keep (P := fun s => V s.vm) F maxDepth)
  unfold compileTokens
  refine CKeep.bind (CKeep.cmodV fun _ => rfl) fun _ => CKeep.bind this fun _ => CKeep.bind (CKeep.cmodV fun _ => rfl) fun _ => CKeep.pure
macro_rules | `(tactic| ckeep_step) => `(tactic| with_reducible exact compileTokens_keep _ _)

theorem compileScript_keep (F : FloatOps) (hdr : Nat) (junk : Nat → UInt8) (b n : Bytes) : CKeep (fun s => V s.vm) (compileScript F hdr junk b n) := by
  unfold compileScript; ckeep

theorem createGlobal_keep (n : Bytes) : CKeep (fun s => V s.vm) (createGlobal n) := by unfold createGlobal; ckeep
macro_rules | `(tactic| ckeep_step) => `(tactic| with_reducible exact createGlobal_keep _)

theorem setStatic_keep (i : Nat) (v : Value) : CKeep (fun s => V s.vm) (setStatic i v) := ⟨fun s x s' h e => by
  unfold setStatic at e
  split at e <;> cases e
  exact g.put s.vm _ _ h⟩
macro_rules | `(tactic| ckeep_step) => `(tactic| with_reducible exact setStatic_keep _ _)

theorem createCFunction_keep (n : Bytes) (cb : Option Nat) : CKeep (fun s => V s.vm) (createCFunction n cb) := by
  unfold createCFunction
  refine CKeep.bind (CKeep.onVM (g.native _ _)) fun e => CKeep.bind (CKeep.onVM (g.inner _)) fun i => ?_
  ckeep

theorem generateGlobals_keep : CKeep (fun s => V s.vm) generateGlobals := by
  unfold generateGlobals
  ckeep
  exact CKeep.cmod' fun s h => g.names s.vm _ h
macro_rules | `(tactic| ckeep_step) => `(tactic| with_reducible exact generateGlobals_keep)

theorem partiallyFinalize_keep : CKeep (fun s => V s.vm) partiallyFinalize := by
  unfold partiallyFinalize
  ckeep
  exact CKeep.cmodV fun _ => rfl
macro_rules | `(tactic| ckeep_step) => `(tactic| with_reducible exact partiallyFinalize_keep)

theorem popTo_keep (n k : Nat) : CKeep (fun s => V s.vm) (popTo n k) := by
  induction k with
  | zero => unfold popTo; ckeep
  | succ k ih => unfold popTo; ckeep
macro_rules | `(tactic| ckeep_step) => `(tactic| with_reducible exact popTo_keep _ _)

theorem finalize_keep : CKeep (fun s => V s.vm) finalize := by unfold finalize; ckeep

end

end Nk.Cc
