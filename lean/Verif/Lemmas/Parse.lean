import Verif.Spec.Parse
/-!
# The parser on expressions of the grammar
-/
namespace Nk.Cc

namespace CM
theorem bind_eq (x : CM α) (f : α → CM β) : (x >>= f) = CM.bind x f := rfl
theorem pure_eq (a : α) : (Pure.pure a : CM α) = CM.pure a := rfl
theorem bind_ok {x : CM α} {f : α → CM β} {s s' : CS} {a : α} (h : x s = .ok (a, s')) : (x >>= f) s = f a s' := by
  show CM.bind x f s = _; unfold CM.bind; rw [h]
theorem bind_ub {x : CM α} {f : α → CM β} {s : CS} {k : UB} (h : x s = .ub k) : (x >>= f) s = .ub k := by
  show CM.bind x f s = _; unfold CM.bind; rw [h]
theorem assoc (x : CM α) (f : α → CM β) (g : β → CM γ) : ((x >>= f) >>= g) = (x >>= fun a => f a >>= g) := by
  funext s; show CM.bind (CM.bind x f) g s = CM.bind x (fun a => CM.bind (f a) g) s
  unfold CM.bind; cases x s <;> rfl
theorem pure_bind (a : α) (f : α → CM β) : ((Pure.pure a : CM α) >>= f) = f a := rfl
theorem cget_bind (f : CS → CM β) (s : CS) : (cget >>= f) s = f s s := rfl
theorem cmod_bind (g : CS → CS) (f : Unit → CM β) (s : CS) : (cmod g >>= f) s = f () (g s) := rfl
theorem pure_run (a : α) (s : CS) : (Pure.pure a : CM α) s = .ok (a, s) := rfl
end CM

/-! ## Skipping tokens -/

/-- `n` calls of `nkiCompilerNextToken`. -/
def skip : Nat → CS → CS
  | 0, s => s
  | n + 1, s => skip n (advance s)

theorem advance_toks (s : CS) : (advance s).toks = s.toks.tail := by
  unfold advance; split <;> simp_all

theorem skip_toks (n : Nat) (s : CS) : (skip n s).toks = s.toks.drop n := by
  induction n generalizing s with
  | zero => rfl
  | succ n ih => show (skip n (advance s)).toks = _; rw [ih, advance_toks, List.drop_tail]

theorem skip_add (m n : Nat) (s : CS) : skip m (skip n s) = skip (n + m) s := by
  induction n generalizing s with
  | zero => rw [Nat.zero_add]; rfl
  | succ n ih => rw [show n + 1 + m = (n + m) + 1 by omega]; exact ih _

theorem advance_depth (s : CS) (d : Nat) : advance { s with depth := d } = { advance s with depth := d } := by
  unfold advance; dsimp only; split <;> rfl

theorem skip_depth (n : Nat) (s : CS) (d : Nat) : skip n { s with depth := d } = { skip n s with depth := d } := by
  induction n generalizing s with
  | zero => rfl
  | succ n ih => show skip n (advance _) = _; rw [advance_depth, ih]; rfl

theorem advance_depth_eq (s : CS) : (advance s).depth = s.depth := by
  unfold advance; split <;> rfl

theorem skip_depth_eq (n : Nat) (s : CS) : (skip n s).depth = s.depth := by
  induction n generalizing s with
  | zero => rfl
  | succ n ih => exact (ih _).trans (advance_depth_eq s)

theorem skip_toks_of {s : CS} {ts rest : List Token} (h : s.toks = ts ++ rest) : (skip ts.length s).toks = rest := by
  rw [skip_toks, h, List.drop_left]

theorem nextTok_run (s : CS) : nextTok s = .ok ((), skip 1 s) := rfl

theorem nextTok_bind (f : Unit → CM β) (s : CS) : (nextTok >>= f) s = f () (skip 1 s) := rfl

theorem pushRec_run {s : CS} (h : s.depth ≤ 256) : pushRec s = .ok (true, { s with depth := s.depth + 1 }) := by
  unfold pushRec; rw [CM.cget_bind, if_neg (by omega)]; rfl

theorem popRec_run {s : CS} (h : s.depth ≠ 0) : popRec s = .ok ((), { s with depth := s.depth - 1 }) := by
  unfold popRec; rw [CM.cget_bind, if_neg h]; rfl

theorem expectSkip_run {s : CS} {t : Token} {ts : List Token} {ty : TokType} (h : s.toks = t :: ts) (ht : t.type = ty) :
    expectSkip ty s = .ok (true, skip 1 s) := by
  unfold expectSkip curType
  rw [CM.assoc, CM.cget_bind, CM.pure_bind, h]
  rw [if_neg (by show ¬ t.type ≠ ty; simp [ht])]; rfl

theorem curType_run {s : CS} : curType s = .ok (typeOf s.toks, s) := rfl

theorem curType_bind (f : TokType → CM β) (s : CS) : (curType >>= f) s = f (typeOf s.toks) s := rfl

/-! ## Precedence -/

theorem prec_rank (t : TokType) : prec t = -1 ↔ Tree.rank t = 0 := by cases t <;> decide
theorem prec_le (t u : TokType) (ht : 0 < Tree.rank t) (hu : 0 < Tree.rank u) : prec t ≥ prec u ↔ Tree.rank u ≤ Tree.rank t := by
  cases t <;> first | (exact absurd ht (by decide)) | (cases u <;> first | (exact absurd hu (by decide)) | decide)

theorem not_postfix {t : TokType} (h : 0 < Tree.rank t) : isPostfix t = false := by cases t <;> first | rfl | exact absurd h (by decide)
theorem not_end {t : Token} {ts : List Token} (h : 0 < Tree.rank t.type) : isEnd (t :: ts) = false := by
  show (isSubEnd t.type || t.type == .semicolon) = false
  revert h; cases t.type <;> first | (intro _; rfl) | (intro h; exact absurd h (by decide))

/-! ## Binary operators -/

namespace Tree

/-- The operators still waiting for their right operand when the last token of the tree has been read. -/
def spineOps : Tree → List Token
  | leaf _ _ => []
  | op t _ r => r.spineOps ++ [t]

/-- The operands on the stack at that point. -/
def spineVals : Tree → List Node
  | leaf _ v => [v]
  | op _ l r => r.spineVals ++ [l.node]

/-- Number of operators. -/
def nops : Tree → Nat
  | leaf _ _ => 0
  | op _ l r => l.nops + r.nops + 1

end Tree

open Tree

theorem reduceWhile_tree (t : TokType) (ht : 0 < rank t) (T : Tree) (hT : T.Grouped) (h : T.top ≤ rank t) (ops : List Token)
    (vals : List Node) :
    reduceWhile t (T.spineOps ++ ops) (T.spineVals ++ vals) = reduceWhile t ops (T.node :: vals) := by
  induction T generalizing ops vals with
  | leaf ts v => rfl
  | op u l r _ ihr =>
    obtain ⟨hu, _, hr, _, hgr⟩ := hT
    have h' : rank u.type ≤ rank t := h
    show reduceWhile t (r.spineOps ++ [u] ++ ops) (r.spineVals ++ [l.node] ++ vals) = _
    rw [List.append_assoc, List.append_assoc, ihr hgr (by omega)]
    show reduceWhile t (u :: ops) (r.node :: l.node :: vals) = _
    conv => lhs; unfold reduceWhile
    rw [if_pos ((prec_le t u.type ht hu).2 h')]
    rfl

theorem reduceAll_tree (T : Tree) (ops : List Token) (vals : List Node) :
    reduceAll (T.spineOps ++ ops) (T.spineVals ++ vals) = reduceAll ops (T.node :: vals) := by
  induction T generalizing ops vals with
  | leaf ts v => rfl
  | op u l r _ ihr =>
    show reduceAll (r.spineOps ++ [u] ++ ops) (r.spineVals ++ [l.node] ++ vals) = _
    rw [List.append_assoc, List.append_assoc, ihr]
    rfl

/-- Nothing on the operator stack binds as tightly as rank `n`. -/
def Looser (n : Nat) : List Token → Prop
  | [] => True
  | u :: _ => 0 < rank u.type ∧ n < rank u.type

theorem reduceWhile_stop {t : TokType} (ht : 0 < rank t) {ops : List Token} (h : Looser (rank t) ops) (vals : List Node) :
    reduceWhile t ops vals = .ok (some (ops, vals)) := by
  cases ops with
  | nil => rfl
  | cons u us =>
    unfold reduceWhile
    rw [if_neg]
    have := prec_le t u.type ht h.1
    rw [this]; have := h.2; omega

/-- The loop after an operand. -/
def afterOperand (pe : CM Node) (fd : CM (Option Nat)) (n : Nat) (ops : List Token) (vals : List Node) :
    CM (Option (List Token × List Node)) := do
  let s ← cget
  if isEnd s.toks then return (some (ops, vals))
  else
    match s.toks with
    | [] => cub .null
    | t :: _ =>
      if prec t.type = -1 then do
        err "Unknown operator: "
        return none
      else
        match reduceWhile t.type ops vals with
        | .ub k => cub k
        | .ok none => do
          err "Expression parse failure."
          return none
        | .ok (some (ops, vals)) => do
          nextTok
          exprLoop pe fd n (t :: ops) vals

theorem exprLoop_succ (pe : CM Node) (fd : CM (Option Nat)) (n : Nat) (ops : List Token) (vals : List Node) :
    exprLoop pe fd (n + 1) ops vals = (do
      let s ← cget
      if isEnd s.toks then return (some (ops, vals))
      else do
        match ← operand pe fd with
        | none => return none
        | some v => afterOperand pe fd n ops (v :: vals)) := rfl

/-- Rest of the input after an operand: it does not go on with a postfix operator. -/
def NoPost (rest : List Token) : Prop := isPostfix (typeOf rest) = false

/-- The operand parser reads exactly the tokens `ts` and makes the tree `v`, with nesting depth `D` at most before. -/
def Reads (pe : CM Node) (fd : CM (Option Nat)) (D : Nat) (ts : List Token) (v : Node) : Prop :=
  isEnd ts = false ∧ ∀ s rest, s.depth ≤ D → s.toks = ts ++ rest → NoPost rest →
    operand pe fd s = .ok (some v, skip ts.length s)

theorem isEnd_append {ts rest : List Token} (h : isEnd ts = false) : isEnd (ts ++ rest) = false := by
  cases ts with
  | nil => exact absurd h (by decide)
  | cons t ts => exact h

theorem tree_not_end {P : List Token → Node → Prop} (hP : ∀ ts v, P ts v → isEnd ts = false) (T : Tree) (h : T.All P) :
    isEnd T.toks = false := by
  induction T with
  | leaf ts v => exact hP _ _ h
  | op t l r ihl _ => exact isEnd_append (ihl h.1)

theorem loop_tree {pe : CM Node} {fd : CM (Option Nat)} {D : Nat} (T : Tree) (hg : T.Grouped) (ha : T.All (Reads pe fd D))
    {s : CS} {rest : List Token} (hd : s.depth ≤ D) (hs : s.toks = T.toks ++ rest) (hp : NoPost rest)
    {ops : List Token} (ho : Looser T.top ops) (vals : List Node) (n : Nat) :
    exprLoop pe fd (T.nops + n + 1) ops vals s
      = afterOperand pe fd n (T.spineOps ++ ops) (T.spineVals ++ vals) (skip T.toks.length s) := by
  induction T generalizing s rest ops vals n with
  | leaf ts v =>
    rw [exprLoop_succ, CM.cget_bind, hs]
    rw [if_neg (by simp [isEnd_append (rest := rest) ha.1, Tree.toks])]
    have := ha.2 s rest hd hs hp
    refine (CM.bind_ok this).trans ?_
    rw [show (Tree.leaf ts v).nops + n = n by simp [Tree.nops]]
    rfl
  | op t l r ihl ihr =>
    obtain ⟨ht, hl, hr, hgl, hgr⟩ := hg
    have hs' : s.toks = l.toks ++ (t :: r.toks ++ rest) := by simp [hs, Tree.toks]
    have hlo : Looser l.top ops := by
      cases ops with
      | nil => trivial
      | cons u us => exact ⟨ho.1, Nat.lt_of_le_of_lt hl ho.2⟩
    rw [show (Tree.op t l r).nops + n + 1 = l.nops + (r.nops + n + 1) + 1 by simp only [Tree.nops]; omega]
    rw [ihl hgl ha.1 hd hs' (not_postfix ht) hlo]
    have h1 : (skip l.toks.length s).toks = t :: r.toks ++ rest := skip_toks_of hs'
    unfold afterOperand
    rw [CM.cget_bind, h1]
    rw [if_neg (by simpa using (not_end ht : isEnd (t :: (r.toks ++ rest)) = false))]
    show (if prec t.type = -1 then _ else _ : CM _) _ = _
    rw [if_neg (by rw [prec_rank]; omega)]
    rw [reduceWhile_tree t.type ht l hgl hl, reduceWhile_stop ht (by exact ho)]
    show (nextTok >>= _) _ = _
    rw [nextTok_bind, skip_add]
    have h2 : (skip (l.toks.length + 1) s).toks = r.toks ++ rest := by
      rw [← skip_add, skip_toks, h1]; rfl
    rw [ihr hgr ha.2 (by rw [skip_depth_eq]; exact hd) h2 hp (ops := t :: ops) ⟨ht, hr⟩]
    rw [skip_add]
    rw [show (Tree.op t l r).spineOps ++ ops = r.spineOps ++ t :: ops by simp [spineOps]]
    rw [show (Tree.op t l r).spineVals ++ vals = r.spineVals ++ l.node :: vals by simp [spineVals]]
    rw [show (Tree.op t l r).toks.length = l.toks.length + 1 + r.toks.length by simp [Tree.toks]; omega]
    rfl

theorem nops_le (P : List Token → Node → Prop) (hP : ∀ ts v, P ts v → isEnd ts = false) (T : Tree) (h : T.All P) :
    T.nops < T.toks.length := by
  induction T with
  | leaf ts v =>
    have := hP _ _ h
    cases ts with
    | nil => exact absurd this (by decide)
    | cons _ _ => simp [Tree.nops, Tree.toks]
  | op t l r ihl ihr => have := ihl h.1; have := ihr h.2; simp [Tree.nops, Tree.toks]; omega

theorem noPost_end {rest : List Token} (h : isEnd rest = true) : NoPost rest := by
  unfold NoPost
  cases rest with
  | nil => rfl
  | cons t ts =>
    have h' : (isSubEnd t.type || t.type == .semicolon) = true := h
    show isPostfix t.type = false
    revert h'; cases t.type <;> first | (intro _; rfl) | (intro h; exact absurd h (by decide))

/-- A whole expression. -/
theorem body_tree {pe : CM Node} {fd : CM (Option Nat)} {D : Nat} (T : Tree) (hg : T.Grouped) (ha : T.All (Reads pe fd (D + 1)))
    {s : CS} {rest : List Token} (hd : s.depth ≤ D) (hD : D ≤ 256) (hs : s.toks = T.toks ++ rest) (he : isEnd rest = true) :
    parseExprBody fd pe s = .ok (T.node, skip T.toks.length s) := by
  unfold parseExprBody
  rw [CM.bind_ok (pushRec_run (by omega))]
  simp only [if_true]
  rw [CM.cget_bind]
  have hn := nops_le _ (fun _ _ h => h.1) T ha
  have hf : s.toks.length + 1 = T.nops + (s.toks.length - T.nops) + 1 := by
    rw [hs]; simp only [List.length_append]; omega
  have hloop := loop_tree T hg ha (s := { s with depth := s.depth + 1 }) (by show s.depth + 1 ≤ _; omega) hs
    (noPost_end he) (ops := []) trivial [] (s.toks.length - T.nops)
  have hend : exprLoop pe fd (s.toks.length + 1) [] [] { s with depth := s.depth + 1 }
      = .ok (some (T.spineOps ++ [], T.spineVals ++ []), skip T.toks.length { s with depth := s.depth + 1 }) := by
    rw [hf, hloop]
    unfold afterOperand
    have h1 : (skip T.toks.length { s with depth := s.depth + 1 }).toks = rest := skip_toks_of hs
    rw [CM.cget_bind, h1, if_pos he]; rfl
  refine (CM.bind_ok hend).trans ?_
  have hpe : parseEnd (T.spineOps ++ []) (T.spineVals ++ []) = (Pure.pure T.node : CM Node) := by
    unfold parseEnd; rw [reduceAll_tree]; rfl
  dsimp only
  rw [hpe, CM.pure_bind]
  have hdep : (skip T.toks.length { s with depth := s.depth + 1 }).depth = s.depth + 1 := skip_depth_eq _ _
  rw [CM.bind_ok (popRec_run (by rw [hdep]; omega))]
  rw [CM.pure_run, hdep, skip_depth]
  show Res.ok (T.node, { skip T.toks.length s with depth := s.depth }) = _
  rw [show s.depth = (skip T.toks.length s).depth from (skip_depth_eq _ _).symm]


/-! ## Operands -/

/-- The expression parser reads exactly the tokens `ts`, up to a token that ends an expression. -/
def ReadsE (pe : CM Node) (D : Nat) (ts : List Token) (v : Node) : Prop :=
  isEnd ts = false ∧ v ≠ .nil ∧ ∀ s rest, s.depth ≤ D → s.toks = ts ++ rest → isEnd rest = true →
    pe s = .ok (v, skip ts.length s)

theorem ReadsE.pos {pe : CM Node} {D : Nat} {ts : List Token} {v : Node} (h : ReadsE pe D ts v) : 0 < ts.length := by
  cases ts with
  | nil => exact absurd h.1 (by decide)
  | cons _ _ => simp

theorem typeOf_append {ts rest : List Token} (h : isEnd ts = false) : typeOf (ts ++ rest) = typeOf ts := by
  cases ts with
  | nil => exact absurd h (by decide)
  | cons t ts => rfl

theorem typeOf_not_end {ts : List Token} (h : isEnd ts = false) : typeOf ts ≠ .parenClose := by
  cases ts with
  | nil => exact absurd h (by decide)
  | cons t ts =>
    intro hc
    have h' : (isSubEnd t.type || t.type == .semicolon) = false := h
    have hc' : t.type = .parenClose := hc
    rw [hc'] at h'; exact absurd h' (by decide)

/-- The tokens are real ones. -/
def Valid (ts : List Token) : Prop := typeOf ts ≠ .invalid

theorem argLoop_stop (pe : CM Node) (n : Nat) (acc : List Node) {s : CS} {c : Token} {rest : List Token}
    (hs : s.toks = c :: rest) (hc : c.type = .parenClose) : argLoop pe (n + 1) acc s = .ok (some acc, s) := by
  unfold argLoop
  rw [curType_bind, hs, if_neg (by simp [typeOf, hc])]; rfl

theorem argLoop_args {pe : CM Node} {D : Nat} {E : List Token → Node → Prop}
    (hE : ∀ ts v, E ts v → ReadsE pe D ts v ∧ Valid ts)
    {ts : List Token} {vs : List Node} (h : Args1 E ts vs) :
    ∀ {s : CS} {c : Token} {rest : List Token}, s.depth ≤ D → s.toks = ts ++ c :: rest → c.type = .parenClose →
      ∀ (n : Nat) (acc : List Node), argLoop pe (n + ts.length + 1) acc s = .ok (some (acc ++ vs), skip ts.length s) := by
  induction h with
  | @one ts v h =>
    intro s c rest hd hs hc n acc
    obtain ⟨hr, hv⟩ := hE _ _ h
    have h1 := hr.2.2 s (c :: rest) hd hs (by show (isSubEnd c.type || _) = true; rw [hc]; rfl)
    have h2 : (skip ts.length s).toks = c :: rest := skip_toks_of hs
    obtain ⟨m, hm⟩ : ∃ m, n + ts.length = m + 1 := ⟨n + ts.length - 1, by have := hr.pos; omega⟩
    unfold argLoop
    rw [curType_bind, hs, typeOf_append hr.1, if_pos ⟨hv, typeOf_not_end hr.1⟩]
    rw [CM.bind_ok h1, if_neg hr.2.1, curType_bind, h2]
    rw [if_neg (by simp [typeOf, hc]), if_pos (by simp [typeOf, hc])]
    rw [hm, argLoop_stop pe m _ h2 hc]
  | @cons ts v h k hk us vs hs' ih =>
    intro s c rest hd hs hc n acc
    obtain ⟨hr, hv⟩ := hE _ _ h
    have hs1 : s.toks = ts ++ (k :: us ++ c :: rest) := by simp [hs]
    have h1 := hr.2.2 s _ hd hs1 (by show (isSubEnd k.type || _) = true; rw [hk]; rfl)
    have h2 : (skip ts.length s).toks = k :: us ++ c :: rest := skip_toks_of hs1
    have h3 : (skip (ts.length + 1) s).toks = us ++ c :: rest := by rw [← skip_add, skip_toks, h2]; rfl
    unfold argLoop
    rw [curType_bind, hs1, typeOf_append hr.1, if_pos ⟨hv, typeOf_not_end hr.1⟩]
    rw [CM.bind_ok h1, if_neg hr.2.1, curType_bind, h2]
    rw [if_pos (by simp [typeOf, hk]), nextTok_bind, skip_add]
    rw [show n + (ts ++ k :: us).length = (n + ts.length) + us.length + 1 by simp; omega]
    rw [ih (by rw [skip_depth_eq]; exact hd) h3 hc, skip_add]
    rw [show (ts ++ k :: us).length = ts.length + 1 + us.length by simp; omega]; simp

theorem parseCall_args {pe : CM Node} {D : Nat} {E : List Token → Node → Prop}
    (hE : ∀ ts v, E ts v → ReadsE pe (D + 1) ts v ∧ Valid ts) (hD : D ≤ 256)
    {ts : List Token} {vs : List Node} (h : Args E ts vs) {s : CS} {o c : Token} {rest : List Token} (hd : s.depth ≤ D)
    (hs : s.toks = o :: ts ++ c :: rest) (hc : c.type = .parenClose) :
    parseCall pe s = .ok (some vs, skip (ts.length + 2) s) := by
  have h1 : (skip 1 { s with depth := s.depth + 1 }).toks = ts ++ c :: rest := by
    rw [skip_toks]; show s.toks.drop 1 = _; rw [hs]; rfl
  have hdd : (skip 1 { s with depth := s.depth + 1 }).depth ≤ D + 1 := by rw [skip_depth_eq]; show s.depth + 1 ≤ _; omega
  have hargs : argLoop pe ((skip 1 { s with depth := s.depth + 1 }).toks.length + 1) []
      (skip 1 { s with depth := s.depth + 1 })
      = .ok (some vs, skip ts.length (skip 1 { s with depth := s.depth + 1 })) := by
    cases h with
    | none => exact argLoop_stop pe _ [] h1 hc
    | some h =>
      have := argLoop_args hE h hdd h1 hc (rest.length + 1) []
      rw [h1]
      rw [show (ts ++ c :: rest).length = rest.length + 1 + ts.length by simp; omega]
      exact this
  unfold parseCall
  rw [CM.bind_ok (pushRec_run (by omega))]
  simp only [if_true]
  rw [nextTok_bind, CM.cget_bind, CM.bind_ok hargs]
  dsimp only
  have h2 : (skip ts.length (skip 1 { s with depth := s.depth + 1 })).toks = c :: rest := skip_toks_of h1
  rw [CM.bind_ok (expectSkip_run h2 hc)]
  rw [skip_add, skip_add]
  have hdep : (skip (1 + (ts.length + 1)) { s with depth := s.depth + 1 }).depth = s.depth + 1 := skip_depth_eq _ _
  rw [CM.bind_ok (popRec_run (by rw [hdep]; omega))]
  rw [CM.pure_run, hdep, skip_depth]
  rw [show 1 + (ts.length + 1) = ts.length + 2 by omega]
  show Res.ok (some vs, { skip (ts.length + 2) s with depth := s.depth }) = _
  rw [show s.depth = (skip (ts.length + 2) s).depth from (skip_depth_eq _ _).symm]

/-- The loop over postfix operators reads the tokens `ts` and collects `ps`. -/
def ReadsPost (pe : CM Node) (D : Nat) (ts : List Token) (ps : List Post) : Prop :=
  ∀ s rest, s.depth ≤ D → s.toks = ts ++ rest → ∀ n acc, ∃ m, n ≤ m ∧
    postLoop pe (n + ts.length) acc s = postLoop pe m (acc ++ ps) (skip ts.length s)

theorem ReadsPost.nil (pe : CM Node) (D : Nat) : ReadsPost pe D [] [] :=
  fun s rest _ _ n acc => ⟨n, Nat.le_refl _, by rw [List.append_nil]; rfl⟩

theorem ReadsPost.append {pe : CM Node} {D : Nat} {ts us : List Token} {ps qs : List Post} (h : ReadsPost pe D ts ps)
    (h' : ReadsPost pe D us qs) : ReadsPost pe D (ts ++ us) (ps ++ qs) := by
  intro s rest hd hs n acc
  rw [List.append_assoc] at hs
  obtain ⟨m, hm, he⟩ := h s _ hd hs (n + us.length) acc
  obtain ⟨k, hk, he'⟩ := h' (skip ts.length s) rest (by rw [skip_depth_eq]; exact hd) (skip_toks_of hs) (m - us.length)
    (acc ++ ps)
  refine ⟨k, by omega, ?_⟩
  rw [show n + (ts ++ us).length = n + us.length + ts.length by simp; omega, he]
  rw [show m = m - us.length + us.length by omega, he', skip_add, List.append_assoc, List.length_append]

theorem ReadsPost.one {pe : CM Node} {D : Nat} {t : Token} {us : List Token} {ps : List Post} (ht : isPostfix t.type = true)
    (h : ∀ s rest, s.depth ≤ D → s.toks = t :: us ++ rest →
      parsePost pe t s = .ok (some ps, skip (us.length + 1) s)) : ReadsPost pe D (t :: us) ps := by
  intro s rest hd hs n acc
  refine ⟨n + us.length, by omega, ?_⟩
  show postLoop pe (n + us.length + 1) acc s = _
  conv => lhs; unfold postLoop
  rw [CM.cget_bind, hs]
  show (if isPostfix t.type = true then _ else _ : CM _) s = _
  rw [if_pos ht, CM.bind_ok (h s rest hd hs)]
  rfl

/-- A value is read. -/
def ReadsPrim (pe : CM Node) (fd : CM (Option Nat)) (D : Nat) (ts : List Token) (v : Node) : Prop :=
  isEnd ts = false ∧ isPrefix (typeOf ts) = false ∧ v ≠ .nil ∧ ∀ s rest, s.depth ≤ D → s.toks = ts ++ rest →
    parseValue pe fd s = .ok (some v, skip ts.length s)

theorem primary_reads {pe : CM Node} {fd : CM (Option Nat)} {D : Nat} {E : List Token → Node → Prop}
    (hE : ∀ ts v, E ts v → ReadsE pe D ts v ∧ Valid ts) {ts : List Token} {v : Node} (h : Primary E ts v) :
    ReadsPrim pe fd D ts v ∧ Valid ts := by
  cases h with
  | atom t h =>
    have h1 : isEnd [t] = false := by
      show (isSubEnd t.type || t.type == .semicolon) = false
      revert h; cases t.type <;> first | (intro _; rfl) | (intro h; exact absurd h (by decide))
    have h2 : isPrefix t.type = false := by
      revert h; cases t.type <;> first | (intro _; rfl) | (intro h; exact absurd h (by decide))
    have h3 : t.type ≠ .parenOpen := by intro hc; rw [hc] at h; exact absurd h (by decide)
    have h4 : t.type ≠ .kwFunction := by intro hc; rw [hc] at h; exact absurd h (by decide)
    have h5 : t.type ≠ .invalid := by intro hc; rw [hc] at h; exact absurd h (by decide)
    refine ⟨⟨h1, h2, by simp [leafNode], fun s rest hd hs => ?_⟩, h5⟩
    unfold parseValue
    rw [CM.cget_bind, hs]
    show (if t.type = .parenOpen then _ else _ : CM _) s = _
    rw [if_neg h3]
    rw [if_neg (by simpa using (isEnd_append h1 : isEnd ([t] ++ rest) = false)), if_neg h4]
    rfl
  | @paren o c ho hc ts v h =>
    obtain ⟨hr, hv⟩ := hE _ _ h
    refine ⟨⟨?_, ?_, hr.2.1, fun s rest hd hs => ?_⟩, ?_⟩
    · show (isSubEnd o.type || o.type == .semicolon) = false; rw [ho]; rfl
    · show isPrefix o.type = false; rw [ho]; rfl
    · have h1 : (skip 1 s).toks = ts ++ c :: rest := by rw [skip_toks, hs]; simp
      have h2 := hr.2.2 (skip 1 s) (c :: rest) (by rw [skip_depth_eq]; exact hd) h1
        (by show (isSubEnd c.type || _) = true; rw [hc]; rfl)
      have h3 : (skip ts.length (skip 1 s)).toks = c :: rest := skip_toks_of h1
      unfold parseValue
      rw [CM.cget_bind, hs]
      show (if o.type = .parenOpen then _ else _ : CM _) s = _
      rw [if_pos ho, nextTok_bind, CM.bind_ok h2, if_neg hr.2.1, CM.cget_bind, h3]
      show (if isSubEnd c.type = true then _ else _ : CM _) _ = _
      rw [if_pos (by rw [hc]; rfl), nextTok_bind, CM.pure_run, skip_add, skip_add]
      simp; congr 1; omega
    · show o.type ≠ .invalid; rw [ho]; decide

/-- An operand without prefix operators, split into value and postfix operators. -/
def Splits (pe : CM Node) (fd : CM (Option Nat)) (D : Nat) (ts : List Token) (v : Node)
    (E : List Token → Node → Prop) : Prop :=
  ∃ us w ws ps, ts = us ++ ws ∧ ReadsPrim pe fd D us w ∧ Valid us ∧ ReadsPost pe D ws ps ∧ attachPost w ps = .ok v ∧
    v ≠ .nil ∧ (ps = [] → Primary E ts v)

theorem chain_append (v : Node) (ps qs : List Post) : chain v (ps ++ qs) = chain (chain v ps) qs := List.foldl_append ..

theorem attachPost_append {w v : Node} {ps qs : List Post} (h : attachPost w ps = .ok v) (hp : ps ≠ []) :
    attachPost w (ps ++ qs) = .ok (chain v qs) := by
  cases ps with
  | nil => exact absurd rfl hp
  | cons p ps =>
    cases w with
    | nil => exact absurd h (by unfold attachPost; simp)
    | mk t b l r =>
      unfold attachPost at h ⊢
      dsimp only [List.cons_append] at h ⊢
      split at h
      · rename_i hc
        rw [if_pos hc]
        split at h
        · rename_i hc'
          rw [if_pos hc']
          injection h with h; subst h; rw [chain_append]
        · exact absurd h (by simp)
      · rename_i hc
        rw [if_neg hc]
        injection h with h; subst h
        rw [← chain_append]; rfl

theorem splits_add {pe : CM Node} {fd : CM (Option Nat)} {D : Nat} {ts : List Token} {v : Node} {E : List Token → Node → Prop}
    (h : Splits pe fd D ts v E) {ws : List Token} {q : Post} {qs : List Post} (hq : ReadsPost pe D ws (q :: qs))
    (hf : Primary E ts v → isFSE v = false ∨ q.tok.type ≠ .parenOpen) :
    Splits pe fd D (ts ++ ws) (chain v (q :: qs)) E := by
  obtain ⟨us, w, ws', ps, ht, hw, hv, hps, ha, hvn, hprim⟩ := h
  have hcn : ∀ (l : List Post) (v : Node), v ≠ .nil → chain v l ≠ .nil := by
    intro l
    induction l with
    | nil => intro v hv; exact hv
    | cons p l ih => intro v _; exact ih _ (by simp)
  refine ⟨us, w, ws' ++ ws, ps ++ q :: qs, by rw [ht, List.append_assoc], hw, hv, hps.append hq, ?_, hcn _ _ hvn, by simp⟩
  by_cases hp : ps = []
  · subst hp
    have hvw : w = v := by
      cases w <;> (injection ha)
    subst hvw
    have hf' := hf (hprim rfl)
    cases w with
    | nil => exact absurd rfl hvn
    | mk t b l r =>
      show attachPost (.mk t b l r) (q :: qs) = _
      unfold attachPost
      dsimp only
      rw [if_neg]
      rintro ⟨h1, h2⟩
      rcases hf' with h | h
      · simp [isFSE, h1] at h
      · exact h h2
  · exact attachPost_append ha hp

theorem parsePost_bracket {pe : CM Node} {t : Token} (h : t.type = .bracketOpen) : parsePost pe t = (do
    nextTok
    let i ← pe
    if i = .nil then do
      err "Index subexpression parse failure."
      return none
    else if ← expectSkip .bracketClose then return (some [⟨t, false, i⟩])
    else return none) := by
  unfold parsePost; rw [if_neg (by simp [h]), if_neg (by simp [h]), if_pos h]

theorem parsePost_paren {pe : CM Node} {t : Token} (h : t.type = .parenOpen) : parsePost pe t = (do
    match ← parseCall pe with
    | none => return none
    | some args => return (some [⟨t, true, argChain t args⟩])) := by
  unfold parsePost; rw [if_neg (by simp [h]), if_neg (by simp [h]), if_neg (by simp [h]), if_pos h]; rfl

theorem reads_index {pe : CM Node} {D : Nat} {is : List Token} {i : Node} (hi : ReadsE pe D is i) {o c : Token}
    (ho : o.type = .bracketOpen) (hc : c.type = .bracketClose) : ReadsPost pe D (o :: is ++ [c]) [⟨o, false, i⟩] := by
  refine ReadsPost.one (us := is ++ [c]) (by rw [ho]; rfl) fun s rest hd hs => ?_
  have h1 : (skip 1 s).toks = is ++ c :: rest := by rw [skip_toks, hs]; simp
  have h2 := hi.2.2 (skip 1 s) (c :: rest) (by rw [skip_depth_eq]; exact hd) h1
    (by show (isSubEnd c.type || _) = true; rw [hc]; rfl)
  have h3 : (skip is.length (skip 1 s)).toks = c :: rest := skip_toks_of h1
  rw [parsePost_bracket ho, nextTok_bind, CM.bind_ok h2, if_neg hi.2.1, CM.bind_ok (expectSkip_run h3 hc)]
  rw [if_pos rfl, CM.pure_run, skip_add, skip_add]
  simp; congr 1; omega

theorem reads_call {pe : CM Node} {D : Nat} {E : List Token → Node → Prop}
    (hE : ∀ ts v, E ts v → ReadsE pe (D + 1) ts v ∧ Valid ts) (hD : D ≤ 256)
    {as : List Token} {vs : List Node} (h : Args E as vs) {o c : Token}
    (ho : o.type = .parenOpen) (hc : c.type = .parenClose) :
    ReadsPost pe D (o :: as ++ [c]) [⟨o, true, argChain o vs⟩] := by
  refine ReadsPost.one (us := as ++ [c]) (by rw [ho]; rfl) fun s rest hd hs => ?_
  have := parseCall_args hE hD h hd (by simpa using hs) hc
  rw [parsePost_paren ho, CM.bind_ok this]
  show Res.ok _ = _
  simp

theorem parseDot_ident {pe : CM Node} (ind : Bool) {s : CS} {d n : Token} {rest : List Token} (hs : s.toks = d :: n :: rest)
    (hn : n.type = .identifier) : parseDot pe ind s = (if ind then do
        let s ← cget
        match s.toks with
        | u :: _ =>
          if u.type = .parenOpen then do
            match ← parseCall pe with
            | none => return none
            | some args =>
              return (some [⟨made .indexIntoNoPop (cs "[") n.line, false, nameNode n⟩,
                ⟨made .functionCallWithSelf (cs "(") u.line, true,
                  argChain (made .functionCallWithSelf (cs "(") u.line) args⟩])
          else do
            err "Expected function call after '->'."
            return none
        | [] => do
          err "Expected function call after '->'."
          return none
      else return (some [⟨made .bracketOpen (cs "[") n.line, false, nameNode n⟩]) : CM (Option (List Post))) (skip 2 s) := by
  have h1 : (skip 1 s).toks = n :: rest := by rw [skip_toks, hs]; rfl
  unfold parseDot
  rw [nextTok_bind, CM.cget_bind, h1]
  show (if n.type = .identifier then _ else _ : CM _) _ = _
  rw [if_pos hn, nextTok_bind, skip_add]
  rfl

theorem reads_dot {pe : CM Node} {D : Nat} {d n : Token} (hd : d.type = .dot) (hn : n.type = .identifier) :
    ReadsPost pe D [d, n] [⟨made .bracketOpen (cs "[") n.line, false, nameNode n⟩] := by
  refine ReadsPost.one (us := [n]) (by rw [hd]; rfl) fun s rest _ hs => ?_
  unfold parsePost
  rw [if_pos hd, parseDot_ident false (by simpa using hs) hn]
  rfl

theorem reads_self {pe : CM Node} {D : Nat} {E : List Token → Node → Prop}
    (hE : ∀ ts v, E ts v → ReadsE pe (D + 1) ts v ∧ Valid ts) (hD : D ≤ 256)
    {as : List Token} {vs : List Node} (h : Args E as vs) {d n o c : Token} (hd : d.type = .cIndirection)
    (hn : n.type = .identifier) (ho : o.type = .parenOpen) (hc : c.type = .parenClose) :
    ReadsPost pe D (d :: n :: o :: as ++ [c])
      [⟨made .indexIntoNoPop (cs "[") n.line, false, nameNode n⟩,
       ⟨made .functionCallWithSelf (cs "(") o.line, true, argChain (made .functionCallWithSelf (cs "(") o.line) vs⟩] := by
  refine ReadsPost.one (us := n :: o :: as ++ [c]) (by rw [hd]; rfl) fun s rest hdep hs => ?_
  have hs' : s.toks = d :: n :: (o :: as ++ c :: rest) := by simpa using hs
  have h1 : (skip 2 s).toks = o :: as ++ c :: rest := by rw [skip_toks, hs']; rfl
  have h2 := parseCall_args hE hD h (by rw [skip_depth_eq]; exact hdep) h1 hc
  unfold parsePost
  rw [if_neg (by simp [hd]), if_pos hd, parseDot_ident true hs' hn, if_pos rfl, CM.cget_bind, h1]
  show (if o.type = .parenOpen then _ else _ : CM _) _ = _
  rw [if_pos ho, CM.bind_ok h2]
  show Res.ok _ = _
  rw [skip_add, show (n :: o :: as ++ [c]).length + 1 = 2 + (as.length + 2) by simp; omega]

theorem reads_inc {pe : CM Node} {D : Nat} {t : Token} (ht : t.type = .increment) :
    ReadsPost pe D [t] [⟨made .postIncrement (cs "++") t.line, false, .nil⟩] := by
  refine ReadsPost.one (us := []) (by rw [ht]; rfl) fun s rest _ hs => ?_
  unfold parsePost
  rw [if_neg (by simp [ht]), if_neg (by simp [ht]), if_neg (by simp [ht]), if_neg (by simp [ht]), if_pos ht]
  rfl

theorem reads_dec {pe : CM Node} {D : Nat} {t : Token} (ht : t.type = .decrement) :
    ReadsPost pe D [t] [⟨made .postDecrement (cs "--") t.line, false, .nil⟩] := by
  refine ReadsPost.one (us := []) (by rw [ht]; rfl) fun s rest _ hs => ?_
  unfold parsePost
  rw [if_neg (by simp [ht]), if_neg (by simp [ht]), if_neg (by simp [ht]), if_neg (by simp [ht]), if_neg (by simp [ht]),
    if_pos ht]
  rfl

theorem postfixed_splits {pe : CM Node} {fd : CM (Option Nat)} {D : Nat} {E : List Token → Node → Prop}
    (hE : ∀ ts v, E ts v → ReadsE pe (D + 1) ts v ∧ Valid ts) (hD : D ≤ 256) {ts : List Token} {v : Node}
    (h : Postfixed E ts v) : Splits pe fd D ts v E := by
  have hE' : ∀ ts v, E ts v → ReadsE pe D ts v ∧ Valid ts := fun ts v h =>
    ⟨⟨(hE ts v h).1.1, (hE ts v h).1.2.1, fun s rest hd => (hE ts v h).1.2.2 s rest (by omega)⟩, (hE ts v h).2⟩
  induction h with
  | @primary ts v h =>
    obtain ⟨hp, hv⟩ := primary_reads (fd := fd) hE' h
    exact ⟨ts, v, [], [], by simp, hp, hv, ReadsPost.nil _ _, by cases v <;> rfl, hp.2.2.1, fun _ => h⟩
  | fse t o c ht ho hc h =>
    refine ⟨[t], leafNode t, o :: _ ++ [c], _, rfl, ⟨?_, ?_, by simp [leafNode], fun s rest hd hs => ?_⟩, ?_,
      reads_call hE hD h ho hc, ?_, by simp, by simp⟩
    · show (isSubEnd t.type || t.type == .semicolon) = false; rw [ht]; rfl
    · show isPrefix t.type = false; rw [ht]; rfl
    · unfold parseValue
      rw [CM.cget_bind, hs]
      show (if t.type = .parenOpen then _ else _ : CM _) s = _
      rw [if_neg (by simp [ht])]
      rw [if_neg (by
        show ¬ (isSubEnd t.type || t.type == .semicolon) = true
        rw [ht]; decide), if_neg (by simp [ht])]
      rfl
    · show t.type ≠ .invalid; rw [ht]; decide
    · unfold attachPost leafNode
      dsimp only
      rw [if_pos ⟨ht, ho⟩, if_pos ⟨rfl, rfl⟩, ht]; rfl
  | index h o c ho hc hi ih =>
    exact splits_add ih (reads_index (hE' _ _ hi).1 ho hc) (fun _ => .inr (by simp [ho]))
  | call h hf o c ho hc ha ih =>
    exact splits_add ih (reads_call hE hD ha ho hc) (fun hp => .inl (hf hp))
  | dot h d n hd hn ih => exact splits_add ih (reads_dot hd hn) (fun _ => .inr (by simp [made]))
  | self h d n o c hd hn ho hc ha ih =>
    exact splits_add ih (reads_self hE hD ha hd hn ho hc) (fun _ => .inr (by simp [made]))
  | inc h t ht ih => exact splits_add ih (reads_inc ht) (fun _ => .inr (by simp [made]))
  | dec h t ht ih => exact splits_add ih (reads_dec ht) (fun _ => .inr (by simp [made]))

theorem postLoop_stop (pe : CM Node) (n : Nat) (acc : List Post) {s : CS} (h : NoPost s.toks) :
    postLoop pe (n + 1) acc s = .ok (some acc, s) := by
  unfold postLoop
  rw [CM.cget_bind]
  cases hs : s.toks with
  | nil => rfl
  | cons t ts =>
    rw [hs] at h
    show (if isPostfix t.type = true then _ else _ : CM _) s = _
    rw [if_neg (by have h' : isPostfix t.type = false := h; simp [h'])]; rfl

theorem isPrefixOp_eq (t : TokType) : isPrefixOp t = isPrefix t := by cases t <;> rfl

/-- The prefix operators of an operand and the rest. -/
theorem prefixed_split {E : List Token → Node → Prop} {ts : List Token} {v : Node} (h : Prefixed E ts v) :
    ∃ pre us w, ts = pre ++ us ∧ (∀ t ∈ pre, isPrefix t.type = true) ∧ Postfixed E us w ∧ v = attachPre pre w := by
  induction h with
  | none h => exact ⟨[], _, _, rfl, by simp, h, rfl⟩
  | cons t ht h ih =>
    obtain ⟨pre, us, w, h1, h2, h3, h4⟩ := ih
    refine ⟨t :: pre, us, w, by rw [h1]; rfl, ?_, h3, by rw [h4]; rfl⟩
    intro u hu
    rcases List.mem_cons.1 hu with rfl | hu
    · rw [← isPrefixOp_eq]; exact ht
    · exact h2 u hu

theorem prefixLoop_run : ∀ (pre : List Token) (acc : List Token) (n : Nat) {s : CS} {rest : List Token},
    (∀ t ∈ pre, isPrefix t.type = true) → s.toks = pre ++ rest → isPrefix (typeOf rest) = false →
    prefixLoop (n + pre.length + 1) acc s = .ok (acc ++ pre, skip pre.length s)
  | [], acc, n, s, rest, _, hs, hr => by
    unfold prefixLoop
    rw [CM.cget_bind, hs]
    cases rest with
    | nil => show Res.ok (acc, s) = _; simp [skip]
    | cons t ts =>
      show (if isPrefix t.type = true then _ else _ : CM _) s = _
      rw [if_neg (by have h' : isPrefix t.type = false := hr; simp [h'])]
      show Res.ok (acc, s) = _; simp [skip]
  | t :: pre, acc, n, s, rest, h, hs, hr => by
    have h1 : (skip 1 s).toks = pre ++ rest := by rw [skip_toks, hs]; rfl
    unfold prefixLoop
    rw [CM.cget_bind, hs]
    show (if isPrefix t.type = true then _ else _ : CM _) s = _
    rw [if_pos (h t (by simp)), nextTok_bind]
    show prefixLoop (n + pre.length + 1) _ _ = _
    rw [prefixLoop_run pre (acc ++ [t]) n (fun u hu => h u (by simp [hu])) h1 hr, skip_add]
    simp; congr 1; omega

theorem attachPre_ne {pre : List Token} {v : Node} (h : v ≠ .nil) : attachPre pre v ≠ .nil := by
  cases pre with
  | nil => exact h
  | cons t pre => show Node.mk _ _ _ _ ≠ _; simp

theorem prefixed_reads {pe : CM Node} {fd : CM (Option Nat)} {D : Nat} {E : List Token → Node → Prop}
    (hE : ∀ ts v, E ts v → ReadsE pe (D + 1) ts v ∧ Valid ts) (hD : D ≤ 256) {ts : List Token} {v : Node}
    (h : Prefixed E ts v) : Reads pe fd D ts v ∧ Valid ts ∧ v ≠ .nil := by
  obtain ⟨pre, us, w, h1, h2, h3, h4⟩ := prefixed_split h
  obtain ⟨ps, x, qs, posts, g1, g2, g3, g4, g5, g6, _⟩ := postfixed_splits (fd := fd) hE hD h3
  have hend : isEnd us = false := by rw [g1]; exact isEnd_append g2.1
  have hpre : ∀ rest, isPrefix (typeOf (us ++ rest)) = false := by
    intro rest
    rw [g1, List.append_assoc, typeOf_append g2.1]; exact g2.2.1
  refine ⟨⟨?_, fun s rest hd hs hp => ?_⟩, ?_, by rw [h4]; exact attachPre_ne g6⟩
  · rw [h1]
    cases pre with
    | nil => exact hend
    | cons t pre =>
      show (isSubEnd t.type || t.type == .semicolon) = false
      have := h2 t (by simp)
      revert this; cases t.type <;> first | (intro _; rfl) | (intro h; exact absurd h (by decide))
  · have hs1 : s.toks = pre ++ (us ++ rest) := by rw [hs, h1, List.append_assoc]
    have e1 := prefixLoop_run pre [] (us.length + rest.length) h2 hs1 (hpre rest)
    have s1 : (skip pre.length s).toks = ps ++ (qs ++ rest) := by
      rw [skip_toks_of hs1, g1, List.append_assoc]
    have e2 := g2.2.2.2 (skip pre.length s) (qs ++ rest) (by rw [skip_depth_eq]; exact hd) s1
    have s2 : (skip ps.length (skip pre.length s)).toks = qs ++ rest := skip_toks_of s1
    obtain ⟨m, hm, e3⟩ := g4 (skip ps.length (skip pre.length s)) rest (by rw [skip_depth_eq, skip_depth_eq]; exact hd) s2
      (rest.length + 1) []
    have s3 : (skip qs.length (skip ps.length (skip pre.length s))).toks = rest := skip_toks_of s2
    have e4 : postLoop pe m ([] ++ posts) (skip qs.length (skip ps.length (skip pre.length s)))
        = .ok (some posts, skip qs.length (skip ps.length (skip pre.length s))) := by
      obtain ⟨k, rfl⟩ : ∃ k, m = k + 1 := ⟨m - 1, by omega⟩
      exact postLoop_stop pe k posts (by rw [s3]; exact hp)
    unfold operand
    rw [CM.cget_bind]
    rw [show s.toks.length + 1 = us.length + rest.length + pre.length + 1 by rw [hs1]; simp; omega]
    rw [CM.bind_ok e1, CM.bind_ok e2]
    dsimp only
    rw [CM.cget_bind]
    rw [show (skip ps.length (skip pre.length s)).toks.length + 1 = rest.length + 1 + qs.length by rw [s2]; simp; omega]
    rw [CM.bind_ok (e3.trans e4)]
    dsimp only
    rw [g5]
    dsimp only
    rw [skip_add, skip_add, h4, List.nil_append, h1, g1]
    simp
  · rw [h1]
    cases pre with
    | nil => rw [g1]; show Valid ([] ++ (ps ++ qs)); unfold Valid; rw [List.nil_append, typeOf_append g2.1]; exact g3
    | cons t pre =>
      show t.type ≠ .invalid
      have := h2 t (by simp)
      intro hc; rw [hc] at this; exact absurd this (by decide)

theorem Tree.All.mono {P Q : List Token → Node → Prop} (h : ∀ ts v, P ts v → Q ts v) {T : Tree} (hT : T.All P) : T.All Q := by
  induction T with
  | leaf ts v => exact h _ _ hT
  | op t l r ihl ihr => exact ⟨ihl hT.1, ihr hT.2⟩

theorem tree_valid {P : List Token → Node → Prop} (hP : ∀ ts v, P ts v → isEnd ts = false ∧ Valid ts ∧ v ≠ .nil) (T : Tree)
    (h : T.All P) : Valid T.toks ∧ T.node ≠ .nil := by
  induction T with
  | leaf ts v => exact ⟨(hP _ _ h).2.1, (hP _ _ h).2.2⟩
  | op t l r ihl _ =>
    refine ⟨?_, by simp [Tree.node]⟩
    have := tree_not_end (fun ts v h => (hP ts v h).1) l h.1
    show typeOf (l.toks ++ _) ≠ _
    rw [typeOf_append this]; exact (ihl h.1).1

/-- The parser on an expression of the grammar. -/
theorem expr_reads (fd : CM (Option Nat)) (d : Nat) : ∀ (n : Nat), d ≤ n → ∀ (D : Nat), D + 2 * d ≤ 257 →
    ∀ ts v, Expr d ts v → ReadsE (parseExpr fd n) D ts v ∧ Valid ts := by
  induction d with
  | zero => intro _ _ _ _ _ _ h; exact h.elim
  | succ d ih =>
    intro n hn D hD ts v h
    obtain ⟨T, hg, ha, rfl, rfl⟩ := h
    obtain ⟨m, rfl⟩ : ∃ m, n = m + 1 := ⟨n - 1, by omega⟩
    have hP : ∀ ts v, Prefixed (Expr d) ts v → Reads (parseExpr fd m) fd (D + 1) ts v ∧ Valid ts ∧ v ≠ .nil :=
      fun ts v h => prefixed_reads (fun ts v h => ih m (by omega) (D + 1 + 1) (by omega) ts v h) (by omega) h
    have hv := tree_valid (fun ts v h => ⟨(hP ts v h).1.1, (hP ts v h).2⟩) T ha
    have hne := tree_not_end (fun ts v h => (hP ts v h).1.1) T ha
    refine ⟨⟨hne, hv.2, fun s rest hd hs he => ?_⟩, hv.1⟩
    exact body_tree T hg (ha.mono fun ts v h => (hP ts v h).1) hd (by omega) hs he

end Nk.Cc
