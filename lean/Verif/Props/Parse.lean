import Verif.Lemmas.Parse
import Verif.Model.Compile
import Verif.Spec.Sample
import Verif.Props.Save
import Verif.Props.Token
/-!
# Expressions as trees: C48, C49
-/
namespace Nk.Props
open Cc

/-! ## Grouped trees: every sequence of operands and operators has exactly one -/

theorem grouped_rank {T : Tree} (h : T.Grouped) {t : Token} (ht : Sum.inl t ∈ T.items) : Tree.rank t.type ≤ T.top := by
  induction T with
  | leaf ts v => simp [Tree.items] at ht
  | op u l r ihl ihr =>
    obtain ⟨_, h1, h2, h3, h4⟩ := h
    show _ ≤ Tree.rank u.type
    simp only [Tree.items, List.mem_append, List.mem_cons, Sum.inl.injEq] at ht
    rcases ht with ht | rfl | ht
    · exact Nat.le_trans (ihl h3 ht) h1
    · exact Nat.le_refl _
    · exact Nat.le_trans (ihr h4 ht) (Nat.le_of_lt h2)

/-- C48: there is at most one tree for a sequence of operands and operators. -/
theorem C48_unique {T T' : Tree} (h : T.Grouped) (h' : T'.Grouped) (hi : T.items = T'.items) : T = T' := by
  induction T generalizing T' with
  | leaf ts v =>
    cases T' with
    | leaf ts' v' => simp only [Tree.items, List.cons.injEq, Sum.inr.injEq, Prod.mk.injEq] at hi; rw [hi.1.1, hi.1.2]
    | op t l r =>
      have := congrArg List.length hi
      have hl : l.items ≠ [] := by cases l <;> simp [Tree.items]
      cases hl' : l.items <;> simp_all [Tree.items]
  | op t l r ihl ihr =>
    cases T' with
    | leaf ts v =>
      have := congrArg List.length hi
      have hl : l.items ≠ [] := by cases l <;> simp [Tree.items]
      cases hl' : l.items <;> simp_all [Tree.items]
    | op t' l' r' =>
      obtain ⟨_, a1, a2, a3, a4⟩ := h
      obtain ⟨_, b1, b2, b3, b4⟩ := h'
      simp only [Tree.items] at hi
      rcases List.append_eq_append_iff.1 hi with ⟨xs, h1, h2⟩ | ⟨xs, h1, h2⟩
      · cases xs with
        | nil =>
          simp only [List.append_nil] at h1
          simp only [List.nil_append, List.cons.injEq, Sum.inl.injEq] at h2
          rw [ihl a3 b3 h1.symm, h2.1, ihr a4 b4 h2.2]
        | cons x xs =>
          simp only [List.cons_append, List.cons.injEq] at h2
          have e1 : Tree.rank t.type ≤ l'.top := grouped_rank b3 (by rw [h1, h2.1]; simp)
          have e2 : Tree.rank t'.type ≤ r.top := grouped_rank a4 (by rw [h2.2]; simp)
          omega
      · cases xs with
        | nil =>
          simp only [List.append_nil] at h1
          simp only [List.nil_append, List.cons.injEq, Sum.inl.injEq] at h2
          rw [ihl a3 b3 h1, h2.1, ihr a4 b4 h2.2.symm]
        | cons x xs =>
          simp only [List.cons_append, List.cons.injEq] at h2
          have e1 : Tree.rank t'.type ≤ l.top := grouped_rank a3 (by rw [h1, h2.1]; simp)
          have e2 : Tree.rank t.type ≤ r'.top := grouped_rank b4 (by rw [h2.2]; simp)
          omega

/-- An operand and an operator in front of a tree. -/
def consTree (ts : List Token) (v : Node) (t : Token) : Tree → Tree
  | .leaf us w => .op t (.leaf ts v) (.leaf us w)
  | .op u l r => if Tree.rank u.type < Tree.rank t.type then .op t (.leaf ts v) (.op u l r)
    else .op u (consTree ts v t l) r

theorem consTree_spec (ts : List Token) (v : Node) (t : Token) (ht : 0 < Tree.rank t.type) (T : Tree) (h : T.Grouped) :
    (consTree ts v t T).Grouped ∧ (consTree ts v t T).items = .inr (ts, v) :: .inl t :: T.items ∧
      (consTree ts v t T).top = max (Tree.rank t.type) T.top := by
  induction T with
  | leaf us w => exact ⟨⟨ht, Nat.zero_le _, ht, trivial, trivial⟩, rfl, by simp [consTree, Tree.top]⟩
  | op u l r ihl _ =>
    unfold consTree
    by_cases hlt : Tree.rank u.type < Tree.rank t.type
    · rw [if_pos hlt]
      exact ⟨⟨ht, Nat.zero_le _, hlt, trivial, h⟩, rfl, by simp only [Tree.top]; omega⟩
    · rw [if_neg hlt]
      obtain ⟨h0, h1, h2, h3, h4⟩ := h
      obtain ⟨i1, i2, i3⟩ := ihl h3
      refine ⟨⟨h0, by rw [i3]; omega, h2, i1, h4⟩, by simp only [Tree.items, i2]; rfl, by simp only [Tree.top]; omega⟩

/-- C48: there is at least one tree for a sequence of operands and operators. -/
theorem C48_exists {items : List (Token ⊕ (List Token × Node))} (h : Alternating items) :
    ∃ T : Tree, T.Grouped ∧ T.items = items := by
  induction h with
  | one ts v => exact ⟨.leaf ts v, trivial, rfl⟩
  | cons ts v t ht _ ih =>
    obtain ⟨T, hT, hi⟩ := ih
    exact ⟨consTree ts v t T, (consTree_spec ts v t ht T hT).1, by rw [(consTree_spec ts v t ht T hT).2.1, hi]⟩

/-! ## The parser finds it -/

/-- The tokens of a sequence of operands and operators. -/
def tokensOf : List (Token ⊕ (List Token × Node)) → List Token
  | [] => []
  | .inl t :: is => t :: tokensOf is
  | .inr (ts, _) :: is => ts ++ tokensOf is

theorem tokensOf_append (a b : List (Token ⊕ (List Token × Node))) : tokensOf (a ++ b) = tokensOf a ++ tokensOf b := by
  induction a with
  | nil => rfl
  | cons x xs ih => rcases x with t | ⟨ts, v⟩ <;> simp [tokensOf, ih]

theorem tokensOf_items (T : Tree) : tokensOf T.items = T.toks := by
  induction T with
  | leaf ts v => simp [Tree.items, Tree.toks, tokensOf]
  | op t l r ihl ihr => simp [Tree.items, Tree.toks, tokensOf_append, tokensOf, ihl, ihr]

theorem all_items {P : List Token → Node → Prop} {T : Tree} (h : ∀ ts v, Sum.inr (ts, v) ∈ T.items → P ts v) : T.All P := by
  induction T with
  | leaf ts v => exact h ts v (by simp [Tree.items])
  | op t l r ihl ihr =>
    exact ⟨ihl fun ts v hm => h ts v (by simp [Tree.items, hm]), ihr fun ts v hm => h ts v (by simp [Tree.items, hm])⟩

/-- The state after reading tokens: only the position in the source has changed. -/
def ReadTo (s s' : CS) (rest : List Token) : Prop :=
  ∃ line file markers, s' = { s with toks := rest, line := line, file := file, vm := { s.vm with markers := markers } }

theorem advance_readTo (s : CS) : ReadTo s (advance s) s.toks.tail := by
  unfold advance
  split
  · rename_i h; exact ⟨s.line, s.file, s.vm.markers, by rw [h]; show s = _; rw [List.tail_nil, ← h]⟩
  · rename_i h; exact ⟨s.line, s.file, s.vm.markers, by rw [h]; rfl⟩
  · rename_i h; exact ⟨_, _, _, by rw [h]; rfl⟩

theorem skip_readTo (n : Nat) (s : CS) : ReadTo s (skip n s) (s.toks.drop n) := by
  induction n generalizing s with
  | zero => exact ⟨s.line, s.file, s.vm.markers, rfl⟩
  | succ n ih =>
    obtain ⟨a, b, c, h1⟩ := advance_readTo s
    obtain ⟨d, e, f, h2⟩ := ih (advance s)
    refine ⟨d, e, f, ?_⟩
    show skip n (advance s) = _
    rw [h2, advance_toks, List.drop_tail]
    rw [h1]

/-- C48: an expression of the grammar is parsed into its tree, whatever follows it, without error. -/
theorem C48_parse (fd : CM (Option Nat)) {d : Nat} {ts : List Token} {v : Node} (h : Expr d ts v) {s : CS} {rest : List Token}
    (hs : s.toks = ts ++ rest) (he : isEnd rest = true) (hd : s.depth + 2 * d ≤ 257) :
    ∃ s', parseExpr fd maxDepth s = .ok (v, s') ∧ ReadTo s s' rest := by
  have := (expr_reads fd d maxDepth (by unfold maxDepth; omega) s.depth hd ts v h).1.2.2 s rest (Nat.le_refl _) hs he
  refine ⟨_, this, ?_⟩
  have hr := skip_readTo ts.length s
  rw [hs, List.drop_left] at hr
  exact hr

/-- C48: for every sequence of operands and binary operators, of any length, the parser returns the one tree that has
them in this order and is grouped by precedence, equal precedence to the left. -/
theorem C48_sequence (fd : CM (Option Nat)) {d : Nat} {items : List (Token ⊕ (List Token × Node))} (h : Alternating items)
    (ho : ∀ ts v, Sum.inr (ts, v) ∈ items → Prefixed (Expr d) ts v) {s : CS} {rest : List Token}
    (hs : s.toks = tokensOf items ++ rest) (he : isEnd rest = true) (hd : s.depth + 2 * (d + 1) ≤ 257) :
    ∃ T : Tree, (T.Grouped ∧ T.items = items) ∧ (∀ T' : Tree, T'.Grouped → T'.items = items → T' = T) ∧
      ∃ s', parseExpr fd maxDepth s = .ok (T.node, s') ∧ ReadTo s s' rest := by
  obtain ⟨T, hT, hi⟩ := C48_exists h
  refine ⟨T, ⟨hT, hi⟩, fun T' h' hi' => C48_unique h' hT (hi'.trans hi.symm), ?_⟩
  have hx : Expr (d + 1) (tokensOf items) T.node := ⟨T, hT, all_items (fun ts v hm => ho ts v (hi ▸ hm)), by rw [← hi, tokensOf_items], rfl⟩
  exact C48_parse fd hx hs he hd

/-! ### Example: `a = b - c - d * e [ 1 ] ;` -/

/-- A token for examples. -/
def tk (t : TokType) (s : String) : Token := ⟨t, cs s, 1, 0, 1⟩
/-- An identifier. -/
def idt (s : String) : Token := tk .identifier s
/-- An operand that is a single token. -/
def atomItem (t : Token) : Token ⊕ (List Token × Node) := .inr ([t], leafNode t)

/-- `e [ 1 ]`. -/
def indexItem : List Token × Node :=
  ([idt "e", tk .bracketOpen "[", tk .integer "1", tk .bracketClose "]"],
    .mk (tk .bracketOpen "[") false (leafNode (idt "e")) (leafNode (tk .integer "1")))

/-- The operands and operators. -/
def sampleItems : List (Token ⊕ (List Token × Node)) :=
  [atomItem (idt "a"), .inl (tk .assignment "="), atomItem (idt "b"), .inl (tk .minus "-"), atomItem (idt "c"),
    .inl (tk .minus "-"), atomItem (idt "d"), .inl (tk .multiply "*"), .inr indexItem]

theorem atom_prefixed (d : Nat) (t : Token) (h : isAtom t.type) : Prefixed (Expr d) [t] (leafNode t) :=
  .none (.primary (.atom t h))

theorem index_prefixed : Prefixed (Expr 1) indexItem.1 indexItem.2 :=
  .none (.index (.primary (.atom (idt "e") rfl)) (tk .bracketOpen "[") (tk .bracketClose "]") rfl rfl
    (is := [tk .integer "1"]) ⟨.leaf [tk .integer "1"] (leafNode (tk .integer "1")), trivial, atom_prefixed 0 _ rfl, rfl, rfl⟩)

/-- A compiler state at these tokens. -/
def sampleState : CS := { createCompiler VM.create with toks := tokensOf sampleItems ++ [tk .semicolon ";"] }

example : ∃ s', parseExpr (cub .null) maxDepth sampleState
    = .ok (.mk (tk .assignment "=") false (leafNode (idt "a"))
        (.mk (tk .minus "-") false (.mk (tk .minus "-") false (leafNode (idt "b")) (leafNode (idt "c")))
          (.mk (tk .multiply "*") false (leafNode (idt "d")) indexItem.2)), s') ∧
      ReadTo sampleState s' [tk .semicolon ";"] := by
  have hp : ∀ ts v, Sum.inr (ts, v) ∈ sampleItems → Prefixed (Expr 1) ts v := by
    intro ts v h
    simp only [sampleItems, atomItem, List.mem_cons, Sum.inr.injEq, Prod.mk.injEq, reduceCtorEq, false_or, List.not_mem_nil,
      or_false] at h
    rcases h with ⟨rfl, rfl⟩ | ⟨rfl, rfl⟩ | ⟨rfl, rfl⟩ | ⟨rfl, rfl⟩ | h
    · exact atom_prefixed 1 _ rfl
    · exact atom_prefixed 1 _ rfl
    · exact atom_prefixed 1 _ rfl
    · exact atom_prefixed 1 _ rfl
    · rw [show ts = indexItem.1 by rw [← h], show v = indexItem.2 by rw [← h]]; exact index_prefixed
  obtain ⟨T, _, hu, s', h1, h2⟩ := C48_sequence (cub .null) (d := 1) (items := sampleItems)
    (.cons _ _ _ (by decide) (.cons _ _ _ (by decide) (.cons _ _ _ (by decide) (.cons _ _ _ (by decide) (.one _ _)))))
    hp (s := sampleState) (rest := [tk .semicolon ";"]) rfl rfl (by decide)
  refine ⟨s', ?_, h2⟩
  rw [h1]
  rw [← hu (.op (tk .assignment "=") (.leaf [idt "a"] (leafNode (idt "a")))
    (.op (tk .minus "-") (.op (tk .minus "-") (.leaf [idt "b"] (leafNode (idt "b"))) (.leaf [idt "c"] (leafNode (idt "c"))))
      (.op (tk .multiply "*") (.leaf [idt "d"] (leafNode (idt "d"))) (.leaf indexItem.1 indexItem.2))))
    (by simp only [Tree.Grouped, Tree.top]; decide) rfl]
  rfl

/-! ## C49: the assertion can be reached -/

/-- The tokens of `(len(x))(y)`. -/
def fseTokens : List Token :=
  [tk .parenOpen "(", tk .functionStyleExpression "len", tk .parenOpen "(", idt "x", tk .parenClose ")",
    tk .parenClose ")", tk .parenOpen "(", idt "y", tk .parenClose ")", tk .semicolon ";"]

/-- C49 is false as stated: the source text `(len(x))(y);` stops the parser at an assertion. -/
theorem C49_violated : parseExpr (cub .null) maxDepth { createCompiler VM.create with toks := fseTokens } = .ub .assert :=
  endsIn_eq (by decide +kernel)

/-- The same from the source text: the tokenizer produces these tokens. -/
theorem C49_violated_source :
    compileScript Sample.F 32 (fun _ => 0) (cs "(len(x))(y);" ++ [0]) (cs "f") (createCompiler VM.create) = .ub .assert :=
  endsIn_eq (by decide +kernel)

end Nk.Props
