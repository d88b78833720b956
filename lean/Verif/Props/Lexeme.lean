import Verif.Spec.Lexeme
import Verif.Lemmas.CStr
import Verif.Lemmas.Stack
import Verif.Spec.Sample
/-!
# C84: operators are read as long as possible, and string literals to their closing quotation mark
-/
namespace Nk.Props
open Nk.Tok Nk.CStr

theorem quoteLoop_body {l : Bytes} (h : LitBody l) : ∀ (pre rest : Bytes) (n : Nat), l.length < n →
    pre.length + l.length < UINT_MAX →
    quoteLoop (pre ++ l ++ ch '"' :: rest) n false pre.length = .ok (some (pre.length + l.length)) := by
  induction h with
  | nil =>
    intro pre rest n hn hu
    obtain ⟨n, rfl⟩ : ∃ m, n = m + 1 := ⟨n - 1, by simp at hn; omega⟩
    rw [quoteLoop, List.append_nil, rd_at _ _ _ _ rfl]
    simp [bind, Res.bind]
  | @plain c l h0 h1 h2 h3 _ ih =>
    intro pre rest n hn hu
    obtain ⟨n, rfl⟩ : ∃ m, n = m + 1 := ⟨n - 1, by simp at hn; omega⟩
    simp only [List.length_cons] at hn hu ⊢
    have hr := ih (pre ++ [c]) rest n (by omega) (by simp; omega)
    have e : pre ++ c :: l ++ ch '"' :: rest = pre ++ [c] ++ l ++ ch '"' :: rest := by simp
    have hu1 : u32 (pre.length + 1) = (pre ++ [c]).length := by
      rw [u32, Nat.mod_eq_of_lt (by simp only [UINT_MAX, U32] at *; omega)]; simp
    rw [quoteLoop, show rd (pre ++ c :: l ++ ch '"' :: rest) pre.length = .ok c by
      rw [show pre ++ c :: l ++ ch '"' :: rest = pre ++ c :: (l ++ ch '"' :: rest) by simp]; exact rd_at _ _ _ _ rfl]
    simp only [bind, Res.bind]
    rw [if_pos (by simp [h0, h1]), if_neg h3, if_neg h2, hu1, e, hr]
    simp only [List.length_append, List.length_cons, List.length_nil]
    congr 2; omega
  | @escaped c l h0 h3 _ ih =>
    intro pre rest n hn hu
    obtain ⟨n, rfl⟩ : ∃ m, n = m + 2 := ⟨n - 2, by simp at hn; omega⟩
    simp only [List.length_cons] at hn hu ⊢
    have hr := ih (pre ++ [ch '\\', c]) rest n (by omega) (by simp; omega)
    have e : pre ++ ch '\\' :: c :: l ++ ch '"' :: rest = pre ++ [ch '\\', c] ++ l ++ ch '"' :: rest := by simp
    have hu1 : u32 (pre.length + 1) = pre.length + 1 := Nat.mod_eq_of_lt (by simp only [UINT_MAX, U32] at *; omega)
    have hu2 : u32 (pre.length + 1 + 1) = (pre ++ [ch '\\', c]).length := by
      rw [u32, Nat.mod_eq_of_lt (by simp only [UINT_MAX, U32] at *; omega)]; simp
    rw [quoteLoop, show rd (pre ++ ch '\\' :: c :: l ++ ch '"' :: rest) pre.length = .ok (ch '\\') by
      rw [show pre ++ ch '\\' :: c :: l ++ ch '"' :: rest = pre ++ ch '\\' :: (c :: l ++ ch '"' :: rest) by simp]
      exact rd_at _ _ _ _ rfl]
    simp only [bind, Res.bind]
    rw [if_pos (show (decide (ch '\\' ≠ 0) && (false || decide (ch '\\' ≠ ch '"'))) = true by decide),
      if_neg (show ¬ ch '\\' = ch '\n' by decide), if_pos trivial, hu1, quoteLoop,
      show rd (pre ++ ch '\\' :: c :: l ++ ch '"' :: rest) (pre.length + 1) = .ok c by
        rw [show pre ++ ch '\\' :: c :: l ++ ch '"' :: rest = (pre ++ [ch '\\']) ++ c :: (l ++ ch '"' :: rest) by simp]
        exact rd_at _ _ _ _ (by simp)]
    simp only [bind, Res.bind]
    rw [if_pos (by simp [h0]), if_neg h3, show (if c = ch '\\' then !(!false) else false) = false by split <;> rfl, hu2, e, hr]
    simp only [List.length_append, List.length_cons, List.length_nil]
    congr 2; omega

/-- **C84**, string literals: a literal ends at the first quotation mark that no backslash escapes, wherever in the text it is and whatever
comes after it. -/
theorem C84_literal {pre body rest : Bytes} (h : LitBody body) (hu : pre.length + body.length < UINT_MAX) :
    quoteLoop (pre ++ body ++ ch '"' :: rest) ((pre ++ body ++ ch '"' :: rest).length + 1) false pre.length =
      .ok (some (pre.length + body.length)) :=
  quoteLoop_body h pre rest _ (by simp; omega) hu

/-- **C84**, string literals: the text between the quotation marks is what is unescaped, and the next token is looked for after the closing
one. -/
theorem C84_string (hdr : Nat) (junk : Nat → UInt8) {pre body rest : Bytes} (len : Nat) {s : St} (vm : VM) (h : LitBody body)
    (hi : s.i = pre.length) (hu : pre.length + body.length + 1 < UINT_MAX) :
    token hdr junk (pre ++ ch '"' :: (body ++ ch '"' :: rest)) len s vm =
      (unescaped hdr junk body >>= fun t => pure (some ((s.add .string t).skip (body.length + 1)))) vm := by
  have hu1 : u32 (pre.length + 1) = (pre ++ [ch '"']).length := by
    rw [u32, Nat.mod_eq_of_lt (by simp only [UINT_MAX, U32] at *; omega)]; simp
  have e : pre ++ ch '"' :: (body ++ ch '"' :: rest) = pre ++ [ch '"'] ++ body ++ ch '"' :: rest := by simp
  have hq := C84_literal (pre := pre ++ [ch '"']) (rest := rest) h (by simp; omega)
  have hus : usub ((pre ++ [ch '"']).length + body.length) (pre ++ [ch '"']).length = body.length := by
    simp only [usub, u32, UINT_MAX, U32, List.length_append, List.length_cons, List.length_nil] at *
    omega
  have hsub : sub (pre ++ [ch '"'] ++ body ++ ch '"' :: rest) (pre ++ [ch '"']).length body.length = .ok body := by
    unfold sub
    rw [if_pos (by simp; omega), List.append_assoc (pre ++ [ch '"']), List.drop_left, List.take_left]
  unfold token
  rw [hi, rd_at pre _ _ _ rfl, M.bind_ok (show liftR (Res.ok (ch '"')) vm = .ok (ch '"', vm) from rfl),
    if_neg (show ¬ ch '"' = ch '#' by decide), show single (ch '"') = none by decide]
  dsimp only
  rw [show ∀ b, isComment b pre.length (ch '"') = .ok false from fun _ => rfl,
    M.bind_ok (show liftR (Res.ok false) vm = .ok (false, vm) from rfl), if_neg (by simp),
    show ∀ b, operator b pre.length (ch '"') = .ok none from fun _ => rfl,
    M.bind_ok (show liftR (Res.ok (none : Option (TokType × Bytes))) vm = .ok (none, vm) from rfl)]
  dsimp only
  rw [if_pos rfl, hu1, e, hq, M.bind_ok (show liftR (Res.ok (some ((pre ++ [ch '"']).length + body.length))) vm = .ok (_, vm) from rfl)]
  dsimp only
  rw [hus, hsub, M.bind_ok (show liftR (Res.ok body) vm = .ok (body, vm) from rfl)]

theorem token_operator (hdr : Nat) (junk : Nat → UInt8) {b : Bytes} {s : St} {c : UInt8} {ty : TokType} {t : Bytes} (len : Nat) (vm : VM)
    (h0 : rd b s.i = .ok c) (h1 : c ≠ ch '#') (h2 : single c = none) (h3 : isComment b s.i c = .ok false)
    (h4 : operator b s.i c = .ok (some (ty, t))) :
    token hdr junk b len s vm = .ok (some ((s.add ty t).skip (t.length - 1)), vm) := by
  unfold token
  rw [h0, M.bind_ok (show liftR (Res.ok c) vm = .ok (c, vm) from rfl), if_neg h1, h2]
  dsimp only
  rw [h3, M.bind_ok (show liftR (Res.ok false) vm = .ok (false, vm) from rfl), if_neg (by simp), h4,
    M.bind_ok (show liftR (Res.ok (some (ty, t))) vm = .ok (some (ty, t), vm) from rfl)]
  rfl

/-- **C84**, operators: where an operator begins, the longest one is read, and the next token is looked for after it. -/
theorem C84_operator (hdr : Nat) (junk : Nat → UInt8) {pre text : Bytes} {ty : TokType} {t : Bytes} {len : Nat} {s : St} (vm : VM)
    (hm : (ty, t) ∈ operators) (hl : Longest text t) (hc : ¬ cs "//" <+: text) (hn : t.length < text.length)
    (hi : s.i = pre.length) (hu : pre.length + text.length < UINT_MAX) :
    token hdr junk (pre ++ text) len s vm = .ok (some ((s.add ty t).skip (t.length - 1)), vm) := by
  obtain ⟨⟨rest, rfl⟩, h2⟩ := hl
  have hr : ∀ k, rd (pre ++ (t ++ rest)) (u32 (pre.length + k)) = match (t ++ rest)[k]? with
      | some c => .ok c
      | none => if k < U32 - pre.length then .ub .oob else rd (pre ++ (t ++ rest)) (u32 (pre.length + k)) := by
    intro k
    cases hk : (t ++ rest)[k]? with
    | none =>
      dsimp only
      split
      · rw [u32, Nat.mod_eq_of_lt (by omega), rd, List.getElem?_append_right (by omega), Nat.add_sub_cancel_left, hk]
      · rfl
    | some c =>
      obtain ⟨hlt, -⟩ := List.getElem?_eq_some_iff.mp hk
      rw [u32, Nat.mod_eq_of_lt (by simp only [UINT_MAX, U32] at *; omega), rd, List.getElem?_append_right (by omega),
        Nat.add_sub_cancel_left, hk]
  have hr0 : rd (pre ++ (t ++ rest)) pre.length = match (t ++ rest)[0]? with
      | some c => .ok c
      | none => .ub .oob := by
    rw [rd, List.getElem?_append_right (Nat.le_refl _), Nat.sub_self]
    cases (t ++ rest)[0]? <;> rfl
  obtain ⟨d, rest, rfl⟩ : ∃ d r, rest = d :: r := by
    cases rest with
    | nil => simp at hn
    | cons d r => exact ⟨d, r, rfl⟩
  have hr1 := hr 1
  have hr2 := hr 2
  clear hr
  have c1 : cs "++" = [43, 43] := by decide
  have c2 : cs "+" = [43] := by decide
  have c3 : cs "--" = [45, 45] := by decide
  have c4 : cs "->" = [45, 62] := by decide
  have c5 : cs "-" = [45] := by decide
  have c6 : cs "/" = [47] := by decide
  have c7 : cs "===" = [61, 61, 61] := by decide
  have c8 : cs "==" = [61, 61] := by decide
  have c9 : cs "=" = [61] := by decide
  have c10 : cs ">=" = [62, 61] := by decide
  have c11 : cs ">" = [62] := by decide
  have c12 : cs "<=" = [60, 61] := by decide
  have c13 : cs "<" = [60] := by decide
  have c14 : cs "!=" = [33, 61] := by decide
  have c15 : cs "!" = [33] := by decide
  have c16 : cs "&&" = [38, 38] := by decide
  have c17 : cs "||" = [124, 124] := by decide
  have c18 : cs "//" = [47, 47] := by decide
  have k1 : ch '/' = 47 := by decide
  have k2 : ch '+' = 43 := by decide
  have k3 : ch '-' = 45 := by decide
  have k4 : ch '=' = 61 := by decide
  have k5 : ch '>' = 62 := by decide
  have k6 : ch '<' = 60 := by decide
  have k7 : ch '!' = 33 := by decide
  have k8 : ch '&' = 38 := by decide
  have k9 : ch '|' = 124 := by decide
  simp only [operators, c1, c2, c3, c4, c5, c6, c7, c8, c9, c10, c11, c12, c13, c14, c15, c16, c17, List.mem_cons, Prod.mk.injEq,
    List.not_mem_nil, or_false] at hm
  simp only [operators, c1, c2, c3, c4, c5, c6, c7, c8, c9, c10, c11, c12, c13, c14, c15, c16, c17, List.forall_mem_cons,
    List.length_cons, List.length_nil] at h2
  rw [c18] at hc
  rcases hm with ⟨rfl, rfl⟩ | ⟨rfl, rfl⟩ | ⟨rfl, rfl⟩ | ⟨rfl, rfl⟩ | ⟨rfl, rfl⟩ | ⟨rfl, rfl⟩ | ⟨rfl, rfl⟩ | ⟨rfl, rfl⟩ | ⟨rfl, rfl⟩ |
    ⟨rfl, rfl⟩ | ⟨rfl, rfl⟩ | ⟨rfl, rfl⟩ | ⟨rfl, rfl⟩ | ⟨rfl, rfl⟩ | ⟨rfl, rfl⟩ | ⟨rfl, rfl⟩ | ⟨rfl, rfl⟩ <;>
  · simp [List.cons_prefix_cons, eq_comm (a := (43 : UInt8)) (b := d), eq_comm (a := (45 : UInt8)) (b := d),
      eq_comm (a := (62 : UInt8)) (b := d), eq_comm (a := (61 : UInt8)) (b := d), eq_comm (a := (47 : UInt8)) (b := d)] at h2 hc hr0 hr1 hr2
    refine token_operator hdr junk len vm (by rw [hi]; exact hr0) (by decide) (by decide) ?_ ?_
    · simp [isComment, hi, hr1, hc, k1, bind, Res.bind]
    · simp [operator, hi, hr1, hr2, h2, k1, k2, k3, k4, k5, k6, k7, k8, k9, bind, Res.bind, c1, c2, c3, c4, c5, c6, c7, c8, c9, c10,
        c11, c12, c13, c14, c15, c16, c17]

/-! ## Concrete cases -/

/-- `a\\"b`, as a body of a literal. -/
example : LitBody (cs "a\\\"b") :=
  .plain (by decide) (by decide) (by decide) (by decide) (.escaped (by decide) (by decide)
    (.plain (by decide) (by decide) (by decide) (by decide) .nil))

/-- In `x>=1` the operator at index 1 is `>=`, not `>`. -/
example : Longest (cs ">=1") (cs ">=") ∧ ¬ Longest (cs ">=1") (cs ">") := by
  unfold Longest operators
  decide

/-- In `a===b` it is `===`. -/
example : Longest (cs "===b") (cs "===") := by
  unfold Longest operators
  decide

end Nk.Props
