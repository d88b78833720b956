import Verif.Spec.Lex
/-!
# Every text has tokens up to its end, to something that is no token, or to a directive
-/
namespace Nk.Tok
open Nk.Spec

/-- A text after a quotation mark: the literal ends, the text ends, or a newline comes first. -/
theorem quote_cases (r : Bytes) :
    (∃ w t, Quoted w ∧ r = w ++ 34 :: t) ∨ Unclosed r ∨ ∃ w t, Unclosed w ∧ r = w ++ 10 :: t := by
  match r with
  | [] => exact .inr (.inl (.inl .nil))
  | c :: r =>
    by_cases h1 : c = 34
    · exact .inl ⟨[], r, .nil, by rw [h1]; rfl⟩
    by_cases h2 : c = 10
    · exact .inr (.inr ⟨[], r, .inl .nil, by rw [h2]; rfl⟩)
    by_cases h3 : c = 92
    · subst h3
      match r with
      | [] => exact .inr (.inl (.inr ⟨[], .nil, rfl⟩))
      | d :: r =>
        by_cases h4 : d = 10
        · exact .inr (.inr ⟨[92], r, .inr ⟨[], .nil, rfl⟩, by rw [h4]; rfl⟩)
        rcases quote_cases r with ⟨w, t, a, b⟩ | a | ⟨w, t, a, b⟩
        · exact .inl ⟨92 :: d :: w, t, .esc h4 a, by rw [b]; rfl⟩
        · rcases a with a | ⟨v, a, b⟩
          · exact .inr (.inl (.inl (.esc h4 a)))
          · exact .inr (.inl (.inr ⟨92 :: d :: v, .esc h4 a, by rw [b]; rfl⟩))
        · refine .inr (.inr ⟨92 :: d :: w, t, ?_, by rw [b]; rfl⟩)
          rcases a with a | ⟨v, a, b⟩
          · exact .inl (.esc h4 a)
          · exact .inr ⟨92 :: d :: v, .esc h4 a, by rw [b]; rfl⟩
    · rcases quote_cases r with ⟨w, t, a, b⟩ | a | ⟨w, t, a, b⟩
      · exact .inl ⟨c :: w, t, .char h1 h3 h2 a, by rw [b]; rfl⟩
      · rcases a with a | ⟨v, a, b⟩
        · exact .inr (.inl (.inl (.char h1 h3 h2 a)))
        · exact .inr (.inl (.inr ⟨c :: v, .char h1 h3 h2 a, by rw [b]; rfl⟩))
      · refine .inr (.inr ⟨c :: w, t, ?_, by rw [b]; rfl⟩)
        rcases a with a | ⟨v, a, b⟩
        · exact .inl (.char h1 h3 h2 a)
        · exact .inr ⟨c :: v, .char h1 h3 h2 a, by rw [b]; rfl⟩

/-- A text splits where the characters of a kind end. -/
theorem span_cases (P : UInt8 → Prop) (r : Bytes) : ∃ w t, r = w ++ t ∧ (∀ d ∈ w, P d) ∧ Apart P t := by
  induction r with
  | nil => exact ⟨[], [], rfl, fun _ h => (by cases h), fun _ _ h => (by cases h)⟩
  | cons c r ih =>
    by_cases h : P c
    · obtain ⟨w, t, a, b, d⟩ := ih
      refine ⟨c :: w, t, by rw [a]; rfl, fun x hx => ?_, d⟩
      rcases List.mem_cons.1 hx with e | e
      · exact e ▸ h
      · exact b _ e
    · exact ⟨[], c :: r, rfl, fun _ h => (by cases h), fun _ _ e => (by cases e; exact h)⟩

/-- Of some words one that is as long as any other. -/
theorem longest {l : List (Bytes × TokType)} {P : Bytes → Prop} (h : ∃ w ∈ l, P w.1) :
    ∃ w ∈ l, P w.1 ∧ ∀ v ∈ l, P v.1 → v.1.length ≤ w.1.length := by
  induction l with
  | nil => obtain ⟨_, h, _⟩ := h; cases h
  | cons x l ih =>
    by_cases h2 : ∃ w ∈ l, P w.1
    · obtain ⟨w, a, b, c⟩ := ih h2
      by_cases h3 : P x.1 ∧ w.1.length < x.1.length
      · refine ⟨x, by simp, h3.1, fun v hv hp => ?_⟩
        rcases List.mem_cons.1 hv with e | e
        · rw [e]; exact Nat.le_refl _
        · have := c v e hp; omega
      · refine ⟨w, by simp [a], b, fun v hv hp => ?_⟩
        rcases List.mem_cons.1 hv with e | e
        · rw [e] at hp ⊢
          exact Nat.le_of_not_lt fun h4 => h3 ⟨hp, h4⟩
        · exact c v e hp
    · obtain ⟨w, a, b⟩ := h
      rcases List.mem_cons.1 a with e | e
      · rw [e] at b
        refine ⟨x, by simp, b, fun v hv hp => ?_⟩
        rcases List.mem_cons.1 hv with e | e
        · rw [e]; exact Nat.le_refl _
        · exact absurd ⟨v, e, hp⟩ h2
      · exact absurd ⟨w, e, b⟩ h2

/-- Only `&` and `|` begin an operator without being one. -/
theorem heads : ∀ w ∈ symbols, ∀ c, w.1.head? = some c → (∃ v ∈ symbols, v.1 = [c]) ∨ (c = 38 ∨ c = 124) ∧ ∃ v ∈ symbols, v.1 = [c, c] := by
  decide +kernel

theorem symbols_ne : ∀ w ∈ symbols, w.1 ≠ [] := by decide +kernel

theorem lex_total (text : Bytes) (hz : NoNul text) (p : Pos) :
    ∃ rest ts q, Lex rest p text ts q ∧ (rest = [] ∨ Bad rest ∨ ∃ r, rest = 35 :: r) := by
  generalize hn : text.length = n
  induction n using Nat.strongRecOn generalizing text p with
  | ind n ih =>
  subst hn
  have IH : ∀ u w, text = u ++ w → u ≠ [] → ∀ p, ∃ rest ts q, Lex rest p w ts q ∧ (rest = [] ∨ Bad rest ∨ ∃ r, rest = 35 :: r) := by
    intro u w e hu p
    refine ih w.length ?_ w (fun hc => hz (by rw [e]; exact List.mem_append_right _ hc)) p rfl
    have := List.length_pos_iff.2 hu
    rw [e, List.length_append]; omega
  match text with
  | [] => exact ⟨[], [], p, .done, .inl rfl⟩
  | c :: r =>
    by_cases h1 : Blank c
    · obtain ⟨rest, ts, q, a, b⟩ := IH [c] r rfl (by simp) (p.after c)
      exact ⟨rest, ts, q, .blank h1 a, b⟩
    by_cases h2 : Letter c
    · obtain ⟨w, t, e, a, b⟩ := span_cases (fun d => Letter d ∨ Digit d) r
      obtain ⟨rest, ts, q, l, b2⟩ := IH (c :: w) t (by rw [e]; rfl) (by simp) p
      rw [e]; exact ⟨rest, _, q, .word h2 a b l, b2⟩
    by_cases h3 : Digit c
    · obtain ⟨w, t, e, a, b⟩ := span_cases (fun d => Digit d ∨ d = 46) r
      by_cases h4 : w.length < 255
      · obtain ⟨rest, ts, q, l, b2⟩ := IH (c :: w) t (by rw [e]; rfl) (by simp) p
        rw [e]; exact ⟨rest, _, q, .number h3 a h4 (.inr b) l, b2⟩
      · have e2 : c :: r = c :: w.take 254 ++ (w.drop 254 ++ t) := by
          rw [e, List.cons_append, ← List.append_assoc, List.take_append_drop]
        obtain ⟨rest, ts, q, l, b2⟩ := IH (c :: w.take 254) (w.drop 254 ++ t) e2 (by simp) p
        rw [e2]
        have e3 : (w.take 254).length = 254 := by rw [List.length_take]; omega
        exact ⟨rest, _, q, .number h3 (fun d hd => a d (List.mem_of_mem_take hd)) (by omega) (.inl e3) l, b2⟩
    by_cases h4 : c = 34
    · subst h4
      rcases quote_cases r with ⟨w, t, a, b⟩ | a | ⟨w, t, a, b⟩
      · obtain ⟨rest, ts, q, l, b2⟩ := IH (34 :: w ++ [34]) t (by rw [b]; simp) (by simp) p
        rw [b]; exact ⟨rest, _, q, .string a l, b2⟩
      · exact ⟨[], _, p, .open a rfl, .inl rfl⟩
      · refine ⟨_, [], p, .done, .inr (.inl ?_)⟩
        rw [b]; exact .newline a
    by_cases h5 : c = 35
    · exact ⟨_, [], p, .done, .inr (.inr ⟨r, by rw [h5]⟩)⟩
    by_cases h6 : cs "//" <+: c :: r
    · obtain ⟨t, e⟩ := h6
      have e0 : c :: r = 47 :: 47 :: t := e.symm
      obtain ⟨w, t', e1, a, b⟩ := span_cases (· ≠ 10) t
      obtain ⟨rest, ts, q, l, b2⟩ := IH (47 :: 47 :: w) t' (by rw [e0, e1]; rfl) (by simp) p
      rw [e0, e1]; exact ⟨rest, _, q, .comment a b l, b2⟩
    by_cases h7 : ∃ w ∈ symbols, w.1 <+: c :: r
    · obtain ⟨⟨w, ty⟩, a, ⟨t, b⟩, d⟩ := longest (P := fun w => w <+: c :: r) h7
      obtain ⟨rest, ts, q, l, b2⟩ := IH w t b.symm (symbols_ne _ a) p
      rw [← b] at d h6 ⊢
      exact ⟨rest, _, q, .symbol a d h6 l, b2⟩
    refine ⟨_, [], p, .done, .inr (.inl ?_)⟩
    by_cases h8 : ∀ w ∈ symbols, w.1.head? ≠ some c
    · exact .unknown h1 h2 h3 h4 h5 (fun e => hz (by rw [e]; simp)) h8
    · obtain ⟨w, a, b⟩ : ∃ w ∈ symbols, w.1.head? = some c := by
        refine Classical.byContradiction fun h9 => h8 fun w hw e => h9 ⟨w, hw, e⟩
      rcases heads w a c b with ⟨v, a, b⟩ | ⟨a, v, b, d⟩
      · exact absurd ⟨v, a, by rw [b]; exact ⟨r, rfl⟩⟩ h7
      · refine .half a fun x y e hx => h7 ⟨v, b, ?_⟩
        subst hx
        rw [d, e]; exact ⟨y, rfl⟩

end Nk.Tok
