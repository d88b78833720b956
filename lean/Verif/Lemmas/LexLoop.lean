import Verif.Lemmas.Lex
/-!
# The tokenizer's loop
-/
namespace Nk.Tok
open CStr Nk.Spec

variable (hdr : Nat) (junk : Nat → UInt8)

/-- What comes after a token. -/
def more (b : Bytes) (len n : Nat) : Option St → M (Option St)
  | none => return none
  | some s => loop hdr junk b len n (s.skip 1)

/-- The body of the loop, with `N` and `n` the iterations left for white space and for the loop. -/
def cont (b : Bytes) (len N n : Nat) (s : St) : M (Option St) := do
  let s ← liftR (skipWs b len N s)
  let r ← token hdr junk b len s
  more hdr junk b len n r

theorem loop_cont {b : Bytes} {len n : Nat} {s : St} (h : s.i < len) : loop hdr junk b len (n + 1) s = cont hdr junk b len (b.length + 1) n s := by
  unfold loop cont
  rw [if_pos h]
  rfl

theorem loop_end {b : Bytes} {len n : Nat} {s : St} (h : ¬ s.i < len) (vm : VM) : loop hdr junk b len (n + 1) s vm = .ok (some s, vm) := by
  unfold loop
  rw [if_neg h]
  rfl

/-- No white space. -/
theorem skip_none {b : Bytes} {len N : Nat} {s : St} {c : UInt8} (hr : rd b s.i = .ok c) (h : isWhitespace c = false) : skipWs b len (N + 1) s = .ok s := by
  unfold skipWs
  split
  · rw [hr, Res.ok_bind, if_neg (by rw [h]; exact Bool.false_ne_true)]
  · rfl

theorem cont_token {b : Bytes} {len N n : Nat} {s : St} {c : UInt8} (hr : rd b s.i = .ok c) (h : isWhitespace c = false) {vm vm' : VM} {r : Option St}
    (ht : token hdr junk b len s vm = .ok (r, vm')) :
    cont hdr junk b len (N + 1) n s vm = more hdr junk b len n r vm' := by
  unfold cont
  rw [skip_none hr h, M.bind_ok liftR_ok, M.bind_ok ht]

/-- White space. -/
theorem cont_blank {c : UInt8} (hc : Blank c) {pre t : Bytes} {len N n : Nat} {p : Pos} {toks : List Token} (hl : pre.length < len) (hu : len < UINT_MAX)
    (h1 : p.line < 2147483647) (h2 : p.actual < 2147483647) :
    cont hdr junk (pre ++ c :: t) len (N + 1) n (stAt p pre.length toks) = cont hdr junk (pre ++ c :: t) len N n (stAt (p.after c) (pre.length + 1) toks) := by
  unfold cont
  have : skipWs (pre ++ c :: t) len (N + 1) (stAt p pre.length toks) = skipWs (pre ++ c :: t) len N (stAt (p.after c) (pre.length + 1) toks) := by
    conv => lhs; unfold skipWs
    rw [if_pos (show (stAt p pre.length toks).i < len from hl), show rd (pre ++ c :: t) (stAt p pre.length toks).i = .ok c from rd_at _ _ _ _ rfl, Res.ok_bind, if_pos ((blank_iff c).mpr hc)]
    by_cases e : c = 10
    · rw [if_pos (show c = ch '\n' from e)]
      unfold incr
      rw [if_pos (by show p.line + 1 < _; omega), if_pos (by show p.actual + 1 < _; omega)]
      simp only [Res.ok_bind, stAt, Pos.after, if_pos e]
      rw [u32_fit (by omega)]
    · rw [if_neg (show ¬ c = ch '\n' from e)]
      simp only [stAt, Pos.after, if_neg e]
      rw [u32_fit (by omega)]
  rw [this]

theorem after_line (p : Pos) (c : UInt8) : (p.after c).line ≤ p.line + 1 ∧ (p.after c).actual ≤ p.actual + 1 := by
  unfold Pos.after
  split <;> constructor <;> simp <;> omega

/-- What is left to do for a token that ends before `t`. -/
theorem cont_next {pre w t : Bytes} {len N n : Nat} {p p' : Pos} {toks toks' : List Token} {vm : VM} {c : UInt8} {w' : Bytes} (e : w = c :: w')
    (hc : isWhitespace c = false) (hlen : (pre ++ w ++ t).length = len) (hu : len + 1 < UINT_MAX)
    (ht : token hdr junk (pre ++ (w ++ (t ++ [0]))) len (stAt p pre.length toks) vm = .ok (some (stAt p' (pre.length + (w.length - 1)) toks'), vm)) :
    cont hdr junk (pre ++ (w ++ (t ++ [0]))) len (N + 1) (n + 1) (stAt p pre.length toks) vm =
      if t = [] then .ok (some (stAt p' len toks'), vm)
      else cont hdr junk (pre ++ w ++ (t ++ [0])) len ((pre ++ w ++ (t ++ [0])).length + 1) n (stAt p' (pre ++ w).length toks') vm := by
  subst e
  rw [cont_token hdr junk (c := c) (by exact rd_at _ _ _ _ rfl) hc ht]
  unfold more
  dsimp only
  have e : (stAt p' (pre.length + ((c :: w').length - 1)) toks').skip 1 = stAt p' (pre ++ c :: w').length toks' := by
    unfold St.skip stAt
    dsimp only
    simp only [List.length_append, List.length_cons] at hlen ⊢
    rw [u32_fit (by omega)]
    congr 1
  rw [e]
  by_cases h : t = []
  · subst h
    rw [if_pos rfl, loop_end hdr junk (by show ¬ (pre ++ c :: w').length < len; simp at hlen ⊢; omega)]
    have e : (pre ++ c :: w').length = len := by rw [← hlen]; simp
    rw [e]
  · rw [if_neg h, loop_cont hdr junk (by
      show (pre ++ c :: w').length < len
      have := List.length_pos_iff.mpr h
      simp at hlen ⊢
      omega)]
    simp only [List.append_assoc]

/-- The end of the text, or what comes after its last token. -/
inductive Ends (rest : Bytes) (q : Pos) (toks : List Token) (vm : VM) : Res (Option St × VM) → Prop
  | done {i : Nat} : rest = [] → Ends rest q toks vm (.ok (some (stAt q i toks), vm))
  | bad {vm' : VM} : Bad rest → oneError vm vm' → Ends rest q toks vm (.ok (none, vm'))

theorem lex_nil {rest : Bytes} {p q : Pos} {t : Bytes} {ts : List Token} (h : Lex rest p t ts q) (e : t = []) : rest = [] ∧ ts = [] ∧ p = q := by
  cases h with
  | done => exact ⟨e, rfl, rfl⟩
  | symbol h1 _ _ _ =>
    exfalso
    have : ∀ w' ∈ symbols, w'.1 ≠ [] := by decide
    exact this _ h1 (List.append_eq_nil_iff.mp e).1
  | _ => simp at e

theorem lex_run {rest : Bytes} (hb : rest = [] ∨ Bad rest) {text : Bytes} (hz : NoNul text) (hu : text.length + 3 + hdr < UINT_MAX) {vm : VM}
    {p q : Pos} {t : Bytes} {ts : List Token}
    (h : Lex rest p t ts q) : ∀ (pre : Bytes) (toks : List Token) (N n : Nat), pre ++ t = text → t.length < N → t.length < n →
      p.line + t.length < 2147483648 → p.actual + t.length < 2147483648 →
      Ends rest q (toks ++ ts) vm (cont hdr junk (text ++ [0]) text.length N n (stAt p pre.length toks) vm) := by
  -- a token before the text `t`
  have step : ∀ {p q : Pos} {w t : Bytes} {ts : List Token} (tk : List Token) (c : UInt8) (w' : Bytes), w = c :: w' → isWhitespace c = false →
      Lex rest p t ts q →
      (∀ (pre : Bytes) (toks : List Token) (N n : Nat), pre ++ t = text → t.length < N → t.length < n →
        p.line + t.length < 2147483648 → p.actual + t.length < 2147483648 →
        Ends rest q (toks ++ ts) vm (cont hdr junk (text ++ [0]) text.length N n (stAt p pre.length toks) vm)) →
      ∀ (pre : Bytes) (toks : List Token) (N n : Nat), pre ++ (w ++ t) = text →
        token hdr junk (pre ++ (w ++ (t ++ [0]))) text.length (stAt p pre.length toks) vm =
          .ok (some (stAt p (pre.length + (w.length - 1)) (toks ++ tk)), vm) →
        (w ++ t).length < N → (w ++ t).length < n → p.line + (w ++ t).length < 2147483648 → p.actual + (w ++ t).length < 2147483648 →
        Ends rest q (toks ++ (tk ++ ts)) vm (cont hdr junk (text ++ [0]) text.length N n (stAt p pre.length toks) vm) := by
    intro p q w t ts tk c w' e hc hx ih pre toks N n ht hk hN hn hp1 hp2
    obtain ⟨N, rfl⟩ : ∃ m, N = m + 1 := ⟨N - 1, by omega⟩
    obtain ⟨n, rfl⟩ : ∃ m, n = m + 1 := ⟨n - 1, by omega⟩
    have hw : 1 ≤ w.length := by subst e; simp
    simp only [List.length_append] at hN hn hp1 hp2
    have := cont_next hdr junk (N := N) (n := n) e hc (show (pre ++ w ++ t).length = text.length by rw [List.append_assoc, ht]) (by omega) hk
    have et : text ++ [0] = pre ++ (w ++ (t ++ [0])) := by rw [← ht]; simp
    rw [et, this]
    split
    · rename_i e0
      subst e0
      obtain ⟨h1, h2, h3⟩ := lex_nil hx rfl
      subst h2 h3
      rw [List.append_nil]
      exact .done h1
    · have := ih (pre ++ w) (toks ++ tk) ((pre ++ w ++ (t ++ [0])).length + 1) n (by rw [List.append_assoc]; exact ht) (by simp; omega) (by omega) (by omega) (by omega)
      have e2 : text ++ [0] = pre ++ w ++ (t ++ [0]) := by rw [et]; simp
      rw [e2, List.append_assoc toks] at this
      exact this
  have white : ∀ {c : UInt8}, ¬ Blank c → isWhitespace c = false := fun h => by
    rw [← blank_iff] at h
    simpa using h
  induction h with
  | @done p =>
    intro pre toks N n ht hN hn _ _
    obtain ⟨N, rfl⟩ : ∃ m, N = m + 1 := ⟨N - 1, by omega⟩
    obtain ⟨n, rfl⟩ : ∃ m, n = m + 1 := ⟨n - 1, by omega⟩
    rw [List.append_nil]
    rcases hb with rfl | hb
    · rw [List.append_nil] at ht
      subst ht
      rw [cont_token hdr junk (c := 0) (by exact rd_at _ _ _ _ rfl) (by decide) (end_token hdr junk)]
      unfold more
      dsimp only
      rw [loop_end hdr junk (by show ¬ u32 (pre.length + 1) < pre.length; rw [u32_fit (by omega)]; omega)]
      exact .done rfl
    · subst ht
      simp only [List.length_append] at hu
      obtain ⟨vm', h1, h2⟩ := bad_token hdr junk (pre := pre) (p := p) (toks := toks) (vm := vm) (len := (pre ++ rest).length) hb
        (fun h => hz (by simp [h])) (by omega)
      have hw : ∃ c r, rest = c :: r ∧ isWhitespace c = false := by
        cases hb with
        | unknown h => exact ⟨_, _, rfl, white h⟩
        | half h => refine ⟨_, _, rfl, ?_⟩; rcases h with rfl | rfl <;> decide
        | newline h => exact ⟨34, _, rfl, by decide⟩
      obtain ⟨c, r, e1, e2⟩ := hw
      rw [List.append_assoc]
      have := cont_token hdr junk (N := N) (n := n + 1) (c := c) (by rw [e1]; exact rd_at pre (r ++ [0]) c _ rfl) e2 h1
      rw [this]
      exact .bad hb h2
  | @blank p c t ts q hc _ ih =>
    intro pre toks N n ht hN hn hp1 hp2
    obtain ⟨N, rfl⟩ : ∃ m, N = m + 1 := ⟨N - 1, by omega⟩
    have e : text ++ [0] = pre ++ c :: (t ++ [0]) := by rw [← ht]; simp
    have hl : pre.length + (t.length + 1) = text.length := by rw [← ht]; simp
    simp only [List.length_cons] at hN hn hp1 hp2
    rw [e, cont_blank hdr junk hc (by omega) (by omega) (by omega) (by omega), ← e]
    have a := after_line p c
    have := ih (pre ++ [c]) toks N n (by rw [← ht]; simp) (by omega) (by omega) (by omega) (by omega)
    rw [List.length_append] at this
    exact this
  | @comment p w t ts q hw ht hx ih =>
    intro pre toks N n hpre hN hn hp1 hp2
    have hl : pre.length + (w.length + 2 + t.length) = text.length := by rw [← hpre]; simp; omega
    exact step [] 47 (47 :: w) rfl (by decide) hx ih pre toks N n hpre (by
      rw [List.append_nil]
      exact comment_token hdr junk hw (fun h => hz (by rw [← hpre]; simp [h])) ht (by omega)) hN hn hp1 hp2
  | @symbol p w ty t ts q hw hmax hc hx ih =>
    intro pre toks N n hpre hN hn hp1 hp2
    have hl : pre.length + (w.length + t.length) = text.length := by rw [← hpre]; simp
    have : ∀ w' ∈ symbols, ∃ c v, w'.1 = c :: v ∧ isWhitespace c = false := by
      intro w' h'
      obtain ⟨c, h1, h2⟩ := symbol_heads w' h'
      cases e : w'.1 with
      | nil => rw [e] at h1; cases h1
      | cons d v =>
        rw [e] at h1
        cases h1
        refine ⟨_, _, rfl, ?_⟩
        simp only [Bool.or_eq_false_iff] at h2
        exact h2.1.1.1.2
    obtain ⟨c, v, e1, e2⟩ := this _ hw
    exact step [p.tok ty w] c v e1 e2 hx ih pre toks N n hpre (symbol_token hdr junk hw hmax hc (by omega)) hN hn hp1 hp2
  | @word p c w t ts q hc hw ht hx ih =>
    intro pre toks N n hpre hN hn hp1 hp2
    have hl : pre.length + (w.length + 1 + t.length) = text.length := by rw [← hpre]; simp; omega
    refine step [p.tok (wordKind (c :: w)) (c :: w)] c w rfl (white ?_) hx ih pre toks N n hpre (word_token hdr junk hc hw ht (by omega)) hN hn hp1 hp2
    intro h
    rw [← letter_iff] at hc
    rcases h with rfl | rfl | rfl | rfl <;> revert hc <;> decide
  | @number p c w t ts q hc hw hlen ht hx ih =>
    intro pre toks N n hpre hN hn hp1 hp2
    have hl : pre.length + (w.length + 1 + t.length) = text.length := by rw [← hpre]; simp; omega
    refine step [p.tok (if 46 ∈ w then .float else .integer) (c :: w)] c w rfl (white ?_) hx ih pre toks N n hpre
      (number_token hdr junk hc hw hlen ht (by omega) (by omega)) hN hn hp1 hp2
    intro h
    rw [← digit_iff] at hc
    rcases h with rfl | rfl | rfl | rfl <;> revert hc <;> decide
  | @string p w t ts q hw hx ih =>
    intro pre toks N n hpre hN hn hp1 hp2
    have hl : pre.length + (w.length + 1 + (t.length + 1)) = text.length := by rw [← hpre]; simp; omega
    have e : (34 :: (w ++ [34])) ++ t = 34 :: w ++ 34 :: t := by simp
    rw [← e] at hpre hN hn hp1 hp2
    refine step [p.tok .string (literal w)] 34 (w ++ [34]) rfl (by decide) hx ih pre toks N n hpre ?_ hN hn hp1 hp2
    have := string_token hdr junk (t := t ++ [0]) (pre := pre) (p := p) (toks := toks) (vm := vm) (len := text.length) hw
      (fun h => hz (by rw [← hpre]; simp [h])) (by omega)
    have e1 : pre ++ (34 :: (w ++ [34]) ++ (t ++ [0])) = pre ++ (34 :: w ++ 34 :: (t ++ [0])) := by simp
    have e2 : (34 :: (w ++ [34])).length - 1 = w.length + 1 := by simp
    rw [e1, e2]
    exact this
  | @«open» p w hw hr =>
    intro pre toks N n hpre hN hn hp1 hp2
    have hl : pre.length + (w.length + 1) = text.length := by rw [← hpre]; simp
    obtain ⟨N, rfl⟩ : ∃ m, N = m + 1 := ⟨N - 1, by omega⟩
    obtain ⟨n, rfl⟩ : ∃ m, n = m + 1 := ⟨n - 1, by omega⟩
    have e : text ++ [0] = pre ++ (34 :: w ++ [0]) := by rw [← hpre]; simp
    rw [e, cont_token hdr junk (c := 34) (by exact rd_at _ _ _ _ rfl) (by decide)
      (open_token hdr junk hw (fun h => hz (by rw [← hpre]; simp [h])) (by omega))]
    unfold more
    dsimp only
    rw [loop_end hdr junk (by show ¬ u32 (pre.length + (w.length + 1) + 1) < text.length; rw [u32_fit (by omega)]; omega)]
    exact .done hr

/-! ## String literals that follow each other -/

theorem merge_cons (t : Token) (ts : List Token) : ∃ u r, merge (t :: ts) = u :: r ∧ u.type = t.type ∧ u.line = t.line ∧ u.file = t.file ∧
    u.actualLine = t.actualLine := by
  unfold merge
  split
  · exact ⟨_, _, rfl, rfl, rfl, rfl, rfl⟩
  · split <;> exact ⟨_, _, rfl, rfl, rfl, rfl, rfl⟩

/-- Merging the first two literals first makes no difference. -/
theorem merge_two {t u : Token} (ht : t.type = .string) (hu : u.type = .string) (ts : List Token) :
    merge ({ t with str := t.str ++ u.str } :: ts) = merge (t :: u :: ts) := by
  conv => rhs; unfold merge
  unfold merge
  cases h : merge ts with
  | nil => simp [ht, hu]
  | cons v r =>
    by_cases hv : v.type = .string
    · simp [ht, hu, hv]
    · simp [ht, hu, hv]

theorem merge_other {t u : Token} (h : ¬(t.type = .string ∧ u.type = .string)) (ts : List Token) : merge (t :: u :: ts) = t :: merge (u :: ts) := by
  obtain ⟨v, r, e, h1, _⟩ := merge_cons u ts
  conv => lhs; unfold merge
  rw [e]
  dsimp only
  rw [if_neg (by rw [h1]; exact h)]

theorem consolidate_run (vm : VM) (n : Nat) : ∀ l : List Token, l.length = n → Clean l → strTotal l + 1 + hdr ≤ UINT_MAX →
    consolidate hdr junk l vm = .ok (merge l, vm) := by
  induction n using Nat.strongRecOn with
  | ind n ih =>
    intro l hl hc hfit
    match l, hl with
    | [], _ => unfold consolidate; rfl
    | [t], _ => unfold consolidate; rfl
    | t :: u :: r, hl =>
      have e1 : strTotal (t :: u :: r) = (if t.type = .string then t.str.length else 0) +
          ((if u.type = .string then u.str.length else 0) + strTotal r) := by simp [strTotal]
      unfold consolidate
      split
      · rename_i hty
        rw [e1, if_pos hty.1, if_pos hty.2] at hfit
        have ht := hc t (by simp) hty.1
        have hu := hc u (by simp) hty.2
        rw [concat_ok hdr junk t.str [] u.str [] ht hu (by omega), M.bind_ok liftR_ok]
        have hv : val (t.str ++ u.str ++ [0]) = t.str ++ u.str :=
          text_of (t.str ++ u.str) [] (fun m => (List.mem_append.mp m).elim ht hu)
        dsimp only
        simp only [Bool.false_eq_true, if_false]
        rw [hv, ← merge_two hty.1 hty.2]
        refine ih (r.length + 1) (by simp at hl; omega) _ (by simp) ?_ ?_
        · intro x hx hxs
          rcases List.mem_cons.mp hx with e | m
          · subst e
            exact fun m => (List.mem_append.mp m).elim ht hu
          · exact hc x (by simp [m]) hxs
        · simp only [strTotal, List.map_cons, List.sum_cons, hty.1, if_true, List.length_append]
          simp only [strTotal] at hfit
          omega
      · rename_i hty
        rw [M.bind_ok (ih (r.length + 1) (by simp at hl; omega) (u :: r) (by simp) (fun x hx => hc x (by simp [List.mem_cons.mp hx])) (by
          rw [e1] at hfit
          simp only [strTotal, List.map_cons, List.sum_cons] at hfit ⊢
          omega)), merge_other hty]
        rfl

theorem lex_clean {rest : Bytes} {p q : Pos} {t : Bytes} {ts : List Token} (h : Lex rest p t ts q) (hz : NoNul t) : Clean ts ∧ strTotal ts ≤ t.length := by
  have cons : ∀ {u : Token} {us : List Token}, (u.type = .string → NoNul u.str) → Clean us → Clean (u :: us) := fun h1 h2 x hx hs =>
    (List.mem_cons.mp hx).elim (fun e => by subst e; exact h1 hs) fun hx => h2 x hx hs
  have tot : ∀ (u : Token) (us : List Token), strTotal (u :: us) = (if u.type = .string then u.str.length else 0) + strTotal us := fun u us => by simp [strTotal]
  have keep : ∀ {a b : Bytes}, NoNul (a ++ b) → NoNul a ∧ NoNul b := fun h => ⟨fun m => h (by simp [m]), fun m => h (by simp [m])⟩
  induction h with
  | done => exact ⟨fun _ h => (by cases h), Nat.zero_le _⟩
  | blank _ _ ih =>
    obtain ⟨h1, h2⟩ := ih hz.cons.2
    exact ⟨h1, by simp; omega⟩
  | comment _ _ _ ih =>
    obtain ⟨h1, h2⟩ := ih (keep hz).2
    exact ⟨h1, by simp; omega⟩
  | @symbol p w ty t ts q hw _ _ _ ih =>
    obtain ⟨h1, h2⟩ := ih (keep hz).2
    have : ∀ w ∈ symbols, w.2 ≠ .string := by decide
    have hn := this _ hw
    refine ⟨cons (fun h => absurd h hn) h1, ?_⟩
    rw [tot, if_neg (show ¬(p.tok ty w).type = .string from hn)]
    simp; omega
  | @word p c w t ts q _ _ _ _ ih =>
    obtain ⟨h1, h2⟩ := ih (keep hz).2
    have hn : ¬ (p.tok (wordKind (c :: w)) (c :: w)).type = .string := by
      show ¬ wordKind (c :: w) = .string
      rw [← wordType_eq]
      exact wordType_ne _
    refine ⟨cons (fun h => absurd h hn) h1, ?_⟩
    rw [tot, if_neg hn]
    simp; omega
  | @number p c w t ts q _ _ _ _ _ ih =>
    obtain ⟨h1, h2⟩ := ih (keep hz).2
    have hn : ¬ (p.tok (if 46 ∈ w then TokType.float else .integer) (c :: w)).type = .string := by
      show ¬ (if 46 ∈ w then TokType.float else .integer) = .string
      split <;> decide
    refine ⟨cons (fun h => absurd h hn) h1, ?_⟩
    rw [tot, if_neg hn]
    simp; omega
  | @string p w t ts q hw _ ih =>
    obtain ⟨a, b⟩ := keep hz
    obtain ⟨h1, h2⟩ := ih b.cons.2
    refine ⟨cons (fun _ => literal_noNul _ a.cons.2) h1, ?_⟩
    rw [tot, if_pos (show (p.tok .string (literal w)).type = .string from rfl)]
    have := literal_length w
    show (literal w).length + _ ≤ _
    simp; omega
  | @«open» p w hw _ =>
    refine ⟨cons (fun _ => literal_noNul _ hz.cons.2) fun _ h => (by cases h), ?_⟩
    rw [tot, if_pos (show (p.tok .string (literal w)).type = .string from rfl)]
    have := literal_length w
    show (literal w).length + 0 ≤ _
    simp; omega

/-- The whole tokenizer. -/
theorem tokenize_run {rest text file : Bytes} (hz : NoNul text) (hu : text.length + 3 + hdr < UINT_MAX) (hl : text.length < 2147483647)
    (hb : rest = [] ∨ Bad rest) {vm vm1 : VM} {f : Nat} (hf : addSourceFile file vm = .ok (f, vm1)) {q : Pos} {ts : List Token}
    (h : Lex rest ⟨1, f, 1⟩ text ts q) :
    (rest = [] ∧ tokenize hdr junk (text ++ [0]) file vm = .ok (some (merge ts), vm1)) ∨
      (Bad rest ∧ ∃ vm', tokenize hdr junk (text ++ [0]) file vm = .ok (none, vm') ∧ oneError vm1 vm') := by
  unfold tokenize
  rw [strlen_ok text [] hz (by omega), M.bind_ok liftR_ok, M.bind_ok hf]
  by_cases e : text = []
  · obtain ⟨h1, h2, h3⟩ := lex_nil h e
    subst e h2
    refine .inl ⟨h1, ?_⟩
    rw [M.bind_ok (loop_end hdr junk (by show ¬ 0 < 0; omega) vm1)]
    dsimp only
    rw [M.bind_ok (consolidate_run hdr junk vm1 0 [] rfl (fun _ h => by cases h) (by show 0 + 1 + hdr ≤ _; omega))]
    rfl
  · have hp := List.length_pos_iff.mpr e
    have := lex_run hdr junk (vm := vm1) hb hz hu h [] [] ((text ++ [0]).length + 1) (text ++ [0]).length rfl (by simp; omega) (by simp) (by show (1 : Int) + _ < _; omega)
      (by show (1 : Int) + _ < _; omega)
    have e2 := loop_cont hdr junk (b := text ++ [0]) (len := text.length) (n := (text ++ [0]).length) (s := ⟨0, 1, f, 1, []⟩) hp
    have e3 : loop hdr junk (text ++ [0]) text.length ((text ++ [0]).length + 1) ⟨0, 1, f, 1, []⟩ vm1 =
      cont hdr junk (text ++ [0]) text.length ((text ++ [0]).length + 1) (text ++ [0]).length (stAt ⟨1, f, 1⟩ ([] : Bytes).length []) vm1 := by rw [e2]; rfl
    rw [List.nil_append, ← e3] at this
    generalize hg : loop hdr junk (text ++ [0]) text.length ((text ++ [0]).length + 1) ⟨0, 1, f, 1, []⟩ vm1 = g at this
    cases this with
    | done hr =>
      refine .inl ⟨hr, ?_⟩
      rw [M.bind_ok hg]
      obtain ⟨c1, c2⟩ := lex_clean h hz
      show (consolidate hdr junk ts >>= fun toks => pure (some toks)) vm1 = _
      rw [M.bind_ok (consolidate_run hdr junk vm1 _ ts rfl c1 (by omega))]
      rfl
    | bad h1 h2 =>
      refine .inr ⟨h1, _, ?_, h2⟩
      rw [M.bind_ok hg]
      rfl

end Nk.Tok
