import Verif.Model.CStr
import Verif.Spec.CStr
/-!
# Lemmas about the C string helpers
-/
namespace Nk.CStr
open Nk.Spec

theorem u32_fit {n : Nat} (h : n ≤ UINT_MAX) : u32 n = n :=
  Nat.mod_eq_of_lt (by unfold UINT_MAX at h; unfold U32; omega)

theorem rd_at (a r : Bytes) (c : UInt8) (i : Nat) (h : i = a.length) :
    rd (a ++ c :: r) i = .ok c := by
  subst h; simp [rd]

theorem wr_at (a r : Bytes) (c v : UInt8) (i : Nat) (h : i = a.length) :
    wr (a ++ c :: r) i v = .ok (a ++ v :: r) := by
  subst h; simp [wr]

theorem wr_end (b : Bytes) (i : Nat) (v : UInt8) (h : b.length ≤ i) : wr b i v = .ub .oob := by
  simp [wr, Nat.not_lt.mpr h]

theorem strlenLoop_ok (s : Bytes) : ∀ (a r : Bytes) (n : Nat), NoNul s →
    a.length + s.length < UINT_MAX → s.length < n →
    strlenLoop (a ++ (s ++ 0 :: r)) n a.length = .ok (a.length + s.length) := by
  induction s with
  | nil =>
    intro a r n _ _ hn
    cases n with
    | zero => omega
    | succ n =>
      unfold strlenLoop
      rw [List.nil_append, rd_at _ _ _ _ rfl]; simp
  | cons c s ih =>
    intro a r n hs hl hn
    cases n with
    | zero => omega
    | succ n =>
      simp only [List.length_cons] at hl hn
      have hc : c ≠ 0 := fun e => hs (by simp [e])
      unfold strlenLoop
      rw [List.cons_append, rd_at _ _ _ _ rfl]
      simp only [Res.ok_bind, if_neg hc]
      rw [if_neg (by omega), u32_fit (by omega)]
      have := ih (a ++ [c]) r n (fun m => hs (by simp [m])) (by simp; omega) (by omega)
      simp only [List.append_assoc, List.cons_append, List.nil_append, List.length_append,
        List.length_cons, List.length_nil] at this
      rw [this]; simp; omega

theorem strlen_ok (s r : Bytes) (hs : NoNul s) (hl : s.length < UINT_MAX) :
    strlen (s ++ 0 :: r) = .ok s.length := by
  have := strlenLoop_ok s [] r ((s ++ 0 :: r).length + 1) hs (by simpa using hl)
    (by simp; omega)
  simpa [strlen] using this

theorem strcpyLoop_ok (s : Bytes) (len : Nat) : ∀ (a r d e : Bytes) (n : Nat), NoNul s →
    a.length + s.length < UINT_MAX → s.length < n → a.length = d.length → a.length ≤ len →
    strcpyLoop (a ++ (s ++ 0 :: r)) len n (d ++ e) a.length =
      if min s.length (len - a.length) < e.length then
        .ok (d ++ s.take (len - a.length) ++ 0 :: e.drop (min s.length (len - a.length) + 1))
      else .ub .oob := by
  induction s with
  | nil =>
    intro a r d e n _ _ hn had hal
    cases n with
    | zero => omega
    | succ n =>
      unfold strcpyLoop
      rw [List.nil_append, rd_at _ _ _ _ rfl]
      simp only [Res.ok_bind, if_true]
      cases e with
      | nil => rw [wr_end _ _ _ (by simp; omega)]; simp
      | cons x e => rw [wr_at _ _ _ _ _ had]; simp
  | cons c s ih =>
    intro a r d e n hs hl hn had hal
    cases n with
    | zero => omega
    | succ n =>
      simp only [List.length_cons] at hl hn
      have hc : c ≠ 0 := fun e => hs (by simp [e])
      unfold strcpyLoop
      rw [List.cons_append, rd_at _ _ _ _ rfl]
      simp only [Res.ok_bind, if_neg hc]
      by_cases hlen : a.length ≥ len
      · have e0 : len - a.length = 0 := by omega
        rw [if_pos hlen, e0]
        cases e with
        | nil => rw [wr_end _ _ _ (by simp; omega)]; simp
        | cons x e => rw [wr_at _ _ _ _ _ had]; simp
      · rw [if_neg hlen]
        cases e with
        | nil => rw [wr_end _ _ _ (by simp; omega)]; simp
        | cons x e =>
          rw [wr_at _ _ _ _ _ had, Res.ok_bind, u32_fit (by omega), if_neg (by omega)]
          have := ih (a ++ [c]) r (d ++ [c]) e n (fun m => hs (by simp [m])) (by simp; omega)
            (by omega) (by simp; omega) (by simp; omega)
          simp only [List.append_assoc, List.cons_append, List.nil_append, List.length_append,
            List.length_cons, List.length_nil] at this
          rw [this]
          have e1 : len - a.length = (len - (a.length + 1)) + 1 := by omega
          rw [e1]
          simp only [List.length_cons, List.take_succ_cons, List.append_assoc, List.cons_append,
            List.drop_succ_cons, Nat.zero_add]
          rw [Nat.add_min_add_right]
          simp

theorem strcpyS_eq (s r d : Bytes) (len : Nat) (hs : NoNul s) (hl : s.length < UINT_MAX) :
    strcpyS d (s ++ 0 :: r) len =
      if min s.length len < d.length then
        .ok (s.take len ++ 0 :: d.drop (min s.length len + 1))
      else .ub .oob := by
  have := strcpyLoop_ok s len [] r [] d ((s ++ 0 :: r).length + 1) hs (by simpa using hl)
    (by simp; omega) rfl (by simp)
  simpa [strcpyS] using this

theorem strcatLoop_ok (s : Bytes) (start : Nat) : ∀ (a r d e : Bytes) (n : Nat), NoNul s →
    start + a.length + s.length < UINT_MAX → s.length < n → start + a.length = d.length →
    strcatLoop (a ++ (s ++ 0 :: r)) start n (d ++ e) (start + a.length) =
      if s.length < e.length then .ok (d ++ s ++ 0 :: e.drop (s.length + 1)) else .ub .oob := by
  induction s with
  | nil =>
    intro a r d e n _ _ hn had
    cases n with
    | zero => omega
    | succ n =>
      unfold strcatLoop
      rw [List.nil_append, rd_at _ _ _ _ (by omega)]
      simp only [Res.ok_bind, if_true]
      cases e with
      | nil => rw [wr_end _ _ _ (by simp; omega)]; simp
      | cons x e => rw [wr_at _ _ _ _ _ had]; simp
  | cons c s ih =>
    intro a r d e n hs hl hn had
    cases n with
    | zero => omega
    | succ n =>
      simp only [List.length_cons] at hl hn
      have hc : c ≠ 0 := fun e => hs (by simp [e])
      unfold strcatLoop
      rw [List.cons_append, rd_at _ _ _ _ (by omega)]
      simp only [Res.ok_bind, if_neg hc]
      rw [if_neg (by omega)]
      cases e with
      | nil => rw [wr_end _ _ _ (by simp; omega)]; simp
      | cons x e =>
        rw [wr_at _ _ _ _ _ had, Res.ok_bind, u32_fit (by omega)]
        have := ih (a ++ [c]) r (d ++ [c]) e n (fun m => hs (by simp [m])) (by simp; omega)
          (by omega) (by simp; omega)
        simp only [List.append_assoc, List.cons_append, List.nil_append, List.length_append,
          List.length_cons, List.length_nil, Nat.zero_add, ← Nat.add_assoc] at this
        rw [this]
        simp

theorem strcat_eq (a e s r : Bytes) (ha : NoNul a) (hs : NoNul s)
    (hl : a.length + s.length < UINT_MAX) :
    strcat (a ++ 0 :: e) (s ++ 0 :: r) =
      if s.length < e.length + 1 then .ok (a ++ s ++ 0 :: e.drop s.length) else .ub .oob := by
  unfold strcat
  rw [strlen_ok a e ha (by omega), Res.ok_bind]
  have := strcatLoop_ok s a.length [] r a (0 :: e) ((s ++ 0 :: r).length + 1) hs
    (by simpa using hl) (by simp; omega) (by simp)
  simpa using this

@[simp] theorem fresh_length (junk : Nat → UInt8) (n : Nat) : (fresh junk n).length = n := by
  simp [fresh]

theorem _root_.Nk.Spec.NoNul.cons {c : UInt8} {s : Bytes} (h : NoNul (c :: s)) : c ≠ 0 ∧ NoNul s :=
  ⟨fun e => h (by simp [e]), fun m => h (by simp [m])⟩

theorem noNul_cons {c : UInt8} {s : Bytes} (h : c ≠ 0) (hs : NoNul s) : NoNul (c :: s) := by
  intro m
  rcases List.mem_cons.mp m with m | m
  · exact h m.symm
  · exact hs m

theorem literal_noNul : ∀ (s : Bytes), NoNul s → NoNul (literal s) := by
  intro s
  fun_induction literal s with
  | case1 => exact fun h => h
  | case2 r ih => exact fun h => noNul_cons (by decide) (ih h.cons.2.cons.2)
  | case3 r ih => exact fun h => noNul_cons (by decide) (ih h.cons.2.cons.2)
  | case4 r ih => exact fun h => noNul_cons (by decide) (ih h.cons.2.cons.2)
  | case5 r ih => exact fun h => noNul_cons (by decide) (ih h.cons.2.cons.2)
  | case6 c r _ _ _ _ ih =>
    exact fun h => noNul_cons (by decide) (noNul_cons h.cons.2.cons.1 (ih h.cons.2.cons.2))
  | case7 c r _ _ _ _ _ ih => exact fun h => noNul_cons h.cons.1 (ih h.cons.2)

theorem literal_other (b : UInt8) (t : Bytes) (h1 : b ≠ 110) (h2 : b ≠ 114) (h3 : b ≠ 116)
    (h4 : b ≠ 34) : literal (92 :: b :: t) = 92 :: b :: literal t := by
  rw [literal]
  · exact fun h => h1 h
  · exact fun h => h2 h
  · exact fun h => h3 h
  · exact fun h => h4 h

theorem literal_plain (c : UInt8) (t : Bytes) (h : c ≠ 92) : literal (c :: t) = c :: literal t := by
  rw [literal] <;> simp [h]

theorem text_of (s r : Bytes) (hs : NoNul s) : text (s ++ 0 :: r) = s := by
  induction s with
  | nil => simp [text]
  | cons c s ih =>
    have := ih hs.cons.2
    simp only [text, List.cons_append] at this ⊢
    rw [List.takeWhile_cons_of_pos (by simpa using hs.cons.1), this]

/-- The unescape loop: it writes the meaning of what is left to read, and a terminator more where the
text ends in a backslash. -/
theorem unescapeLoop_ok (n : Nat) : ∀ (t a d e : Bytes) (len : Nat), NoNul t → t.length < n →
    len = a.length + t.length → len ≤ UINT_MAX - 2 → d.length ≤ a.length →
    t.length + 2 ≤ e.length →
    ∃ z e', (z = [] ∨ z = [0]) ∧
      unescapeLoop (a ++ (t ++ [0])) len n (d ++ e) a.length d.length =
        .ok (d ++ literal t ++ z ++ e', (d ++ literal t ++ z).length) ∧
      e' ≠ [] ∧ (literal t ++ z ++ e').length = e.length := by
  induction n with
  | zero => intro t a d e len _ h; omega
  | succ n ih =>
    intro t a d e len ht hn hlen hmax hda he
    have hM : UINT_MAX = 4294967295 := rfl
    match t, ht, hn, hlen, he with
    | [], _, _, hlen, he =>
      refine ⟨[], e, Or.inl rfl, ?_, ?_, by simp [literal]⟩
      · unfold unescapeLoop
        rw [if_neg (by simp at hlen; omega)]
        simp [literal]
      · intro h; subst h; simp at he
    | [c], ht, hn, hlen, he =>
      simp only [List.length_cons, List.length_nil] at hlen hn he
      match e, he with
      | x :: y :: e, he =>
        unfold unescapeLoop
        rw [if_pos (by omega), List.cons_append, rd_at _ _ _ _ rfl, Res.ok_bind]
        by_cases hc : c = 92
        · subst hc
          simp only [if_true]
          rw [u32_fit (by omega)]
          have r1 : rd (a ++ 92 :: ([] ++ [0])) (a.length + 1) = .ok 0 := by
            have := rd_at (a ++ [92]) [] 0 (a.length + 1) (by simp)
            simpa using this
          rw [r1]
          simp only [Res.ok_bind]
          rw [if_neg (by decide), if_neg (by decide), if_neg (by decide), if_neg (by decide)]
          rw [wr_at _ _ _ _ _ rfl, Res.ok_bind, u32_fit (by omega)]
          have w2 : wr (d ++ 92 :: y :: e) (d.length + 1) 0 = .ok (d ++ 92 :: 0 :: e) := by
            have := wr_at (d ++ [92]) e y 0 (d.length + 1) (by simp)
            simpa using this
          rw [w2, Res.ok_bind, u32_fit (by omega), u32_fit (by omega)]
          cases n with
          | zero => omega
          | succ n =>
            unfold unescapeLoop
            rw [if_neg (by omega)]
            refine ⟨[0], e, Or.inr rfl, by simp [literal], ?_, by simp [literal]⟩
            intro h; subst h; simp at he
        · rw [if_neg hc, wr_at _ _ _ _ _ rfl, Res.ok_bind, u32_fit (by omega), u32_fit (by omega)]
          cases n with
          | zero => omega
          | succ n =>
            unfold unescapeLoop
            rw [if_neg (by omega)]
            have l1 : literal [c] = [c] := by rw [literal_plain c [] hc]; rfl
            rw [l1]
            exact ⟨[], y :: e, Or.inl rfl, by simp, by simp, by simp⟩
    | c :: b :: t, ht, hn, hlen, he =>
      simp only [List.length_cons] at hlen hn he
      match e, he with
      | x :: y :: e, he =>
        unfold unescapeLoop
        rw [if_pos (by omega), List.cons_append, rd_at _ _ _ _ rfl, Res.ok_bind]
        by_cases hc : c = 92
        · subst hc
          simp only [if_true]
          rw [u32_fit (by omega)]
          have r1 : rd (a ++ 92 :: (b :: t ++ [0])) (a.length + 1) = .ok b := by
            have := rd_at (a ++ [92]) (t ++ [0]) b (a.length + 1) (by simp)
            simpa using this
          rw [r1]
          simp only [Res.ok_bind]
          have one : ∀ v : UInt8, literal (92 :: b :: t) = v :: literal t →
              ∃ z e', (z = [] ∨ z = [0]) ∧
                (do let out ← wr (d ++ x :: y :: e) d.length v
                    unescapeLoop (a ++ 92 :: (b :: t ++ [0])) len n out (u32 (a.length + 1 + 1))
                      (u32 (d.length + 1))) =
                  .ok (d ++ literal (92 :: b :: t) ++ z ++ e',
                    (d ++ literal (92 :: b :: t) ++ z).length) ∧
                e' ≠ [] ∧
                (literal (92 :: b :: t) ++ z ++ e').length = (x :: y :: e).length := by
            intro v hv
            rw [wr_at _ _ _ _ _ rfl, Res.ok_bind, u32_fit (by omega), u32_fit (by omega)]
            obtain ⟨z, e', hz, run, hne, hle⟩ := ih t (a ++ [92, b]) (d ++ [v]) (y :: e) len
              ht.cons.2.cons.2 (by omega) (by simp; omega) hmax (by simp; omega)
              (by simp at he ⊢; omega)
            refine ⟨z, e', hz, ?_, hne, ?_⟩
            · simpa [hv] using run
            · rw [hv]; simp at hle ⊢; omega
          by_cases h1 : b = 110
          · rw [if_pos h1]; exact one 10 (by subst h1; simp [literal])
          rw [if_neg h1]
          by_cases h2 : b = 114
          · rw [if_pos h2]; exact one 13 (by subst h2; simp [literal])
          rw [if_neg h2]
          by_cases h3 : b = 116
          · rw [if_pos h3]; exact one 9 (by subst h3; simp [literal])
          rw [if_neg h3]
          by_cases h4 : b = 34
          · rw [if_pos h4]; exact one 34 (by subst h4; simp [literal])
          rw [if_neg h4]
          have hv := literal_other b t h1 h2 h3 h4
          rw [wr_at _ _ _ _ _ rfl, Res.ok_bind, u32_fit (by omega)]
          have w2 : wr (d ++ 92 :: y :: e) (d.length + 1) b = .ok (d ++ 92 :: b :: e) := by
            have := wr_at (d ++ [92]) e y b (d.length + 1) (by simp)
            simpa using this
          rw [w2, Res.ok_bind, u32_fit (by omega), u32_fit (by omega)]
          obtain ⟨z, e', hz, run, hne, hle⟩ := ih t (a ++ [92, b]) (d ++ [92, b]) e len
            ht.cons.2.cons.2 (by omega) (by simp; omega) hmax (by simp; omega)
            (by simp at he ⊢; omega)
          refine ⟨z, e', hz, ?_, hne, ?_⟩
          · simpa [hv] using run
          · rw [hv]; simp at hle ⊢; omega
        · rw [if_neg hc, wr_at _ _ _ _ _ rfl, Res.ok_bind, u32_fit (by omega), u32_fit (by omega)]
          have hv := literal_plain c (b :: t) hc
          obtain ⟨z, e', hz, run, hne, hle⟩ := ih (b :: t) (a ++ [c]) (d ++ [c]) (y :: e) len
            ht.cons.2 (by simp; omega) (by simp; omega) hmax (by simp; omega)
            (by simp at he ⊢; omega)
          refine ⟨z, e', hz, ?_, hne, ?_⟩
          · simpa [hv] using run
          · rw [hv]; simp at hle ⊢; omega

theorem unescape_ok (hdr : Nat) (junk : Nat → UInt8) (s : Bytes) (hs : NoNul s)
    (hfit : s.length + 2 + hdr ≤ UINT_MAX) :
    ∃ out, unescape hdr junk (s ++ [0]) = .ok (out, false) ∧ out.length = s.length + 2 ∧
      (0 : UInt8) ∈ out ∧ text out = literal s := by
  have hM : UINT_MAX = 4294967295 := rfl
  unfold unescape
  rw [strlen_ok s [] hs (by omega), Res.ok_bind]
  have hd : decide (s.length > UINT_MAX - 2) = false := by simp; omega
  simp only [hd, Bool.false_eq_true, if_false]
  rw [u32_fit (by omega)]
  unfold malloc
  rw [if_neg (by omega), Res.ok_bind]
  obtain ⟨z, e', hz, run, hne, hlen⟩ := unescapeLoop_ok ((s ++ [0]).length + 1) s [] []
    (fresh junk (s.length + 2)) s.length hs (by simp; omega) (by simp) (by omega) (by simp)
    (by simp)
  simp only [List.nil_append, List.length_nil] at run
  rw [run, Res.ok_bind]
  match e', hne with
  | x :: e', _ =>
    simp only
    rw [wr_at _ _ _ _ _ rfl, Res.ok_bind]
    refine ⟨_, rfl, ?_, by simp, ?_⟩
    · simp at hlen ⊢; omega
    · rcases hz with rfl | rfl
      · rw [List.append_nil]; exact text_of _ _ (literal_noNul s hs)
      · rw [List.append_assoc]; exact text_of _ _ (literal_noNul s hs)

theorem strcpy_ok (dst s r : Bytes) (hs : NoNul s) (hl : s.length < UINT_MAX)
    (hroom : s.length < dst.length) :
    strcpy dst (s ++ 0 :: r) = .ok (s ++ 0 :: dst.drop (s.length + 1)) := by
  unfold strcpy
  rw [strcpyS_eq s r dst UINT_MAX hs hl, if_pos (by omega), Nat.min_eq_left (by omega),
    List.take_of_length_le (by omega)]

theorem concat_ok (hdr : Nat) (junk : Nat → UInt8) (a r s r' : Bytes) (ha : NoNul a) (hs : NoNul s)
    (hfit : a.length + s.length + 1 + hdr ≤ UINT_MAX) :
    concatLiterals hdr junk (a ++ 0 :: r) (s ++ 0 :: r') = .ok (a ++ s ++ [0], false) := by
  unfold concatLiterals
  rw [strlen_ok a r ha (by omega), Res.ok_bind, strlen_ok s r' hs (by omega), Res.ok_bind]
  have hd : decide (s.length > UINT_MAX - a.length) = false := by simp; omega
  simp only [hd, Bool.false_eq_true, if_false]
  rw [u32_fit (by omega)]
  unfold malloc
  rw [if_neg (by omega), Res.ok_bind, strcpy_ok _ a r ha (by omega) (by simp; omega),
    Res.ok_bind, strcat_eq a _ s r' ha hs (by omega), if_pos (by simp), Res.ok_bind,
    List.drop_of_length_le (by simp)]

end Nk.CStr
