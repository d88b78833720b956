import Verif.Model.Value
/-!
# Lemmas about byte strings, integers and floats
-/
namespace Nk

/-! ## `strcmp` is a total order -/

theorem schar_inj {a b : UInt8} (h : schar a = schar b) : a = b := by
  have ha := UInt8.toNat_lt a
  have hb := UInt8.toNat_lt b
  unfold schar at h
  apply UInt8.toNat_inj.mp
  split at h <;> split at h <;> omega

theorem strcmp_range (a b : Bytes) : strcmp a b = -1 ∨ strcmp a b = 0 ∨ strcmp a b = 1 := by
  induction a generalizing b with
  | nil => cases b <;> simp only [strcmp] <;> (try split) <;> simp
  | cons x xs ih =>
    cases b with
    | nil => simp only [strcmp]; split <;> simp
    | cons y ys =>
      simp only [strcmp]
      split
      · simp
      · split
        · simp
        · exact ih ys

theorem strcmp_neg (a b : Bytes) : strcmp b a = -strcmp a b := by
  induction a generalizing b with
  | nil => cases b <;> simp only [strcmp] <;> (try split) <;> simp
  | cons x xs ih =>
    cases b with
    | nil => simp only [strcmp]; split <;> simp
    | cons y ys =>
      simp only [strcmp]
      rcases Int.lt_trichotomy (schar x) (schar y) with h | h | h
      · have h1 : ¬ schar x > schar y := by omega
        have h2 : schar y > schar x := h
        simp [h, h1]
      · have h1 : ¬ schar x > schar y := by omega
        have h2 : ¬ schar x < schar y := by omega
        have h3 : ¬ schar y > schar x := by omega
        have h4 : ¬ schar y < schar x := by omega
        simp only [h1, h2, h3, h4, if_false]
        exact ih ys
      · have h1 : ¬ schar y > schar x := by omega
        have h2 : schar y < schar x := h
        simp [h1, h]

theorem strcmp_eq {a b : Bytes} : strcmp a b = 0 ↔ a = b := by
  induction a generalizing b with
  | nil => cases b <;> simp only [strcmp] <;> (try split) <;> simp
  | cons x xs ih =>
    cases b with
    | nil => simp only [strcmp]; split <;> simp
    | cons y ys =>
      simp only [strcmp]
      by_cases h1 : schar x > schar y
      · simp only [h1, if_true]
        constructor
        · intro h; omega
        · intro h; cases h; omega
      · by_cases h2 : schar x < schar y
        · simp only [h1, h2, if_true, if_false]
          constructor
          · intro h; omega
          · intro h; cases h; omega
        · simp only [h1, h2, if_false]
          have : x = y := schar_inj (by omega)
          subst this
          rw [ih]
          simp

@[simp] theorem strcmp_self (a : Bytes) : strcmp a a = 0 := strcmp_eq.mpr rfl

theorem strcmp_trans {a b c : Bytes} (h1 : strcmp a b ≤ 0) (h2 : strcmp b c ≤ 0) : strcmp a c ≤ 0 := by
  induction a generalizing b c with
  | nil =>
    cases c with
    | nil => simp
    | cons z zs =>
      cases b with
      | nil => exact h2
      | cons y ys =>
        simp only [strcmp] at h1 h2 ⊢
        by_cases hy : schar y < 0
        · simp [hy] at h1
        · by_cases hz : schar z < 0
          · have : schar y > schar z := by omega
            simp [this] at h2
          · simp [hz]
  | cons x xs ih =>
    cases b with
    | nil =>
      simp only [strcmp] at h1
      by_cases hx : schar x < 0
      · cases c with
        | nil => simp [strcmp, hx]
        | cons z zs =>
          simp only [strcmp] at h2 ⊢
          by_cases hz : schar z < 0
          · simp [hz] at h2
          · have h3 : ¬ schar x > schar z := by omega
            have h4 : schar x < schar z := by omega
            simp [h3, h4]
      · simp [hx] at h1
    | cons y ys =>
      cases c with
      | nil =>
        simp only [strcmp] at h1 h2 ⊢
        by_cases hy : schar y < 0
        · by_cases h3 : schar x > schar y
          · simp [h3] at h1
          · have : schar x < 0 := by omega
            simp [this]
        · simp [hy] at h2
      | cons z zs =>
        simp only [strcmp] at h1 h2 ⊢
        by_cases h3 : schar x > schar y
        · simp [h3] at h1
        · by_cases h5 : schar y > schar z
          · simp [h5] at h2
          · by_cases h4 : schar x < schar y
            · have h6 : ¬ schar x > schar z := by omega
              have h7 : schar x < schar z := by omega
              simp [h6, h7]
            · by_cases h8 : schar y < schar z
              · have h6 : ¬ schar x > schar z := by omega
                have h7 : schar x < schar z := by omega
                simp [h6, h7]
              · simp only [h3, h4, h5, h8, if_false] at h1 h2
                have h6 : ¬ schar x > schar z := by omega
                have h7 : ¬ schar x < schar z := by omega
                simp only [h6, h7, if_false]
                exact ih h1 h2

/-! ## Decimal printing and parsing -/

theorem isDigit_ofNat {d : Nat} (h : d < 10) : isDigit (UInt8.ofNat (48 + d)) = true := by
  have : (UInt8.ofNat (48 + d)).toNat = 48 + d := by
    rw [UInt8.toNat_ofNat']; exact Nat.mod_eq_of_lt (by omega)
  unfold isDigit
  rw [Bool.and_eq_true, decide_eq_true_iff, decide_eq_true_iff, UInt8.le_iff_toNat_le,
    UInt8.le_iff_toNat_le, this]
  exact ⟨Nat.le_add_right _ _, by show 48 + d ≤ 57; omega⟩

theorem digit_val {d : Nat} (h : d < 10) : (UInt8.ofNat (48 + d)).toNat - 48 = d := by
  have : (UInt8.ofNat (48 + d)).toNat = 48 + d := by
    rw [UInt8.toNat_ofNat']; exact Nat.mod_eq_of_lt (by omega)
  omega

/-- All bytes of a printed number are digits. -/
theorem natDec_digits (n : Nat) : ∀ c ∈ natDec n, isDigit c = true := by
  induction n using natDec.induct with
  | case1 n h =>
    intro c hc
    unfold natDec at hc
    simp only [h, if_true, List.mem_singleton] at hc
    subst hc
    exact isDigit_ofNat h
  | case2 n h ih =>
    intro c hc
    unfold natDec at hc
    simp only [h, if_false, List.mem_append, List.mem_singleton] at hc
    rcases hc with hc | rfl
    · exact ih c hc
    · exact isDigit_ofNat (Nat.mod_lt _ (by omega))

theorem natDec_ne_nil (n : Nat) : natDec n ≠ [] := by
  unfold natDec
  split <;> simp

theorem digitsVal_append (l : Bytes) (h : ∀ c ∈ l, isDigit c = true) (acc : Nat) (r : Bytes) :
    digitsVal acc (l ++ r) = digitsVal (digitsVal acc l) r := by
  induction l generalizing acc with
  | nil => rfl
  | cons c cs ih =>
    have hc := h c (by simp)
    simp only [List.cons_append, digitsVal, hc, if_true]
    exact ih (fun d hd => h d (by simp [hd])) _

theorem digitsVal_natDec (n : Nat) : digitsVal 0 (natDec n) = n := by
  induction n using natDec.induct with
  | case1 n h =>
    unfold natDec
    simp only [h, if_true, digitsVal, isDigit_ofNat h, digit_val h]
    omega
  | case2 n h ih =>
    have hm : n % 10 < 10 := Nat.mod_lt _ (by omega)
    unfold natDec
    simp only [h, if_false]
    rw [digitsVal_append _ (natDec_digits _), ih]
    simp only [digitsVal, isDigit_ofNat hm, if_true, digit_val hm]
    omega

theorem digit_not_special {c : UInt8} (h : isDigit c = true) : isSpace c = false ∧ c ≠ 45 ∧ c ≠ 43 := by
  unfold isDigit at h
  rw [Bool.and_eq_true, decide_eq_true_iff, decide_eq_true_iff, UInt8.le_iff_toNat_le,
    UInt8.le_iff_toNat_le] at h
  have h1 : 48 ≤ c.toNat := h.1
  refine ⟨?_, ?_, ?_⟩
  · unfold isSpace
    rw [Bool.or_eq_false_iff]
    constructor
    · rw [beq_eq_false_iff_ne]
      intro e; subst e
      exact absurd h1 (by decide)
    · rw [Bool.and_eq_false_iff]
      right
      rw [decide_eq_false_iff_not, UInt8.le_iff_toNat_le]
      show ¬ c.toNat ≤ 13
      omega
  · intro e; subst e; exact absurd h1 (by decide)
  · intro e; subst e; exact absurd h1 (by decide)

theorem atol_natDec {n : Nat} (h : n ≤ 9223372036854775807) : atol (natDec n) = n := by
  cases hd : natDec n with
  | nil => exact absurd hd (natDec_ne_nil n)
  | cons c cs =>
    have hc : isDigit c = true := natDec_digits n c (by rw [hd]; simp)
    obtain ⟨h1, h2, h3⟩ := digit_not_special hc
    have hdrop : (c :: cs).dropWhile isSpace = c :: cs := by simp [h1]
    have hv := digitsVal_natDec n
    rw [hd] at hv
    unfold atol
    rw [hdrop]
    simp only [signedVal, h2, h3, if_false, hv]
    omega

theorem atol_neg_natDec {n : Nat} (h : n ≤ 9223372036854775807) : atol (45 :: natDec n) = -(n : Int) := by
  have h1 : isSpace 45 = false := by decide
  have hdrop : (45 :: natDec n).dropWhile isSpace = 45 :: natDec n := by simp [h1]
  unfold atol
  rw [hdrop]
  simp only [signedVal, if_true, digitsVal_natDec]
  omega

theorem atoi32_itoa (i : BitVec 32) : atoi32 (itoa i) = i := by
  have h1 := BitVec.toInt_lt (x := i)
  have h2 := BitVec.le_toInt i
  unfold atoi32 itoa
  split
  · rw [atol_neg_natDec (by omega)]
    have : -((-i.toInt).toNat : Int) = i.toInt := by omega
    rw [this, BitVec.ofInt_toInt]
  · rw [atol_natDec (by omega)]
    have : (i.toInt.toNat : Int) = i.toInt := by omega
    rw [this, BitVec.ofInt_toInt]

/-! ## Floats -/

theorem fkey_lt (a : BitVec 32) : -2147483648 < fkey a ∧ fkey a < 2147483648 := by
  unfold fkey
  split <;> omega

/-- Equal non-NaN floats are equal bit patterns, except for the two zeros. -/
theorem feq_bits {a b : BitVec 32} (h : feq a b = true) : a.toNat % 16 = b.toNat % 16 := by
  unfold feq at h
  simp only [Bool.and_eq_true, decide_eq_true_eq] at h
  have hk := h.2
  have ha := a.isLt
  have hb := b.isLt
  unfold fkey at hk
  split at hk <;> split at hk <;> omega

end Nk
