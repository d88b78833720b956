import Verif.Spec.Token
import Verif.Lemmas.CStr
import Verif.Lemmas.Calls
/-!
# The tokenizer stays inside the source text
-/
namespace Nk.Tok
open Nk.Spec Nk.CStr

/-- The outcome is a result satisfying `Q`, or signed overflow. -/
def LimR (r : Res α) (Q : α → Prop) : Prop :=
  match r with
  | .ok a => Q a
  | .ub k => k = .overflow

/-- The same for functions with the VM. -/
def Lim (m : M α) (Q : α → Prop) : Prop := ∀ vm, LimR (m vm) fun p => Q p.1

theorem LimR.bind {r : Res α} {f : α → Res β} {Q : α → Prop} {R : β → Prop} (h : LimR r Q)
    (g : ∀ a, Q a → LimR (f a) R) : LimR (r >>= f) R := by
  cases r with
  | ok a => exact g a h
  | ub k => exact h

theorem Lim.bind {m : M α} {f : α → M β} {Q : α → Prop} {R : β → Prop} (h : Lim m Q)
    (g : ∀ a, Q a → Lim (f a) R) : Lim (m >>= f) R := by
  intro vm
  have := h vm
  show LimR (M.bind m f vm) _
  unfold M.bind
  match e : m vm with
  | .ok (a, vm') => rw [e] at this; exact g a this vm'
  | .ub k => rw [e] at this; exact this

theorem Lim.lift {r : Res α} {Q : α → Prop} (h : LimR r Q) : Lim (liftR r) Q := by
  intro vm
  unfold liftR
  cases r with
  | ok a => exact h
  | ub k => exact h

theorem Lim.pure {a : α} {Q : α → Prop} (h : Q a) : Lim (pure a : M α) Q := fun _ => h

theorem Lim.err (s : String) : Lim (addError s) fun _ => True := fun _ => trivial

theorem Lim.file (f : Bytes) : Lim (addSourceFile f) fun _ => True := by
  intro vm
  unfold addSourceFile
  show LimR (M.bind get _ vm) _
  unfold M.bind get
  simp only
  cases findFileFrom f 0 vm.sourceFiles with
  | some i => trivial
  | none =>
    simp only
    split <;> trivial

theorem LimR.mono {r : Res α} {Q R : α → Prop} (h : LimR r Q) (g : ∀ a, Q a → R a) : LimR r R := by
  cases r with
  | ok a => exact g a h
  | ub k => exact h

/-! ## Reading the text -/

theorem rd_text (s : Bytes) (i : Nat) (hs : NoNul s) (h : i ≤ s.length) :
    ∃ c, rd (s ++ [0]) i = .ok c ∧ (c = 0 ↔ i = s.length) ∧ (i < s.length → s[i]? = some c) := by
  by_cases hi : i < s.length
  · refine ⟨s[i], ?_, ?_, fun _ => by simp [hi]⟩
    · simp [rd, List.getElem?_append, hi]
    · constructor
      · intro e; exact absurd (e ▸ List.getElem_mem hi) hs
      · omega
  · have : i = s.length := by omega
    subst this
    exact ⟨0, by simp [rd], by simp, fun h => absurd h (by omega)⟩

/-- A scanning loop whose condition fails at the terminator. -/
theorem scan_ok (p : UInt8 → Bool) (s : Bytes) (hs : NoNul s) (hp : p 0 = false)
    (hl : s.length < UINT_MAX) : ∀ (n i : Nat), i ≤ s.length → s.length - i < n →
    LimR (scan p (s ++ [0]) n i) fun e => i ≤ e ∧ e ≤ s.length ∧
      (∀ j, i ≤ j → j < e → ∃ c, s[j]? = some c ∧ p c = true) ∧
      (∀ c, rd (s ++ [0]) e = .ok c → p c = false) := by
  intro n
  induction n with
  | zero => intro i _ h; omega
  | succ n ih =>
    intro i hi hn
    unfold scan
    obtain ⟨c, hc, h0, hg⟩ := rd_text s i hs hi
    rw [hc, Res.ok_bind]
    by_cases hpc : p c = true
    · rw [if_pos hpc]
      have hne : i ≠ s.length := by
        intro e; rw [h0.mpr e, hp] at hpc; cases hpc
      rw [u32_fit (by omega)]
      refine (ih (i + 1) (by omega) (by omega)).mono ?_
      rintro e ⟨h1, h2, h3, h4⟩
      refine ⟨by omega, h2, ?_, h4⟩
      intro j hj hje
      by_cases e1 : j = i
      · subst e1; exact ⟨c, hg (by omega), hpc⟩
      · exact h3 j (by omega) hje
    · rw [if_neg hpc]
      refine ⟨Nat.le_refl _, hi, fun j h1 h2 => absurd h1 (by omega), ?_⟩
      intro c' hc'
      rw [hc] at hc'; cases hc'; simpa using hpc

theorem scan_next {p : UInt8 → Bool} {s : Bytes} {i e : Nat} {c : UInt8}
    (hc : rd (s ++ [0]) i = .ok c) (hp : p c = true) (hi : i ≤ e)
    (h : ∀ c, rd (s ++ [0]) e = .ok c → p c = false) : i < e := by
  rcases Nat.lt_or_ge i e with h' | h'
  · exact h'
  · have : i = e := by omega
    subst this; rw [h c hc] at hp; cases hp

theorem identLoop_ok (s : Bytes) (st : Nat) (hs : NoNul s) (hl : s.length < UINT_MAX) :
    ∀ (n i : Nat), st ≤ i → i ≤ s.length → s.length - i < n →
    LimR (ppIdent (s ++ [0]) st n i) fun e => i ≤ e ∧ e ≤ s.length ∧
      (∀ j, i ≤ j → j < e → ∃ c, s[j]? = some c ∧ isIdent c false = true) ∧
      (∀ c, rd (s ++ [0]) i = .ok c → isIdent c (i = st) = true → i < e) := by
  intro n
  induction n with
  | zero => intro i _ _ h; omega
  | succ n ih =>
    intro i hst hi hn
    unfold ppIdent
    obtain ⟨c, hc, h0, hg⟩ := rd_text s i hs hi
    rw [hc, Res.ok_bind]
    by_cases hpc : isIdent c (i = st) = true
    · rw [if_pos hpc]
      have hne : i ≠ s.length := by
        intro e
        rw [h0.mpr e] at hpc
        cases h : decide (i = st) <;> rw [h] at hpc <;> exact absurd hpc (by decide)
      rw [u32_fit (by omega)]
      refine (ih (i + 1) (by omega) (by omega) (by omega)).mono ?_
      rintro e ⟨h1, h2, h3, _⟩
      refine ⟨by omega, h2, ?_, fun _ _ _ => by omega⟩
      intro j hj hje
      by_cases e1 : j = i
      · subst e1
        refine ⟨c, hg (by omega), ?_⟩
        cases h : decide (j = st)
        · rw [h] at hpc; exact hpc
        · rw [h] at hpc
          simp only [isIdent, Bool.not_true, Bool.false_and, Bool.false_or, Bool.not_false,
            Bool.true_and] at hpc ⊢
          simp only [Bool.or_assoc] at hpc ⊢
          simp [hpc]
      · exact h3 j (by omega) hje
    · rw [if_neg hpc]
      refine ⟨Nat.le_refl _, hi, fun j h1 h2 => absurd h1 (by omega), ?_⟩
      intro c' hc' hh
      cases hc'; exact absurd hh hpc

/-! ## Directives -/

/-- Characters that are neither a quotation mark, a newline nor a slash keep the reading outside
quotation marks. -/
theorem closed_skip (s : Bytes) (i e : Nat) (hie : i ≤ e)
    (h : ∀ j, i ≤ j → j < e → ∃ c, s[j]? = some c ∧ c ≠ 34 ∧ c ≠ 10 ∧ c ≠ 47)
    (hc : closed false (s.drop i) = true) : closed false (s.drop e) = true := by
  induction e with
  | zero => have : i = 0 := by omega
            subst this; exact hc
  | succ e ih =>
    by_cases h1 : i = e + 1
    · subst h1; exact hc
    · obtain ⟨c, hg, a, b, d⟩ := h e (by omega) (by omega)
      have := ih (by omega) (fun j h1 h2 => h j h1 (by omega))
      have he : e < s.length := by
        rcases Nat.lt_or_ge e s.length with h | h
        · exact h
        · rw [List.getElem?_eq_none (by omega)] at hg; cases hg
      rw [List.drop_eq_getElem_cons he] at this
      have hce : s[e] = c := by
        have := List.getElem?_eq_getElem he
        rw [this] at hg; exact Option.some.inj hg
      rw [hce] at this
      unfold closed at this
      simpa [a, b, d] using this

theorem ppQuote_ok (s : Bytes) (hs : NoNul s) (hl : s.length < UINT_MAX) :
    ∀ (n k : Nat), k ≤ s.length → s.length - k < n → closed true (s.drop k) = true →
    LimR (ppQuote (s ++ [0]) n false k) fun e => k ≤ e ∧ e < s.length ∧
      closed false (s.drop (e + 1)) = true := by
  intro n
  induction n with
  | zero => intro k _ h; omega
  | succ n ih =>
    intro k hk hn hc
    have hlt : k < s.length := by
      rcases Nat.lt_or_ge k s.length with h | h
      · exact h
      · rw [List.drop_of_length_le h] at hc; simp [closed] at hc
    obtain ⟨c, hr, h0, hg⟩ := rd_text s k hs hk
    have hce : s[k] = c := by
      have := List.getElem?_eq_getElem hlt
      rw [hg hlt] at this; exact (Option.some.inj this).symm
    rw [List.drop_eq_getElem_cons hlt, hce] at hc
    unfold closed at hc
    simp only [if_true] at hc
    unfold ppQuote
    rw [hr, Res.ok_bind]
    have q : ch '"' = 34 := rfl
    have bs : ch '\\' = 92 := rfl
    rw [q, bs]
    by_cases h34 : c = 34
    · rw [if_pos h34] at hc
      rw [if_neg (by rw [h34]; decide), if_pos h34, if_pos (by rfl)]
      exact ⟨Nat.le_refl _, hlt, hc⟩
    · rw [if_neg h34] at hc
      by_cases h92 : c = 92
      · rw [if_pos h92] at hc; cases hc
      · rw [if_neg h92] at hc
        rw [if_neg h92, if_neg h34, u32_fit (by omega)]
        refine (ih (k + 1) (by omega) (by omega) hc).mono ?_
        rintro e ⟨a, b⟩; exact ⟨by omega, b⟩

theorem literal_length : ∀ s : Bytes, (literal s).length ≤ s.length := by
  intro s
  fun_induction literal s <;> simp_all <;> omega

/-- The text of a literal, as the tokenizer gets it. -/
theorem unescaped_lim (hdr : Nat) (junk : Nat → UInt8) (t : Bytes) (ht : NoNul t)
    (hfit : t.length + 2 + hdr ≤ UINT_MAX) :
    Lim (unescaped hdr junk t) fun r => r = literal t := by
  obtain ⟨out, h, _, _, hv⟩ := unescape_ok hdr junk t ht hfit
  unfold unescaped
  rw [h]
  refine Lim.bind (Lim.lift (r := .ok (out, false)) (Q := fun p => p = (out, false)) rfl) ?_
  rintro _ rfl
  exact Lim.pure hv

theorem sub_lim (s : Bytes) (i n : Nat) (hs : NoNul s) (h : i + n ≤ s.length) :
    LimR (sub (s ++ [0]) i n) fun t => NoNul t ∧ t.length = n := by
  unfold sub
  rw [if_pos (by simp; omega)]
  have e : ((s ++ [0]).drop i).take n = (s.drop i).take n := by
    rw [List.drop_append_of_le_length (by omega), List.take_append_of_le_length (by simp; omega)]
  rw [e]
  exact ⟨fun m => hs (List.mem_of_mem_drop (List.mem_of_mem_take m)), by simp; omega⟩

theorem ppSkip_lim (s : Bytes) (hs : NoNul s) (hl : s.length < UINT_MAX) (k : Nat)
    (hk : k ≤ s.length) (hc : closed false (s.drop k) = true) :
    LimR (ppSkip (s ++ [0]) k) fun e => k ≤ e ∧ e ≤ s.length ∧ closed false (s.drop e) = true := by
  unfold ppSkip
  refine (scan_ok _ s hs (by decide) hl _ k hk (by simp; omega)).mono ?_
  rintro e ⟨h1, h2, h3, _⟩
  refine ⟨h1, h2, closed_skip s k e h1 ?_ hc⟩
  intro j hj he
  obtain ⟨c, hg, hp⟩ := h3 j hj he
  refine ⟨c, hg, ?_, ?_, ?_⟩ <;> (rintro rfl; revert hp; decide)

theorem closed_tail {s : Bytes} {k : Nat} {c : UInt8} (hg : s[k]? = some c) (h10 : c ≠ 10)
    (h47 : c ≠ 47) (hc : closed false (s.drop k) = true) :
    closed (c = 34) (s.drop (k + 1)) = true := by
  have hk : k < s.length := by
    rcases Nat.lt_or_ge k s.length with h | h
    · exact h
    · rw [List.getElem?_eq_none h] at hg; cases hg
  have hce : s[k] = c := by
    rw [List.getElem?_eq_getElem hk] at hg; exact Option.some.inj hg
  rw [List.drop_eq_getElem_cons hk, hce] at hc
  unfold closed at hc
  simpa [h10, h47] using hc

/-- At the end of the text or of a line there is nothing left to close. -/
theorem closed_end {s : Bytes} {k : Nat} (hs : NoNul s) (hk : k ≤ s.length)
    (h : ∀ c, rd (s ++ [0]) k = .ok c → c = 0 ∨ c = 10) : closed false (s.drop k) = true := by
  obtain ⟨c, hr, h0, hg⟩ := rd_text s k hs hk
  rcases h c hr with e | e
  · rw [h0.mp e, List.drop_of_length_le (Nat.le_refl _)]; rfl
  · by_cases hlt : k < s.length
    · have hce : s[k] = c := by
        have := hg hlt
        rw [List.getElem?_eq_getElem hlt] at this; exact Option.some.inj this
      rw [List.drop_eq_getElem_cons hlt, hce]
      unfold closed
      simp [e]
    · have := h0.mpr (by omega)
      rw [this] at e; exact absurd e (by decide)

theorem ppToken_lim (s : Bytes) (hs : NoNul s) (hl : s.length < UINT_MAX) (k : Nat) (c : UInt8)
    (hk : k < s.length) (hr : rd (s ++ [0]) k = .ok c) (h10 : c ≠ 10)
    (hc : closed false (s.drop k) = true) :
    LimR (ppToken (s ++ [0]) k) fun r => ∀ st e q k', r = some (st, e, q, k') →
      st ≤ e ∧ e ≤ s.length ∧ k < k' ∧ k' ≤ s.length ∧ closed false (s.drop k') = true := by
  obtain ⟨c', hr', h0, hg⟩ := rd_text s k hs (by omega)
  rw [hr] at hr'; cases hr'
  have hM : UINT_MAX = 4294967295 := rfl
  unfold ppToken
  rw [hr, Res.ok_bind]
  by_cases h1 : isIdent c true = true
  · rw [if_pos h1]
    refine (identLoop_ok s k hs hl _ k (Nat.le_refl _) (by omega) (by simp; omega)).bind ?_
    rintro e ⟨a1, a2, a3, a4⟩ st e' q k' hh
    cases hh
    refine ⟨a1, a2, a4 c hr (by simpa using h1), a2, closed_skip s k e a1 ?_ hc⟩
    intro j hj he
    obtain ⟨c, hg, hp⟩ := a3 j hj he
    refine ⟨c, hg, ?_, ?_, ?_⟩ <;> (rintro rfl; revert hp; decide)
  rw [if_neg h1]
  by_cases h2 : isNumber c = true
  · rw [if_pos h2]
    refine (scan_ok _ s hs (by decide) hl _ k (by omega) (by simp; omega)).bind ?_
    rintro e ⟨a1, a2, a3, a4⟩ st e' q k' hh
    cases hh
    refine ⟨a1, a2, scan_next hr h2 a1 a4, a2, closed_skip s k e a1 ?_ hc⟩
    intro j hj he
    obtain ⟨c, hg, hp⟩ := a3 j hj he
    refine ⟨c, hg, ?_, ?_, ?_⟩ <;> (rintro rfl; revert hp; decide)
  rw [if_neg h2]
  by_cases h3 : c = ch '"'
  · rw [if_pos h3, u32_fit (by omega)]
    have hc' := closed_tail (hg hk) h10 (by rw [h3]; decide) hc
    have e34 : decide (c = 34) = true := by rw [h3]; rfl
    rw [e34] at hc'
    refine (ppQuote_ok s hs hl _ (k + 1) (by omega) (by simp; omega) hc').bind ?_
    rintro e ⟨a1, a2, a3⟩ st e' q k' hh
    rw [u32_fit (by omega)] at hh
    cases hh
    exact ⟨by omega, by omega, by omega, by omega, a3⟩
  rw [if_neg h3]
  by_cases h4 : c = ch '/'
  · simp only [if_pos h4]
    rw [u32_fit (by omega)]
    obtain ⟨d, hd, _, _⟩ := rd_text s (k + 1) hs (by omega)
    rw [hd]
    simp only [Res.ok_bind]
    by_cases h5 : d = ch '/'
    · simp only [h5, decide_true, if_true]
      refine (scan_ok _ s hs (by decide) hl _ k (by omega) (by simp; omega)).bind ?_
      rintro e ⟨a1, a2, a3, a4⟩ st e' q k' hh
      cases hh
      refine ⟨Nat.le_refl _, a2, scan_next hr (by rw [h4]; decide) a1 a4, a2,
        closed_end hs a2 ?_⟩
      intro x hx
      have := a4 x hx
      simp only [Bool.and_eq_false_iff, decide_eq_false_iff_not, ne_eq, Classical.not_not] at this
      rcases this with h | h
      · exact Or.inl h
      · exact Or.inr h
    · simp only [h5, decide_false]
      rintro st e q k' hh
      cases hh
  · simp only [if_neg h4, Res.ok_bind]
    rintro st e q k' hh
    cases hh

theorem ppLoop_lim (hdr : Nat) (junk : Nat → UInt8) (s : Bytes) (hs : NoNul s)
    (hfit : s.length + 2 + hdr ≤ UINT_MAX) : ∀ (n k : Nat) (toks : List Bytes), k ≤ s.length →
    s.length - k < n → closed false (s.drop k) = true →
    Lim (ppLoop hdr junk (s ++ [0]) n k toks) fun _ => True := by
  have hM : UINT_MAX = 4294967295 := rfl
  intro n
  induction n with
  | zero => intro k toks _ h; omega
  | succ n ih =>
    intro k toks hk hn hc
    unfold ppLoop
    obtain ⟨c, hr, h0, hg⟩ := rd_text s k hs hk
    refine (Lim.lift (r := rd (s ++ [0]) k) (Q := fun x => x = c) (by rw [hr]; exact rfl)).bind ?_
    rintro _ rfl
    split
    · rename_i hcond
      simp only [Bool.and_eq_true, decide_eq_true_eq, ne_eq] at hcond
      have hlt : k < s.length := by
        rcases Nat.lt_or_ge k s.length with h | h
        · exact h
        · exact absurd (h0.mpr (by omega)) hcond.1
      refine (Lim.lift (ppToken_lim s hs (by omega) k _ hlt hr hcond.2 hc)).bind ?_
      intro r hrr
      match r, hrr with
      | none, _ => exact (Lim.err _).bind fun _ _ => Lim.pure trivial
      | some (st, e, q, k'), hrr =>
        obtain ⟨b1, b2, b3, b4, b5⟩ := hrr st e q k' rfl
        simp only
        obtain ⟨d, hd, _, _⟩ := rd_text s st hs (by omega)
        refine (Lim.lift (r := rd (s ++ [0]) st) (Q := fun x => x = d) (by rw [hd]; exact rfl)).bind ?_
        rintro _ rfl
        split
        · rw [usub_eq b1 (by omega)]
          split
          · exact (Lim.err _).bind fun _ _ => Lim.pure trivial
          · refine (Lim.lift (sub_lim s st (e - st) hs (by omega))).bind ?_
            rintro t ⟨ht, htl⟩
            have cont : ∀ t' : Bytes, Lim (do
                let k ← liftR (ppSkip (s ++ [0]) k')
                ppLoop hdr junk (s ++ [0]) n k (toks ++ [t'])) fun _ => True := by
              intro t'
              refine (Lim.lift (ppSkip_lim s hs (by omega) k' b4 b5)).bind ?_
              rintro k2 ⟨d1, d2, d3⟩
              exact ih k2 _ d2 (by omega) d3
            split
            · exact (unescaped_lim hdr junk t ht (by omega)).bind fun t' _ => cont t'
            · exact (Lim.pure (Q := fun _ => True) trivial).bind fun t' _ => cont t'
        · refine (Lim.lift (ppSkip_lim s hs (by omega) k' b4 b5)).bind ?_
          rintro k2 ⟨d1, d2, d3⟩
          exact ih k2 _ d2 (by omega) d3
    · exact Lim.pure trivial

theorem ppTokens_lim (hdr : Nat) (junk : Nat → UInt8) (s : Bytes) (hs : NoNul s)
    (hfit : s.length + 2 + hdr ≤ UINT_MAX) (h0 : s[0]? = some 35)
    (hc : closed false (s.drop 1) = true) :
    Lim (ppTokens hdr junk (s ++ [0])) fun _ => True := by
  have hpos : 0 < s.length := by
    rcases Nat.eq_zero_or_pos s.length with h | h
    · rw [List.getElem?_eq_none (by omega)] at h0; cases h0
    · exact h
  unfold ppTokens
  obtain ⟨c, hr, _, hg⟩ := rd_text s 0 hs (by omega)
  have hce : c = 35 := by
    have := hg hpos; rw [h0] at this; exact (Option.some.inj this).symm
  refine (Lim.lift (r := rd (s ++ [0]) 0) (Q := fun x => x = c) (by rw [hr]; exact rfl)).bind ?_
  rintro _ rfl
  simp only
  rw [if_pos (by rw [hce]; rfl)]
  refine (Lim.lift (ppSkip_lim s hs (by omega) 1 hpos hc)).bind ?_
  rintro k ⟨a, b, d⟩
  exact ppLoop_lim hdr junk s hs hfit _ k [] b (by simp; omega) d

/-! ## Tokens -/

/-- The bytes in string literals so far. -/
def strTotal (l : List Token) : Nat :=
  (l.map fun t => if t.type = .string then t.str.length else 0).sum

/-- String literals have no terminator inside. -/
def Clean (l : List Token) : Prop := ∀ t ∈ l, t.type = .string → NoNul t.str

/-- What the tokenizer's loop keeps: the bytes in string literals are no more than the bytes read. -/
structure Inv (s : Bytes) (st : St) : Prop where
  total : strTotal st.toks ≤ st.i
  clean : Clean st.toks

theorem strTotal_add (l : List Token) (t : Token) :
    strTotal (l ++ [t]) = strTotal l + if t.type = .string then t.str.length else 0 := by
  simp [strTotal]

theorem Clean.add {l : List Token} {t : Token} (h : Clean l) (ht : t.type = .string → NoNul t.str) :
    Clean (l ++ [t]) := by
  intro x hx
  rcases List.mem_append.mp hx with m | m
  · exact h x m
  · rw [List.mem_singleton.mp m]; exact ht

/-- A token that is not a string literal keeps the invariant. -/
theorem Inv.other {s : Bytes} {st : St} (h : Inv s st) {ty : TokType} (t : Bytes) (hty : ty ≠ .string)
    {j : Nat} (hj : st.i ≤ j) : Inv s { st.add ty t with i := j } := by
  constructor
  · show strTotal (st.toks ++ [_]) ≤ j
    rw [strTotal_add, if_neg hty]
    have := h.total; omega
  · exact h.clean.add fun e => absurd e hty

theorem skipWs_lim (s : Bytes) (hs : NoNul s) (hl : s.length < UINT_MAX) :
    ∀ (n : Nat) (st : St), Inv s st → st.i ≤ s.length → s.length - st.i < n →
    LimR (skipWs (s ++ [0]) s.length n st) fun st' => Inv s st' ∧ st.i ≤ st'.i ∧
      st'.i ≤ s.length := by
  have hM : UINT_MAX = 4294967295 := rfl
  intro n
  induction n with
  | zero => intro st _ _ h; omega
  | succ n ih =>
    intro st hinv hi hn
    unfold skipWs
    split
    · rename_i hlt
      obtain ⟨c, hr, h0, hg⟩ := rd_text s st.i hs hi
      rw [hr, Res.ok_bind]
      rw [u32_fit (by omega)]
      have step : ∀ st' : St, st'.toks = st.toks → st'.i = st.i + 1 →
          LimR (skipWs (s ++ [0]) s.length n st') fun st' => Inv s st' ∧ st.i ≤ st'.i ∧
            st'.i ≤ s.length := by
        intro st' h1 h2
        refine (ih st' ⟨?_, ?_⟩ (by omega) (by omega)).mono ?_
        · rw [h1, h2]; have := hinv.total; omega
        · rw [h1]; exact hinv.clean
        · rintro x ⟨a, b, d⟩; exact ⟨a, by omega, d⟩
      split
      · split
        · have il : ∀ x : Int, LimR (incr x) fun _ => True := by
            intro x; unfold incr; split
            · exact trivial
            · exact rfl
          refine (il _).bind fun l _ => (il _).bind fun a _ => ?_
          exact step _ rfl rfl
        · exact step _ rfl rfl
      · exact ⟨hinv, Nat.le_refl _, hi⟩
    · exact ⟨hinv, Nat.le_refl _, hi⟩

theorem directive_lim (s : Bytes) (st : St) (ts : List Bytes) (h : Inv s st) :
    Lim (directive st ts) fun r => ∀ st', r = some st' → Inv s st' ∧ st'.i = st.i := by
  have ok : ∀ st' : St, st'.toks = st.toks → st'.i = st.i →
      ∀ x, some st' = some x → Inv s x ∧ x.i = st.i := by
    rintro st' h1 h2 x hx
    cases hx
    exact ⟨⟨by rw [h1, h2]; exact h.total, by rw [h1]; exact h.clean⟩, h2⟩
  have bad : ∀ e : String, Lim (do addError e; pure (none : Option St))
      fun r => ∀ st', r = some st' → Inv s st' ∧ st'.i = st.i := fun e =>
    (Lim.err e).bind fun _ _ => Lim.pure fun _ hh => by cases hh
  unfold directive
  split
  · exact Lim.pure (ok st rfl rfl)
  · split
    · split
      · exact Lim.pure (ok _ rfl rfl)
      · exact (Lim.file _).bind fun f _ => Lim.pure (ok _ rfl rfl)
      · exact bad _
    · split
      · split
        · exact (Lim.file _).bind fun f _ => Lim.pure (ok _ rfl rfl)
        · exact bad _
      · exact bad _

theorem quoteLoop_lim (s : Bytes) (hs : NoNul s) (hl : s.length < UINT_MAX) :
    ∀ (n : Nat) (sk : Bool) (k : Nat), k ≤ s.length → s.length - k < n →
    LimR (quoteLoop (s ++ [0]) n sk k) fun r => ∀ e, r = some e → k ≤ e ∧ e ≤ s.length := by
  intro n
  induction n with
  | zero => intro sk k _ h; omega
  | succ n ih =>
    intro sk k hk hn
    unfold quoteLoop
    obtain ⟨c, hr, h0, hg⟩ := rd_text s k hs hk
    rw [hr, Res.ok_bind]
    split
    · rename_i hc
      simp only [Bool.and_eq_true, decide_eq_true_eq, ne_eq] at hc
      have hne : k ≠ s.length := fun e => hc.1 (h0.mpr e)
      split
      · intro e he; cases he
      · rw [u32_fit (by omega)]
        refine (ih _ (k + 1) (by omega) (by omega)).mono ?_
        intro r hr e he
        have := hr e he
        exact ⟨by omega, this.2⟩
    · rintro e he; cases he; exact ⟨Nat.le_refl _, hk⟩

theorem numEnd_ok {st i : Nat} {tmp : Bytes} (h : st ≤ i) (h' : i ≤ st + 255) (hi : i < 4294967296) : numEnd st i tmp = .ok (i, tmp) := by
  unfold numEnd
  rw [usub_eq h hi, if_pos (by omega)]

theorem numLoop_lim (s : Bytes) (st : Nat) (hs : NoNul s) (hl : s.length < UINT_MAX) :
    ∀ (n i : Nat) (tmp : Bytes), st ≤ i → i ≤ st + 255 → i ≤ s.length → s.length - i < n →
    LimR (numLoop (s ++ [0]) s.length st n i tmp) fun r => i ≤ r.1 ∧ r.1 ≤ s.length ∧
      (∀ c, i = st → i < s.length → rd (s ++ [0]) i = .ok c → isNumber c = true → i < r.1) := by
  have hM : UINT_MAX = 4294967295 := rfl
  intro n
  induction n with
  | zero => intro i tmp _ _ _ h; omega
  | succ n ih =>
    intro i tmp hst h255 hi hn
    unfold numLoop
    rw [numEnd_ok hst h255 (by omega)]
    split
    · rename_i hlt
      obtain ⟨c, hr, h0, hg⟩ := rd_text s i hs hi
      rw [hr, Res.ok_bind, usub_eq hst (by omega)]
      split
      · rename_i hc
        simp only [Bool.and_eq_true, decide_eq_true_eq] at hc
        rw [if_pos (by omega), u32_fit (by omega)]
        refine (ih (i + 1) _ (by omega) (by omega) (by omega) (by omega)).mono ?_
        rintro r ⟨a, b, _⟩
        exact ⟨by omega, b, fun _ _ _ _ _ => by omega⟩
      · rename_i hc
        refine ⟨Nat.le_refl _, hi, ?_⟩
        intro c' e1 _ e2 e3
        cases e2
        exact absurd (by simp [e3, e1]) hc
    · rename_i hlt
      exact ⟨Nat.le_refl _, hi, fun _ _ h => absurd h hlt⟩

theorem wordType_ne (t : Bytes) : wordType t ≠ .string := by
  unfold wordType
  repeat' split
  all_goals exact fun h => nomatch h

theorem single_ne {c : UInt8} {ty : TokType} (h : single c = some ty) : ty ≠ .string := by
  unfold single at h
  repeat' split at h
  all_goals first
    | (cases h; exact fun h => nomatch h)
    | (cases h; done)

theorem operator_lim (s : Bytes) (hs : NoNul s) (hl : s.length < UINT_MAX) (i : Nat) (c : UInt8)
    (hi : i < s.length) :
    LimR (operator (s ++ [0]) i c) fun r => ∀ ty t, r = some (ty, t) →
      ty ≠ .string ∧ 1 ≤ t.length ∧ i + t.length ≤ s.length := by
  have hM : UINT_MAX = 4294967295 := rfl
  have one : ∀ (ty : TokType) (t : Bytes), ty ≠ .string → t.length = 1 →
      ∀ ty' t', some (ty, t) = some (ty', t') →
        ty' ≠ .string ∧ 1 ≤ t'.length ∧ i + t'.length ≤ s.length := by
    rintro ty t h1 h2 _ _ hh; cases hh; exact ⟨h1, by omega, by omega⟩
  have no : ∀ (ty' : TokType) (t' : Bytes), none = some (ty', t') →
        ty' ≠ .string ∧ 1 ≤ t'.length ∧ i + t'.length ≤ s.length := fun _ _ hh => by cases hh
  obtain ⟨d, hd, hd0, _⟩ := rd_text s (i + 1) hs (by omega)
  have two : d ≠ 0 → ∀ (ty : TokType) (t : Bytes), ty ≠ .string → t.length = 2 →
      ∀ ty' t', some (ty, t) = some (ty', t') →
        ty' ≠ .string ∧ 1 ≤ t'.length ∧ i + t'.length ≤ s.length := by
    rintro h0 ty t h1 h2 _ _ hh
    cases hh
    have : i + 1 ≠ s.length := fun e => h0 (hd0.mpr e)
    exact ⟨h1, by omega, by omega⟩
  unfold operator
  simp only [u32_fit (show i + 1 ≤ UINT_MAX by omega), hd, Res.ok_bind]
  split
  · split
    · rename_i h; exact two (by rw [h]; decide) _ _ (fun h => nomatch h) rfl
    · exact one _ _ (fun h => nomatch h) rfl
  split
  · split
    · rename_i h; exact two (by rw [h]; decide) _ _ (fun h => nomatch h) rfl
    split
    · rename_i h; exact two (by rw [h]; decide) _ _ (fun h => nomatch h) rfl
    · exact one _ _ (fun h => nomatch h) rfl
  split
  · exact one _ _ (fun h => nomatch h) rfl
  split
  · split
    · rename_i h
      have h1 : i + 1 ≠ s.length := fun e => by
        have := hd0.mpr e; rw [h] at this; exact absurd this (by decide)
      obtain ⟨e, he, he0, _⟩ := rd_text s (i + 2) hs (by omega)
      rw [u32_fit (by omega), he, Res.ok_bind]
      split
      · rename_i h'
        rintro ty t hh
        cases hh
        have h2 : i + 2 ≠ s.length := fun x => by
          have := he0.mpr x; rw [h'] at this; exact absurd this (by decide)
        exact ⟨(fun h => nomatch h), by decide, by
          have : (cs "===").length = 3 := rfl
          omega⟩
      · exact two (by rw [h]; decide) _ _ (fun h => nomatch h) rfl
    · exact one _ _ (fun h => nomatch h) rfl
  split
  · split
    · rename_i h; exact two (by rw [h]; decide) _ _ (fun h => nomatch h) rfl
    · exact one _ _ (fun h => nomatch h) rfl
  split
  · split
    · rename_i h; exact two (by rw [h]; decide) _ _ (fun h => nomatch h) rfl
    · exact one _ _ (fun h => nomatch h) rfl
  split
  · split
    · rename_i h; exact two (by rw [h]; decide) _ _ (fun h => nomatch h) rfl
    · exact one _ _ (fun h => nomatch h) rfl
  split
  · split
    · rename_i h; exact two (by rw [h]; decide) _ _ (fun h => nomatch h) rfl
    · exact no
  split
  · split
    · rename_i h; exact two (by rw [h]; decide) _ _ (fun h => nomatch h) rfl
    · exact no
  · exact no

/-- What `token` leaves: the invariant, and an index not before the one it started at. -/
def Next (s : Bytes) (st : St) (r : Option St) : Prop :=
  ∀ st', r = some st' → Inv s st' ∧ st.i ≤ st'.i ∧ st'.i ≤ s.length

theorem Next.none {s : Bytes} {st : St} : Next s st none := fun _ h => by cases h

theorem Next.mk {s : Bytes} {st st' : St} (h : Inv s st') (h1 : st.i ≤ st'.i)
    (h2 : st'.i ≤ s.length) : Next s st (some st') := by
  rintro _ hh; cases hh; exact ⟨h, h1, h2⟩

theorem token_lim (hdr : Nat) (junk : Nat → UInt8) (s : Bytes) (hs : NoNul s)
    (hfit : s.length + 2 + hdr ≤ UINT_MAX) (hd : DirectivesClosed s) (st : St) (hi : st.i ≤ s.length)
    (hinv : Inv s st) :
    Lim (token hdr junk (s ++ [0]) s.length st) (Next s st) := by
  have hM : UINT_MAX = 4294967295 := rfl
  have hl : s.length < UINT_MAX := by omega
  obtain ⟨c, hr, h0, hg⟩ := rd_text s st.i hs hi
  unfold token
  refine (Lim.lift (r := rd (s ++ [0]) st.i) (Q := fun x => x = c) (by rw [hr]; exact rfl)).bind ?_
  rintro _ rfl
  rename_i c
  split
  · rename_i hc
    have hlt : st.i < s.length := by
      rcases Nat.lt_or_ge st.i s.length with h | h
      · exact h
      · have := h0.mpr (by omega); rw [hc] at this; exact absurd this (by decide)
    refine (Lim.lift (scan_ok _ s hs (by decide) hl _ st.i hi (by simp; omega))).bind ?_
    rintro e ⟨a1, a2, _, _⟩
    have e1 : (s ++ [0]).drop st.i = s.drop st.i ++ [0] := List.drop_append_of_le_length hi
    have g : s[st.i]? = some 35 := by rw [hg hlt, hc]; rfl
    have pp : Lim (ppTokens hdr junk ((s ++ [0]).drop st.i)) fun _ => True := by
      rw [e1]
      refine ppTokens_lim hdr junk (s.drop st.i) (fun m => hs (List.mem_of_mem_drop m))
        (by simp; omega) (by simpa using g) ?_
      rw [List.drop_drop]
      exact hd st.i g
    refine pp.bind ?_
    intro r _
    match r with
    | none => exact (Lim.err _).bind fun _ _ => Lim.pure Next.none
    | some ts =>
      have hinv' : Inv s { st with i := e } := ⟨Nat.le_trans hinv.total a1, hinv.clean⟩
      intro vm
      refine (directive_lim s _ ts hinv' vm).mono ?_
      intro r hr st' hst
      obtain ⟨b1, b2⟩ := hr st' hst
      exact ⟨b1, by rw [b2]; exact a1, by rw [b2]; exact a2⟩
  · split
    · rename_i ty hty
      have hne := single_ne hty
      exact Lim.pure (Next.mk (hinv.other (j := st.i) _ hne (Nat.le_refl _)) (Nat.le_refl _) hi)
    · have com : LimR (isComment (s ++ [0]) st.i c) fun x => x = true → c = ch '/' ∧
          st.i + 2 ≤ s.length := by
        unfold isComment
        split
        · rename_i hc
          have hne : st.i ≠ s.length := fun e => by
            have := h0.mpr e; rw [hc] at this; exact absurd this (by decide)
          obtain ⟨d, hdr', hd0, _⟩ := rd_text s (st.i + 1) hs (by omega)
          rw [u32_fit (by omega), hdr', Res.ok_bind]
          intro hx
          have hd' : d = ch '/' := by simpa using hx
          have : st.i + 1 ≠ s.length := fun e => by
            have := hd0.mpr e; rw [hd'] at this; exact absurd this (by decide)
          exact ⟨hc, by omega⟩
        · intro hx; cases hx
      refine (Lim.lift com).bind ?_
      intro x hx
      split
      · rename_i hxt
        obtain ⟨hc, hi2⟩ := hx hxt
        refine (Lim.lift (scan_ok _ s hs (by decide) hl _ st.i hi (by simp; omega))).bind ?_
        rintro e ⟨a1, a2, _, a4⟩
        have hlt := scan_next hr (by rw [hc]; decide) a1 a4
        refine Lim.pure ?_
        rw [usub_eq (by omega) (by omega)]
        refine Next.mk ⟨?_, hinv.clean⟩ (by show st.i ≤ e - 1; omega) (by show e - 1 ≤ _; omega)
        show strTotal st.toks ≤ e - 1
        have := hinv.total; omega
      · have op : LimR (operator (s ++ [0]) st.i c) fun r => ∀ ty t, r = some (ty, t) →
            ty ≠ .string ∧ 1 ≤ t.length ∧ st.i + t.length ≤ s.length := by
          by_cases hlt : st.i < s.length
          · exact operator_lim s hs hl st.i c hlt
          · have hc0 : c = 0 := h0.mpr (by omega)
            have : operator (s ++ [0]) st.i c = .ok none := by
              rw [hc0]; rfl
            rw [this]
            intro ty t hh; cases hh
        refine (Lim.lift op).bind ?_
        intro r hr'
        match r, hr' with
        | some (ty, t), hr' =>
          obtain ⟨b1, b2, b3⟩ := hr' ty t rfl
          refine Lim.pure ?_
          unfold St.skip
          have : u32 ((st.add ty t).i + (t.length - 1)) = st.i + (t.length - 1) :=
            u32_fit (by show st.i + _ ≤ _; omega)
          rw [this]
          exact Next.mk (hinv.other t b1 (by omega)) (by show st.i ≤ _ + _; omega)
            (by show st.i + (t.length - 1) ≤ _; omega)
        | none, _ =>
          simp only
          split
          · rename_i hc
            have hlt : st.i < s.length := by
              rcases Nat.lt_or_ge st.i s.length with h | h
              · exact h
              · have := h0.mpr (by omega); rw [hc] at this; exact absurd this (by decide)
            rw [u32_fit (show st.i + 1 ≤ UINT_MAX by omega)]
            refine (Lim.lift (quoteLoop_lim s hs hl _ false (st.i + 1) (by omega)
              (by simp; omega))).bind ?_
            intro r hq
            match r, hq with
            | none, _ => exact (Lim.err _).bind fun _ _ => Lim.pure Next.none
            | some e, hq =>
              obtain ⟨q1, q2⟩ := hq e rfl
              simp only
              rw [usub_eq q1 (by omega)]
              refine (Lim.lift (sub_lim s (st.i + 1) (e - (st.i + 1)) hs (by omega))).bind ?_
              rintro t ⟨ht, htl⟩
              refine (unescaped_lim hdr junk t ht (by omega)).bind ?_
              rintro _ rfl
              refine Lim.pure ?_
              unfold St.skip
              have : u32 ((st.add .string (literal t)).i + (e - (st.i + 1) + 1)) = e := by
                show u32 (st.i + (e - (st.i + 1) + 1)) = e
                rw [u32_fit (by omega)]; omega
              rw [this]
              refine Next.mk ⟨?_, ?_⟩ (by show st.i ≤ e; omega) q2
              · show strTotal (st.toks ++ [_]) ≤ e
                rw [strTotal_add, if_pos rfl]
                have h1 := hinv.total
                have h2 := literal_length t
                show _ + (literal t).length ≤ e
                omega
              · exact hinv.clean.add fun _ => literal_noNul t ht
          · split
            · rename_i hc
              have hlt : st.i < s.length := by
                rcases Nat.lt_or_ge st.i s.length with h | h
                · exact h
                · have := h0.mpr (by omega); rw [this] at hc; exact absurd hc (by decide)
              refine (Lim.lift (numLoop_lim s st.i hs hl _ st.i [] (Nat.le_refl _) (by omega) hi
                (by simp; omega))).bind ?_
              rintro ⟨e, t⟩ ⟨b1, b2, b3⟩
              have := b3 c rfl hlt hr hc
              refine Lim.pure ?_
              simp only at this b1 b2
              rw [usub_eq (by omega) (by omega)]
              refine Next.mk (hinv.other t ?_ (by omega)) (by show st.i ≤ e - 1; omega)
                (by show e - 1 ≤ _; omega)
              split <;> exact fun h => nomatch h
            · split
              · rename_i hc
                have hlt : st.i < s.length := by
                  rcases Nat.lt_or_ge st.i s.length with h | h
                  · exact h
                  · have := h0.mpr (by omega); rw [this] at hc; exact absurd hc (by decide)
                rw [u32_fit (show st.i + 1 ≤ UINT_MAX by omega)]
                refine (Lim.lift (scan_ok _ s hs (by decide) hl _ (st.i + 1) (by omega)
                  (by simp; omega))).bind ?_
                rintro e ⟨a1, a2, _, _⟩
                rw [usub_eq (show st.i ≤ e by omega) (by omega)]
                refine (Lim.lift (sub_lim s st.i (e - st.i) hs (by omega))).bind ?_
                rintro t _
                refine Lim.pure ?_
                rw [usub_eq (by omega) (by omega)]
                exact Next.mk (hinv.other t (wordType_ne t) (by omega))
                  (by show st.i ≤ e - 1; omega) (by show e - 1 ≤ _; omega)
              · split
                · exact Lim.pure (Next.mk hinv (Nat.le_refl _) hi)
                · exact (Lim.err _).bind fun _ _ => Lim.pure Next.none

theorem loop_lim (hdr : Nat) (junk : Nat → UInt8) (s : Bytes) (hs : NoNul s)
    (hfit : s.length + 2 + hdr ≤ UINT_MAX) (hd : DirectivesClosed s) : ∀ (n : Nat) (st : St),
    Inv s st → st.i ≤ s.length + 1 → s.length - st.i < n →
    Lim (loop hdr junk (s ++ [0]) s.length n st) fun r => ∀ st', r = some st' →
      Inv s st' ∧ st'.i ≤ s.length + 1 := by
  have hM : UINT_MAX = 4294967295 := rfl
  intro n
  induction n with
  | zero => intro st _ _ h; omega
  | succ n ih =>
    intro st hinv hi hn
    unfold loop
    split
    · rename_i hlt
      refine (Lim.lift (skipWs_lim s hs (by omega) _ st hinv (by omega) (by simp; omega))).bind ?_
      rintro st1 ⟨i1, l1, u1⟩
      refine (token_lim hdr junk s hs hfit hd st1 u1 i1).bind ?_
      intro r hr
      match r, hr with
      | none, _ => exact Lim.pure fun _ h => by cases h
      | some st2, hr =>
        obtain ⟨i2, l2, u2⟩ := hr st2 rfl
        simp only
        have e : (st2.skip 1).i = st2.i + 1 := u32_fit (by omega)
        refine ih (st2.skip 1) ⟨?_, i2.clean⟩ (by omega) (by omega)
        rw [e]
        exact Nat.le_succ_of_le i2.total
    · exact Lim.pure fun st' h => by cases h; exact ⟨hinv, hi⟩

theorem consolidate_lim (hdr : Nat) (junk : Nat → UInt8) (n : Nat) : ∀ l : List Token, l.length = n →
    Clean l → strTotal l + 1 + hdr ≤ UINT_MAX → Lim (consolidate hdr junk l) fun _ => True := by
  induction n using Nat.strongRecOn with
  | ind n ih =>
    intro l hl hc hfit
    match l, hl with
    | [], _ => unfold consolidate; exact Lim.pure trivial
    | [t], _ => unfold consolidate; exact Lim.pure trivial
    | t :: u :: r, hl =>
      have e1 : strTotal (t :: u :: r) = (if t.type = .string then t.str.length else 0) +
          ((if u.type = .string then u.str.length else 0) + strTotal r) := by simp [strTotal]
      unfold consolidate
      split
      · rename_i hty
        rw [e1, if_pos hty.1, if_pos hty.2] at hfit
        have ht := hc t (by simp) hty.1
        have hu := hc u (by simp) hty.2
        rw [concat_ok hdr junk t.str [] u.str [] ht hu (by omega)]
        refine (Lim.lift (r := .ok (t.str ++ u.str ++ [0], false))
          (Q := fun p => p = (t.str ++ u.str ++ [0], false)) rfl).bind ?_
        rintro _ rfl
        have hv : val (t.str ++ u.str ++ [0]) = t.str ++ u.str :=
          text_of (t.str ++ u.str) [] (fun m => (List.mem_append.mp m).elim ht hu)
        simp only [Bool.false_eq_true, if_false]
        rw [hv]
        refine ih (r.length + 1) (by simp at hl; omega) _ (by simp) ?_ ?_
        · intro x hx hxs
          rcases List.mem_cons.mp hx with e | m
          · subst e
            exact fun m => (List.mem_append.mp m).elim ht hu
          · exact hc x (by simp [m]) hxs
        · simp only [strTotal, List.map_cons, List.sum_cons, hty.1, if_true, List.length_append]
          simp only [strTotal] at hfit
          omega
      · refine (ih (r.length + 1) (by simp at hl; omega) (u :: r) (by simp)
          (fun x hx => hc x (by simp [List.mem_cons.mp hx])) ?_).bind fun _ _ => Lim.pure trivial
        rw [e1] at hfit
        simp only [strTotal, List.map_cons, List.sum_cons] at hfit ⊢
        omega

theorem tokenize_lim (hdr : Nat) (junk : Nat → UInt8) (s f : Bytes) (hs : NoNul s)
    (hfit : s.length + 2 + hdr ≤ UINT_MAX) (hd : DirectivesClosed s) :
    Lim (tokenize hdr junk (s ++ [0]) f) fun _ => True := by
  unfold tokenize
  rw [strlen_ok s [] hs (by omega)]
  refine (Lim.lift (r := .ok s.length) (Q := fun x => x = s.length) rfl).bind ?_
  rintro _ rfl
  refine (Lim.file f).bind fun file _ => ?_
  refine (loop_lim hdr junk s hs hfit hd _ ⟨0, 1, file, 1, []⟩ ⟨by simp [strTotal], by simp [Clean]⟩
    (by simp) (by simp; omega)).bind ?_
  intro r hr
  match r, hr with
  | none, _ => exact Lim.pure trivial
  | some st, hr =>
    obtain ⟨i1, u1⟩ := hr st rfl
    refine (consolidate_lim hdr junk _ st.toks rfl i1.clean ?_).bind fun _ _ => Lim.pure trivial
    have := i1.total
    omega

end Nk.Tok
