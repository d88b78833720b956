import Verif.Model.Dbg
import Verif.Spec.Dbg
import Verif.Lemmas.CStr
import Verif.Props.ErrText
import Verif.Spec.Machine
/-!
# Lemmas about the buffers of the state dump
-/
namespace Nk.Dbg
open CStr Nk.Spec Nk.Props

/-- A buffer of 80 bytes that holds the text `s`. -/
structure Buf (b s : Bytes) : Prop where
  len : b.length = 80
  clean : NoNul s
  shape : ∃ r, b = s ++ 0 :: r

theorem Buf.lt {b s : Bytes} (h : Buf b s) : s.length < 80 := by
  obtain ⟨r, hr⟩ := h.shape
  have := h.len
  rw [hr] at this
  simp at this
  omega

theorem Buf.strlen {b s : Bytes} (h : Buf b s) : CStr.strlen b = .ok s.length := by
  obtain ⟨r, rfl⟩ := h.shape
  exact strlen_ok s r h.clean (by have := h.lt; unfold UINT_MAX; omega)

theorem Buf.text {b s : Bytes} (h : Buf b s) : Dbg.text b = .ok s := by
  unfold Dbg.text
  rw [h.strlen]
  obtain ⟨r, rfl⟩ := h.shape
  simp

theorem wr_pre (a r : Bytes) (v : UInt8) (i : Nat) (h : i = a.length) (hr : r ≠ []) :
    wr (a ++ r) i v = .ok (a ++ v :: r.tail) := by
  cases r with
  | nil => exact absurd rfl hr
  | cons c r => exact wr_at a r c v i h

theorem wr_stop {a r : Bytes} {i : Nat} (h : i = a.length) (hr : r ≠ []) (hl : (a ++ r).length = 80) (ha : NoNul a) :
    ∃ b, wr (a ++ r) i 0 = .ok b ∧ Buf b a := by
  refine ⟨_, wr_pre a r 0 i h hr, ?_, ha, _, rfl⟩
  cases r with
  | nil => exact absurd rfl hr
  | cons c r => simpa using hl

theorem noNul_snoc {a : Bytes} {c : UInt8} (ha : NoNul a) (hc : c ≠ 0) : NoNul (a ++ [c]) := by
  unfold NoNul at *
  simp only [List.mem_append, List.mem_singleton, not_or]
  exact ⟨ha, fun e => hc e.symm⟩

theorem noNul_app {a b : Bytes} (ha : NoNul a) (hb : NoNul b) : NoNul (a ++ b) := by
  unfold NoNul at *
  simp only [List.mem_append, not_or]
  exact ⟨ha, hb⟩

/-- One more character, in the form the loops need. -/
theorem wr_step {a r : Bytes} {i : Nat} (c : UInt8) (h : i = a.length) (hl : (a ++ r).length = 80) (ha : a.length < 80) :
    ∃ r', wr (a ++ r) i c = .ok ((a ++ [c]) ++ r') ∧ ((a ++ [c]) ++ r').length = 80 := by
  cases r with
  | nil => simp at hl; omega
  | cons d r =>
    refine ⟨r, ?_, by simpa using hl⟩
    rw [wr_at a r d c i h]; simp

theorem ne_nil_of {a r : Bytes} (hl : (a ++ r).length = 80) (ha : a.length < 80) : r ≠ [] := by
  intro e; subst e; simp at hl; omega

theorem put_buf (t : Bytes) : ∀ (a r : Bytes), NoNul a → NoNul t → (a ++ r).length = 80 → a.length + t.length < 80 →
    ∃ b, ErrText.put (a ++ r) a.length t = .ok b ∧ Buf b (a ++ t) := by
  induction t with
  | nil =>
    intro a r ha _ hl h
    simp only [ErrText.put, List.append_nil]
    exact wr_stop rfl (ne_nil_of hl (by simpa using h)) hl ha
  | cons c t ih =>
    intro a r ha ht hl h
    simp only [List.length_cons] at h
    have hc : c ≠ 0 := fun e => ht (by simp [e])
    obtain ⟨r', hw, hl'⟩ := wr_step c rfl hl (by omega)
    unfold ErrText.put
    rw [hw]
    simp only [Res.ok_bind]
    obtain ⟨b, h1, h2⟩ := ih (a ++ [c]) r' (noNul_snoc ha hc) (fun m => ht (by simp [m])) hl' (by simp; omega)
    simp only [List.length_append, List.length_cons, List.length_nil] at h1
    exact ⟨b, h1, by simpa using h2⟩

theorem put_ok {b : Bytes} (t : Bytes) (hl : b.length = 80) (ht : NoNul t) (h : t.length < 80) :
    ∃ b', ErrText.put b 0 t = .ok b' ∧ Buf b' t := by
  simpa using put_buf t [] b (by simp [NoNul]) ht (by simpa using hl) (by simpa using h)

theorem clear_ok {b : Bytes} (hl : b.length = 80) : ∃ b', wr b 0 0 = .ok b' ∧ Buf b' [] := by
  simpa using wr_stop (a := []) (r := b) (i := 0) rfl (by intro e; subst e; simp at hl) (by simpa using hl) (by simp [NoNul])

theorem dots_ok {size : Nat} {s r : Bytes} (hs : NoNul s) (hl : (s ++ r).length = 80) (hz : size ≤ 80) (hlt : s.length < 80) :
    ∃ b, dots size (s ++ r) s.length = .ok b ∧ Buf b (if s.length + 4 = size then s ++ [46, 46, 46] else s) := by
  unfold dots
  split
  · obtain ⟨r1, h1, l1⟩ := wr_step (a := s) (r := r) 46 rfl hl hlt
    obtain ⟨r2, h2, l2⟩ := wr_step (a := s ++ [46]) (r := r1) (i := s.length + 1) 46 (by simp) l1 (by simp; omega)
    obtain ⟨r3, h3, l3⟩ := wr_step (a := s ++ [46] ++ [46]) (r := r2) (i := s.length + 2) 46 (by simp) l2 (by simp; omega)
    have d : (46 : UInt8) ≠ 0 := by decide
    have c3 := noNul_snoc (noNul_snoc (noNul_snoc hs d) d) d
    obtain ⟨b, h4, hb⟩ := wr_stop (a := s ++ [46] ++ [46] ++ [46]) (r := r3) (i := s.length + 3) (by simp)
      (ne_nil_of l3 (by simp; omega)) l3 c3
    refine ⟨b, ?_, by simpa using hb⟩
    rw [h1]; simp only [Res.ok_bind]
    rw [h2]; simp only [Res.ok_bind]
    rw [h3]; simp only [Res.ok_bind]
    exact h4
  · exact wr_stop rfl (ne_nil_of hl hlt) hl hs

theorem fitted_nil {size : Nat} {s : Bytes} :
    fitted size s [] = if s.length + 4 < size then s else if s.length + 4 = size then s ++ [46, 46, 46] else s := by
  unfold fitted
  simp only [List.length_nil, Nat.add_zero, List.append_nil, List.take_nil]
  split
  · rfl
  · by_cases e : s.length + 4 = size
    · rw [if_pos (by omega), if_pos e]
    · rw [if_neg (by omega), if_neg e]

theorem fitted_full {size : Nat} {s l : Bytes} (h : ¬s.length + 4 < size) :
    fitted size s l = if s.length + 4 = size then s ++ [46, 46, 46] else s := by
  unfold fitted
  rw [if_neg (by omega)]
  by_cases e : s.length + 4 = size
  · rw [if_pos (by omega), if_pos e, show size - 4 - s.length = 0 by omega]; simp
  · rw [if_neg (by omega), if_neg e]

theorem fitted_cons {size : Nat} {s l : Bytes} {c : UInt8} (h : s.length + 4 < size) :
    fitted size (s ++ [c]) l = fitted size s (c :: l) := by
  unfold fitted
  simp only [List.length_append, List.length_cons, List.length_nil, List.append_assoc, List.cons_append, List.nil_append]
  by_cases h1 : s.length + (l.length + 1) + 4 < size
  · rw [if_pos (by omega), if_pos h1]
  · rw [if_neg (by omega), if_neg h1, if_pos (by omega), if_pos (by omega), show size - 4 - s.length = (size - 4 - (s.length + (0 + 1))) + 1 by omega]
    simp

theorem lineAt_ok {size : Nat} (hz : size ≤ 80) (src : Bytes) : ∀ (s r : Bytes), NoNul s → (s ++ r).length = 80 → s.length < 80 →
    ∃ b, lineAt size (s ++ r) s.length src = .ok b ∧ Buf b (fitted size s (firstLine src)) := by
  induction src with
  | nil =>
    intro s r hs hl hlt
    unfold lineAt
    rw [show firstLine [] = [] from rfl, fitted_nil]
    split
    · exact wr_stop rfl (ne_nil_of hl hlt) hl hs
    · exact dots_ok hs hl hz hlt
  | cons c src ih =>
    intro s r hs hl hlt
    unfold lineAt
    by_cases hr : s.length + 4 < size
    · rw [if_pos hr]
      by_cases hc : c = 0 ∨ c = 10
      · rw [if_pos hc, show firstLine (c :: src) = [] by rcases hc with h | h <;> simp [firstLine, h], fitted_nil, if_pos hr]
        exact wr_stop rfl (ne_nil_of hl hlt) hl hs
      · rw [if_neg hc]
        simp only [not_or] at hc
        obtain ⟨r', hw, hl'⟩ := wr_step c rfl hl hlt
        rw [hw]; simp only [Res.ok_bind]
        rw [show firstLine (c :: src) = c :: firstLine src by simp [firstLine, hc.1, hc.2], ← fitted_cons hr]
        have := ih (s ++ [c]) r' (noNul_snoc hs hc.1) hl' (by simp; omega)
        simpa using this
    · rw [if_neg hr, fitted_full hr]
      exact dots_ok hs hl hz hlt

theorem appendLine_ok {size : Nat} {b s : Bytes} (src : Bytes) (hz : size ≤ 80) (h : Buf b s) :
    ∃ b', appendLine size b (some src) = .ok b' ∧ Buf b' (fitted size s (firstLine src)) := by
  unfold appendLine
  rw [h.strlen]
  simp only [Res.ok_bind]
  have hlt := h.lt
  have hl := h.len
  obtain ⟨r, rfl⟩ := h.shape
  exact lineAt_ok hz src s (0 :: r) h.clean hl hlt

theorem padAt_ok (v : UInt8) (hv : v ≠ 0) : ∀ (n : Nat) (s r : Bytes), NoNul s → (s ++ r).length = 80 → s.length + n < 80 →
    ∃ b, padAt v n (s ++ r) s.length = .ok b ∧ Buf b (s ++ List.replicate n v) := by
  intro n
  induction n with
  | zero =>
    intro s r hs hl hlt
    simpa [padAt] using wr_stop (a := s) rfl (ne_nil_of hl (by simpa using hlt)) hl hs
  | succ n ih =>
    intro s r hs hl hlt
    obtain ⟨r', hw, hl'⟩ := wr_step v rfl hl (by omega)
    unfold padAt
    rw [hw]; simp only [Res.ok_bind]
    have := ih (s ++ [v]) r' (noNul_snoc hs hv) hl' (by simp; omega)
    simpa [List.replicate_succ] using this

theorem padLine_ok {n : Nat} {b s : Bytes} (v : UInt8) (hv : v ≠ 0) (hn : n ≤ 80) (h : Buf b s) :
    ∃ b', padLine n b v = .ok b' ∧ Buf b' (s ++ List.replicate (n - 1 - s.length) v) := by
  unfold padLine
  rw [h.strlen]
  simp only [Res.ok_bind]
  have hlt := h.lt
  have hl := h.len
  obtain ⟨r, rfl⟩ := h.shape
  exact padAt_ok v hv _ s (0 :: r) h.clean hl (by omega)

theorem escaped_two {c : UInt8} (h : c = 10 ∨ c = 9 ∨ c = 34) : ∃ d : UInt8, d ≠ 0 ∧ d ≠ 10 ∧ escaped c = [92, d] := by
  rcases h with h | h | h <;> subst h
  · exact ⟨110, by decide, by decide, rfl⟩
  · exact ⟨116, by decide, by decide, rfl⟩
  · exact ⟨34, by decide, by decide, rfl⟩

/-- What escaping leaves in the buffer: as many whole characters as fit; all of them if there is room for them. -/
theorem escapeAt_ok {size : Nat} (hz : size ≤ 80) (src : Bytes) : ∀ (s r : Bytes), NoNul s → (s ++ r).length = 80 → s.length < 80 →
    ∃ b k, escapeAt size (s ++ r) s.length src = .ok b ∧ NoNul (src.take k) ∧ Buf b (s ++ (src.take k).flatMap escaped) ∧
      (NoNul src → s.length + (src.flatMap escaped).length + 1 < size → src.length ≤ k) := by
  induction src with
  | nil =>
    intro s r hs hl hlt
    unfold escapeAt
    obtain ⟨b, h1, h2⟩ := wr_stop rfl (ne_nil_of hl hlt) hl hs
    exact ⟨b, 0, h1, by simp [NoNul], by simpa using h2, fun _ _ => by simp⟩
  | cons c src ih =>
    intro s r hs hl hlt
    unfold escapeAt
    by_cases hg : s.length + 2 < size ∧ c ≠ 0
    · rw [if_pos hg]
      have fin : ∀ b k (e : Bytes), escaped c = e →
          NoNul (src.take k) → Buf b ((s ++ e) ++ (src.take k).flatMap escaped) →
          (NoNul src → (s ++ e).length + (src.flatMap escaped).length + 1 < size → src.length ≤ k) →
          NoNul ((c :: src).take (k + 1)) ∧ Buf b (s ++ ((c :: src).take (k + 1)).flatMap escaped) ∧
          (NoNul (c :: src) → s.length + ((c :: src).flatMap escaped).length + 1 < size → (c :: src).length ≤ k + 1) := by
        intro b k e he h1 h2 h3
        refine ⟨?_, by simpa [he] using h2, fun hn hf => ?_⟩
        · simp only [List.take_succ_cons]
          intro m
          rcases List.mem_cons.mp m with m | m
          · exact hg.2 m.symm
          · exact h1 m
        · have := h3 (fun m => hn (by simp [m])) (by simp [he] at hf ⊢; omega)
          simpa using this
      by_cases h2 : c = 10 ∨ c = 9 ∨ c = 34
      · obtain ⟨d, d0, d10, hd⟩ := escaped_two h2
        obtain ⟨r1, w1, l1⟩ := wr_step (a := s) (r := r) 92 rfl hl hlt
        obtain ⟨r2, w2, l2⟩ := wr_step (a := s ++ [92]) (r := r1) (i := s.length + 1) d (by simp) l1 (by simp; omega)
        obtain ⟨b, k, i1, i2, i3, i4⟩ := ih (s ++ [92] ++ [d]) r2 (noNul_snoc (noNul_snoc hs (by decide)) d0) l2 (by simp; omega)
        have hlen : (s ++ [92] ++ [d]).length = s.length + 2 := by simp
        rw [hlen] at i1
        have f := fin b k [92, d] hd i2 (by simpa using i3) (by simpa using i4)
        refine ⟨b, k + 1, ?_, f⟩
        rcases h2 with h | h | h <;> subst h
        · have : d = 110 := by simpa [escaped] using hd.symm
          subst this
          simp only [if_true, w1, Res.ok_bind, w2, i1]
        · have : d = 116 := by simpa [escaped] using hd.symm
          subst this
          rw [if_neg (by decide)]
          simp only [if_true, w1, Res.ok_bind, w2, i1]
        · have : d = 34 := by simpa [escaped] using hd.symm
          subst this
          rw [if_neg (by decide), if_neg (by decide)]
          simp only [if_true, w1, Res.ok_bind, w2, i1]
      · simp only [not_or] at h2
        have he : escaped c = [c] := by simp [escaped, h2.1, h2.2.1, h2.2.2]
        obtain ⟨r1, w1, l1⟩ := wr_step (a := s) (r := r) c rfl hl hlt
        obtain ⟨b, k, i1, i2, i3, i4⟩ := ih (s ++ [c]) r1 (noNul_snoc hs hg.2) l1 (by simp; omega)
        have hlen : (s ++ [c]).length = s.length + 1 := by simp
        rw [hlen] at i1
        refine ⟨b, k + 1, ?_, fin b k [c] he i2 (by simpa using i3) (by simpa using i4)⟩
        rw [if_neg h2.1, if_neg h2.2.1, if_neg h2.2.2, w1]
        simp only [Res.ok_bind, i1]
    · rw [if_neg hg]
      obtain ⟨b, h1, h2⟩ := wr_stop rfl (ne_nil_of hl hlt) hl hs
      refine ⟨b, 0, h1, by simp [NoNul], by simpa using h2, fun hn hf => ?_⟩
      exfalso
      have hc : c ≠ 0 := fun e => hn (by simp [e])
      have hg' : ¬s.length + 2 < size := fun h => hg ⟨h, hc⟩
      have : 1 ≤ (escaped c).length := by unfold escaped; split <;> (try split) <;> (try split) <;> simp
      simp only [List.flatMap_cons, List.length_append] at hf
      omega

theorem appendEscaped_ok {size : Nat} {b s : Bytes} (src : Bytes) (hz : size ≤ 80) (h : Buf b s) :
    ∃ b' k, appendEscaped size b src = .ok b' ∧ Buf b' (s ++ (src.take k).flatMap escaped) ∧
      (NoNul src → s.length + (src.flatMap escaped).length + 1 < size → src.length ≤ k) := by
  unfold appendEscaped
  rw [h.strlen]
  simp only [Res.ok_bind]
  have hlt := h.lt
  have hl := h.len
  obtain ⟨r, rfl⟩ := h.shape
  obtain ⟨b, k, h1, _, h2, h3⟩ := escapeAt_ok hz src s (0 :: r) h.clean hl hlt
  exact ⟨b, k, h1, h2, h3⟩

/-! ## The listing -/

theorem fitted_prefix (size : Nat) (s l : Bytes) : s <+: fitted size s l := by
  unfold fitted
  split
  · exact List.prefix_append _ _
  · split
    · rw [List.append_assoc]; exact List.prefix_append _ _
    · exact List.prefix_refl _

theorem firstLine_mem {s : Bytes} {c : UInt8} (h : c ∈ firstLine s) : c ≠ 0 ∧ c ≠ 10 := by
  unfold firstLine at h
  have := List.all_takeWhile (p := fun c : UInt8 => decide (c ≠ 0 ∧ c ≠ 10)) (l := s)
  rw [List.all_eq_true] at this
  simpa using this c h

theorem firstLine_id {s : Bytes} (h : ∀ c ∈ s, c ≠ 0 ∧ c ≠ 10) : firstLine s = s := by
  unfold firstLine
  induction s with
  | nil => rfl
  | cons c s ih =>
    rw [List.takeWhile_cons_of_pos (by simpa using h c (by simp)), ih (fun d hd => h d (by simp [hd]))]

theorem fitted_one {size : Nat} {s l : Bytes} (hs : (10 : UInt8) ∉ s) (hl : (10 : UInt8) ∉ l) : (10 : UInt8) ∉ fitted size s l := by
  unfold fitted
  split
  · simp [hs, hl]
  · split
    · simp only [List.mem_append, not_or]
      exact ⟨⟨hs, fun m => hl (List.mem_of_mem_take m)⟩, by decide⟩
    · exact hs

theorem firstLine_one (s : Bytes) : (10 : UInt8) ∉ firstLine s := fun h => (firstLine_mem h).2 rfl

/-- Newlines before the terminator. -/
def nl (p : Bytes) : Nat := ((p.takeWhile (· ≠ 0)).filter (· = 10)).length

theorem nextLine_ok (p : Bytes) (h : 0 < nl p) : ∃ q, nextLine p = some q ∧ nl p = nl q + 1 := by
  induction p with
  | nil => simp [nl] at h
  | cons c p ih =>
    unfold nextLine
    by_cases h0 : c = 0
    · subst h0; simp [nl] at h
    · rw [if_neg h0]
      by_cases h1 : c = 10
      · rw [if_pos h1]; subst h1
        exact ⟨p, rfl, by simp [nl]⟩
      · rw [if_neg h1]
        have e : nl (c :: p) = nl p := by simp [nl, h0, h1]
        rw [e] at h ⊢
        exact ih h

/-- There are as many lines left in the script as are still to be shown. -/
def SrcOK (lc : Nat) (s : Source) : Prop := ∀ p, s.ptr = some p → lc ≤ s.last + nl p

/-- A line of the listing. -/
def LineOK (l : Bytes) : Prop := l.length ≤ 79 ∧ (10 : UInt8) ∉ l

theorem sourceLines_ok {lc : Nat} (hlc : lc < 4294967296) : ∀ (n : Nat) (s : Source) (p : Bytes) (b t : Bytes), Buf b t → (10 : UInt8) ∉ t →
    s.ptr = some p → SrcOK lc s → s.last + n ≤ lc →
    ∃ ls s' b', sourceLines n s b = .ok (ls, s', b') ∧ b'.length = 80 ∧ SrcOK lc s' ∧ (∀ l ∈ ls, LineOK l) ∧
      (0 < n → ∃ l ∈ ls, t <+: l) := by
  intro n
  induction n with
  | zero =>
    intro s p b t hb _ _ hs _
    exact ⟨[], s, b, rfl, hb.len, hs, by simp, fun h => absurd h (by omega)⟩
  | succ n ih =>
    intro s p b t hb ht hp hs hn
    obtain ⟨b1, h1, g1⟩ := padLine_ok (n := 40) 32 (by decide) (by decide) hb
    obtain ⟨b2, h2, g2⟩ := appendLine_ok (size := 80) (cs " ; ") (by decide) g1
    obtain ⟨b3, h3, g3⟩ := appendLine_ok (size := 80) p (by decide) g2
    obtain ⟨b4, h4, g4⟩ := clear_ok g3.len
    have hlt := hs p hp
    obtain ⟨q, hq, hnl⟩ := nextLine_ok p (by omega)
    have hu : u32 (s.last + 1) = s.last + 1 := by unfold u32 U32; omega
    obtain ⟨ls, s', b', i1, i2, i3, i4, _⟩ := ih ⟨s.last + 1, some q⟩ q b4 [] g4 (by simp) rfl
      (fun q' e => by cases e; simp only; omega) (by simp only; omega)
    refine ⟨fitted 80 (fitted 80 (t ++ List.replicate (40 - 1 - t.length) 32) (firstLine (cs " ; "))) (firstLine p) :: ls, s', b', ?_, i2, i3, ?_,
      fun _ => ⟨_, List.mem_cons_self, ?_⟩⟩
    · unfold sourceLines
      rw [h1]; simp only [Res.ok_bind]
      rw [h2]; simp only [Res.ok_bind, hp]
      rw [h3]; simp only [Res.ok_bind]
      rw [g3.text]; simp only [Res.ok_bind]
      rw [h4]; simp only [Res.ok_bind, hq, hu]
      rw [i1]; rfl
    · intro l hl
      rcases List.mem_cons.mp hl with rfl | hl
      · refine ⟨by have := g3.lt; omega, fitted_one (fitted_one ?_ (firstLine_one _)) (firstLine_one _)⟩
        simp only [List.mem_append, not_or]
        exact ⟨ht, fun m => absurd (List.eq_of_mem_replicate m) (by decide)⟩
      · exact i4 l hl
    · exact ((List.prefix_append _ _).trans (fitted_prefix 80 _ _)).trans (fitted_prefix 80 _ _)

theorem finishLine_ok {lc : Nat} (hlc : lc < 4294967296) (vm : VM) (i : Nat) (s : Source) (b t : Bytes) (hb : Buf b t) (ht : (10 : UInt8) ∉ t)
    (hs : SrcOK lc s) :
    ∃ ls s' b', finishLine vm lc i s b = .ok (ls, s', b') ∧ b'.length = 80 ∧ SrcOK lc s' ∧ (∀ l ∈ ls, LineOK l) ∧
      ∃ l ∈ ls, t <+: l := by
  have plain : ∃ ls s' b', (do let l ← Dbg.text b; .ok ([l], s, b) : Res (List Bytes × Source × Bytes)) = .ok (ls, s', b') ∧ b'.length = 80 ∧
      SrcOK lc s' ∧ (∀ l ∈ ls, LineOK l) ∧ ∃ l ∈ ls, t <+: l := by
    refine ⟨[t], s, b, by rw [hb.text]; rfl, hb.len, hs, fun l hl => ?_, t, by simp, List.prefix_refl _⟩
    obtain rfl : l = t := by simpa using hl
    exact ⟨by have := hb.lt; omega, ht⟩
  unfold finishLine
  cases hp : s.ptr with
  | none => exact plain
  | some p =>
    cases hm : findSourceMarker vm.markers i with
    | none => exact plain
    | some m =>
      dsimp only
      split
      · rename_i h
        obtain ⟨ls, s', b', h1, h2, h3, h4, h5⟩ := sourceLines_ok hlc (min m.actualLine lc - s.last) s p b t hb ht hp hs (by omega)
        exact ⟨ls, s', b', h1, h2, h3, h4, h5 (by omega)⟩
      · exact plain

theorem opNames_ok : ∀ n ∈ opNames, n.length ≤ 22 ∧ n.contains 0 = false ∧ n.contains 10 = false := by decide +kernel

theorem itoa_ok (i : BitVec 32) : NoNul (itoa i) ∧ (itoa i).length ≤ 11 := by
  have hi := i.isLt
  have h2 : -(4294967296 : Int) < i.toInt ∧ i.toInt < 4294967296 := by
    rw [BitVec.toInt_eq_toNat_cond]; split <;> omega
  unfold itoa
  split
  · refine ⟨?_, ?_⟩
    · intro m
      rcases List.mem_cons.mp m with m | m
      · exact absurd m (by decide)
      · exact natDec_noNul _ m
    · have := natDec_length 9 (-i.toInt).toNat (by omega)
      simp only [List.length_cons]; omega
  · exact ⟨natDec_noNul _, by have := natDec_length 9 i.toInt.toNat (by omega); omega⟩

theorem get_ok {α : Type} {t : Table α} (h : t.WF) (i : Nat) : ∃ x, t.get i = .ok x := by
  unfold Table.get
  split
  · exact ⟨none, rfl⟩
  · unfold Table.read
    have : i < t.slots.length := by rw [h.len]; omega
    rw [List.getElem?_eq_getElem this]
    exact ⟨_, rfl⟩

theorem noNul_cons {c : UInt8} {s : Bytes} (hc : c ≠ 0) (h : NoNul s) : NoNul (c :: s) := fun m => by
  rcases List.mem_cons.mp m with m | m
  · exact hc m.symm
  · exact h m

theorem params_ok {F : FloatOps} {vm : VM} (hF : Prints F) (hw : vm.strings.WF) (op param : BitVec 32) {b : Bytes} (hb : b.length = 80) :
    ∃ b' t, params F vm op param b = .ok (b', listedWords op - 1) ∧ Buf b' t := by
  unfold params listedWords
  have c32 : (32 : UInt8) ≠ 0 := by decide
  by_cases h7 : op = 7
  · obtain ⟨b', h1, h2⟩ := put_ok (32 :: itoa param) hb (noNul_cons c32 (itoa_ok param).1) (by have := (itoa_ok param).2; simp; omega)
    exact ⟨b', _, by rw [if_pos h7, h1]; simp [h7], h2⟩
  · rw [if_neg h7]
    by_cases h8 : op = 8
    · obtain ⟨b', h1, h2⟩ := put_ok (32 :: F.print param) hb (noNul_cons c32 (fun m => (hF param).2 0 m rfl)) (by have := (hF param).1; simp; omega)
      exact ⟨b', _, by rw [if_pos h8, h1]; simp [h8], h2⟩
    · rw [if_neg h8]
      by_cases h10 : op = 10
      · obtain ⟨b', h1, h2⟩ := put_ok (32 :: natDec param.toNat) hb (noNul_cons c32 (natDec_noNul _))
          (by have := natDec_length 9 param.toNat (by have := param.isLt; omega); simp; omega)
        exact ⟨b', _, by rw [if_pos h10, h1]; simp [h10], h2⟩
      · rw [if_neg h10]
        by_cases h9 : op = 9
        · obtain ⟨e, he⟩ := get_ok hw param.toNat
          obtain ⟨b1, h1, g1⟩ := put_ok (32 :: itoa param ++ [58, 34]) hb
            (noNul_app (noNul_cons c32 (itoa_ok param).1) (s1 (by decide))) (by have := (itoa_ok param).2; simp; omega)
          obtain ⟨b2, k, h2, g2, _⟩ := appendEscaped_ok (size := 80) (strOr e (cs "<bad string>")) (by decide) g1
          obtain ⟨b3, h3, g3⟩ := appendLine_ok (size := 80) [34] (by decide) g2
          refine ⟨b3, _, ?_, g3⟩
          rw [if_pos h9, he]; simp only [Res.ok_bind]
          rw [h1]; simp only [Res.ok_bind]
          rw [h2]; simp only [Res.ok_bind]
          rw [h3]; simp [h9]
        · obtain ⟨b', h1, h2⟩ := clear_ok hb
          refine ⟨b', _, ?_, h2⟩
          rw [if_neg h9, h1, if_neg (fun h => h.elim h7 fun h => h.elim h8 fun h => h.elim h9 h10)]; rfl

theorem address_eq (here : Bool) (i : Nat) : address here i = [if here then 62 else 32, 32] ++ natDec i := by
  cases here <;> simp [address, cs]

theorem oneInstr_ok {F : FloatOps} {vm : VM} {c : Ctx} {lc i : Nat} {op param : BitVec 32} {s : Source} {line par nm : Bytes}
    (hF : Prints F) (hw : vm.strings.WF) (hc : vm.ctxs[vm.cur]? = some (some c)) (hlc : lc < 4294967296) (hi : i < 4294967296)
    (hn : opName op = some nm) (hl : line.length = 80) (hp : par.length = 80) (hs : SrcOK lc s) :
    ∃ ls s' line' par', oneInstr F vm lc i op param s line par = .ok (ls, i + (listedWords op - 1), s', line', par') ∧
      line'.length = 80 ∧ par'.length = 80 ∧ SrcOK lc s' ∧ (∀ l ∈ ls, LineOK l) ∧ ∃ l ∈ ls, instrLabel (i == c.ip) i nm <+: l := by
  have hda := natDec_length 9 i (by omega)
  have hlen : (address (i == c.ip) i).length ≤ 12 := by rw [address_eq]; simp; omega
  have a10 : (10 : UInt8) ∉ address (i == c.ip) i := by
    rw [address_eq]
    intro m
    rcases List.mem_append.mp m with m | m
    · cases h : (i == c.ip) <;> rw [h] at m <;> exact absurd m (by decide)
    · have := natDec_digits i 10 m
      exact absurd this (by decide)
  have a0 : NoNul (address (i == c.ip) i) := by
    rw [address_eq]
    refine noNul_app (fun m => ?_) (natDec_noNul _)
    cases h : (i == c.ip) <;> rw [h] at m <;> exact absurd m (by decide)
  have hnm := opNames_ok nm (List.mem_of_getElem? hn)
  obtain ⟨b1, h1, g1⟩ := put_ok (address (i == c.ip) i) hl a0 (by omega)
  obtain ⟨b2, h2, g2⟩ := padLine_ok (n := 7) 32 (by decide) (by decide) g1
  obtain ⟨b3, h3, g3⟩ := appendLine_ok (size := 80) (cs ": ") (by decide) g2
  obtain ⟨b4, h4, g4⟩ := appendLine_ok (size := 80) nm (by decide) g3
  obtain ⟨p5, t5, h5, g5⟩ := params_ok hF hw op param hp
  obtain ⟨b6, h6, g6⟩ := appendLine_ok (size := 40) t5 (by decide) g4
  have e3 : fitted 80 (address (i == c.ip) i ++ List.replicate (7 - 1 - (address (i == c.ip) i).length) 32) (firstLine (cs ": ")) =
      address (i == c.ip) i ++ List.replicate (6 - (address (i == c.ip) i).length) 32 ++ [58, 32] := by
    unfold fitted
    rw [show firstLine (cs ": ") = [58, 32] by decide, if_pos (by simp; omega)]
  have e4 : fitted 80 (fitted 80 (address (i == c.ip) i ++ List.replicate (7 - 1 - (address (i == c.ip) i).length) 32) (firstLine (cs ": "))) (firstLine nm) =
      instrLabel (i == c.ip) i nm := by
    rw [e3, firstLine_id (fun c hc => ⟨fun e => s1 hnm.2.1 (e ▸ hc), fun e => by subst e; simpa [List.contains_iff_mem, hc] using hnm.2.2⟩)]
    unfold fitted instrLabel
    rw [address_eq] at *
    rw [if_pos]
    simp only [List.length_append, List.length_cons, List.length_nil, List.length_replicate] at hlen ⊢
    omega
  rw [e4] at g4 g6
  have t4 : (10 : UInt8) ∉ instrLabel (i == c.ip) i nm := by
    rw [← e4]
    refine fitted_one (fitted_one ?_ (firstLine_one _)) (firstLine_one _)
    simp only [List.mem_append, not_or]
    exact ⟨a10, fun m => absurd (List.eq_of_mem_replicate m) (by decide)⟩
  obtain ⟨ls, s', b7, h7, l7, s7, o7, x, hx, px⟩ := finishLine_ok hlc vm (i + (listedWords op - 1)) s b6 _ g6 (fitted_one t4 (firstLine_one _)) hs
  refine ⟨ls, s', b7, p5, ?_, l7, g5.len, s7, o7, x, hx, (fitted_prefix _ _ _).trans px⟩
  unfold oneInstr ctxAt
  rw [hc]; simp only [Res.ok_bind]
  rw [h1]; simp only [Res.ok_bind]
  rw [h2]; simp only [Res.ok_bind]
  rw [h3]; simp only [Res.ok_bind, hn]
  rw [h4]; simp only [Res.ok_bind]
  rw [h5]; simp only [Res.ok_bind]
  rw [g5.text]; simp only [Res.ok_bind]
  rw [h6]; simp only [Res.ok_bind]
  rw [h7]; rfl

theorem listedWords_pos (w : BitVec 32) : 1 ≤ listedWords w := by unfold listedWords; split <;> omega

theorem listed_gap {vm : VM} : ∀ (n a i : Nat) (w : BitVec 32), a + i ≤ n → Listed vm a → Listed vm i → i < a → vm.instrs[i]? = some w →
    w ≠ 20 ∧ i + listedWords w ≤ a := by
  intro n
  induction n with
  | zero => intro a i w h _ _ hlt; omega
  | succ n ih =>
    intro a i w h ha hi hlt hw
    cases ha with
    | first => omega
    | @next a0 w0 ha0 hw0 he =>
      have := listedWords_pos w0
      rcases Nat.lt_trichotomy i a0 with h1 | h1 | h1
      · have := ih a0 i w (by omega) ha0 hi h1 hw
        exact ⟨this.1, by omega⟩
      · subst h1
        obtain rfl : w = w0 := by rw [hw] at hw0; exact Option.some.inj hw0
        exact ⟨he, Nat.le_refl _⟩
      · have := ih i a0 w0 (by omega) hi ha0 h1 hw0
        omega

theorem listLoop_ok {F : FloatOps} {vm : VM} {c : Ctx} {lc : Nat} (hF : Prints F) (hw' : vm.strings.WF) (hlen : vm.instrs.length = vm.instrMask + 1)
    (hc : vm.ctxs[vm.cur]? = some (some c)) (hlc : lc < 4294967296) (hm : vm.instrMask < UINT_MAX) (hn : AllNamed vm) :
    ∀ (n i : Nat) (s : Source) (line par : Bytes), Listed vm i → line.length = 80 → par.length = 80 → SrcOK lc s → vm.instrMask + 1 < n + i → 0 < n →
    ∃ ls, listLoop F vm lc n i s line par = .ok ls ∧ (∀ l ∈ ls, LineOK l) ∧
      ∀ a w nm, i ≤ a → Listed vm a → vm.instrs[a]? = some w → w ≠ 20 → opName w = some nm → ∃ l ∈ ls, instrLabel (a == c.ip) a nm <+: l := by
  intro n
  induction n with
  | zero =>
    intro i s line par _ _ _ _ _ h
    omega
  | succ n ih =>
    intro i s line par hli hl hp hs hf _
    unfold listLoop
    by_cases hi : i ≤ vm.instrMask
    · rw [if_pos hi]
      have h1 : i < vm.instrs.length := by omega
      have h2 : (i + 1) &&& vm.instrMask < vm.instrs.length := by have := Nat.and_le_right (n := i + 1) (m := vm.instrMask); omega
      rw [List.getElem?_eq_getElem h1, List.getElem?_eq_getElem h2]
      dsimp only
      have hw : vm.instrs[i]? = some vm.instrs[i] := List.getElem?_eq_getElem h1
      by_cases he : vm.instrs[i] = 20
      · rw [if_pos he]
        refine ⟨[], rfl, by simp, fun a w nm hia hla haw hw20 _ => ?_⟩
        rcases Nat.eq_or_lt_of_le hia with e | e
        · subst e; rw [hw] at haw; exact absurd (Option.some.inj haw ▸ he) hw20
        · exact absurd he (listed_gap _ a i _ (Nat.le_refl _) hla hli e hw).1
      · rw [if_neg he]
        have h43 := hn i _ hli hw he
        have hnm : opName vm.instrs[i] = some (opNames[vm.instrs[i].toNat % 64]'(by rw [show opNames.length = 43 by decide]; exact h43)) :=
          List.getElem?_eq_getElem _
        obtain ⟨ls, s', line', par', r1, r2, r3, r4, r5, x, hx, px⟩ :=
          oneInstr_ok (i := i) (param := vm.instrs[(i + 1) &&& vm.instrMask]) hF hw' hc hlc (by unfold UINT_MAX at hm; omega) hnm hl hp hs
        have hpos := listedWords_pos vm.instrs[i]
        have hnext : Listed vm (i + (listedWords vm.instrs[i] - 1) + 1) := by
          have := Listed.next hli hw he
          rwa [show i + (listedWords vm.instrs[i] - 1) + 1 = i + listedWords vm.instrs[i] by omega]
        obtain ⟨rest, q1, q2, q3⟩ := ih (i + (listedWords vm.instrs[i] - 1) + 1) s' line' par' hnext r2 r3 r4 (by omega) (by omega)
        refine ⟨ls ++ rest, ?_, ?_, ?_⟩
        · rw [r1]; simp only [Res.ok_bind]
          rw [q1]; rfl
        · intro l hl
          rcases List.mem_append.mp hl with hl | hl
          · exact r5 l hl
          · exact q2 l hl
        · intro a w nm hia hla haw hw20 hnm'
          rcases Nat.eq_or_lt_of_le hia with e | e
          · subst e
            rw [hw] at haw
            obtain rfl := Option.some.inj haw
            rw [hnm] at hnm'
            obtain rfl := Option.some.inj hnm'
            exact ⟨x, List.mem_append_left _ hx, px⟩
          · have := (listed_gap _ a i _ (Nat.le_refl _) hla hli e hw).2
            obtain ⟨l, hl, pl⟩ := q3 a w nm (by omega) hla haw hw20 hnm'
            exact ⟨l, List.mem_append_right _ hl, pl⟩
    · rw [if_neg hi]
      refine ⟨[], rfl, by simp, fun a w nm hia _ haw _ _ => ?_⟩
      rw [List.getElem?_eq_none (by omega)] at haw
      exact absurd haw (by simp)

end Nk.Dbg
