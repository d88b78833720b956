import Verif.Spec.Layout
import Verif.Lemmas.StmtGen
/-!
# Code that grows keeps its shape
-/
namespace Nk.Cc

theorem width_pos (w : BitVec 32) : 0 < width w := by unfold width; split <;> omega

theorem IsJump.width1 {w : BitVec 32} (h : IsJump w) : width w = 1 := by
  unfold width IsJump at *; rw [if_neg (by omega)]

/-- Between the start of an instruction and its end no other starts. -/
theorem Starts.gap {I : List (BitVec 32)} (b : Nat) : ∀ {a : Nat} {w : BitVec 32}, Starts I b → Starts I a → I[a]? = some w → a < b →
    a + width w ≤ b := by
  induction b using Nat.strongRecOn with
  | _ b ih =>
    intro a w hb ha hw hlt
    cases hb with
    | first => omega
    | @next c v hc hv =>
      have := width_pos v
      rcases Nat.lt_trichotomy a c with h | h | h
      · have := ih c (by omega) hc ha hw h; omega
      · subst h; rw [hv] at hw; cases hw; exact Nat.le_refl _
      · have := ih a hlt ha hc hv h; omega

/-- The instruction after `a`. -/
theorem Starts.after {I : List (BitVec 32)} {a : Nat} {w : BitVec 32} {k : Nat} (h : Starts I a) (hw : I[a]? = some w)
    (hk : width w = k) : Starts I (a + k) := hk ▸ h.next hw

/-- Code that keeps the starts of the instructions below `n`, and has an entry at `n`. -/
structure Grew (I : List (BitVec 32)) (n : Nat) (I' : List (BitVec 32)) (n' : Nat) : Prop where
  le : n ≤ n'
  same : ∀ i, i < n → Starts I i → I'[i]? = I[i]?
  entry : Entry I' n' n

theorem Starts.keep {I I' : List (BitVec 32)} {n : Nat} (hs : ∀ i, i < n → Starts I i → I'[i]? = I[i]?) {a : Nat} (h : Starts I a)
    (ha : a ≤ n) : Starts I' a := by
  induction h with
  | first => exact .first
  | @next a w h hw ih =>
    have := width_pos w
    exact (ih (by omega)).next (by rw [hs a (by omega) h]; exact hw)

theorem Starts.back {I I' : List (BitVec 32)} {n : Nat} (hs : ∀ i, i < n → Starts I i → I'[i]? = I[i]?) {a : Nat} (h : Starts I' a)
    (ha : a ≤ n) : Starts I a := by
  induction h with
  | first => exact .first
  | @next a w h hw ih =>
    have := width_pos w
    have := ih (by omega)
    exact this.next (by rw [← hs a (by omega) this]; exact hw)

theorem Grew.keep {I I' : List (BitVec 32)} {n n' T : Nat} (h : Grew I n I' n') (e : Entry I n T) : Entry I' n' T := by
  have hl := e.le
  by_cases ht : T = n
  · subst ht; exact h.entry
  · exact ⟨Nat.le_trans e.le h.le, e.start.keep h.same e.le, fun _ w hw => by
      rw [h.same T (by omega) e.start] at hw; exact e.plain (by omega) w hw⟩

theorem Grew.trans {I I' I'' : List (BitVec 32)} {n n' n'' : Nat} (h : Grew I n I' n') (g : Grew I' n' I'' n'') : Grew I n I'' n'' :=
  ⟨Nat.le_trans h.le g.le, fun i hi hs => by
    have := h.le
    rw [g.same i (by omega) (hs.keep h.same (by omega)), h.same i hi hs], g.keep h.entry⟩

theorem Shape.entry {I : List (BitVec 32)} {n : Nat} (h : Shape I n) : Entry I n n := ⟨Nat.le_refl _, h.whole, fun h => by omega⟩

theorem Shape.zero {I : List (BitVec 32)} {n : Nat} (h : Shape I n) : Entry I n 0 := by
  refine ⟨by omega, .first, fun hn w hw hj => ?_⟩
  obtain ⟨a, _, hb, _⟩ := h.jumps 0 w hn .first hw hj
  omega

theorem Shape.refl {I : List (BitVec 32)} {n : Nat} (h : Shape I n) : Grew I n I n := ⟨Nat.le_refl _, fun _ _ _ => rfl, h.entry⟩

/-- Words are added. -/
theorem Shape.append {I I' : List (BitVec 32)} {n n' : Nat} (h : Shape I n) (hb : ∀ i, i < n → I'[i]? = I[i]?) (hn : n < n')
    (hw : Starts I n → Starts I' n → Starts I' n') (hp : ∀ w, I'[n]? = some w → ¬IsJump w)
    (hj : Starts I' n' → (∀ {T}, Entry I n T → Entry I' n' T) → ∀ b w, n ≤ b → b < n' → Starts I' b → I'[b]? = some w → IsJump w →
      ∃ a d, b = a + 2 ∧ Starts I' a ∧ I'[a]? = some 7#32 ∧ I'[a + 1]? = some d ∧ Entry I' n' ((b + 1 + d.toNat) % 4294967296))
    (hkn : Starts I' n → ∀ b w, n ≤ b → b < n' → Starts I' b → I'[b]? = some w → w.toNat < 43) :
    Shape I' n' ∧ Grew I n I' n' := by
  have hs : ∀ i, i < n → Starts I i → I'[i]? = I[i]? := fun i hi _ => hb i hi
  have hn' : Starts I' n := h.whole.keep hs (Nat.le_refl _)
  have hend := hw h.whole hn'
  have g : Grew I n I' n' := ⟨by omega, hs, ⟨by omega, hn', fun _ => hp⟩⟩
  refine ⟨⟨hend, fun b w hlt hst hw' hjmp => ?_, fun b w hlt hst hw' => ?_⟩, g⟩
  rotate_left
  · by_cases hbn : b < n
    · exact h.known b w hbn (hst.back hs (by omega)) (by rw [← hb b hbn]; exact hw')
    · exact hkn hn' b w (by omega) hlt hst hw'
  by_cases hbn : b < n
  · obtain ⟨a, d, e1, e2, e3, e4, e5⟩ := h.jumps b w hbn (hst.back hs (by omega)) (by rw [← hb b hbn]; exact hw') hjmp
    exact ⟨a, d, e1, e2.keep hs (by omega), by rw [hb a (by omega)]; exact e3, by rw [hb _ (by omega)]; exact e4, g.keep e5⟩
  · exact hj hend g.keep b w (by omega) hlt hst hw' hjmp

/-- An instruction of one word that is not a jump is added. -/
theorem Shape.plain {I I' : List (BitVec 32)} {n : Nat} (h : Shape I n) (hb : ∀ i, i < n → I'[i]? = I[i]?) {w : BitVec 32}
    (hw : I'[n]? = some w) (h1 : width w = 1) (hp : ¬IsJump w) (hk : w.toNat < 43) : Shape I' (n + 1) ∧ Grew I n I' (n + 1) := by
  refine h.append hb (by omega) (fun _ hs => hs.after hw h1) (fun v hv => by rw [hw] at hv; cases hv; exact hp) ?_ (fun _ b v hb1 hb2 _ hv => by
    obtain rfl : b = n := by omega
    rw [hw] at hv; cases hv; exact hk)
  intro _ _ b v hb1 hb2 _ hv hj
  have : b = n := by omega
  subst this
  rw [hw] at hv; cases hv
  exact absurd hj hp

/-- An instruction with a literal is added. -/
theorem Shape.lit {I I' : List (BitVec 32)} {n : Nat} (h : Shape I n) (hb : ∀ i, i < n → I'[i]? = I[i]?) {w : BitVec 32}
    (hw : I'[n]? = some w) (h1 : width w = 2) (hk : w.toNat < 43) : Shape I' (n + 2) ∧ Grew I n I' (n + 2) := by
  have hp : ¬IsJump w := fun hj => by have := hj.width1; omega
  refine h.append hb (by omega) (fun _ hs => hs.after hw h1) (fun v hv => by rw [hw] at hv; cases hv; exact hp) ?_ (fun hn' b v hb1 hb2 hst hv => by
    by_cases hbn : b = n
    · subst hbn; rw [hw] at hv; cases hv; exact hk
    · have := Starts.gap b hst hn' hw (by omega); omega)
  intro he _ b v hb1 hb2 hst hv hj
  have hn' : Starts I' n := h.whole.keep (fun i hi _ => hb i hi) (Nat.le_refl _)
  by_cases hbn : b = n
  · subst hbn
    rw [hw] at hv; cases hv
    exact absurd hj hp
  · have := Starts.gap b hst hn' hw (by omega); omega

/-- A jump with its distance is added. -/
theorem Shape.jump {I I' : List (BitVec 32)} {n : Nat} (h : Shape I n) (hb : ∀ i, i < n → I'[i]? = I[i]?) {w d : BitVec 32}
    (h0 : I'[n]? = some 7#32) (h1 : I'[n + 1]? = some d) (h2 : I'[n + 2]? = some w) (hj : IsJump w) (hkw : w.toNat < 43)
    (ht : Entry I n ((n + 3 + d.toNat) % 4294967296) ∨ (n + 3 + d.toNat) % 4294967296 = n + 3) :
    Shape I' (n + 3) ∧ Grew I n I' (n + 3) := by
  have w7 : width 7#32 = 2 := by decide
  have j7 : ¬IsJump 7#32 := by unfold IsJump opOf; decide
  have hn' : Starts I' n := h.whole.keep (fun i hi _ => hb i hi) (Nat.le_refl _)
  refine h.append hb (by omega) (fun _ hs => (hs.after h0 w7).after h2 hj.width1) (fun v hv => by rw [h0] at hv; cases hv; exact j7) ?_ (fun _ b v hb1 hb2 hst hv => by
    by_cases hbn : b = n
    · subst hbn; rw [h0] at hv; cases hv; decide
    · have := Starts.gap b hst hn' h0 (by omega)
      obtain rfl : b = n + 2 := by omega
      rw [h2] at hv; cases hv; exact hkw)
  intro he hk b v hb1 hb2 hst hv hj'
  by_cases hbn : b = n
  · subst hbn
    rw [h0] at hv; cases hv
    exact absurd hj' j7
  · have := Starts.gap b hst hn' h0 (by omega)
    have hb3 : b = n + 2 := by omega
    subst hb3
    refine ⟨n, d, rfl, hn', h0, h1, ?_⟩
    rcases ht with ht | ht
    · exact hk ht
    · rw [show n + 2 + 1 + d.toNat = n + 3 + d.toNat by omega, ht]
      exact ⟨Nat.le_refl _, he, fun h => by omega⟩

/-- A jump whose distance may still be changed; it is not below `m`. -/
structure JumpAt (m : Nat) (I : List (BitVec 32)) (n a : Nat) : Prop where
  low : m ≤ a
  le : a + 3 ≤ n
  start : Starts I a
  lit : I[a]? = some 7#32
  jump : I[a + 2]? = some 17#32 ∨ I[a + 2]? = some 21#32

theorem JumpAt.next {I : List (BitVec 32)} {m n a : Nat} (h : JumpAt m I n a) : Starts I (a + 2) := h.start.after h.lit (by decide)

theorem Grew.jumpAt {I I' : List (BitVec 32)} {m n n' a : Nat} (g : Grew I n I' n') (h : JumpAt m I n a) : JumpAt m I' n' a := by
  have h1 := h.le
  have h2 := g.le
  refine ⟨h.low, by omega, h.start.keep g.same (by omega), by rw [g.same a (by omega) h.start]; exact h.lit, ?_⟩
  rw [g.same (a + 2) (by omega) h.next]; exact h.jump

/-- A jump is given a new target. -/
theorem Shape.patch {I I' : List (BitVec 32)} {m n a T : Nat} {d : BitVec 32} (h : Shape I n) (ha : JumpAt m I n a)
    (hs : ∀ i, i ≠ a + 1 → I'[i]? = I[i]?) (hd : I'[a + 1]? = some d) (hT : Entry I n T) (ht : (a + 3 + d.toNat) % 4294967296 = T) :
    Shape I' n ∧ Grew I n I' n := by
  have no : ∀ i, Starts I i → i ≠ a + 1 := by
    rintro i hi rfl
    have := Starts.gap _ hi ha.start ha.lit (by omega)
    rw [show width 7#32 = 2 by decide] at this
    omega
  have same : ∀ i, i < n → Starts I i → I'[i]? = I[i]? := fun i _ hi => hs i (no i hi)
  have keep : ∀ T, Entry I n T → Entry I' n T := fun T e => by
    refine ⟨e.le, e.start.keep same e.le, fun hlt w hw => ?_⟩
    rw [same T hlt e.start] at hw
    exact e.plain hlt w hw
  have g : Grew I n I' n := ⟨Nat.le_refl _, same, keep n h.entry⟩
  refine ⟨⟨h.whole.keep same (Nat.le_refl _), fun b w hlt hst hw hj => ?_, fun b w hlt hst hw => by
    have hst' := hst.back same (by omega)
    exact h.known b w hlt hst' (by rw [← same b hlt hst']; exact hw)⟩, g⟩
  have hst' := hst.back same (by omega)
  obtain ⟨a', d', e1, e2, e3, e4, e5⟩ := h.jumps b w hlt hst' (by rw [← same b hlt hst']; exact hw) hj
  by_cases haa : a' = a
  · subst haa
    subst e1
    refine ⟨a', d, rfl, e2.keep same (by omega), by rw [same a' (by omega) e2]; exact e3, hd, ?_⟩
    rw [show a' + 2 + 1 + d.toNat = a' + 3 + d.toNat by omega, ht]
    exact keep T hT
  · exact ⟨a', d', e1, e2.keep same (by omega), by rw [same a' (by omega) e2]; exact e3, by rw [hs _ (by omega)]; exact e4, keep _ e5⟩

/-- The distance of a jump. -/
theorem jump_dist {a T : Nat} (ha : a < 4294967296) (hT : T < 4294967296) :
    (a + 3 + (BitVec.ofNat 32 (usub (usub T a) 3)).toNat) % 4294967296 = T := by
  rw [BitVec.toNat_ofNat]
  unfold usub u32 U32
  omega

end Nk.Cc
