import Verif.Lemmas.Mem
/-! # One public memory call: invariant and frame -/
namespace Nk.Mem
open Nk.MemSpec

theorem create_inv {hdr ud : Nat} (h : 0 < hdr ∧ hdr < U32) : Inv (create hdr ud) := by
  refine ⟨h, by simp [create, outstanding], by simp [create, outstanding],
    by simp [create, outstanding], by simp [create, outstanding, Chain],
    by simp [create, usage, outstanding, total], by simp [create, UINT_MAX, U32],
    by simp [create, U32], ?_⟩
  constructor
  · intro n; simp [create, usage, outstanding, total]
  · exact ⟨0, by simp [create, usage, outstanding, total]⟩

/-- The product the guards of the array functions let through is exact. -/
theorem array_product {size count : Nat} (h0 : size ≠ 0) (hc : ¬ count ≥ UINT_MAX / size) :
    size * count < U32 := by
  have hc' : count < UINT_MAX / size := by omega
  have := (Nat.lt_div_iff_mul_lt (by omega)).1 hc'
  have hU : UINT_MAX + 1 = U32 := rfl
  have : size * count = count * size := Nat.mul_comm _ _
  omega

/-- What one public call guarantees. -/
structure StepOk (s : State) (r : Option Nat) (s' : State) : Prop where
  inv : Inv s'
  hdr : s'.hdr = s.hdr
  userData : s'.userData = s.userData
  lim : ∀ a, r = some a → s'.cur ≤ s'.limit ∧ s'.limit = s.limit
  sticky : s.failed = true → s'.failed = true ∧ s'.trace = s.trace ∧ s'.heap = s.heap ∧ r = none

theorem wrapped_malloc {s : State} (hi : Inv s) {size sys junk} (h1 : size < U32)
    (h2 : legal.fresh s.trace sys) (h3 : junk.length = size) :
    ∃ r s', wrapped s none (fun s => malloc s size sys junk) = .ok (r, s') ∧ StepOk s r s' := by
  unfold wrapped
  by_cases hfail : s.failed = true
  · exact ⟨none, s, by simp [hfail], hi, rfl, rfl, by simp, fun _ => ⟨hfail, rfl, rfl, rfl⟩⟩
  rcases malloc_spec hi h1 h2 h3 with h | ⟨_, h⟩ | ⟨_, a, s', _, h, hi', hfr, _, hle, _⟩
  · exact ⟨none, { s with failed := true }, by simp [hfail, h], inv_failed hi true, rfl, rfl,
      by simp, by simp [hfail]⟩
  · exact ⟨none, s, by simp [hfail, h], hi, rfl, rfl, by simp, by simp [hfail]⟩
  · exact ⟨some a, s', by simp [hfail, h], hi', hfr.2, hfr.3, fun _ _ => ⟨hle, hfr.1⟩, by simp [hfail]⟩

theorem wrapped_realloc {s : State} (hi : Inv s) {p size sys junk} (h1 : size < U32)
    (h2 : legal.fresh s.trace sys) (h3 : junk.length = size) (h4 : legal.liveOrNull s.trace p) :
    ∃ r s', wrapped s none (fun s => realloc s p size sys junk) = .ok (r, s') ∧ StepOk s r s' := by
  cases p with
  | none => exact wrapped_malloc hi h1 h2 h3
  | some a =>
    obtain ⟨b, hb⟩ := h4
    obtain ⟨d, hd, _⟩ := live_contents hi hb
    unfold wrapped
    by_cases hfail : s.failed = true
    · exact ⟨none, s, by simp [hfail], hi, rfl, rfl, by simp, fun _ => ⟨hfail, rfl, rfl, rfl⟩⟩
    rcases realloc_spec hi h1 h2 h3 hb hd with
      h | ⟨_, s', h, hi', hfr, _⟩ | ⟨_, n, s', _, _, h, hi', hfr, _, hle, _⟩
    · exact ⟨none, { s with failed := true }, by simp [hfail, h], inv_failed hi true, rfl, rfl,
        by simp, by simp [hfail]⟩
    · exact ⟨none, s', by simp [hfail, h], hi', hfr.2, hfr.3, by simp, by simp [hfail]⟩
    · exact ⟨some n, s', by simp [hfail, h], hi', hfr.2, hfr.3, fun _ _ => ⟨hle, hfr.1⟩, by simp [hfail]⟩

theorem wrapped_cat {s : State} (hi : Inv s) {body : State → Out (Option Nat)}
    (hb : body s = catastrophe s) :
    ∃ r s', wrapped s none body = .ok (r, s') ∧ StepOk s r s' := by
  unfold wrapped
  by_cases hfail : s.failed = true
  · exact ⟨none, s, by simp [hfail], hi, rfl, rfl, by simp, fun _ => ⟨hfail, rfl, rfl, rfl⟩⟩
  · exact ⟨none, { s with failed := true }, by simp [hfail, hb, catastrophe],
      inv_failed hi true, rfl, rfl, by simp, by simp [hfail]⟩

theorem mallocArray_guarded {s : State} {size count sys junk} (h0 : size ≠ 0)
    (hc : ¬ count ≥ UINT_MAX / size) :
    mallocArray s size count sys junk = malloc s (size * count) sys junk := by
  have hp := array_product h0 hc
  simp [mallocArray, h0, hc, u32, Nat.mod_eq_of_lt hp]

theorem reallocArray_guarded {s : State} {p size count sys junk} (h0 : size ≠ 0)
    (hc : ¬ count ≥ UINT_MAX / size) :
    reallocArray s p size count sys junk = realloc s p (size * count) sys junk := by
  have hp := array_product h0 hc
  simp [reallocArray, h0, hc, u32, Nat.mod_eq_of_lt hp]

theorem step_ok {s : State} {op : Op} (hi : Inv s) (hl : legal s.trace op) :
    ∃ r s', step s op = .ok (r, s') ∧ StepOk s r s' := by
  cases op with
  | malloc size sys junk => exact wrapped_malloc hi hl.1 hl.2.1 hl.2.2
  | mallocArray size count sys junk =>
    obtain ⟨h1, h2, h0, h3, h4⟩ := hl
    by_cases hc : count ≥ UINT_MAX / size
    · simp only [step]
      refine wrapped_cat hi ?_
      show mallocArray s size count sys junk = _
      simp [mallocArray, h0, hc]
    · simp only [step, mallocArray_guarded h0 hc]
      exact wrapped_malloc hi (array_product h0 hc) h3 (h4 (array_product h0 hc))
  | realloc p size sys junk => exact wrapped_realloc hi hl.1 hl.2.1 hl.2.2.1 hl.2.2.2
  | reallocArray p size count sys junk =>
    obtain ⟨h1, h2, h0, h3, h4, h5⟩ := hl
    by_cases hc : count ≥ UINT_MAX / size
    · simp only [step]
      refine wrapped_cat hi ?_
      show reallocArray s p size count sys junk = _
      simp [reallocArray, h0, hc]
    · simp only [step, reallocArray_guarded h0 hc]
      exact wrapped_realloc hi (array_product h0 hc) h3 (h4 (array_product h0 hc)) h5
  | free p =>
    by_cases hfail : s.failed = true
    · exact ⟨none, s, by simp [step, wrapped, hfail], hi, rfl, rfl, by simp,
        fun _ => ⟨hfail, rfl, rfl, rfl⟩⟩
    cases p with
    | none => exact ⟨none, s, by simp [step, wrapped, hfail, Mem.free], hi, rfl, rfl, by simp, by simp [hfail]⟩
    | some a =>
      obtain ⟨b, hb⟩ := hl
      obtain ⟨s', hu, hi', hfr, _⟩ := unlink_ok hi hb
      exact ⟨none, s', by simp [step, wrapped, hfail, Mem.free, hu], hi', hfr.2, hfr.3, by simp, by simp [hfail]⟩
  | setLimit n => exact ⟨none, _, rfl, inv_limit hi hl, rfl, rfl, by simp, by simp⟩
  | forceFailure => exact wrapped_cat hi rfl


/-- The cleanup loop visits the allocation list. -/
theorem destroyLoop_chain (l : List Nat) : ∀ (s : State) (p : Loc), Chain s.heap p s.head l →
    l.Nodup → destroyLoop l.length s = some (.ok { s with
      heap := fun b => if b ∈ l then none else s.heap b
      head := none
      trace := s.trace ++ l.map .libcFree }) := by
  induction l with
  | nil =>
    intro s p hc _
    have hh : s.head = none := hc
    cases s; simp only at hh; subst hh
    simp [destroyLoop]
  | cons a l ih =>
    intro s p hc hn
    obtain ⟨ho, h, hh, _, hc⟩ := hc
    have hn' := List.nodup_cons.1 hn
    have := ih { setHeap s a none with head := h.next, trace := s.trace ++ [.libcFree a] } (.next a)
      (by
        refine hc.congr ?_
        intro c hcm x hx
        have : c ≠ a := fun e => hn'.1 (e ▸ hcm)
        exact ⟨x, by simp [setHeap, this, hx], rfl, rfl⟩) hn'.2
    simp only [List.length_cons, destroyLoop, ho, hh]
    rw [this]
    simp only [setHeap, List.map_cons, List.append_assoc, List.singleton_append]
    congr 3
    funext b
    by_cases hb : b = a
    · simp [hb]
    · simp [hb]

theorem freeAll_ok (subs : List Nat) : ∀ (s : State), Inv s → subs.Nodup →
    (∀ a ∈ subs, isLive s.trace a) →
    ∃ s', freeAll s subs = .ok s' ∧ Inv s' ∧ s'.failed = s.failed ∧
      s'.trace = s.trace ++ subs.map (fun a => .free a s.userData) := by
  induction subs with
  | nil => intro s hi _ _; exact ⟨s, rfl, hi, rfl, by simp⟩
  | cons a subs ih =>
    intro s hi hn hl
    obtain ⟨b, hb⟩ := hl a (by simp)
    obtain ⟨s1, hu, hi1, hfr, hfa, _, _, htr, _⟩ := unlink_ok hi hb
    have hn' := List.nodup_cons.1 hn
    obtain ⟨s2, h2, hi2, hf2, htr2⟩ := ih s1 hi1 hn'.2 (by
      intro c hc
      obtain ⟨d, hd⟩ := hl c (by simp [hc])
      refine ⟨d, ?_⟩
      rw [htr, outstanding_append]
      have : c ≠ a := fun e => hn'.1 (e ▸ hc)
      simp [outStep, hd, this])
    exact ⟨s2, by simp [freeAll, hu, h2], hi2, by rw [hf2, hfa], by rw [htr2, htr, hfr.3]; simp⟩

theorem outstanding_append_frees (tr : List Ev) (l : List Nat) (mk : Nat → Ev)
    (hmk : ∀ a acc, outStep acc (mk a) = acc.filter (fun p => p.1 ≠ a)) :
    outstanding (tr ++ l.map mk) = (outstanding tr).filter (fun p => p.1 ∉ l) := by
  induction l generalizing tr with
  | nil => simp [List.filter_eq_self.2]
  | cons a l ih =>
    rw [List.map_cons, show tr ++ mk a :: l.map mk = (tr ++ [mk a]) ++ l.map mk by simp, ih,
      outstanding_append, hmk, List.filter_filter]
    congr 1
    funext p
    by_cases h1 : p.1 = a <;> by_cases h2 : p.1 ∈ l <;> simp [h1, h2]

theorem frees_map (l : List Nat) (mk : Nat → Ev) (hmk : ∀ a b, frees a [mk b] = if b = a then 1 else 0)
    (a : Nat) : frees a (l.map mk) = l.count a := by
  induction l with
  | nil => rfl
  | cons x l ih =>
    have h1 : frees a (mk x :: l.map mk) = frees a [mk x] + frees a (l.map mk) := by
      simp only [frees]
      rw [← List.length_append, ← List.filter_append]; rfl
    rw [List.map_cons, h1, ih, hmk, List.count_cons]
    by_cases hx : x = a <;> simp [hx]; omega

theorem frees_append (a : Nat) (t1 t2 : List Ev) : frees a (t1 ++ t2) = frees a t1 + frees a t2 := by
  simp [frees]

end Nk.Mem
