import Verif.Lemmas.MemStep
import Mathlib.Data.List.Nodup
/-!
# C01, C02, C03, C05, C06: memory limit, accounting, array sizes, release on deletion, realloc

`Reach hdr ud s`: `s` is a state some sequence of legal public memory calls leads to, from a fresh
VM, with any header size and any answers of the system allocator.
-/
namespace Nk.Props
open Nk.Mem Nk.MemSpec

/-- States reachable from creation by legal public calls. -/
inductive Reach (hdr ud : Nat) : State → Prop
  | create : Reach hdr ud (create hdr ud)
  | step {s s' : State} {op : Op} {r : Option Nat} :
      Reach hdr ud s → legal s.trace op → step s op = .ok (r, s') → Reach hdr ud s'

theorem reach_inv {hdr ud : Nat} (h : 0 < hdr ∧ hdr < U32) {s : State} (hr : Reach hdr ud s) :
    Inv s ∧ s.hdr = hdr ∧ s.userData = 0 := by
  induction hr with
  | create => exact ⟨create_inv h, rfl, rfl⟩
  | step _ hl hs ih =>
    obtain ⟨r, s', he, hok⟩ := step_ok ih.1 hl
    rw [hs] at he; cases he
    exact ⟨hok.inv, hok.hdr.trans ih.2.1, hok.userData.trans ih.2.2⟩

/-! ## The properties -/

/-- **C01.** After any history, a call that returns a block leaves total outstanding bytes
within the limit in force. -/
theorem C01_limit {hdr ud : Nat} (h : 0 < hdr ∧ hdr < U32) {s s' : State} (hr : Reach hdr ud s)
    {op : Op} (hl : legal s.trace op) {a : Nat} (hs : step s op = .ok (some a, s')) :
    usage s'.trace ≤ s'.limit ∧ s'.limit = s.limit := by
  obtain ⟨r, s'', he, hok⟩ := step_ok (reach_inv h hr).1 hl
  rw [hs] at he; cases he
  rw [← hok.inv.cur]
  exact hok.lim a rfl

/-- **C01**, the other half: a request that does not fit is refused and raises the sticky failure
state, without asking the system for memory. -/
theorem C01_over_limit_refused {hdr ud : Nat} (h : 0 < hdr ∧ hdr < U32) {s : State}
    (hr : Reach hdr ud s) {size : Nat} {sys : Option Nat} {junk : Bytes} (hz : 0 < size)
    (hsz : size < U32) (hover : s.limit < usage s.trace + size + hdr) (hf : s.failed = false) :
    ∃ s', step s (.malloc size sys junk) = .ok (none, s') ∧ s'.failed = true ∧
      s'.trace = s.trace := by
  obtain ⟨hi, hh, _⟩ := reach_inv h hr
  refine ⟨{ s with failed := true }, ?_, rfl, rfl⟩
  have hc := hi.cur
  have hU : UINT_MAX + 1 = U32 := rfl
  simp only [step, wrapped, hf, Bool.false_eq_true, if_false, malloc]
  by_cases h1 : size > UINT_MAX - s.hdr
  · simp [h1, catastrophe]
  · have h2 : size ≠ 0 := by omega
    have hu : u32 (size + s.hdr) = size + s.hdr := Nat.mod_eq_of_lt (by omega)
    have h3 : size + s.hdr < size ∨ s.cur > s.limit ∨ size + s.hdr > s.limit - s.cur := by omega
    simp only [h1, if_false, ne_eq, h2, not_false_eq_true, if_true, hu, h3, catastrophe]

/-- **C01**, and the limit is not stricter than stated: a request that fits and that the system
grants succeeds. -/
theorem C01_within_limit_granted {hdr ud : Nat} (h : 0 < hdr ∧ hdr < U32) {s : State}
    (hr : Reach hdr ud s) {size a : Nat} {junk : Bytes}
    (hl : legal s.trace (.malloc size (some a) junk)) (hz : 0 < size)
    (hfit : usage s.trace + size + hdr ≤ s.limit) (hf : s.failed = false) :
    ∃ s', step s (.malloc size (some a) junk) = .ok (some a, s') ∧
      outstanding s'.trace = (a, size + hdr) :: outstanding s.trace ∧ s'.failed = false := by
  obtain ⟨hi, hh, _⟩ := reach_inv h hr
  have hc := hi.cur
  have hlim := hi.lim
  have hU : UINT_MAX + 1 = U32 := rfl
  rcases malloc_spec hi hl.1 hl.2.1 hl.2.2 with hm | ⟨h0, _⟩ | ⟨_, a', s', ha, hm, hi', hfr, hfa, _, _, htr, _⟩
  · exfalso
    have h1 : ¬ size > UINT_MAX - s.hdr := by omega
    have h2 : size ≠ 0 := by omega
    have hu : u32 (size + s.hdr) = size + s.hdr := Nat.mod_eq_of_lt (by omega)
    have h3 : ¬ (size + s.hdr < size ∨ s.cur > s.limit ∨ size + s.hdr > s.limit - s.cur) := by omega
    simp only [malloc, h1, if_false, ne_eq, h2, not_false_eq_true, if_true, hu, h3] at hm
    split at hm <;> cases hm
  · omega
  · cases ha
    refine ⟨s', by simp [step, wrapped, hf, hm], ?_, by rw [hfa, hf]⟩
    rw [htr, outstanding_append, hh]; rfl

/-- **C02.** After any history the reported usage is exactly the number of bytes obtained from the
system and not yet given back, and the reported peak is the largest value this ever had. -/
theorem C02_accounting {hdr ud : Nat} (h : 0 < hdr ∧ hdr < U32) {s : State} (hr : Reach hdr ud s) :
    s.cur = usage s.trace ∧ IsPeak s.trace s.peak :=
  ⟨(reach_inv h hr).1.cur, (reach_inv h hr).1.peak⟩

/-- **C02**, safety: no legal history of memory calls reaches undefined behaviour. -/
theorem C02_no_undefined_behaviour {hdr ud : Nat} (h : 0 < hdr ∧ hdr < U32) {s : State}
    (hr : Reach hdr ud s) {op : Op} (hl : legal s.trace op) : ∃ r s', step s op = .ok (r, s') := by
  obtain ⟨r, s', he, _⟩ := step_ok (reach_inv h hr).1 hl
  exact ⟨r, s', he⟩

/-- **C03.** A block returned by the array functions has exactly `size * count` usable bytes
(product over the naturals, so there was no wrap-around). -/
theorem C03_array {hdr ud : Nat} (h : 0 < hdr ∧ hdr < U32) {s s' : State} (hr : Reach hdr ud s)
    {p : Option Nat} {size count a : Nat} {sys : Option Nat} {junk : Bytes}
    (hop : (legal s.trace (.mallocArray size count sys junk) ∧
        step s (.mallocArray size count sys junk) = .ok (some a, s')) ∨
      (legal s.trace (.reallocArray p size count sys junk) ∧
        step s (.reallocArray p size count sys junk) = .ok (some a, s'))) :
    ∃ d, contents s' a = some d ∧ d.length = size * count := by
  obtain ⟨hi, hh, _⟩ := reach_inv h hr
  have hfail : s.failed = false := by
    cases hf : s.failed with
    | false => rfl
    | true => rcases hop with ⟨_, hs⟩ | ⟨_, hs⟩ <;> simp [step, wrapped, hf] at hs
  have key : ∀ n, n < U32 → legal.fresh s.trace sys → junk.length = n →
      wrapped s none (fun s => malloc s n sys junk) = .ok (some a, s') →
      ∃ d, contents s' a = some d ∧ d.length = n := by
    intro n h1 h2 h3 hw
    rcases malloc_spec hi h1 h2 h3 with h | ⟨_, h⟩ | ⟨_, x, s'', _, h, _, _, _, _, _, _, hc, _⟩
    · simp [wrapped, hfail, h] at hw
    · simp [wrapped, hfail, h] at hw
    · simp [wrapped, hfail, h] at hw
      obtain ⟨rfl, rfl⟩ := hw
      exact ⟨junk, hc, h3⟩
  rcases hop with ⟨hl, hs⟩ | ⟨hl, hs⟩
  · obtain ⟨h1, h2, h0, h3, h4⟩ := hl
    by_cases hc : count ≥ UINT_MAX / size
    · simp [step, wrapped, hfail, mallocArray, h0, hc, catastrophe] at hs
    · simp only [step, mallocArray_guarded h0 hc] at hs
      exact key _ (array_product h0 hc) h3 (h4 (array_product h0 hc)) hs
  · obtain ⟨h1, h2, h0, h3, h4, h5⟩ := hl
    by_cases hc : count ≥ UINT_MAX / size
    · simp [step, wrapped, hfail, reallocArray, h0, hc, catastrophe] at hs
    · simp only [step, reallocArray_guarded h0 hc] at hs
      have hp := array_product h0 hc
      cases p with
      | none => exact key _ hp h3 (h4 hp) hs
      | some x =>
        obtain ⟨b, hb⟩ := h5
        obtain ⟨d, hd, _⟩ := live_contents hi hb
        rcases realloc_spec hi hp h3 (h4 hp) hb hd with
          h | ⟨_, s'', h, _⟩ | ⟨_, n, s'', _, _, h, _, _, _, _, _, hc', _⟩
        · simp [wrapped, hfail, h] at hs
        · simp [wrapped, hfail, h] at hs
        · simp [wrapped, hfail, h] at hs
          obtain ⟨rfl, rfl⟩ := hs
          refine ⟨_, hc', ?_⟩
          have := h4 hp
          simp; omega

/-- **C03**, refusal: a product that does not fit in 32 bits is refused with the failure state. -/
theorem C03_overflow_refused {s : State} {size count : Nat} {sys : Option Nat} {junk : Bytes}
    (h0 : size ≠ 0) (hbig : U32 ≤ size * count) (hf : s.failed = false) :
    ∃ s', step s (.mallocArray size count sys junk) = .ok (none, s') ∧ s'.failed = true ∧
      s'.trace = s.trace := by
  have hc : count ≥ UINT_MAX / size := by
    by_cases hc : count ≥ UINT_MAX / size
    · exact hc
    · have := array_product h0 hc; omega
  exact ⟨{ s with failed := true }, by simp [step, wrapped, hf, mallocArray, h0, hc, catastrophe],
    rfl, rfl⟩

/-- **C06.** A successful reallocation moves the common prefix, frees the old block and leaves all
other blocks as they were; a failing one changes no block at all. -/
theorem C06_realloc {hdr ud : Nat} (h : 0 < hdr ∧ hdr < U32) {s s' : State} (hr : Reach hdr ud s)
    {a size : Nat} {r sys : Option Nat} {junk d : Bytes}
    (hl : legal s.trace (.realloc (some a) size sys junk)) (hz : 0 < size)
    (hd : contents s a = some d) (hs : step s (.realloc (some a) size sys junk) = .ok (r, s')) :
    (∃ n d', r = some n ∧ contents s' n = some d' ∧ d'.length = size ∧
        d'.take (min size d.length) = d.take (min size d.length) ∧ contents s' a = none ∧
        (∀ c, c ≠ a → c ≠ n → contents s' c = contents s c)) ∨
    (r = none ∧ s'.failed = true ∧ ∀ c, contents s' c = contents s c) := by
  obtain ⟨hi, hh, _⟩ := reach_inv h hr
  obtain ⟨h1, h2, h3, b, hb⟩ := hl
  cases hfail : s.failed with
  | true =>
    simp [step, wrapped, hfail] at hs
    obtain ⟨rfl, rfl⟩ := hs
    exact Or.inr ⟨rfl, hfail, fun _ => rfl⟩
  | false =>
    rcases realloc_spec hi h1 h2 h3 hb hd with
      h | ⟨h0, _⟩ | ⟨_, n, s'', _, _, h, _, _, _, _, _, hc', hca, hoth⟩
    · simp [step, wrapped, hfail, h] at hs
      obtain ⟨rfl, rfl⟩ := hs
      exact Or.inr ⟨rfl, rfl, fun _ => rfl⟩
    · omega
    · simp [step, wrapped, hfail, h] at hs
      obtain ⟨rfl, rfl⟩ := hs
      refine Or.inl ⟨n, _, rfl, hc', ?_, ?_, hca, hoth⟩
      · simp; omega
      · rw [List.take_append_of_le_length (by simp), List.take_take]
        congr 1
        omega

/-- **C05.** Whatever the history, and whatever call the failure struck in: deleting the failed VM
terminates without undefined behaviour, gives every outstanding block back exactly once, gives back
nothing else, and leaves nothing outstanding.  (`subs` are the blocks of registered subsystems,
which are released first.) -/
theorem C05_delete_releases_once {hdr ud : Nat} (h : 0 < hdr ∧ hdr < U32) {s : State}
    (hr : Reach hdr ud s) {subs : List Nat} (hn : subs.Nodup)
    (hs : ∀ a ∈ subs, isLive s.trace a) :
    ∃ fuel s' rest, destroyFailed fuel s subs = some (.ok s') ∧ s'.trace = s.trace ++ rest ∧
      (∀ a, isLive s.trace a → frees a rest = 1) ∧ (∀ a, ¬ isLive s.trace a → frees a rest = 0) ∧
      outstanding s'.trace = [] := by
  obtain ⟨hi, hh, _⟩ := reach_inv h hr
  obtain ⟨s1, h1, hi1, _, htr1⟩ := freeAll_ok subs s hi hn hs
  have hd := destroyLoop_chain _ s1 .head hi1.chain hi1.nodup
  have hout1 : outstanding s1.trace = (outstanding s.trace).filter (fun p => p.1 ∉ subs) := by
    rw [htr1, outstanding_append_frees _ _ _ (by intros; rfl)]
  refine ⟨((outstanding s1.trace).map (·.1)).length, { s1 with
      heap := fun b => if b ∈ (outstanding s1.trace).map (·.1) then none else s1.heap b
      head := none
      trace := s1.trace ++ ((outstanding s1.trace).map (·.1)).map .libcFree },
    subs.map (fun a => .free a s.userData) ++
    ((outstanding s1.trace).map (·.1)).map .libcFree, ?_, ?_, ?_, ?_, ?_⟩
  · simp only [destroyFailed, h1]; exact hd
  · simp only [htr1, List.append_assoc]
  · intro a ha
    rw [frees_append, frees_map _ _ (by intro a b; by_cases e : b = a <;> simp [frees, e]),
      frees_map _ _ (by intro a b; by_cases e : b = a <;> simp [frees, e])]
    by_cases has : a ∈ subs
    · rw [List.count_eq_one_of_mem hn has]
      rw [List.count_eq_zero_of_not_mem]
      rw [hout1]
      intro hm
      obtain ⟨p, hp, rfl⟩ := List.mem_map.1 hm
      have := (List.mem_filter.1 hp).2
      simp [has] at this
    · rw [List.count_eq_zero_of_not_mem has]
      rw [List.count_eq_one_of_mem hi1.nodup]
      obtain ⟨b, hb⟩ := ha
      rw [hout1]
      exact List.mem_map.2 ⟨(a, b), List.mem_filter.2 ⟨hb, by simpa using has⟩, rfl⟩
  · intro a ha
    rw [frees_append, frees_map _ _ (by intro a b; by_cases e : b = a <;> simp [frees, e]),
      frees_map _ _ (by intro a b; by_cases e : b = a <;> simp [frees, e])]
    rw [List.count_eq_zero_of_not_mem (fun hm => ha (hs a hm)), List.count_eq_zero_of_not_mem]
    intro hm
    rw [hout1] at hm
    obtain ⟨p, hp, rfl⟩ := List.mem_map.1 hm
    exact ha ⟨p.2, (List.mem_filter.1 hp).1⟩
  · simp only
    rw [outstanding_append_frees _ _ _ (by intros; rfl)]
    rw [List.filter_eq_nil_iff]
    intro p hp
    simp only [Bool.not_eq_true, decide_eq_false_iff_not, Decidable.not_not]
    exact List.mem_map_of_mem hp

/-! ## Concrete cases -/

/-- A non-trivial history: two allocations, a reallocation that grows the first block, a free. -/
def demoOps : List Op :=
  [ .setLimit 1000, .malloc 3 (some 100) [1, 2, 3], .mallocArray 4 5 (some 200) (List.replicate 20 7),
    .realloc (some 100) 5 (some 300) [9, 9, 9, 9, 9], .free (some 200) ]

/-- The history runs, ends with one block of 5 bytes that kept its prefix, and a peak larger than
the final usage. -/
example : ∃ s, run (create 32 77) demoOps = .ok s ∧ outstanding s.trace = [(300, 37)] ∧
    s.cur = 37 ∧ s.peak = 124 ∧ contents s 300 = some [1, 2, 3, 9, 9] ∧ contents s 100 = none :=
  ⟨_, rfl, by decide, by decide, by decide, by decide, by decide⟩

/-- It is a legal history in the sense of the theorems. -/
example : ∃ s, Reach 32 77 s ∧ outstanding s.trace = [(300, 37)] := by
  refine ⟨_, .step (op := .free (some 200)) (r := none) (.step (op := .realloc (some 100) 5 (some 300) [9, 9, 9, 9, 9])
    (r := some 300) (.step (op := .mallocArray 4 5 (some 200) (List.replicate 20 7)) (r := some 200)
      (.step (op := .malloc 3 (some 100) [1, 2, 3]) (r := some 100)
        (.step (op := .setLimit 1000) (r := none) .create ?_ rfl) ?_ rfl) ?_ rfl) ?_ rfl) ?_ rfl, ?_⟩
  · simp [legal, U32]
  · simp [legal, U32, legal.fresh, create, outstanding]
  · refine ⟨by decide, by decide, by decide, ?_, by decide⟩
    show ∀ b, (200, b) ∉ [(100, 35)]
    simp
  · refine ⟨by decide, ?_, by decide, ⟨35, by decide⟩⟩
    show ∀ b, (300, b) ∉ [(200, 52), (100, 35)]
    simp
  · exact ⟨52, by decide⟩
  · decide

/-- The limit is really hit: with a limit of 100 bytes the second block is refused. -/
example : ∃ s, run (create 32 77) [.setLimit 100, .malloc 30 (some 1) (List.replicate 30 0),
    .malloc 30 (some 2) (List.replicate 30 0), .malloc 1 (some 3) [0]] = .ok s ∧ s.failed = true ∧
    outstanding s.trace = [(1, 62)] := ⟨_, rfl, by decide, by decide⟩

/-- Deleting a failed VM that holds three blocks, one of them a subsystem record. -/
example : ∃ s s', run (create 32 77) [.malloc 3 (some 1) [0, 0, 0], .malloc 4 (some 2) [0, 0, 0, 0],
    .malloc 5 (some 3) [0, 0, 0, 0, 0], .forceFailure] = .ok s ∧ s.failed = true ∧
    destroyFailed 2 s [2] = some (.ok s') ∧
    s'.trace.drop 3 = [.free 2 0, .libcFree 3, .libcFree 1] :=
  ⟨_, _, rfl, by decide, rfl, by decide⟩

end Nk.Props
