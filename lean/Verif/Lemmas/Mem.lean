import Verif.Spec.Mem
/-! # Invariant of the allocator -/
set_option linter.unusedSimpArgs false
namespace Nk.Mem
open Nk.MemSpec

/-- The allocation list starting at pointer `o`, stored at `p`, visits exactly `l`. -/
def Chain (heap : Nat → Option Header) : Loc → Option Nat → List Nat → Prop
  | _, o, [] => o = none
  | p, o, a :: l => o = some a ∧ ∃ h, heap a = some h ∧ h.prev = p ∧ Chain heap (.next a) h.next l

theorem Chain.mem {heap : Nat → Option Header} {p o l} (h : Chain heap p o l) :
    ∀ a ∈ l, heap a ≠ none := by
  induction l generalizing p o with
  | nil => simp
  | cons x l ih =>
    obtain ⟨_, hd, hx, _, hc⟩ := h
    intro a ha
    rcases List.mem_cons.1 ha with rfl | ha
    · simp [hx]
    · exact ih hc a ha

/-- Only `next` and `prev` of the nodes on the list matter. -/
theorem Chain.congr {heap heap' : Nat → Option Header} {p o l} (h : Chain heap p o l)
    (hh : ∀ a ∈ l, ∀ x, heap a = some x → ∃ y, heap' a = some y ∧ y.next = x.next ∧ y.prev = x.prev) :
    Chain heap' p o l := by
  induction l generalizing p o with
  | nil => exact h
  | cons a l ih =>
    obtain ⟨ho, x, hx, hp, hc⟩ := h
    obtain ⟨y, hy, hn, hpv⟩ := hh a (by simp) x hx
    refine ⟨ho, y, hy, by rw [hpv, hp], ?_⟩
    rw [hn]
    exact ih hc (fun b hb => hh b (by simp [hb]))

/-- The heap after a block has been cut out of the list. -/
def cut (heap : Nat → Option Header) (a : Nat) (h : Header) : Nat → Option Header := fun b =>
  if b = a then none
  else (heap b).map fun hb =>
    { hb with
      prev := if h.next = some b then h.prev else hb.prev
      next := if h.prev = .next b then h.next else hb.next }

theorem chain_cut {heap : Nat → Option Header} {p : Loc} {o : Option Nat} {xs ys : List Nat}
    {a : Nat} {h : Header} (ha : heap a = some h)
    (hc : Chain heap p o (xs ++ a :: ys)) (hn : (xs ++ a :: ys).Nodup)
    (hp : ∀ b ∈ xs ++ a :: ys, p ≠ .next b) :
    Chain (cut heap a h) p (if xs = [] then h.next else o) (xs ++ ys) := by
  induction xs generalizing p o with
  | nil =>
    simp only [List.nil_append, ↓reduceIte] at *
    obtain ⟨ho, h', ha', hpv, hc⟩ := hc
    rw [ha] at ha'; cases ha'
    -- remaining list ys, starting at h.next with prev := p
    cases ys with
    | nil => exact hc
    | cons b ys =>
      obtain ⟨hb, hb', hbb, hbp, hc⟩ := hc
      have hnd : a ∉ b :: ys ∧ (b :: ys).Nodup := by
        have := List.nodup_cons.1 hn; exact this
      have hba : b ≠ a := fun e => hnd.1 (by simp [e])
      refine ⟨hb, _, by simp [cut, hba, hbb]; rfl, ?_, ?_⟩
      · simp [hb, hpv]
      · have hpb : p ≠ .next b := hp b (by simp)
        have : h.prev ≠ .next b := by rw [hpv]; exact hpb
        simp only [this, if_false]
        apply hc.congr
        intro c hcm x hx
        have hca : c ≠ a := fun e => hnd.1 (by simp [← e, hcm])
        have hcb : b ≠ c := fun e => (List.nodup_cons.1 hnd.2).1 (e ▸ hcm)
        refine ⟨_, by simp [cut, hca, hx]; rfl, ?_, ?_⟩
        · have : h.prev ≠ .next c := by rw [hpv]; exact hp c (by simp [hcm])
          simp [this]
        · have : h.next ≠ some c := by rw [hb]; simpa using hcb
          simp [this]
  | cons x xs ih =>
    obtain ⟨ho, hx, hxx, hpv, hc⟩ := hc
    have hnd : x ∉ xs ++ a :: ys ∧ (xs ++ a :: ys).Nodup := by
      have := List.nodup_cons.1 hn; exact this
    have hxa : x ≠ a := fun e => hnd.1 (by simp [e])
    have ih' := ih hc hnd.2 (by
      intro b hb e; injection e with e; subst e; exact hnd.1 hb)
    have hnext : h.next ≠ some x := by
      -- h.next is in ys
      have : ∀ (q : Loc) (o : Option Nat) (zs : List Nat), Chain heap q o (zs ++ a :: ys) →
          h.next ≠ none → ∃ c ∈ ys, h.next = some c := by
        intro q o zs
        induction zs generalizing q o with
        | nil =>
          rintro ⟨_, h', ha', _, hc⟩ hne
          rw [ha] at ha'; cases ha'
          cases ys with
          | nil => exact absurd hc hne
          | cons c ys => exact ⟨c, by simp, hc.1⟩
        | cons z zs ihz =>
          rintro ⟨_, h', _, _, hc⟩ hne
          exact ihz _ _ hc hne
      intro e
      obtain ⟨c, hcm, hce⟩ := this _ _ xs hc (by simp [e])
      rw [e] at hce; cases hce
      exact hnd.1 (by simp [hcm])
    refine ⟨by simp [ho], _, by simp [cut, hxa, hxx]; rfl, ?_, ?_⟩
    · simp [hnext, hpv]
    · by_cases hxs : xs = []
      · subst hxs
        simp only [List.nil_append, ↓reduceIte] at *
        obtain ⟨ho', h', ha', hpa, _⟩ := hc
        rw [ha] at ha'; cases ha'
        simp [hpa]; exact ih'
      · simp only [hxs, if_false] at ih'
        have : h.prev ≠ .next x := by
          -- prev of a is the last of xs, or rather: not x
          have key : ∀ (q : Loc) (o : Option Nat) (zs : List Nat), zs ≠ [] →
              Chain heap q o (zs ++ a :: ys) → ∃ c ∈ zs, h.prev = .next c := by
            intro q o zs
            induction zs generalizing q o with
            | nil => intro h; exact absurd rfl h
            | cons z zs ihz =>
              rintro _ ⟨_, h', _, _, hc⟩
              by_cases hz : zs = []
              · subst hz
                obtain ⟨_, h'', ha'', hp'', _⟩ := hc
                rw [ha] at ha''; cases ha''
                exact ⟨z, by simp, hp''⟩
              · obtain ⟨c, hcm, hce⟩ := ihz _ _ hz hc
                exact ⟨c, by simp [hcm], hce⟩
          intro e
          obtain ⟨c, hcm, hce⟩ := key _ _ xs hxs hc
          rw [e] at hce; injection hce with hce; subst hce
          exact hnd.1 (by simp [hcm])
        simp only [this, if_false]
        exact ih'

/-- Allocator invariant, relating the VM's bookkeeping to the trace of system calls. -/
structure Inv (s : State) : Prop where
  hdr : 0 < s.hdr ∧ s.hdr < U32
  nodup : ((outstanding s.trace).map (·.1)).Nodup
  dom : ∀ a, s.heap a ≠ none ↔ a ∈ (outstanding s.trace).map (·.1)
  blk : ∀ a b, (a, b) ∈ outstanding s.trace →
    ∃ h, s.heap a = some h ∧ b = h.size + s.hdr ∧ 0 < h.size ∧ h.data.length = h.size
  chain : Chain s.heap .head s.head ((outstanding s.trace).map (·.1))
  cur : s.cur = usage s.trace
  lim : s.limit < U32
  bound : s.cur < U32
  peak : IsPeak s.trace s.peak

theorem outstanding_append (tr : List Ev) (e : Ev) :
    outstanding (tr ++ [e]) = outStep (outstanding tr) e := by
  simp [outstanding]

theorem usage_alloc (tr a b u) : usage (tr ++ [.alloc a b u]) = b + usage tr := by
  simp [usage, outstanding_append, outStep, total]

theorem filter_split {l : List (Nat × Nat)} (hn : (l.map (·.1)).Nodup) {a b : Nat}
    (h : (a, b) ∈ l) : ∃ xs ys, l = xs ++ (a, b) :: ys ∧ l.filter (fun p => p.1 ≠ a) = xs ++ ys := by
  obtain ⟨xs, ys, rfl⟩ := List.append_of_mem h
  refine ⟨xs, ys, rfl, ?_⟩
  simp only [List.map_append, List.map_cons] at hn
  have h1 : ∀ p ∈ xs, p.1 ≠ a := by
    intro p hp e
    have := (List.nodup_append.1 hn).2.2 p.1 (List.mem_map_of_mem hp) a (by simp)
    exact this e
  have h2 : ∀ p ∈ ys, p.1 ≠ a := by
    intro p hp e
    have := (List.nodup_cons.1 (List.nodup_append.1 hn).2.1).1
    exact this (e ▸ List.mem_map_of_mem hp)
  rw [List.filter_append, List.filter_cons]
  simp only [ne_eq, not_true_eq_false, decide_false, Bool.false_eq_true, if_false]
  rw [List.filter_eq_self.2 (by simpa using h1), List.filter_eq_self.2 (by simpa using h2)]

theorem isPeak_append {tr : List Ev} {p : Nat} {e : Ev} (h : IsPeak tr p) :
    IsPeak (tr ++ [e]) (max p (usage (tr ++ [e]))) := by
  constructor
  · intro n
    by_cases hn : n ≤ tr.length
    · rw [List.take_append_of_le_length hn]
      exact Nat.le_trans (h.1 n) (Nat.le_max_left _ _)
    · rw [List.take_of_length_le (by simp; omega)]
      exact Nat.le_max_right _ _
  · by_cases hm : p ≤ usage (tr ++ [e])
    · exact ⟨tr.length + 1, by rw [List.take_of_length_le (by simp)]; omega⟩
    · obtain ⟨n, hn⟩ := h.2
      refine ⟨min n tr.length, ?_⟩
      rw [List.take_append_of_le_length (by omega)]
      rw [show tr.take (min n tr.length) = tr.take n by
        by_cases h' : n ≤ tr.length
        · rw [Nat.min_eq_left h']
        · rw [Nat.min_eq_right (by omega), List.take_of_length_le (by omega),
            List.take_of_length_le (by omega)]]
      omega

/-- The heap after a new block has been put in front of the list. -/
def ins (heap : Nat → Option Header) (hd : Option Nat) (a size : Nat) (junk : Bytes) :
    Nat → Option Header := fun b =>
  if b = a then some { size, next := hd, prev := .head, data := junk }
  else (heap b).map fun hb => { hb with prev := if hd = some b then .next a else hb.prev }

theorem ins_other {heap : Nat → Option Header} {hd : Option Nat} {a size : Nat} {junk : Bytes}
    {b : Nat} {h : Header} (hba : b ≠ a) (hh : heap b = some h) :
    ins heap hd a size junk b =
      some { h with prev := if hd = some b then .next a else h.prev } := by
  simp [ins, hba, hh]

theorem linkNew_eq {s : State} {a size : Nat} {junk : Bytes} (hna : s.head ≠ some a)
    (hhd : ∀ o, s.head = some o → s.heap o ≠ none) :
    linkNew s a size junk = .ok { s with
      heap := ins s.heap s.head a size junk
      cur := u32 (s.cur + u32 (size + s.hdr))
      peak := if s.peak < u32 (s.cur + u32 (size + s.hdr)) then u32 (s.cur + u32 (size + s.hdr)) else s.peak
      head := some a } := by
  unfold linkNew
  cases hh : s.head with
  | none =>
    simp only [setHeap, hh, Res.ok_bind]
    congr 2
    funext b
    unfold ins
    by_cases hb : b = a
    · simp [hb]
    · simp only [hb, if_false]; cases s.heap b <;> simp
  | some o =>
    have hoa : o ≠ a := fun e => hna (by rw [hh, e])
    obtain ⟨ho, hho⟩ := Option.ne_none_iff_exists'.1 (hhd o hh)
    simp only [setHeap, hh, storePrev, hoa, if_false, hho, Res.ok_bind]
    congr 2
    funext b
    unfold ins
    by_cases hb : b = a
    · subst hb; simp [Ne.symm hoa]
    · by_cases hbo : b = o
      · subst hbo; simp [hho, hb]
      · have : ¬ (some o = some b) := by simpa using Ne.symm hbo
        simp only [hb, hbo, if_false, this]; cases s.heap b <;> simp

/-- Effect of a malloc that obtains a block. -/
theorem linkNew_ok {s : State} (hi : Inv s) {a size ud : Nat} {junk : Bytes}
    (hz : 0 < size) (hsz : size + s.hdr < U32) (hlim : s.cur + (size + s.hdr) ≤ s.limit)
    (hf : ∀ b, (a, b) ∉ outstanding s.trace) (hj : junk.length = size) :
    ∃ s', linkNew { s with trace := s.trace ++ [.alloc a (size + s.hdr) ud] } a size junk = .ok s' ∧
      Inv s' ∧ s'.cur ≤ s'.limit ∧ s'.limit = s.limit ∧ s'.failed = s.failed ∧ s'.hdr = s.hdr ∧
      s'.userData = s.userData ∧
      s'.trace = s.trace ++ [.alloc a (size + s.hdr) ud] ∧
      (∃ h, s'.heap a = some h ∧ h.size = size ∧ h.data = junk) ∧
      (∀ b, b ≠ a → (s'.heap b).map (fun h => (h.size, h.data)) =
        (s.heap b).map (fun h => (h.size, h.data))) := by
  have hlim' := hi.lim
  have hb := hi.bound
  have hcur : u32 (s.cur + u32 (size + s.hdr)) = s.cur + (size + s.hdr) := by
    unfold u32
    rw [Nat.mod_eq_of_lt hsz, Nat.mod_eq_of_lt (by omega)]
  have hanot : a ∉ (outstanding s.trace).map (·.1) := by
    intro h
    obtain ⟨⟨a', b⟩, hm, rfl⟩ := List.mem_map.1 h
    exact hf b hm
  have hnew : outstanding (s.trace ++ [.alloc a (size + s.hdr) ud]) =
      (a, size + s.hdr) :: outstanding s.trace := by
    rw [outstanding_append]; rfl
  have husage := usage_alloc s.trace a (size + s.hdr) ud
  have hpk : IsPeak (s.trace ++ [.alloc a (size + s.hdr) ud])
      (if s.peak < s.cur + (size + s.hdr) then s.cur + (size + s.hdr) else s.peak) := by
    have := isPeak_append (e := .alloc a (size + s.hdr) ud) hi.peak
    rw [husage, ← hi.cur] at this
    have e : (if s.peak < s.cur + (size + s.hdr) then s.cur + (size + s.hdr) else s.peak) =
        max s.peak (size + s.hdr + s.cur) := by split <;> omega
    rw [e]; exact this
  have hhead : ∀ o, s.head = some o → o ∈ (outstanding s.trace).map (·.1) := by
    intro o ho
    have := hi.chain
    cases hl : (outstanding s.trace).map (·.1) with
    | nil => rw [hl, ho] at this; simp [Chain] at this
    | cons x l => rw [hl, ho] at this; have := this.1; cases this; simp
  have hna : s.head ≠ some a := fun e => hanot (hhead a e)
  have hhd : ∀ o, s.head = some o → s.heap o ≠ none := fun o ho => (hi.dom o).2 (hhead o ho)
  refine ⟨_, linkNew_eq (s := { s with trace := s.trace ++ [.alloc a (size + s.hdr) ud] }) hna hhd,
    ⟨hi.hdr, ?_, ?_, ?_, ?_, ?_, hi.lim, ?_, ?_⟩, ?_, rfl, rfl, rfl, rfl, rfl,
    ⟨⟨size, s.head, .head, junk⟩, by simp [ins], rfl, rfl⟩, ?_⟩
  · simp only [hnew, List.map_cons, List.nodup_cons]; exact ⟨hanot, hi.nodup⟩
  · intro b
    simp only [hnew, List.map_cons, List.mem_cons]
    by_cases hba : b = a
    · simp [ins, hba]
    · have := hi.dom b
      simp only [ins, hba, if_false, false_or]
      rw [← this]; simp
  · intro b c hbc
    simp only [hnew, List.mem_cons, Prod.mk.injEq] at hbc
    rcases hbc with ⟨rfl, rfl⟩ | hbc
    · exact ⟨_, by simp [ins]; rfl, rfl, hz, hj⟩
    · obtain ⟨h, hh, h1, h2, h3⟩ := hi.blk b c hbc
      have hba : b ≠ a := fun e => hf c (e ▸ hbc)
      exact ⟨_, ins_other hba hh, h1, h2, h3⟩
  · simp only [hnew, List.map_cons]
    refine ⟨rfl, _, by simp [ins]; rfl, rfl, ?_⟩
    have hch := hi.chain
    have hnd := hi.nodup
    simp only
    generalize hl : (outstanding s.trace).map (·.1) = l at *
    cases l with
    | nil => exact hch
    | cons x l =>
      obtain ⟨hx, h, hxx, hp, hc⟩ := hch
      have hxa : x ≠ a := fun e => hanot (by simp [e])
      refine ⟨hx, _, by simp [ins, hxa, hxx]; rfl, by simp [hx], ?_⟩
      simp only
      apply hc.congr
      intro c hcm y hy
      have hca : c ≠ a := fun e => hanot (by simp [← e, hcm])
      have hxc : x ≠ c := fun e => (List.nodup_cons.1 hnd).1 (e ▸ hcm)
      exact ⟨_, ins_other hca hy, rfl, by simp [hx, hxc]⟩
  · simp only [hcur, husage]; rw [hi.cur]; omega
  · simp only [hcur]; omega
  · simp only [hcur]; exact hpk
  · simp only [hcur]; exact hlim
  · intro b hba
    simp only [ins, hba, if_false]
    cases s.heap b <;> simp

theorem chain_next {heap : Nat → Option Header} {q : Loc} {o : Option Nat} {zs ys : List Nat}
    {a : Nat} {h : Header} (ha : heap a = some h) (hc : Chain heap q o (zs ++ a :: ys))
    (hne : h.next ≠ none) : ∃ c ∈ ys, h.next = some c := by
  induction zs generalizing q o with
  | nil =>
    obtain ⟨_, h', ha', _, hc⟩ := hc
    rw [ha] at ha'; cases ha'
    cases ys with
    | nil => exact absurd hc hne
    | cons c ys => exact ⟨c, by simp, hc.1⟩
  | cons z zs ihz =>
    obtain ⟨_, h', _, _, hc⟩ := hc
    exact ihz hc

theorem chain_prev {heap : Nat → Option Header} {q : Loc} {o : Option Nat} {zs ys : List Nat}
    {a : Nat} {h : Header} (ha : heap a = some h) (hne : zs ≠ [])
    (hc : Chain heap q o (zs ++ a :: ys)) : ∃ c ∈ zs, h.prev = .next c := by
  induction zs generalizing q o with
  | nil => exact absurd rfl hne
  | cons z zs ihz =>
    obtain ⟨_, h', _, _, hc⟩ := hc
    by_cases hz : zs = []
    · subst hz
      obtain ⟨_, h'', ha'', hp'', _⟩ := hc
      rw [ha] at ha''; cases ha''
      exact ⟨z, by simp, hp''⟩
    · obtain ⟨c, hcm, hce⟩ := ihz hz hc
      exact ⟨c, by simp [hcm], hce⟩

/-- `unlink` in closed form. -/
theorem unlink_eq {s : State} (hi : Inv s) {a b : Nat} (hab : (a, b) ∈ outstanding s.trace) :
    ∃ h, s.heap a = some h ∧ b = h.size + s.hdr ∧ h.data.length = h.size ∧
      unlink s a = .ok { s with
        heap := cut s.heap a h
        head := if h.prev = .head then h.next else s.head
        cur := s.cur - b
        trace := s.trace ++ [.free a s.userData] } := by
  obtain ⟨h, hh, hb, hpos, hlen⟩ := hi.blk a b hab
  refine ⟨h, hh, hb, hlen, ?_⟩
  obtain ⟨xs, ys, hsplit, hfil⟩ := filter_split hi.nodup hab
  have hch := hi.chain
  have hnd := hi.nodup
  rw [hsplit, List.map_append, List.map_cons] at hch hnd
  have hbU : b ≤ s.cur := by
    rw [hi.cur, usage, hsplit]; simp [total]; omega
  have hcurlt := hi.bound
  have hbs : u32 (s.cur + U32 - u32 (h.size + s.hdr)) = s.cur - b := by
    unfold u32
    rw [Nat.mod_eq_of_lt (a := h.size + s.hdr) (by omega)]
    rw [show s.cur + U32 - (h.size + s.hdr) = (s.cur - b) + U32 by omega, Nat.add_mod_right,
      Nat.mod_eq_of_lt (by omega)]
  have hnextlive : ∀ n, h.next = some n → n ≠ a ∧ s.heap n ≠ none := by
    intro n hn
    obtain ⟨c, hcm, hce⟩ := chain_next hh hch (by simp [hn])
    rw [hn] at hce; cases hce
    constructor
    · rintro rfl
      exact (List.nodup_cons.1 (List.nodup_append.1 hnd).2.1).1 hcm
    · exact hch.mem _ (by simp [hcm])
  have hprevlive : ∀ n, h.prev = .next n → n ≠ a ∧ s.heap n ≠ none := by
    intro n hn
    by_cases hxs : xs.map (·.1) = []
    · rw [hxs] at hch
      obtain ⟨_, h', hh', hp', _⟩ := hch
      rw [hh] at hh'; cases hh'
      rw [hn] at hp'; cases hp'
    · obtain ⟨c, hcm, hce⟩ := chain_prev hh hxs hch
      rw [hn] at hce; cases hce
      constructor
      · rintro rfl
        exact (List.nodup_append.1 hnd).2.2 _ hcm _ (by simp) rfl
      · exact hch.mem _ (by simp only [List.mem_append]; exact Or.inl hcm)
  unfold unlink
  rw [hh]
  simp only
  rw [hbs]
  cases hn : h.next with
  | none =>
    cases hp : h.prev with
    | head =>
      simp only [Res.ok_bind, storeLoc, setHeap]
      congr 2
      funext c
      unfold cut
      by_cases hca : c = a
      · simp [hca]
      · simp only [hca, if_false]; cases s.heap c <;> simp [hn, hp]
    | next q =>
      obtain ⟨hqa, hql⟩ := hprevlive q hp
      obtain ⟨hq, hhq⟩ := Option.ne_none_iff_exists'.1 hql
      simp only [Res.ok_bind, storeLoc, setHeap, hhq]
      congr 2
      funext c
      unfold cut
      by_cases hca : c = a
      · simp [hca]
      · simp only [hca, if_false]
        by_cases hcq : c = q
        · subst hcq; simp [hhq, hn, hp]
        · simp only [hcq, if_false]; cases s.heap c <;> simp [hn, hp, Ne.symm hcq]
  | some n =>
    obtain ⟨hna, hnl⟩ := hnextlive n hn
    obtain ⟨hnn, hhn⟩ := Option.ne_none_iff_exists'.1 hnl
    cases hp : h.prev with
    | head =>
      simp only [Res.ok_bind, storeLoc, storePrev, setHeap, hhn]
      congr 2
      funext c
      unfold cut
      by_cases hca : c = a
      · simp [hca]
      · simp only [hca, if_false]
        by_cases hcn : c = n
        · subst hcn; simp [hhn, hn, hp]
        · simp only [hcn, if_false]; cases s.heap c <;> simp [hn, hp, Ne.symm hcn]
    | next q =>
      obtain ⟨hqa, hql⟩ := hprevlive q hp
      obtain ⟨hq, hhq⟩ := Option.ne_none_iff_exists'.1 hql
      simp only [Res.ok_bind, storeLoc, storePrev, setHeap, hhn]
      by_cases hqn : q = n
      · subst hqn
        simp only [if_true]
        simp only [Res.ok_bind]
        congr 2
        funext c
        unfold cut
        by_cases hca : c = a
        · simp [hca]
        · simp only [hca, if_false]
          by_cases hcn : c = q
          · subst hcn; simp [hhn, hn, hp]
          · simp only [hcn, if_false]; cases s.heap c <;> simp [hn, hp, Ne.symm hcn]
      · simp only [hqn, if_false, hhq]
        simp only [Res.ok_bind]
        congr 2
        funext c
        unfold cut
        by_cases hca : c = a
        · simp [hca]
        · simp only [hca, if_false]
          by_cases hcn : c = n
          · subst hcn; simp [hhn, hn, hp, hqn, Ne.symm hqn]
          · by_cases hcq : c = q
            · subst hcq; simp [hhq, hn, hp, hcn, Ne.symm hcn]
            · simp only [hcn, hcq, if_false]
              cases s.heap c <;> simp [hn, hp, Ne.symm hcn, Ne.symm hcq]

/-- Fields no allocator function touches except where stated. -/
structure Frame (s s' : State) : Prop where
  limit : s'.limit = s.limit
  hdr : s'.hdr = s.hdr
  userData : s'.userData = s.userData

theorem Frame.refl (s : State) : Frame s s := ⟨rfl, rfl, rfl⟩
theorem Frame.trans {a b c : State} (h1 : Frame a b) (h2 : Frame b c) : Frame a c :=
  ⟨h2.1.trans h1.1, h2.2.trans h1.2, h2.3.trans h1.3⟩

theorem unlink_ok {s : State} (hi : Inv s) {a b : Nat} (hab : (a, b) ∈ outstanding s.trace) :
    ∃ s', unlink s a = .ok s' ∧ Inv s' ∧ Frame s s' ∧ s'.failed = s.failed ∧ s'.peak = s.peak ∧
      s'.cur = s.cur - b ∧
      s'.trace = s.trace ++ [.free a s.userData] ∧ contents s' a = none ∧
      ∀ c, c ≠ a → contents s' c = contents s c := by
  obtain ⟨h, hh, hb, hlen, heq⟩ := unlink_eq hi hab
  obtain ⟨xs, ys, hsplit, hfil⟩ := filter_split hi.nodup hab
  have hout : outstanding (s.trace ++ [.free a s.userData]) = xs ++ ys := by
    rw [outstanding_append]; exact hfil
  have hch := hi.chain
  have hnd := hi.nodup
  rw [hsplit, List.map_append, List.map_cons] at hch hnd
  have hnd' : ((xs ++ ys).map (·.1)).Nodup := by
    rw [List.map_append]
    refine List.nodup_append.2 ⟨(List.nodup_append.1 hnd).1,
      (List.nodup_cons.1 (List.nodup_append.1 hnd).2.1).2, ?_⟩
    intro x hx y hy
    exact (List.nodup_append.1 hnd).2.2 x hx y (by simp only [List.mem_cons]; exact Or.inr hy)
  have hanot : a ∉ (xs ++ ys).map (·.1) := by
    rw [List.map_append, List.mem_append]
    rintro (h1 | h1)
    · exact (List.nodup_append.1 hnd).2.2 a h1 a (by simp) rfl
    · exact (List.nodup_cons.1 (List.nodup_append.1 hnd).2.1).1 h1
  have husage : usage (s.trace ++ [.free a s.userData]) + b = usage s.trace := by
    simp only [usage, hout, hsplit, total]; simp; omega
  refine ⟨_, heq, ⟨hi.hdr, ?_, ?_, ?_, ?_, ?_, hi.lim, ?_, ?_⟩, ⟨rfl, rfl, rfl⟩, rfl, rfl, rfl, rfl,
    ?_, ?_⟩
  · simp only [hout]; exact hnd'
  · intro c
    simp only [hout]
    by_cases hca : c = a
    · subst hca; simp only [cut, if_true]; exact ⟨fun h => absurd rfl h, fun h => absurd h hanot⟩
    · have := hi.dom c
      simp only [cut, hca, if_false]
      rw [hsplit] at this
      simp only [List.map_append, List.map_cons, List.mem_append, List.mem_cons, hca, false_or] at this
      simp only [List.map_append, List.mem_append]
      rw [← this]; simp
  · intro c d hcd
    simp only [hout] at hcd
    have hca : c ≠ a := fun e => hanot (e ▸ List.mem_map_of_mem (f := (·.1)) hcd)
    obtain ⟨h', hh', h1, h2, h3⟩ := hi.blk c d (by
      rw [hsplit]; simp only [List.mem_append, List.mem_cons] at hcd ⊢
      rcases hcd with h | h
      · exact Or.inl h
      · exact Or.inr (Or.inr h))
    refine ⟨{ h' with
      prev := if h.next = some c then h.prev else h'.prev
      next := if h.prev = .next c then h.next else h'.next }, by simp [cut, hca, hh'], h1, h2, h3⟩
  · simp only [hout]
    have := chain_cut hh hch hnd (by simp)
    rw [List.map_append]
    have e : (if h.prev = Loc.head then h.next else s.head) =
        if xs.map (·.1) = [] then h.next else s.head := by
      by_cases hxs : xs.map (·.1) = []
      · rw [hxs] at hch
        obtain ⟨_, h', hh', hp', _⟩ := hch
        rw [hh] at hh'; cases hh'
        simp [hp', hxs]
      · obtain ⟨c, hcm, hce⟩ := chain_prev hh hxs hch
        simp only [hce, hxs, if_false]; simp
    simp only [e]
    exact this
  · have := hi.cur; simp only; omega
  · have := hi.bound; simp only; omega
  · have := isPeak_append (e := .free a s.userData) hi.peak
    have hle : usage s.trace ≤ s.peak := by
      have := hi.peak.1 s.trace.length
      rwa [List.take_length] at this
    rwa [Nat.max_eq_left (by omega)] at this
  · simp [contents, cut]
  · intro c hca
    simp only [contents, cut, hca, if_false]
    cases s.heap c <;> simp

theorem malloc_spec {s : State} (hi : Inv s) {size : Nat} {sys : Option Nat} {junk : Bytes}
    (hs : size < U32) (hf : legal.fresh s.trace sys) (hj : junk.length = size) :
    malloc s size sys junk = .catastrophe { s with failed := true } ∨
    (size = 0 ∧ malloc s size sys junk = .ret none s) ∨
    (0 < size ∧ ∃ a s', sys = some a ∧ malloc s size sys junk = .ret (some a) s' ∧ Inv s' ∧
      Frame s s' ∧ s'.failed = s.failed ∧ s'.cur ≤ s'.limit ∧ s'.cur = s.cur + (size + s.hdr) ∧
      s'.trace = s.trace ++ [.alloc a (size + s.hdr) s.userData] ∧
      contents s' a = some junk ∧ ∀ c, c ≠ a → contents s' c = contents s c) := by
  have hU : UINT_MAX + 1 = U32 := rfl
  have hh := hi.hdr
  unfold malloc
  by_cases h1 : size > UINT_MAX - s.hdr
  · left; simp [h1, catastrophe]
  simp only [h1, if_false]
  by_cases h2 : size = 0
  · right; left; simp [h2]
  simp only [h2, ne_eq, not_false_eq_true, if_true]
  have hsum : size + s.hdr < U32 := by omega
  have hu : u32 (size + s.hdr) = size + s.hdr := Nat.mod_eq_of_lt hsum
  simp only [hu]
  by_cases h3 : size + s.hdr < size ∨ s.cur > s.limit ∨ size + s.hdr > s.limit - s.cur
  · left; simp [h3, catastrophe]
  simp only [h3, if_false]
  cases sys with
  | none => left; rfl
  | some a =>
    right; right
    obtain ⟨s', hs', hi', hle, hl, hfa, hhd, hud, htr, ⟨h, hha, hhs, hhj⟩, hoth⟩ :=
      linkNew_ok hi (a := a) (size := size) (ud := s.userData) (junk := junk) (by omega) hsum
        (by omega) hf hj
    have hc' : s'.cur = s.cur + (size + s.hdr) := by
      rw [hi'.cur, htr, usage_alloc, ← hi.cur]; omega
    refine ⟨by omega, a, s', rfl, ?_, hi', ⟨hl, hhd, hud⟩, hfa, hle, hc', htr, ?_, ?_⟩
    · simp only [hs']
    · simp [contents, hha, hhj]
    · intro c hc
      have := hoth c hc
      simp only [contents]
      cases h1 : s'.heap c <;> cases h2 : s.heap c <;> simp_all

theorem inv_failed {s : State} (hi : Inv s) (b : Bool) : Inv { s with failed := b } := by
  cases hi; constructor <;> assumption

theorem inv_limit {s : State} (hi : Inv s) {n : Nat} (h : n < U32) : Inv { s with limit := n } := by
  cases hi; constructor <;> assumption

theorem memcpyTo_ok {s : State} (hi : Inv s) {a : Nat} {src d : Bytes} {n : Nat}
    (hc : contents s a = some d) (h1 : n ≤ src.length) (h2 : n ≤ d.length) :
    ∃ s', memcpyTo s a src n = .ok s' ∧ Inv s' ∧ Frame s s' ∧ s'.failed = s.failed ∧
      s'.cur = s.cur ∧ s'.trace = s.trace ∧ contents s' a = some (src.take n ++ d.drop n) ∧
      ∀ c, c ≠ a → contents s' c = contents s c := by
  unfold contents at hc
  cases hh : s.heap a with
  | none => simp [hh] at hc
  | some h =>
    simp [hh] at hc
    subst hc
    unfold memcpyTo
    simp only [hh, h1, h2, and_self, if_true]
    refine ⟨_, rfl, ⟨hi.hdr, hi.nodup, ?_, ?_, ?_, hi.cur, hi.lim, hi.bound, hi.peak⟩,
      ⟨rfl, rfl, rfl⟩, rfl, rfl, rfl, ?_, ?_⟩
    · intro c
      rw [show (setHeap s a _).trace = s.trace from rfl, ← hi.dom c]
      simp only [setHeap]
      by_cases hca : c = a
      · simp [hca, hh]
      · simp [hca]
    · intro c b hcb
      obtain ⟨h', hh', e1, e2, e3⟩ := hi.blk c b hcb
      simp only [setHeap]
      by_cases hca : c = a
      · subst hca
        rw [hh] at hh'; cases hh'
        refine ⟨{ h with data := src.take n ++ h.data.drop n }, by simp, e1, e2, ?_⟩
        simp; omega
      · exact ⟨h', by simp [hca, hh'], e1, e2, e3⟩
    · apply hi.chain.congr
      intro c hcm x hx
      simp only [setHeap]
      by_cases hca : c = a
      · subst hca
        rw [hh] at hx; cases hx
        exact ⟨{ h with data := src.take n ++ h.data.drop n }, by simp, rfl, rfl⟩
      · exact ⟨x, by simp [hca, hx], rfl, rfl⟩
    · simp [contents, setHeap]
    · intro c hca
      simp [contents, setHeap, hca]

theorem live_contents {s : State} (hi : Inv s) {a b : Nat} (h : (a, b) ∈ outstanding s.trace) :
    ∃ d, contents s a = some d ∧ b = d.length + s.hdr ∧ 0 < d.length := by
  obtain ⟨h', hh', e1, e2, e3⟩ := hi.blk a b h
  exact ⟨h'.data, by simp [contents, hh'], by omega, by omega⟩

theorem realloc_spec {s : State} (hi : Inv s) {a b size : Nat} {sys : Option Nat} {junk d : Bytes}
    (hs : size < U32) (hf : legal.fresh s.trace sys) (hj : junk.length = size)
    (hab : (a, b) ∈ outstanding s.trace) (hd : contents s a = some d) :
    realloc s (some a) size sys junk = .catastrophe { s with failed := true } ∨
    (size = 0 ∧ ∃ s', realloc s (some a) size sys junk = .ret none s' ∧ Inv s' ∧ Frame s s' ∧
      s'.failed = s.failed ∧ s'.cur ≤ s.cur ∧ s'.trace = s.trace ++ [.free a s.userData] ∧
      contents s' a = none ∧ ∀ c, c ≠ a → contents s' c = contents s c) ∨
    (0 < size ∧ ∃ n s', sys = some n ∧ n ≠ a ∧ realloc s (some a) size sys junk = .ret (some n) s' ∧
      Inv s' ∧ Frame s s' ∧ s'.failed = s.failed ∧ s'.cur ≤ s'.limit ∧
      s'.trace = s.trace ++ [.alloc n (size + s.hdr) s.userData, .free a s.userData] ∧
      contents s' n = some (d.take size ++ junk.drop d.length) ∧ contents s' a = none ∧
      ∀ c, c ≠ a → c ≠ n → contents s' c = contents s c) := by
  obtain ⟨h, hh, e1, e2, e3⟩ := hi.blk a b hab
  have hdd : h.data = d := by simpa [contents, hh] using hd
  subst hdd
  unfold realloc
  simp only [hh]
  rcases malloc_spec hi hs hf hj with hc | ⟨h0, hr⟩ | ⟨hp, n, s1, hsys, hr, hi1, hfr, hfa, hle, hcur, htr, hcn, hoth⟩
  · left; rw [hc]
  · right; left
    rw [hr]
    obtain ⟨s', hu, hi', hfr, hfa, _, hcur, htr, hca, hoth⟩ := unlink_ok hi hab
    refine ⟨h0, s', by simp [free, hu], hi', hfr, hfa, by omega, htr, hca, hoth⟩
  · right; right
    have hna : n ≠ a := by
      rintro rfl; rw [hsys] at hf; exact hf b hab
    rw [hr]
    simp only
    obtain ⟨s2, hm, hi2, hfr2, hfa2, hcur2, htr2, hcn2, hoth2⟩ :=
      memcpyTo_ok hi1 (a := n) (src := h.data) (n := if size < h.size then size else h.size) hcn
        (by split <;> omega) (by split <;> omega)
    rw [hm]
    simp only
    have hab2 : (a, b) ∈ outstanding s2.trace := by
      rw [htr2, htr, outstanding_append]; simp [outStep, hab]
    obtain ⟨s3, hu, hi3, hfr3, hfa3, _, hcur3, htr3, hca3, hoth3⟩ := unlink_ok hi2 hab2
    have fr : Frame s s3 := hfr.trans (hfr2.trans hfr3)
    refine ⟨hp, n, s3, hsys, hna, by simp [free, hu], hi3, fr, by rw [hfa3, hfa2, hfa], ?_, ?_, ?_, hca3, ?_⟩
    · have := hfr3.1; have := hfr2.1; omega
    · rw [htr3, htr2, htr, hfr2.3, hfr.3]; simp
    · rw [hoth3 n hna, hcn2]
      congr 1
      by_cases hlt : size < h.size
      · simp only [hlt, if_true]
        rw [List.drop_of_length_le (by omega), List.drop_of_length_le (by omega)]
      · simp only [hlt, if_false]
        rw [← e3, List.take_length, List.take_of_length_le (by omega)]
    · intro c hca hcn'
      rw [hoth3 c hca, hoth2 c hcn', hoth c hcn']

end Nk.Mem
