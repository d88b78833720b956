import Verif.Lemmas.CompMono
import Verif.Lemmas.CodeRun
/-!
# Emitting instructions
-/
namespace Nk.Cc

theorem CodeWF.small {s : CS} (h : CodeWF s) : s.vm.instrMask < 536870912 := by
  obtain ⟨k, a, b⟩ := h.pow
  have : 2 ^ k ≤ 2 ^ 29 := Nat.pow_le_pow_right (by decide) a
  omega

theorem Emit.errors {s s' : CS} {ws : List (BitVec 32)} (h : Emit s ws s') : s'.vm.errors = s.vm.errors := by
  rw [h.rest]

theorem Emit.refl {s : CS} (h : CodeWF s) : Emit s [] s :=
  ⟨h, rfl, fun _ _ => rfl, fun i w hw => by simp at hw, rfl, fun _ h => h⟩

theorem Emit.depth {s : CS} (h : CodeWF s) (n : Nat) : Emit s [] { s with depth := n } :=
  ⟨⟨h.pow, h.len, h.write, h.str, h.ctx⟩, rfl, fun _ _ => rfl, fun i w hw => by simp at hw, rfl, fun _ h => h⟩

theorem Emit.trans {a b c : CS} {x y : List (BitVec 32)} (h : Emit a x b) (g : Emit b y c) : Emit a (x ++ y) c := by
  refine ⟨g.wf, by rw [g.write, h.write, List.length_append, Nat.add_assoc], fun i hi => ?_, fun i w hw => ?_, ?_,
    fun W hW => h.lits W (g.lits W hW)⟩
  · rw [g.below i (by rw [h.write]; omega), h.below i hi]
  · by_cases hi : i < x.length
    · rw [List.getElem?_append_left hi] at hw
      rw [g.below _ (by rw [h.write]; omega), h.code i w hw]
    · rw [List.getElem?_append_right (by omega)] at hw
      have := g.code _ w hw
      rwa [h.write, show a.write + x.length + (i - x.length) = a.write + i by omega] at this
  · have e1 := h.rest
    have e2 := g.rest
    generalize c.vm.instrs = p1 at *
    generalize c.vm.instrMask = p2 at *
    generalize c.vm.strings = p3 at *
    generalize c.vm.sbuckets = p4 at *
    generalize c.write = p5 at *
    generalize c.ctx = p6 at *
    generalize c.depth = p7 at *
    generalize b.vm.instrs = q1 at *
    generalize b.vm.instrMask = q2 at *
    generalize b.vm.strings = q3 at *
    generalize b.vm.sbuckets = q4 at *
    generalize b.write = q5 at *
    generalize b.ctx = q6 at *
    generalize b.depth = q7 at *
    rw [e2, e1]

/-- Set the stack offset of the innermost context. -/
def setOff (n : Nat) : List CCtx → List CCtx
  | [] => []
  | c :: cs => { c with offset := n } :: cs

@[simp] theorem setOff_setOff (n m : Nat) (l : List CCtx) : setOff n (setOff m l) = setOff n l := by cases l <;> rfl
@[simp] theorem setOff_off (l : List CCtx) : setOff (offOf l) l = l := by cases l <;> rfl
theorem offOf_setOff (n : Nat) {l : List CCtx} (h : l ≠ []) : offOf (setOff n l) = n := by cases l <;> first | rfl | exact absurd rfl h
theorem setOff_ne {n : Nat} {l : List CCtx} (h : l ≠ []) : setOff n l ≠ [] := by cases l <;> simp_all [setOff]
theorem setOff_eq_nil {n : Nat} {l : List CCtx} : setOff n l = [] ↔ l = [] := by cases l <;> simp [setOff]

theorem growInstrs_run {s : CS} (h : CodeWF s) : growInstrs s = .ub .longjmp ∨
    ((∃ k, k ≤ 29 ∧ s.vm.instrMask * 2 + 1 + 1 = 2 ^ k) ∧
      growInstrs s = .ok ((), { s with vm := { s.vm with
        instrs := s.vm.instrs ++ List.replicate (s.vm.instrMask + 1) 0, instrMask := s.vm.instrMask * 2 + 1 } })) := by
  have hs := h.small
  obtain ⟨k, hk, e⟩ := h.pow
  have e1 : u32 (s.vm.instrMask + 1) = s.vm.instrMask + 1 := by unfold u32 U32; omega
  have e2 : u32 ((s.vm.instrMask + 1) * 2) = (s.vm.instrMask + 1) * 2 := by unfold u32 U32; omega
  have e3 : u32 (s.vm.instrMask * 2) ||| 1 = s.vm.instrMask * 2 + 1 := by
    rw [show u32 (s.vm.instrMask * 2) = 2 * s.vm.instrMask by unfold u32 U32; omega]
    rw [← Nat.two_pow_add_eq_or_of_lt (i := 1) (by decide)]
    omega
  unfold growInstrs
  rw [CM.cget_bind]
  simp only [e1, e2, e3]
  rw [if_neg (by unfold UINT_MAX; omega)]
  rw [CM.bind_ok (CM.pure_run _ _)]
  by_cases hb : (s.vm.instrMask + 1) * 2 ≥ UINT_MAX / 4
  · left; rw [if_pos hb]; rfl
  · right
    rw [if_neg hb, if_neg (by omega)]
    refine ⟨⟨k + 1, ?_, by rw [Nat.pow_succ]; omega⟩, ?_⟩
    · by_contra hc
      have : k = 29 := by omega
      subst this
      unfold UINT_MAX at hb
      omega
    · have : s.vm.instrs.take (s.vm.instrMask + 1) = s.vm.instrs := List.take_of_length_le (by rw [h.len])
      simp only [cmod, this]
      congr 6
      omega

theorem addInstr_eq (w : BitVec 32) (adj : Bool) (s : CS) : addInstr w adj s =
    ((if s.write ≥ s.vm.instrMask then growInstrs else pure ()) >>= fun _ => writeInstr s.write w >>= fun _ =>
      (if adj = true ∧ s.ctx ≠ [] then modCtx (fun c => { c with offset := addInt c.offset (stackOffset (w.toNat % 64)) })
        else pure ()) >>= fun _ => cmod fun s => { s with write := u32 (s.write + 1) }) s := by
  unfold addInstr
  rw [CM.cget_bind]
  rcases Classical.propComplete (s.write ≥ s.vm.instrMask) with h1 | h1 <;>
    rcases Classical.propComplete (adj = true ∧ s.ctx ≠ []) with h2 | h2
  all_goals
    simp only [h1, h2, if_true, if_false]
    try rfl

/-- What one written word changes. -/
theorem addInstr_run {s : CS} (h : CodeWF s) (w : BitVec 32) (adj : Bool) : addInstr w adj s = .ub .longjmp ∨
    ∃ s', addInstr w adj s = .ok ((), s') ∧ Emit s [w] s' ∧ s'.depth = s.depth ∧ s'.vm.strings = s.vm.strings ∧
      s'.ctx = if adj then setOff (addInt (offOf s.ctx) (stackOffset (w.toNat % 64))) s.ctx else s.ctx := by
  have hs := h.small
  have hw := h.write
  have grow : (if s.write ≥ s.vm.instrMask then growInstrs else pure ()) s = .ub .longjmp ∨
      ∃ s1, (if s.write ≥ s.vm.instrMask then growInstrs else pure ()) s = .ok ((), s1) ∧ CodeWF s1 ∧
        s.write < s1.vm.instrMask ∧ (∀ i, i < s.write → s1.vm.instrs[i]? = s.vm.instrs[i]?) ∧
        s1 = { s with vm := { s.vm with instrs := s1.vm.instrs, instrMask := s1.vm.instrMask } } := by
    by_cases hb : s.write ≥ s.vm.instrMask
    · simp only [hb, if_true]
      rcases growInstrs_run h with h1 | ⟨h1, h2⟩
      · exact .inl h1
      · refine .inr ⟨_, h2, ⟨h1, ?_, ?_, ⟨h.str.tab, h.str.blen, h.str.nodup, h.str.mem, h.str.hash, h.str.bucket, h.str.inj⟩, h.ctx⟩, ?_, ?_, rfl⟩
        · simp [h.len]; omega
        · show s.write ≤ s.vm.instrMask * 2 + 1; omega
        · show s.write < s.vm.instrMask * 2 + 1; omega
        · intro i hi
          show (s.vm.instrs ++ _)[i]? = _
          rw [List.getElem?_append_left (by rw [h.len]; omega)]
    · simp only [hb, if_false]
      exact .inr ⟨s, rfl, h, by omega, fun _ _ => rfl, rfl⟩
  rw [addInstr_eq]
  rcases grow with h1 | ⟨s1, h1, h2, h3, h4, h5⟩
  · exact .inl (CM.bind_ub h1)
  · right
    rw [CM.bind_ok h1]
    have hlen : s.write < s1.vm.instrs.length := by rw [h2.len]; omega
    have hwi : writeInstr s.write w s1 = .ok ((), { s1 with vm := { s1.vm with instrs := s1.vm.instrs.set s.write w } }) := by
      unfold writeInstr; rw [if_pos hlen]
    rw [CM.bind_ok hwi]
    have hwr : s1.write = s.write := by rw [h5]
    have hcx : s1.ctx = s.ctx := by rw [h5]
    have hstr : s1.vm.strings = s.vm.strings := by rw [h5]
    have hsm2 := h2.small
    refine ⟨{ s1 with vm := { s1.vm with instrs := s1.vm.instrs.set s.write w }, write := s.write + 1, ctx := (if adj then setOff (addInt (offOf s.ctx) (stackOffset (w.toNat % 64))) s.ctx else s.ctx) }, ?_, ?_, ?_, ?_, ?_⟩
    · have hm : (if adj = true ∧ s.ctx ≠ [] then modCtx (fun c => { c with offset := addInt c.offset (stackOffset (w.toNat % 64)) })
          else pure ()) { s1 with vm := { s1.vm with instrs := s1.vm.instrs.set s.write w } } =
          .ok ((), { s1 with vm := { s1.vm with instrs := s1.vm.instrs.set s.write w }, ctx := (if adj then setOff (addInt (offOf s.ctx) (stackOffset (w.toNat % 64))) s.ctx else s.ctx) }) := by
        cases adj with
        | false =>
          simp only [Bool.false_eq_true, false_and, if_false]
          rw [CM.pure_run, ← hcx]
        | true =>
          simp only [true_and, h.ctx, not_false_iff, ne_eq, if_true]
          unfold modCtx
          simp only [hcx]
          cases hc : s.ctx with
          | nil => exact absurd hc h.ctx
          | cons c cs => rfl
      rw [CM.bind_ok hm]
      unfold cmod
      simp only [hwr]
      have : u32 (s.write + 1) = s.write + 1 := by unfold u32 U32; omega
      rw [this]
    · refine ⟨⟨h2.pow, by simpa using h2.len, h3, ⟨h2.str.tab, h2.str.blen, h2.str.nodup, h2.str.mem, h2.str.hash, h2.str.bucket, h2.str.inj⟩, ?_⟩, rfl, ?_, ?_, ?_, ?_⟩
      · cases adj
        · exact h.ctx
        · exact setOff_ne h.ctx
      · intro i hi
        show (s1.vm.instrs.set s.write w)[i]? = _
        rw [List.getElem?_set_ne (by omega), h4 i hi]
      · intro i x hx
        match i, hx with
        | 0, hx =>
          cases hx
          show (s1.vm.instrs.set s.write w)[s.write + 0]? = _
          simp [hlen]
      · generalize s1.vm.instrs = q1 at *
        generalize s1.vm.instrMask = q2 at *
        rw [h5]
      · intro W hW id e he
        exact hW id e (by rw [← hstr] at he; exact he)
    · rw [h5]
    · exact hstr
    · rfl

theorem addInstr_inv {s s' : CS} (h : CodeWF s) {w : BitVec 32} {adj : Bool} (he : addInstr w adj s = .ok ((), s')) :
    Emit s [w] s' ∧ s'.depth = s.depth ∧ s'.vm.strings = s.vm.strings ∧
      s'.ctx = if adj then setOff (addInt (offOf s.ctx) (stackOffset (w.toNat % 64))) s.ctx else s.ctx := by
  rcases addInstr_run h w adj with h1 | ⟨s1, h1, h2⟩
  · rw [h1] at he; cases he
  · rw [h1] at he; cases he; exact h2

theorem addInt_pos {o n : Nat} (h : o + n < 4294967296) : addInt o n = o + n := by unfold addInt; omega
theorem addInt_neg {o n : Nat} (h : n ≤ o) (ho : o < 4294967296) : addInt o (-(n : Int)) = o - n := by unfold addInt; omega

/-- An instruction. -/
theorem emitOp_inv {s s' : CS} (h : CodeWF s) {op : Nat} (ho : op < 64) {adj : Bool} (he : emitOp op adj s = .ok ((), s')) :
    Emit s [BitVec.ofNat 32 op] s' ∧ s'.depth = s.depth ∧
      s'.ctx = if adj then setOff (addInt (offOf s.ctx) (stackOffset op)) s.ctx else s.ctx := by
  obtain ⟨h1, h2, _, h3⟩ := addInstr_inv h he
  rw [code64 ho] at h3
  exact ⟨h1, h2, h3⟩

/-- An instruction with an operand. -/
theorem emitLit_inv {s s' : CS} (h : CodeWF s) {op : Nat} (ho : op < 64) {adj : Bool} {v : BitVec 32}
    (he : (do emitOp op adj; addInstr v false : CM Unit) s = .ok ((), s')) :
    Emit s [BitVec.ofNat 32 op, v] s' ∧ s'.depth = s.depth ∧
      s'.ctx = if adj then setOff (addInt (offOf s.ctx) (stackOffset op)) s.ctx else s.ctx := by
  obtain ⟨_, s1, h1, h2⟩ := CM.bind_inv he
  obtain ⟨a1, a2, a3⟩ := emitOp_inv h ho h1
  obtain ⟨b1, b2, _, b3⟩ := addInstr_inv a1.wf h2
  refine ⟨a1.trans b1, b2.trans a2, ?_⟩
  rw [b3, ← a3]; rfl

theorem emitInt_inv {s s' : CS} (h : CodeWF s) {adj : Bool} {v : BitVec 32} (he : emitInt v adj s = .ok ((), s')) :
    Emit s [7, v] s' ∧ s'.depth = s.depth ∧ s'.ctx = if adj then setOff (addInt (offOf s.ctx) 1) s.ctx else s.ctx :=
  emitLit_inv h (op := 7) (by decide) he

theorem StrWF.replace {vm : VM} (h : StrWF vm) {id : Nat} {e e' : Str} (he : vm.strings.entry id = some e)
    (hs : e'.str = e.str) (hh : e'.hash = e.hash) :
    StrWF { vm with strings := { vm.strings with slots := vm.strings.slots.set id (some e') } } := by
  obtain ⟨_, w2, w3⟩ := Table.write_live h.tab he e'
  have key : ∀ j f, Table.entry { vm.strings with slots := vm.strings.slots.set id (some e') } j = some f →
      ∃ f', vm.strings.entry j = some f' ∧ f.str = f'.str ∧ f.hash = f'.hash := by
    intro j f hf
    rw [w3] at hf
    by_cases hj : j = id
    · rw [if_pos hj] at hf; cases hf; subst hj; exact ⟨e, he, hs, hh⟩
    · rw [if_neg hj] at hf; exact ⟨f, hf, rfl, rfl⟩
  refine ⟨w2, h.blen, h.nodup, ?_, ?_, ?_, ?_⟩
  · intro b ids hb j hj
    obtain ⟨f, hf, hfb⟩ := h.mem b ids hb j hj
    by_cases hji : j = id
    · subst hji
      rw [he] at hf; cases hf
      exact ⟨e', by rw [w3, if_pos rfl], by rw [hh]; exact hfb⟩
    · exact ⟨f, by rw [w3, if_neg hji]; exact hf, hfb⟩
  · intro j f hf
    obtain ⟨f', h1, h2, h3⟩ := key j f hf
    rw [h2, h3]; exact h.hash j f' h1
  · intro j f hf
    obtain ⟨f', h1, h2, h3⟩ := key j f hf
    rw [h3]; exact h.bucket j f' h1
  · intro i j f g hf hg hfg
    obtain ⟨f', h1, h2, h3⟩ := key i f hf
    obtain ⟨g', k1, k2, k3⟩ := key j g hg
    exact h.inj i j f' g' h1 k1 (by rw [← h2, ← k2, hfg])

/-- A string literal: its number stands for the text, and the text is protected. -/
theorem emitStr_literal {s s' : CS} (h : CodeWF s) {adj : Bool} {t : Bytes} (he : emitStr t adj s = .ok ((), s'))
    (hne : s'.vm.errors = s.vm.errors) :
    ∃ id, Emit s [9, BitVec.ofNat 32 id] s' ∧ s'.depth = s.depth ∧ id < 4294967296 ∧
      (∃ e, s'.vm.strings.entry id = some e ∧ e.str = t ∧ e.dontGC = true) ∧
      s'.ctx = if adj then setOff (addInt (offOf s.ctx) 1) s.ctx else s.ctx := by
  unfold emitStr at he
  obtain ⟨_, s1, h1, he⟩ := CM.bind_inv he
  obtain ⟨id, s2, h2, he⟩ := CM.bind_inv he
  obtain ⟨_, s3, h3, h4⟩ := CM.bind_inv he
  obtain ⟨a1, a2, a3⟩ := emitOp_inv h (op := 9) (by decide) h1
  -- the string
  have hS : ∃ e, s2.vm.strings.entry id = some e ∧ e.str = t ∧ Emit s1 [] s2 ∧ s2.ctx = s1.ctx ∧ s2.depth = s1.depth := by
    unfold onVM at h2
    rcases findOrAddString_spec a1.wf.str t with ⟨i, e, k1, k2, k3⟩ | ⟨i, tb, bk, k1, k2, k3, k4, k5⟩ | ⟨k1, _⟩
    · rw [k1] at h2; cases h2
      exact ⟨e, k2, k3, Emit.refl a1.wf, rfl, rfl⟩
    · rw [k1] at h2; cases h2
      refine ⟨Str.mk' t, by show tb.entry _ = _; rw [k4]; simp, rfl, ⟨⟨a1.wf.pow, a1.wf.len, a1.wf.write, k2, a1.wf.ctx⟩, rfl,
        fun _ _ => rfl, fun i w hw => by simp at hw, rfl, ?_⟩, rfl, rfl⟩
      intro W hW j e hj hd
      refine hW j e ?_ hd
      show tb.entry j = _
      rw [k4, if_neg]
      · exact hj
      · rintro rfl; rw [k3] at hj; cases hj
    · rw [k1] at h2; cases h2
      exfalso
      have m1 := addInstr_mono.run _ _ _ h3
      have m2 : s3.vm.errors <+: s'.vm.errors := by
        refine (CMono.onVM (m := keepString UINT_MAX) ?_).run _ _ _ h4
        intro vm a vm' h
        unfold keepString at h
        split at h
        · cases h
        · cases h; exact List.prefix_rfl
        · split at h <;> cases h
          exact List.prefix_rfl
      have := (m1.trans m2).length_le
      rw [hne, ← a1.errors] at this
      simp [VM.addErr] at this
  obtain ⟨e, k1, k2, k3, k4, k5⟩ := hS
  obtain ⟨b1, b2, b4, b3⟩ := addInstr_inv k3.wf h3
  have k1' : s3.vm.strings.entry id = some e := by rw [b4]; exact k1
  obtain ⟨w1, w2, w3⟩ := Table.write_live b1.wf.str.tab k1' { e with dontGC := true }
  have hlt := (Table.entry_some_lt k1')
  have hget : s3.vm.strings.get id = .ok (some e) := by
    rw [Table.get_eq b1.wf.str.tab, k1']
  have hk : keepString id s3.vm = .ok ((), { s3.vm with strings := { s3.vm.strings with slots := s3.vm.strings.slots.set id (some { e with dontGC := true }) } }) := by
    unfold keepString
    rw [hget]
    simp only [w1]
  have h4' : s' = { s3 with vm := { s3.vm with strings := { s3.vm.strings with slots := s3.vm.strings.slots.set id (some { e with dontGC := true }) } } } := by
    unfold onVM at h4
    rw [hk] at h4
    cases h4; rfl
  have hent : ∀ j, s'.vm.strings.entry j = if j = id then some { e with dontGC := true } else s3.vm.strings.entry j := by
    intro j; rw [h4']; exact w3 j
  have hkeep : Emit s3 [] s' := by
    refine ⟨⟨?_, ?_, ?_, ?_, ?_⟩, ?_, ?_, fun i w hw => by simp at hw, ?_, ?_⟩
    · rw [h4']; exact b1.wf.pow
    · rw [h4']; exact b1.wf.len
    · rw [h4']; exact b1.wf.write
    · rw [h4']
      exact StrWF.replace b1.wf.str k1' rfl rfl
    · rw [h4']; exact b1.wf.ctx
    · rw [h4']; rfl
    · rw [h4']; exact fun _ _ => rfl
    · rw [h4']
    · intro W hW j f hj hd
      by_cases hji : j = id
      · subst hji
        rw [k1'] at hj; cases hj
        exact hW j { e with dontGC := true } (by rw [hent, if_pos rfl]) rfl
      · exact hW j f (by rw [hent, if_neg hji]; exact hj) hd
  refine ⟨id, ?_, ?_, ?_, ?_, ?_⟩
  · have := ((a1.trans k3).trans b1).trans hkeep
    simpa using this
  · rw [h4']; exact b2.trans (k5.trans a2)
  · obtain ⟨k, hk, ek⟩ := b1.wf.str.tab.pow
    have : 2 ^ k ≤ 2 ^ 31 := Nat.pow_le_pow_right (by decide) hk
    have := b1.wf.str.tab.len
    omega
  · exact ⟨{ e with dontGC := true }, by rw [hent, if_pos rfl], k2, rfl⟩
  · rw [h4']
    show s3.ctx = _
    rw [b3, k4, a3]; rfl

/-- A string literal: its number stands for the text from then on. -/
theorem emitStr_inv {s s' : CS} (h : CodeWF s) {adj : Bool} {t : Bytes} (he : emitStr t adj s = .ok ((), s'))
    (hne : s'.vm.errors = s.vm.errors) :
    ∃ id, Emit s [9, BitVec.ofNat 32 id] s' ∧ s'.depth = s.depth ∧ id < 4294967296 ∧ (∀ W, Lits s'.vm W → TextIs W id t) ∧
      s'.ctx = if adj then setOff (addInt (offOf s.ctx) 1) s.ctx else s.ctx := by
  obtain ⟨id, h1, h2, h3, ⟨e, k1, k2, k3⟩, h5⟩ := emitStr_literal h he hne
  refine ⟨id, h1, h2, h3, fun W hW => ?_, h5⟩
  have := hW id e k1 k3
  rwa [k2] at this


end Nk.Cc
