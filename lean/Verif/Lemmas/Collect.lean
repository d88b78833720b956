import Verif.Lemmas.Sweep
/-!
# A whole collection
-/
namespace Nk
variable (H : Host)

theorem CoWF.parent_active {vm : VM} (h : CoWF vm) {i p : Nat} {c : Ctx} (hc : vm.ctxs[i]? = some (some c))
    (hp : c.parent = some p) : Active vm p := by
  obtain ⟨l, _, hhead, hlast, hstep, hall⟩ := h.chain
  have hi := hall i c hc (by simp [hp])
  obtain ⟨n, hn, e⟩ := List.mem_iff_getElem.mp hi
  exact .resumer (chain_active hhead hstep n i (by rw [List.getElem?_eq_getElem hn, e])) hc hp

/-- Transport of reachability to a state which keeps what is reachable. -/
theorem Reach.transport {vm vm' : VM} (hcur : vm'.cur = vm.cur) (hst : vm'.statics = vm.statics)
    (hh : vm'.handles = vm.handles) (het : vm'.extTypes = vm.extTypes) (hct : vm'.coType = vm.coType)
    (hctx : ∀ (i : Nat) (c : Ctx), Active vm i → vm.ctxs[i]? = some (some c) → vm'.ctxs[i]? = some (some c))
    (hobj : ∀ (id : Nat) (o : Obj), Reach H vm (.obj id) → vm.objects.entry id = some o →
      ∃ o', vm'.objects.entry id = some o' ∧ o'.buckets = o.buckets ∧ o'.extType = o.extType ∧
        o'.extData = o.extData)
    (hco : ∀ (id : Nat) (o : Obj) (i : Nat) (c : Ctx), Reach H vm (.obj id) → vm.objects.entry id = some o →
      o.extType = vm.coType → o.extData = some i → vm.ctxs[i]? = some (some c) → vm'.ctxs[i]? = some (some c))
    (hpar : ∀ (i p : Nat) (c pc : Ctx), vm.ctxs[i]? = some (some c) → c.parent = some p →
      vm.ctxs[p]? = some (some pc) → vm'.ctxs[p]? = some (some pc)) :
    (∀ i, Active vm i → Active vm' i) ∧ ∀ {v}, Reach H vm v → Reach H vm' v := by
  have hact : ∀ i, Active vm i → Active vm' i := by
    intro i h
    induction h with
    | cur => rw [← hcur]; exact .cur
    | resumer h1 h2 h3 ih => exact .resumer ih (hctx _ _ h1 h2) h3
  refine ⟨hact, ?_⟩
  intro v hv
  induction hv with
  | root hr =>
    cases hr with
    | stack h1 h2 h3 => exact .root (.stack (hact _ h1) (hctx _ _ h1 h2) h3)
    | coroutine h1 h2 => exact .root (.coroutine (hact _ h1) (hctx _ _ h1 h2))
    | static h1 => exact .root (.static (by rw [hst]; exact h1))
    | handle h1 => exact .root (.handle (by rw [hh]; exact h1))
  | @step id v hr hp ih =>
    refine .step ih ?_
    cases hp with
    | key h1 h2 h3 =>
      obtain ⟨o', g1, g2, _⟩ := hobj _ _ hr h1
      exact .key g1 (by rw [g2]; exact h2) h3
    | field h1 h2 h3 =>
      obtain ⟨o', g1, g2, _⟩ := hobj _ _ hr h1
      exact .field g1 (by rw [g2]; exact h2) h3
    | stack h1 h2 h3 h4 h5 =>
      obtain ⟨o', g1, g2, g3, g4⟩ := hobj _ _ hr h1
      exact .stack g1 (by rw [g3, hct]; exact h2) (by rw [g4]; exact h3) (hco _ _ _ _ hr h1 h2 h3 h4) h5
    | resumer h1 h2 h3 h4 h5 h6 =>
      obtain ⟨o', g1, g2, g3, g4⟩ := hobj _ _ hr h1
      exact .resumer g1 (by rw [g3, hct]; exact h2) (by rw [g4]; exact h3) (hco _ _ _ _ hr h1 h2 h3 h4) h5
        (hpar _ _ _ _ h4 h5 h6)
    | host h1 h2 h3 h4 h5 =>
      obtain ⟨o', g1, g2, g3, g4⟩ := hobj _ _ hr h1
      exact .host g1 (by rw [g3, hct]; exact h2) (by rw [g3, het]; exact h3) h4 (by rw [g3, g4]; exact h5)

/-- Changing only the pass counter changes nothing about reachability. -/
theorem reach_gc (vm : VM) (g : GCInfo) {v : Value} : Reach H { vm with gc := g } v ↔ Reach H vm v := by
  constructor
  · exact fun h => (Reach.transport H (vm := { vm with gc := g }) (vm' := vm) rfl rfl rfl rfl rfl
      (fun i c _ h => h) (fun id o _ h => ⟨o, h, rfl, rfl, rfl⟩) (fun id o i c _ _ _ _ h => h)
      (fun i p c pc _ _ h => h)).2 h
  · exact fun h => (Reach.transport H (vm := vm) (vm' := { vm with gc := g }) rfl rfl rfl rfl rfl
      (fun i c _ h => h) (fun id o _ h => ⟨o, h, rfl, rfl, rfl⟩) (fun id o i c _ _ _ _ h => h)
      (fun i p c pc _ _ h => h)).2 h

theorem strWF_congr {vm vm' : VM} {t : Table Str} {b : List (List Nat)} (h1 : vm'.strings = t)
    (h2 : vm'.sbuckets = b) (h : StrWF (vm.setStr t b)) : StrWF vm' := by
  subst h1
  subst h2
  exact ⟨h.tab, h.blen, h.nodup, h.mem, h.hash, h.bucket, h.inj⟩

/-- What a collection does. -/
structure Collected (vm vm' : VM) : Prop where
  frame : vm' = { vm with objects := vm'.objects, ctxs := vm'.ctxs, cleanupLog := vm'.cleanupLog,
                          strings := vm'.strings, sbuckets := vm'.sbuckets, errors := vm'.errors,
                          gc := { vm.gc with lastGCPass := vm.gc.lastGCPass + 1 } }
  str : StrWF vm'
  tab : vm'.objects.WF
  obj : ∀ id o', vm'.objects.entry id = some o' ↔ ∃ o, vm.objects.entry id = some o ∧ Reach H vm (.obj id) ∧
    o' = { o with lastGCPass := vm.gc.lastGCPass + 1 }
  sob : ∀ id e', vm'.strings.entry id = some e' ↔ ∃ e, vm.strings.entry id = some e ∧
    ((Reach H vm (.str id) ∧ e' = { e with lastGCPass := vm.gc.lastGCPass + 1 }) ∨
     (¬ Reach H vm (.str id) ∧ e.dontGC = true ∧ e' = e))
  len : vm'.ctxs.length = vm.ctxs.length
  ctx : ∀ (k : Nat) (c : Ctx), vm'.ctxs[k]? = some (some c) ↔ vm.ctxs[k]? = some (some c) ∧
    ¬ ∃ id o, vm.objects.entry id = some o ∧ ¬ Reach H vm (.obj id) ∧ o.extType = vm.coType ∧
      o.extData = some k
  log : ∃ l, vm'.cleanupLog = l ++ vm.cleanupLog ∧ (l.map Prod.fst).Nodup ∧
    ∀ x, x ∈ l ↔ ∃ id o, x = (id, o.extType, o.extData) ∧ vm.objects.entry id = some o ∧
      ¬ Reach H vm (.obj id) ∧ HasCleanup vm o
  errs : vm.errors <+: vm'.errors

theorem garbageCollect_run {vm : VM} (h : HeapWF vm) (hp : vm.gc.lastGCPass + 1 < 4294967296) :
    ∃ vm', garbageCollect H vm = .ok ((), vm') ∧ Collected H vm vm' := by
  have hu : u32 (vm.gc.lastGCPass + 1) = vm.gc.lastGCPass + 1 := Nat.mod_eq_of_lt hp
  generalize hvm0 : ({ vm with gc := { vm.gc with lastGCPass := vm.gc.lastGCPass + 1 } } : VM) = vm0
  have hob0 : vm0.objects = vm.objects := by rw [← hvm0]
  have hst0 : vm0.strings = vm.strings := by rw [← hvm0]
  have hR : ∀ v, Reach H vm0 v ↔ Reach H vm v := fun v => by rw [← hvm0]; exact reach_gc H vm _
  have h0 : HeapWF vm0 := by
    rw [← hvm0]
    refine ⟨⟨h.str.tab, h.str.blen, h.str.nodup, h.str.mem, h.str.hash, h.str.bucket, h.str.inj⟩, h.tab,
      ⟨h.co.root, h.co.stack, h.co.own, h.co.owned, h.co.chain, h.co.type⟩, h.statics, h.handles, ?_, ?_⟩
    · intro id o he; have := h.passO id o he; exact Nat.le_succ_of_le this
    · intro id o he; have := h.passS id o he; exact Nat.le_succ_of_le this
  obtain ⟨vm1, m1, m2, m3, m4⟩ := gcMark_run H (pass := vm.gc.lastGCPass + 1) h0
    (fun id o he => by rw [hob0] at he; have := h.passO id o he; omega)
    (fun id o he => by rw [hst0] at he; have := h.passS id o he; omega)
  obtain ⟨t, b, s1, s2, s3⟩ := cleanOldStrings_ok (vm.gc.lastGCPass + 1) 256 0 rfl vm1 m2.str
  have hown1 : Own (vm1.setStr t b) := by
    intro id o he hco
    have he : vm1.objects.entry id = some o := he
    obtain ⟨o0, g1, g2⟩ := m2.entry_back he
    have hco : o.extType = vm1.coType := hco
    rw [m2.coType] at hco
    obtain ⟨i, c, k1, k2, k3, k4⟩ := h0.co.own id o0 g1 (by rw [g2] at hco; exact hco)
    exact ⟨i, c, by rw [g2]; exact k1, by show vm1.ctxs[i]? = _; rw [m2.ctxs]; exact k3, k4⟩
  have hty1 : ∃ t', (vm1.setStr t b).extTypes[(vm1.setStr t b).coType]? = some t' ∧ t'.hasCleanup = true ∧
      (vm1.setStr t b).coType ≠ UINT_MAX := by
    obtain ⟨t', a1, a2, a3, a4⟩ := h0.co.type
    refine ⟨t', ?_, a3, ?_⟩
    · show vm1.extTypes[vm1.coType]? = _; rw [m2.coType, m2.extTypes]; exact a1
    · show vm1.coType ≠ _; rw [m2.coType]; exact a4
  obtain ⟨vm2, c1, c2, c3, c4⟩ := cleanOldObjects_run (vm.gc.lastGCPass + 1) vm1.objects.cap (i := 0)
    (vm := vm1.setStr t b) (by simp) m2.tab hown1 hty1
  have hmk : ∀ id o, vm1.objects.entry id = some o →
      (o.lastGCPass = vm.gc.lastGCPass + 1 ↔ Reach H vm (.obj id)) := by
    intro id o he
    rw [← hR]
    constructor
    · intro e; exact ((m3 id).mp ⟨o, he, e⟩).2
    · intro e
      obtain ⟨o', e1, e2⟩ := (m3 id).mpr ⟨(m2.olive id).mp ⟨o, he⟩, e⟩
      rw [he] at e1; cases e1; exact e2
  have hmks : ∀ id o, vm1.strings.entry id = some o →
      (o.lastGCPass = vm.gc.lastGCPass + 1 ↔ Reach H vm (.str id)) := by
    intro id o he
    rw [← hR]
    constructor
    · intro e; exact ((m4 id).mp ⟨o, he, e⟩).2
    · intro e
      obtain ⟨o', e1, e2⟩ := (m4 id).mpr ⟨(m2.slive id).mp ⟨o, he⟩, e⟩
      rw [he] at e1; cases e1; exact e2
  -- entries after marking, seen from `vm`
  have hback : ∀ id o1, vm1.objects.entry id = some o1 → ∃ o, vm.objects.entry id = some o ∧
      o1 = { o with lastGCPass := o1.lastGCPass } ∧ (¬ Reach H vm (.obj id) → o1 = o) := by
    intro id o1 he
    rcases m2.obj id with e | ⟨o, e1, e2⟩
    · rw [hob0] at e
      exact ⟨o1, by rw [← e]; exact he, rfl, fun _ => rfl⟩
    · rw [he] at e2
      cases e2
      rw [hob0] at e1
      exact ⟨o, e1, rfl, fun hn => absurd ((hmk id _ he).mp rfl) hn⟩
  have hfwd : ∀ id o, vm.objects.entry id = some o → ∃ o1, vm1.objects.entry id = some o1 ∧
      o1 = { o with lastGCPass := o1.lastGCPass } := by
    intro id o he
    rw [← hob0] at he
    rcases m2.obj id with e | ⟨o', e1, e2⟩
    · exact ⟨o, by rw [e]; exact he, rfl⟩
    · rw [he] at e1; cases e1
      exact ⟨_, e2, rfl⟩
  have hco1 : vm1.coType = vm.coType := by rw [m2.coType, ← hvm0]
  have hext1 : vm1.extTypes = vm.extTypes := by rw [m2.extTypes, ← hvm0]
  have hclean : ∀ (o o1 : Obj), o1 = { o with lastGCPass := o1.lastGCPass } →
      cleans (vm1.setStr t b) o1 = cleans vm o := by
    intro o o1 e
    show (o1.extType != UINT_MAX && (match vm1.extTypes[o1.extType]? with
      | some t => t.hasCleanup | none => false)) = _
    rw [hext1, e]
    rfl
  refine ⟨vm2, ?_, ?_⟩
  · unfold garbageCollect
    rw [M.bind_ok (modify_run _ vm)]
    rw [hu, hvm0, M.bind_ok (get_run vm0)]
    have hg : vm0.gc.lastGCPass = vm.gc.lastGCPass + 1 := by rw [← hvm0]
    simp only [hg]
    rw [M.bind_ok m1, M.bind_ok s1, M.bind_ok (get_run _)]
    exact c1
  · refine ⟨?_, ?_, c2.tab, ?_, ?_, ?_, ?_, ?_, ?_⟩
    · have e1 := c2.frame
      have e2 := m2.frame
      rw [← hvm0] at e2
      generalize vm1.objects = ob1, vm1.strings = st1, vm1.errors = er1 at e2
      have hs : vm2.strings = t := by have := congrArg VM.strings e1; exact this
      have hb : vm2.sbuckets = b := by have := congrArg VM.sbuckets e1; exact this
      rw [hs, hb]
      rw [e2] at e1
      exact e1
    · have e1 := c2.frame
      have hs : vm2.strings = t := by have := congrArg VM.strings e1; exact this
      have hb : vm2.sbuckets = b := by have := congrArg VM.sbuckets e1; exact this
      exact strWF_congr hs hb s2
    · intro id o'
      rw [c2.entry]
      constructor
      · rintro ⟨a1, a2⟩
        have a1 : vm1.objects.entry id = some o' := a1
        have a3 : o'.lastGCPass = vm.gc.lastGCPass + 1 := by
          by_contra hn; exact a2 ⟨Nat.zero_le _, hn⟩
        obtain ⟨o, g1, g2, _⟩ := hback id o' a1
        exact ⟨o, g1, (hmk id o' a1).mp a3, by rw [g2, a3]⟩
      · rintro ⟨o, a1, a2, a3⟩
        obtain ⟨o1, g1, g2⟩ := hfwd id o a1
        have g3 := (hmk id o1 g1).mpr a2
        have : o' = o1 := by rw [a3, g2, g3]
        rw [this]
        exact ⟨g1, fun hn => hn.2 g3⟩
    · intro id e'
      have hs : vm2.strings = t := by have := congrArg VM.strings c2.frame; exact this
      rw [hs, s3]
      rcases m2.sob id with e | ⟨e0, e1, e2⟩
      · rw [e, hst0]
        cases he : vm.strings.entry id with
        | none => simp
        | some x =>
          have hx1 : vm1.strings.entry id = some x := by rw [e, hst0]; exact he
          have := hmks id x hx1
          have hps := h.passS id x he
          have hne : ¬ Reach H vm (.str id) := by rw [← this]; omega
          simp only [Nat.zero_le, true_and, Str.survives]
          have hbe : (x.lastGCPass == vm.gc.lastGCPass + 1) = false := by simp; omega
          rw [hbe]
          constructor
          · intro hx
            cases hd : x.dontGC with
            | false => rw [hd] at hx; simp at hx
            | true => rw [hd] at hx; simp at hx; exact ⟨x, rfl, Or.inr ⟨hne, hd, hx.symm⟩⟩
          · rintro ⟨y, hy, ⟨h1, _⟩ | ⟨_, h2, h3⟩⟩
            · exact absurd h1 hne
            · cases hy
              rw [h2, h3]; simp
      · rw [hst0] at e1
        rw [e2, e1]
        have := (hmks id _ e2).mp rfl
        simp only [Str.survives, beq_self_eq_true, Bool.true_or, Bool.true_eq_false, and_false, if_false]
        constructor
        · intro hx
          exact ⟨e0, rfl, Or.inl ⟨this, (Option.some.inj hx).symm⟩⟩
        · rintro ⟨y, hy, ⟨_, h2⟩ | ⟨h1, _⟩⟩
          · cases hy; rw [h2]
          · exact absurd this h1
    · rw [c2.len]; show vm1.ctxs.length = _; rw [m2.ctxs, ← hvm0]
    · intro k c
      rw [c2.ctx]
      have e1 : (vm1.setStr t b).ctxs = vm.ctxs := by show vm1.ctxs = _; rw [m2.ctxs, ← hvm0]
      have e2 : (vm1.setStr t b).coType = vm.coType := hco1
      rw [e1, e2]
      refine and_congr_right fun _ => not_congr ⟨?_, ?_⟩
      · rintro ⟨id, o, g1, g2, g3, g4⟩
        have g1 : vm1.objects.entry id = some o := g1
        obtain ⟨o0, k1, k2, k3⟩ := hback id o g1
        have hn : ¬ Reach H vm (.obj id) := by rw [← hmk id o g1]; exact g2.2
        have := k3 hn
        subst this
        exact ⟨id, o, k1, hn, g3, g4⟩
      · rintro ⟨id, o, g1, g2, g3, g4⟩
        obtain ⟨o1, k1, k2⟩ := hfwd id o g1
        refine ⟨id, o1, k1, ⟨Nat.zero_le _, ?_⟩, by rw [k2]; exact g3, by rw [k2]; exact g4⟩
        rw [Ne, hmk id o1 k1]; exact g2
    · have hl0 : (vm1.setStr t b).cleanupLog = vm.cleanupLog := by
        show vm1.cleanupLog = _; rw [m2.cleanupLog, ← hvm0]
      refine ⟨(dying (vm.gc.lastGCPass + 1) (vm1.setStr t b) 0 vm1.objects.cap).reverse, ?_, ?_, ?_⟩
      · rw [c4, hl0]
      · rw [List.map_reverse, List.nodup_reverse]
        unfold dying
        rw [List.map_filterMap]
        refine List.Nodup.filterMap ?_ List.nodup_range'
        intro x y z hx hy
        have aux : ∀ x, z ∈ Option.map Prod.fst (dyingAt (vm.gc.lastGCPass + 1) (vm1.setStr t b) x) → z = x := by
          intro x hx
          unfold dyingAt at hx
          cases he : (vm1.setStr t b).objects.entry x with
          | none => rw [he] at hx; simp at hx
          | some o =>
            rw [he] at hx
            simp only at hx
            split at hx <;> simp at hx
            exact hx.symm
        rw [← aux x hx, ← aux y hy]
      · intro x
        rw [List.mem_reverse]
        unfold dying
        rw [List.mem_filterMap]
        constructor
        · rintro ⟨j, _, hj⟩
          unfold dyingAt at hj
          cases he : (vm1.setStr t b).objects.entry j with
          | none => rw [he] at hj; simp at hj
          | some o =>
            rw [he] at hj
            simp only at hj
            split at hj
            · rename_i hc
              have he : vm1.objects.entry j = some o := he
              obtain ⟨o0, k1, k2, k3⟩ := hback j o he
              have hn : ¬ Reach H vm (.obj j) := by rw [← hmk j o he]; exact hc.1
              have := k3 hn
              subst this
              refine ⟨j, o, (Option.some.inj hj).symm, k1, hn, ?_⟩
              rw [← cleans_iff, ← hclean o o rfl]; exact hc.2
            · cases hj
        · rintro ⟨id, o, rfl, k1, k2, k3⟩
          obtain ⟨o1, g1, g2⟩ := hfwd id o k1
          refine ⟨id, ?_, ?_⟩
          · have := Table.entry_lt_cap m2.tab g1
            simp [List.mem_range'_1]; omega
          · unfold dyingAt
            have : (vm1.setStr t b).objects.entry id = some o1 := g1
            rw [this]
            simp only
            rw [if_pos ⟨by rw [Ne, hmk id o1 g1]; exact k2, by rw [hclean o o1 g2, cleans_iff]; exact k3⟩]
            rw [g2]
    · have e0 : vm0.errors = vm.errors := by rw [← hvm0]
      have := m2.errs.trans c2.errs
      rw [e0] at this
      exact this

namespace Collected
variable {vm vm' : VM}

theorem cur (c : Collected H vm vm') : vm'.cur = vm.cur := by have := congrArg VM.cur c.frame; exact this
theorem statics (c : Collected H vm vm') : vm'.statics = vm.statics := by
  have := congrArg VM.statics c.frame; exact this
theorem staticMask (c : Collected H vm vm') : vm'.staticMask = vm.staticMask := by
  have := congrArg VM.staticMask c.frame; exact this
theorem handles (c : Collected H vm vm') : vm'.handles = vm.handles := by
  have := congrArg VM.handles c.frame; exact this
theorem extTypes (c : Collected H vm vm') : vm'.extTypes = vm.extTypes := by
  have := congrArg VM.extTypes c.frame; exact this
theorem coType (c : Collected H vm vm') : vm'.coType = vm.coType := by
  have := congrArg VM.coType c.frame; exact this
theorem gcPass (c : Collected H vm vm') : vm'.gc.lastGCPass = vm.gc.lastGCPass + 1 := by
  have := congrArg (fun v => v.gc.lastGCPass) c.frame; exact this

/-- A context whose owner is reachable is kept. -/
theorem keep (c : Collected H vm vm') (h : HeapWF vm) {id i : Nat} {o : Obj} {x : Ctx}
    (hr : Reach H vm (.obj id)) (he : vm.objects.entry id = some o) (ht : o.extType = vm.coType)
    (hd : o.extData = some i) (hx : vm.ctxs[i]? = some (some x)) : vm'.ctxs[i]? = some (some x) := by
  refine (c.ctx i x).mpr ⟨hx, ?_⟩
  rintro ⟨id', o', g1, g2, g3, g4⟩
  obtain ⟨i1, c1, a1, a2, a3, a4⟩ := h.co.own id o he ht
  obtain ⟨i2, c2, b1, b2, b3, b4⟩ := h.co.own id' o' g1 g3
  rw [hd] at a1; cases a1
  rw [g4] at b1; cases b1
  rw [a3] at b3; cases b3
  rw [a4] at b4; cases b4
  exact g2 hr

/-- Active contexts are kept. -/
theorem keep_active (c : Collected H vm vm') (h : HeapWF vm) {i : Nat} {x : Ctx}
    (ha : Active vm i) (hx : vm.ctxs[i]? = some (some x)) : vm'.ctxs[i]? = some (some x) := by
  by_cases hi : i = 0
  · subst hi
    refine (c.ctx 0 x).mpr ⟨hx, ?_⟩
    rintro ⟨id', o', g1, g2, g3, g4⟩
    obtain ⟨i2, c2, b1, b2, b3, b4⟩ := h.co.own id' o' g1 g3
    rw [g4] at b1; cases b1
    exact b2 rfl
  · obtain ⟨id, o, k1, k2, k3, k4⟩ := h.co.owned i x hi hx
    have hr : Reach H vm (.obj id) := by rw [← k1]; exact .root (.coroutine ha hx)
    exact c.keep H h hr k2 k3 k4 hx

/-- What was reachable stays reachable. -/
theorem reach (c : Collected H vm vm') (h : HeapWF vm) :
    (∀ i, Active vm i → Active vm' i) ∧ ∀ {v}, Reach H vm v → Reach H vm' v := by
  refine Reach.transport H (c.cur H) (c.statics H) (c.handles H) (c.extTypes H) (c.coType H)
    (fun i x ha hx => c.keep_active H h ha hx) ?_ ?_ ?_
  · intro id o hr he
    exact ⟨_, (c.obj id _).mpr ⟨o, he, hr, rfl⟩, rfl, rfl, rfl⟩
  · intro id o i x hr he ht hd hx
    exact c.keep H h hr he ht hd hx
  · intro i p x px hx hp hpx
    exact c.keep_active H h (h.co.parent_active hx hp) hpx

/-- The collection leaves the heap in order. -/
theorem wf (c : Collected H vm vm') (h : HeapWF vm) : HeapWF vm' := by
  refine ⟨c.str, c.tab, ⟨?_, ?_, ?_, ?_, ?_, ?_⟩, ?_, ?_, ?_, ?_⟩
  · obtain ⟨r, h1, h2, h3⟩ := h.co.root
    exact ⟨r, c.keep_active H h h.co.active_zero h1, h2, h3⟩
  · intro i x hx
    exact h.co.stack i x ((c.ctx i x).mp hx).1
  · intro id o' he ht
    obtain ⟨o, g1, g2, g3⟩ := (c.obj id o').mp he
    have ht' : o.extType = vm.coType := by rw [g3, c.coType] at ht; exact ht
    obtain ⟨i, x, k1, k2, k3, k4⟩ := h.co.own id o g1 ht'
    exact ⟨i, x, by rw [g3]; exact k1, k2, c.keep H h g2 g1 ht' k1 k3, k4⟩
  · intro i x hi hx
    obtain ⟨hx, hn⟩ := (c.ctx i x).mp hx
    obtain ⟨id, o, k1, k2, k3, k4⟩ := h.co.owned i x hi hx
    have hr : Reach H vm (.obj id) := by
      by_contra hr
      exact hn ⟨id, o, k2, hr, k3, k4⟩
    exact ⟨id, _, k1, (c.obj id _).mpr ⟨o, k2, hr, rfl⟩, by rw [c.coType]; exact k3, k4⟩
  · obtain ⟨l, h1, h2, h3, h4, h5⟩ := h.co.chain
    refine ⟨l, h1, by rw [c.cur]; exact h2, h3, ?_, ?_⟩
    · intro n i j hi hj
      obtain ⟨x, k1, k2⟩ := h4 n i j hi hj
      exact ⟨x, c.keep_active H h (CoWF.chain_active h2 h4 n i hi) k1, k2⟩
    · intro i x hx hp
      exact h5 i x ((c.ctx i x).mp hx).1 hp
  · rw [c.extTypes, c.coType]; exact h.co.type
  · rw [c.statics, c.staticMask]; exact h.statics
  · intro id hid
    rw [c.handles] at hid
    obtain ⟨o, ho⟩ := h.handles id hid
    exact ⟨_, (c.obj id _).mpr ⟨o, ho, .root (.handle hid), rfl⟩⟩
  · intro id o he
    obtain ⟨o0, _, _, g3⟩ := (c.obj id o).mp he
    rw [g3, c.gcPass]
  · intro id e he
    obtain ⟨e0, g1, ⟨_, g3⟩ | ⟨_, _, g3⟩⟩ := (c.sob id e).mp he
    · rw [g3, c.gcPass]
    · rw [g3, c.gcPass]
      exact Nat.le_succ_of_le (h.passS id e0 g1)

end Collected

end Nk
