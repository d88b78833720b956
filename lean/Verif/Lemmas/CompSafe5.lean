import Verif.Lemmas.CompSafe4
/-!
# The compiler on arbitrary tokens: breaks, functions, scripts
-/
namespace Nk.Cc

variable {α β : Type} {Z : Base} {B : UB → Prop} {k p : Nat} {s s1 : CS}

/-! ## Break -/

theorem withFix_to (fx : List Nat) : ∀ l : List CCtx, Fars l (withFix fx l)
  | [] => .nil
  | c :: cs => by
    unfold withFix
    split
    · next h => exact .cons ⟨rfl, rfl, rfl, rfl, fun h' => by rw [h] at h'; cases h'⟩ (Fars.refl cs)
    · exact .cons (Far.refl c) (withFix_to fx cs)

theorem withFix_mem {fx : List Nat} : ∀ {l : List CCtx} {c : CCtx} {a : Nat}, c ∈ withFix fx l → a ∈ c.fixups →
    a ∈ fx ∨ ∃ d ∈ l, a ∈ d.fixups
  | [], _, _, hc, _ => by cases hc
  | d :: ds, c, a, hc, ha => by
    unfold withFix at hc
    split at hc
    · rw [List.mem_cons] at hc
      rcases hc with rfl | hc
      · rcases List.mem_append.mp ha with h | h
        · exact .inr ⟨d, by simp, h⟩
        · exact .inl h
      · exact .inr ⟨c, by simp [hc], ha⟩
    · rw [List.mem_cons] at hc
      rcases hc with rfl | hc
      · exact .inr ⟨c, by simp, ha⟩
      · rcases withFix_mem hc ha with h | ⟨e, he, h⟩
        · exact .inl h
        · exact .inr ⟨e, by simp [he], h⟩

theorem Fars.last : ∀ {a b : List CCtx} {c : CCtx}, Fars a b → b.getLast? = some c → ∃ d, a.getLast? = some d ∧ Far d c
  | _, _, _, .nil, h => by cases h
  | _, _, c, .cons h .nil, hc => by
    simp only [List.getLast?_singleton, Option.some.injEq] at hc
    subst hc
    exact ⟨_, rfl, h⟩
  | _, _, c, .cons (a := x) (b := y) h (.cons (a := x') (b := y') (l₁ := xs) (l₂ := ys) h' hs), hc => by
    rw [List.getLast?_cons_cons] at hc
    obtain ⟨d, hd, hf⟩ := Fars.last (.cons h' hs) hc
    exact ⟨d, by rw [List.getLast?_cons_cons]; exact hd, hf⟩

theorem findLoop_setOff (n : Nat) (l : List CCtx) : findLoop (setOff n l) = findLoop l := by
  cases l with
  | nil => rfl
  | cons c cs => rfl

theorem breakStmt_step (hL : B .longjmp) (h : Inv Z B s) : CSafe B breakStmt s (StQ Z B Keeps s) := by
  have hne := h.wf.ctx
  unfold breakStmt
  refine CSafe.cget ?_
  split
  · next hx => exact absurd hx hne
  · next c cs hx =>
    refine (pushRec_step (Adv.refl h)).bind fun ok s1 ⟨c1, h1⟩ => ?_
    cases ok with
    | false => exact CSafe.pure (StQ.fail h1.1 ((Same.of_eq c1).keeps hne) h1.2)
    | true =>
      rw [if_pos rfl]
      replace h1 := h1.1
      have k1 : Keeps s.ctx s1.ctx := (Same.of_eq c1).keeps hne
      have bad : ∀ e, CSafe B (do err e; popRec; return false) s1 (StQ Z B Keeps s) := by
        intro e
        refine (err_step h1 e).bind fun _ s2 ⟨h2, c2, e2⟩ => ?_
        exact pop_pure h2 fun s3 h3 c3 e3 => StQ.fail h3 (by rw [c3, c2]; exact k1) (by rw [e3]; exact e2)
      split
      · exact bad _
      · next i hi =>
        obtain ⟨lc, q1, _, _⟩ := findLoop_spec hi
        split
        · exact bad _
        · split
          · next hn => rw [q1] at hn; cases hn
          · refine (emitInt_step hL _ false h1).bind fun _ s2 ⟨h2, c2⟩ => ?_
            refine (op_same hL (by decide) false h2).bind fun _ s3 ⟨h3, c3⟩ => ?_
            refine (emitJump_step hL (.inl rfl) h3 h3.inv.shape.zero).bind fun fix s4 ⟨h4, c4, j4⟩ => ?_
            have sm : Same s.ctx s4.ctx := (((Same.of_eq c1).trans c2).trans c3).trans c4
            have hi4 : findLoop s4.ctx = some i := by
              obtain ⟨n, e⟩ := sm
              rw [e, findLoop_setOff, hi]
            obtain ⟨_, _, _, q⟩ := findLoop_spec hi4
            refine CSafe.cmod ?_
            rw [q]
            have ff := withFix_to [fix] s4.ctx
            have hne4 := h4.inv.wf.ctx
            have h5 : Adv Z B 1 0 s { s4 with ctx := withFix [fix] s4.ctx } := by
              refine h4.setCtx (fun h0 => ?_) (fun c hc a ha => ?_) fun c hc => ?_
              · rw [h0] at ff
                cases hz : s4.ctx with
                | nil => exact hne4 hz
                | cons => rw [hz] at ff; cases ff
              · rcases withFix_mem hc ha with h | ⟨d, hd, h⟩
                · rw [List.mem_singleton] at h; rw [h]; exact j4
                · exact h4.inv.fix d hd a h
              · obtain ⟨d, hd, hf⟩ := ff.last hc
                rw [hf.loop]; exact h4.inv.root d hd
            have k5 : Keeps s.ctx (withFix [fix] s4.ctx) := (sm.keeps hne).trans (ff.keeps hne4)
            refine expectStmt_step (by decide) h5 (fun s6 h6 c6 => ?_) fun _ a b c => StQ.fail a (by rw [b]; exact k5) c
            have k6 : Keeps s.ctx s6.ctx := by rw [c6]; exact k5
            refine expectStmt_step (by decide) (h5.tok h6) (fun s7 h7 c7 => ?_) fun _ a b c => StQ.fail a (by rw [b]; exact k6) c
            exact pop_pure ((h5.tok h6).tok h7) fun s8 h8 c8 _ => StQ.done h8 (by rw [c8, c7]; exact k6)

/-! ## Functions -/

theorem rootOf_last : ∀ {l : List CCtx}, l ≠ [] → ∃ r, rootOf l = .ok r ∧ l.getLast? = some r
  | [], h => absurd rfl h
  | [c], _ => ⟨c, rfl, rfl⟩
  | c :: d :: ds, _ => by
    obtain ⟨r, h1, h2⟩ := rootOf_last (l := d :: ds) (by simp)
    exact ⟨r, h1, by rw [List.getLast?_cons_cons]; exact h2⟩

theorem addParam_step (hL : B .longjmp) (name : Bytes) {n : Nat} {l : List CCtx} (h : Adv Z B k p s s1) (hu : Under (n + 1) l s1.ctx) :
    CSafe B (addParam name) s1 fun _ s2 => Adv Z B k p s s2 ∧ Under (n + 1) l s2.ctx := by
  unfold addParam
  refine (addVariable_step hL name true true h).bind fun ok s2 ⟨h2, c2, _⟩ => ?_
  have u2 := hu.to c2
  cases ok with
  | false => exact CSafe.pure ⟨h2, u2⟩
  | true =>
    rw [if_pos rfl]
    obtain ⟨c, cs, hc⟩ := u2.ne
    refine (modCtx_step h2 (fun c => { c with vars := match c.vars with
      | [] => []
      | v :: vs => { v with noPop := true } :: vs }) (fun _ _ h => h) (fun _ => rfl)).mono fun _ s3 ⟨h3, c3⟩ => ⟨h3, ?_⟩
    rw [c3 c cs hc]
    rw [hc] at u2
    exact u2.head

theorem inc_under {n : Nat} {l : List CCtx} (h : Adv Z B k p s s1) (hu : Under (n + 1) l s1.ctx) :
    CSafe B incOffset s1 fun _ s2 => Adv Z B k p s s2 ∧ Under (n + 1) l s2.ctx :=
  (incOffset_step h).mono fun _ _ h2 => ⟨h2.1, hu.same h2.2⟩

theorem skipOr_step (t : TokType) (e : String) (h : Adv Z B k p s s1) : CSafe B (skipOr t e) s1 fun _ s2 => Adv Z B k p s s2 ∧ s2.ctx = s1.ctx := by
  unfold skipOr
  refine CSafe.curType ?_
  split
  · exact CSafe.ok (a := ()) (s' := advance s1) rfl ⟨h.adv, (advance_eqs s1).2.2.2.2.2.1⟩
  · exact (err_step h e).mono fun _ _ h => ⟨h.1, h.2.1⟩

theorem paramLoop_step (hL : B .longjmp) {m : Nat} {l : List CCtx} : ∀ (n argc : Nat) {p : Nat} {s1 : CS}, Adv Z B k p s s1 → Under (m + 1) l s1.ctx →
    s1.toks.length < n → CSafe B (paramLoop n argc) s1 fun r s2 => Adv Z B k p s s2 ∧ Under (m + 1) l s2.ctx ∧ (r.1 = false → s2.vm.errors ≠ [])
  | 0, _, _, _, _, _, hn => by omega
  | n + 1, argc, p, s1, h, hu, hn => by
    unfold paramLoop
    refine CSafe.curType ?_
    split
    · exact CSafe.pure ⟨h, hu, (fun h => nomatch h)⟩
    · next hi =>
      split
      · refine curString_safe fun name => ?_
        refine (addParam_step hL name (Adv.refl h.inv) hu).bind fun _ s2 ⟨h2, u2⟩ => ?_
        refine (inc_under h2 u2).bind fun _ s3 ⟨h3, u3⟩ => ?_
        refine CSafe.next ?_
        have h4 := h3.adv
        have u4 : Under (m + 1) l (advance s3).ctx := by rw [(advance_eqs s3).2.2.2.2.2.1]; exact u3
        have hpos : 0 < s1.toks.length := List.length_pos_iff.mpr fun h0 => by rw [h0] at hi; exact hi rfl
        have l4 : (advance s3).toks.length < n := by
          have := h3.len
          rw [advance_toks, List.length_tail]; omega
        generalize advance s3 = s4 at *
        have h14 : Adv Z B k p s s4 := h.zero h4
        refine CSafe.curType ?_
        split
        · exact CSafe.pure ⟨h14, u4, (fun h => nomatch h)⟩
        · split
          · refine CSafe.next ?_
            refine paramLoop_step hL n (argc + 1) h14.adv (by rw [(advance_eqs s4).2.2.2.2.2.1]; exact u4) ?_
            rw [advance_toks, List.length_tail]; omega
          · refine CSafe.err ?_
            exact paramLoop_step hL n (argc + 1) (h14.err _) u4 l4
      · split
        · exact CSafe.pure ⟨h, hu, (fun h => nomatch h)⟩
        · refine (err_step h _).bind fun _ s2 ⟨h2, c2, e2⟩ => ?_
          exact CSafe.pure ⟨h2, by rw [c2]; exact hu, fun _ => e2⟩

theorem prefix_modify {α : Type} {l m : List α} {i : Nat} {f : α → α} (h : l <+: m) (hi : l.length ≤ i) : l <+: m.modify i f := by
  refine List.prefix_iff_getElem?.mpr fun j hj => ?_
  rw [List.getElem?_modify]
  have := List.prefix_iff_getElem?.mp h j hj
  rw [this]
  show some (if i = j then f l[j] else l[j]) = _
  rw [if_neg (by omega)]

theorem setFunction_step {id argc : Nat} (h : Adv Z B k p s s1) (hid : id < s1.vm.functions.length) (hz : Z.funs.length ≤ id) :
    CSafe B (setFunction id argc s1.write) s1 fun _ s2 => Adv Z B k p s s2 ∧ s2.ctx = s1.ctx := by
  refine CSafe.ok (a := ()) (s' := { s1 with vm := { s1.vm with
      functions := s1.vm.functions.modify id fun f => { f with argc := argc, first := s1.write } } })
    (by unfold setFunction; rw [if_pos hid]) ⟨{ h with inv := ?_, fnum := ?_ }, rfl⟩
  · refine ⟨⟨h.inv.wf.pow, h.inv.wf.len, h.inv.wf.write, CodeWF.str' h.inv.wf.str rfl rfl, h.inv.wf.ctx⟩, h.inv.shape, fun f hf => ?_,
      h.inv.fix, h.inv.root, h.inv.good, h.inv.low, h.inv.base, h.inv.lits, ?_⟩
    swap
    · exact prefix_modify h.inv.funs hz
    obtain ⟨i, hi, e⟩ := List.getElem_of_mem hf
    rw [List.getElem_modify] at e
    rw [List.length_modify] at hi
    split at e
    · rw [← e]; exact h.inv.shape.entry
    · rw [← e]; exact h.inv.fns _ (List.getElem_mem hi)
  · show _ ≤ (s1.vm.functions.modify _ _).length
    rw [List.length_modify]; exact h.fnum

theorem usub_skip {T a : Nat} (ha : a + 1 < 4294967296) : usub (usub T (a + 1)) 2 = usub (usub T a) 3 := by
  unfold usub u32 U32; omega

theorem writeInstr_run {i : Nat} {w : BitVec 32} (h : i < s.vm.instrs.length) :
    writeInstr i w s = .ok ((), { s with vm := { s.vm with instrs := s.vm.instrs.set i w } }) := by
  unfold writeInstr; rw [if_pos h]

theorem functionBody_step (hL : B .longjmp) {D id : Nat} {st : CM Bool} (hst : ST Z B D st) (h : Adv Z B (k + 1) p s s1) (hd : D ≤ s1.depth)
    (hid : id < s1.vm.functions.length) (hz : Z.funs.length ≤ id) : CSafe B (functionBody st id) s1 fun o s2 =>
      Adv Z B k p s s2 ∧ Same s1.ctx s2.ctx ∧ (o = none → s2.vm.errors ≠ []) := by
  have hsm := h.inv.wf.lt
  unfold functionBody
  refine (lit_wrote hL 7 _ false h.inv.wf).bind fun _ s2 e2 => CSafe.cget ?_
  refine (addInstr_wrote hL (BitVec.ofNat 32 17) false e2.wf).bind fun _ s3 e3 => CSafe.cget ?_
  have e := e2.trans e3.1
  have c0 := e.code 0 _ rfl
  have c1 := e.code 1 _ rfl
  have c2 := e.code 2 _ rfl
  have ew : s3.write = s1.write + 3 := e.write
  have sh := h.inv.shape.jump e.below c0 c1 c2 (by unfold IsJump opOf; decide) (by decide) (.inr (by
    show (s1.write + 3 + 0) % 4294967296 = _
    omega))
  rw [← ew] at sh
  have h3 : Adv Z B 0 0 s1 s3 := (Adv.refl h.inv).wrote e sh
    (by rw [ew]; exact jump_lits (h.inv.shape.whole.keep sh.2.same (Nat.le_refl _)) c0 c2 (.inl rfl))
  have j3 : JumpAt Z.n s3.vm.instrs s3.write s1.write :=
    ⟨h.inv.low, by omega, h.inv.shape.whole.keep sh.2.same (Nat.le_refl _), c0, .inl c2⟩
  have hskip : usub s2.write 1 = s1.write + 1 := by
    rw [e2.write]
    show usub (s1.write + 2) 1 = _
    unfold usub u32 U32; omega
  rw [hskip]
  obtain ⟨root, hr, hlast⟩ := rootOf_last h3.inv.wf.ctx
  rw [hr]
  refine CSafe.cmod ?_
  have hroot : root ∈ s3.ctx := List.mem_of_getLast? hlast
  have h4 : Adv Z B 0 0 s1 { s3 with ctx := [{ vars := [], offset := 0, fnId := id, isLoop := false, fixups := [] }, root] } := by
    refine h3.setCtx (by simp) (fun c hc a ha => ?_) fun c hc => ?_
    · simp only [List.mem_cons, List.not_mem_nil, or_false] at hc
      rcases hc with rfl | rfl
      · cases ha
      · exact h3.inv.fix _ hroot a ha
    · simp only [List.getLast?_cons_cons, List.getLast?_singleton, Option.some.injEq] at hc
      rw [← hc]; exact h3.inv.root root hlast
  have u4 : Under 1 [root] [{ vars := [], offset := 0, fnId := id, isLoop := false, fixups := [] }, root] :=
    (Under.zero.mpr (Fars.refl _)).push _
  have ha4 : Adv Z B 0 0 s3 { s3 with ctx := [{ vars := [], offset := 0, fnId := id, isLoop := false, fixups := [] }, root] } :=
    ⟨h4.inv, h3.inv.shape.refl, Nat.le_refl _, List.suffix_refl _, Nat.le_refl _, Nat.le_refl _, Nat.le_refl _⟩
  have hl : [root] ≠ [] := by simp
  refine (skipOr_step _ _ ha4).bind fun _ s5 ⟨h5, c5⟩ => ?_
  have u5 : Under (0 + 1) [root] s5.ctx := by rw [c5]; exact u4
  refine (addParam_step hL _ h5 u5).bind fun _ s6 ⟨h6, u6⟩ => ?_
  refine (inc_under h6 u6).bind fun _ s7 ⟨h7, u7⟩ => CSafe.cget ?_
  refine (paramLoop_step hL _ 0 h7 u7 (by omega)).bind fun r s8 ⟨h8, u8, e8⟩ => ?_
  obtain ⟨ok, argc⟩ := r
  refine CSafe.cget ?_
  refine (setFunction_step (Adv.refl h8.inv) (by have := h3.fnum; have := h8.fnum; omega) hz).bind fun _ s9 ⟨h9, c9⟩ => ?_
  have u9 : Under (0 + 1) [root] s9.ctx := by rw [c9]; exact u8
  refine (addParam_step hL _ h9 u9).bind fun _ s10 ⟨h10, u10⟩ => ?_
  refine (inc_under h10 u10).bind fun _ s11 ⟨h11, u11⟩ => ?_
  refine (addParam_step hL _ h11 u11).bind fun _ s12 ⟨h12, u12⟩ => ?_
  refine (skipOr_step _ _ h12).bind fun _ s13 ⟨h13, c13⟩ => ?_
  have h313 : Adv Z B 0 0 s3 s13 := h8.zero h13
  have := h3.depth
  have := h313.depth
  refine (hst s13 h313.inv (by omega)).bind fun ok2 s14 ⟨h14', c14, e14⟩ => ?_
  have h14 : Adv Z B 0 0 s13 s14 := h14'.weaken (Nat.le_refl _) (Nat.zero_le _)
  have u14 : Under 1 [root] s14.ctx := Under.to (by rw [c13]; exact u12) c14
  refine (emitInt_step hL _ false (Adv.refl h14.inv)).bind fun _ s15 ⟨h15, c15⟩ => ?_
  refine (inc_under h15 (u14.same c15)).bind fun _ s16 ⟨h16, u16⟩ => ?_
  refine (emitReturn_step hL h16).bind fun _ s17 ⟨h17, c17⟩ => CSafe.cget ?_
  have u17 := u16.same c17
  have h317 : Adv Z B 0 0 s3 s17 := (h313.zero h14).zero h17
  have j17 := h317.grew.jumpAt j3
  have hle := j17.le
  have hlt := h317.inv.wf.lt
  have hlen := h317.inv.wf.len
  have hw := h317.inv.wf.write
  rw [usub_skip (by omega)]
  have sh18 := h317.inv.shape.patch (I' := s17.vm.instrs.set (s1.write + 1) (BitVec.ofNat 32 (usub (usub s17.write s1.write) 3))) j17
    (fun i hi => List.getElem?_set_ne (Ne.symm hi)) (List.getElem?_set_self (by omega)) h317.inv.shape.entry (jump_dist (by omega) (by omega))
  have h18 := h317.patch (Nat.le_succ_of_le j17.low) ⟨_, rfl, j17.lit⟩ sh18
  refine CSafe.bind (P := fun _ s18 => Adv Z B 0 0 s3 s18 ∧ Under 1 [root] s18.ctx ∧ s18.vm.errors = s17.vm.errors)
    (CSafe.ok (writeInstr_run (by omega)) ⟨h18, u17, rfl⟩) fun _ s18 ⟨h18, u18, e18⟩ => ?_
  refine (pop_under hL (Adv.refl h18.inv) u18 hl).bind fun _ s19 ⟨h19, _⟩ => CSafe.cmod ?_
  have h319 := h18.zero h19
  have h20 : Adv Z B 0 0 s3 { s19 with ctx := s3.ctx } := by
    refine h319.setCtx h3.inv.wf.ctx (fun c hc a ha => h319.grew.jumpAt (h3.inv.fix c hc a ha)) fun c hc => h3.inv.root c hc
  refine pop_pure ((h.zero h3).zero h20) fun s21 h21 c21 e21 => ⟨h21, by rw [c21]; exact e.ctx, fun ho => ?_⟩
  rw [e21]
  show s19.vm.errors ≠ []
  have e17 : s17.vm.errors ≠ [] := by
    cases ok with
    | false => exact ((((Adv.refl h8.inv).zero h13).zero h14).zero h17).failed (e8 rfl)
    | true =>
      cases ok2 with
      | false => exact h17.failed (e14 rfl)
      | true => cases ho
  exact h19.failed (by rw [e18]; exact e17)

theorem createFunction_step (hL : B .longjmp) (h : Adv Z B k p s s1) :
    CSafe B (onVM createFunction) s1 fun id s2 => Adv Z B k p s s2 ∧ s2.ctx = s1.ctx ∧ id < s2.vm.functions.length ∧ Z.funs.length ≤ id := by
  by_cases hn : s1.vm.functions.length + 1 ≥ UINT_MAX / 12
  · refine CSafe.ub (k := .longjmp) ?_ hL
    have : createFunction s1.vm = .ub .longjmp := by
      show (if s1.vm.functions.length + 1 ≥ UINT_MAX / 12 then liftR (.ub .longjmp) else _ : M Nat) s1.vm = _
      rw [if_pos hn]; rfl
    unfold onVM; rw [this]
  · have : createFunction s1.vm = .ok (s1.vm.functions.length,
        { s1.vm with functions := s1.vm.functions ++ [{ argc := 0, first := 0, extId := UINT_MAX }] }) := by
      show (if s1.vm.functions.length + 1 ≥ UINT_MAX / 12 then liftR (.ub .longjmp) else _ : M Nat) s1.vm = _
      rw [if_neg hn]; rfl
    refine onVM_safe this ⟨{ h with inv := ?_, fnum := ?_ }, rfl, ?_, h.inv.funs.length_le⟩
    · refine ⟨⟨h.inv.wf.pow, h.inv.wf.len, h.inv.wf.write, CodeWF.str' h.inv.wf.str rfl rfl, h.inv.wf.ctx⟩, h.inv.shape, fun f hf => ?_,
        h.inv.fix, h.inv.root, h.inv.good, h.inv.low, h.inv.base, h.inv.lits, ?_⟩
      · rcases List.mem_append.mp hf with hf | hf
        · exact h.inv.fns f hf
        · rw [List.mem_singleton] at hf; rw [hf]; exact h.inv.shape.zero
      · exact h.inv.funs.trans (List.prefix_append _ _)
    · show _ ≤ (s1.vm.functions ++ _).length
      have := h.fnum
      rw [List.length_append]; omega
    · show _ < (s1.vm.functions ++ _).length
      rw [List.length_append]; exact Nat.lt_succ_self _

theorem functionDef_step (hL : B .longjmp) {D : Nat} {st : CM Bool} (hst : ST Z B D st) (anon : Bool) (h : Inv Z B s) (hd : D ≤ s.depth) :
    CSafe B (functionDef st anon) s fun o s' => Adv Z B 0 (if o.isSome then 1 else 0) s s' ∧
      (if anon then Same s.ctx s'.ctx else CtxTo s.ctx s'.ctx) ∧ (o = none → s'.vm.errors ≠ []) := by
  have hne := h.wf.ctx
  have no : ∀ {p : Nat} {s' : CS}, Adv Z B 0 p s s' → s'.ctx = s.ctx → s'.vm.errors ≠ [] →
      Adv Z B 0 (if (none : Option Nat).isSome then 1 else 0) s s' ∧ (if anon then Same s.ctx s'.ctx else CtxTo s.ctx s'.ctx) ∧
        ((none : Option Nat) = none → s'.vm.errors ≠ []) := by
    intro p s' h1 c1 e1
    refine ⟨h1.weaken (Nat.le_refl _) (Nat.zero_le _), ?_, fun _ => e1⟩
    split
    · exact Same.of_eq c1
    · rw [c1]; exact CtxTo.refl hne
  unfold functionDef
  refine (pushRec_step (Adv.refl h)).bind fun ok s1 ⟨c1, h1⟩ => ?_
  cases ok with
  | false => exact CSafe.pure (no h1.1 c1 h1.2)
  | true =>
    rw [if_pos rfl]
    replace h1 := h1.1
    refine (createFunction_step hL h1).bind fun id s2 ⟨h2, c2, i2, z2⟩ => ?_
    refine (expectSkip_step (by decide) (Adv.refl h2.inv)).bind fun ok s3 ⟨c3, h3⟩ => ?_
    have c13 : s3.ctx = s.ctx := (c3.trans c2).trans c1
    cases ok with
    | false => exact pop_pure (h2.zero h3.1) fun s4 h4 c4 e4 => no h4 (c4.trans c13) (by rw [e4]; exact h3.2)
    | true =>
      rw [if_pos rfl]
      have i3 : id < s3.vm.functions.length := by
        have : s2.vm.functions.length ≤ s3.vm.functions.length := Adv.fnum h3
        omega
      replace h3 : Adv Z B 1 1 s s3 := h2.tok h3
      have := h3.depth
      cases anon with
      | true =>
        rw [if_pos rfl]
        refine (functionBody_step hL hst h3 (by omega) i3 z2).mono fun o s4 ⟨h4, c4, e4⟩ => ⟨h4.weaken (Nat.le_refl _) (by split <;> omega), ?_, e4⟩
        rw [if_pos rfl]
        rw [← c13]; exact c4
      | false =>
        rw [if_neg (by decide)]
        refine CSafe.curType ?_
        split
        · refine curString_safe fun name => CSafe.next ?_
          refine (emitFn_step hL _ true (Adv.refl h3.adv.inv)).bind fun _ s5 ⟨h5, c5⟩ => ?_
          refine (addVariable_step hL name true true h5).bind fun _ s6 ⟨h6, c6, _⟩ => ?_
          have h16 : Adv Z B 1 1 s s6 := h3.adv.zero h6
          have := h16.depth
          have fa := (advance_eqs s3)
          have i6 : id < s6.vm.functions.length := by have := h6.fnum; rw [fa.2.2.2.2.2.2] at this; omega
          refine (functionBody_step hL hst h16 (by omega) i6 z2).mono fun o s7 ⟨h7, c7, e7⟩ => ⟨h7.weaken (Nat.le_refl _) (by split <;> omega), ?_, e7⟩
          rw [if_neg (by decide)]
          rw [fa.2.2.2.2.2.1] at c5
          have : CtxTo s3.ctx s7.ctx := ((c5.to h3.inv.wf.ctx).trans c6).trans (c7.to h6.inv.wf.ctx)
          rw [← c13]; exact this
        · refine (err_step h3 _).bind fun _ s4 ⟨h4, c4, e4⟩ => ?_
          exact pop_pure h4 fun s5 h5 c5 e5 => no h5 ((c5.trans c4).trans c13) (by rw [e5]; exact e4)

/-! ## Statements -/

/-- The statements that may declare a name where they stand: `var`, and `function` with a name. -/
def Declares (l : List Token) : Prop := typeOf l = .kwVar ∨ (typeOf l = .kwFunction ∧ typeOf l.tail = .identifier)

/-- What a statement does to the contexts: only those add names, and only to the innermost. -/
def Scoped (l : List Token) (a b : List CCtx) : Prop := CtxTo a b ∧ (¬Declares l → names b = names a)

theorem Keeps.scope {l : List Token} {a b : List CCtx} (h : Keeps a b) : Scoped l a b := ⟨h.1, fun _ => h.2⟩

theorem stmtEnd_step {R R' : List CCtx → List CCtx → Prop} (hR : ∀ b, R s1.ctx b → CtxTo s.ctx b ∧ R' s.ctx b) {b : Bool} {s2 : CS}
    (h : Adv Z B 1 0 s s1) (h2 : StQ Z B R s1 b s2) : CSafe B (stmtEnd s.ctx.length b) s2 (StQ Z B R' s) := by
  obtain ⟨h2, c2, e2⟩ := h2
  unfold stmtEnd
  cases b with
  | false => exact CSafe.pure (StQ.fail (h.trans h2) (hR _ c2).2 (e2 rfl))
  | true =>
    rw [if_pos rfl]
    refine sameCtx_safe (hR _ c2).1.length ?_
    have h12 : Adv Z B 1 1 s s2 := (h.trans h2).weaken (Nat.le_refl _) (Nat.le_refl _)
    exact pop_pure h12 fun s3 h3 c3 _ => StQ.done h3 (by rw [c3]; exact (hR _ c2).2)

theorem exprStmt_step (hL : B .longjmp) {D : Nat} {ce : CM Bool} (hce : CE Z B D ce) (h : Adv Z B 1 0 s s1) (hc : s1.ctx = s.ctx) (hd : D ≤ s1.depth) :
    CSafe B (exprStmt ce s.ctx.length) s1 (StQ Z B Keeps s) := by
  have hne := h.inv.wf.ctx
  unfold exprStmt
  refine (hce s1 h.inv hd).bind fun b s2 ⟨h2, c2, e2⟩ => ?_
  have h12 := h.zero h2
  rw [hc] at c2
  rw [hc] at hne
  cases b with
  | false => exact CSafe.pure (StQ.fail h12 (c2.keeps hne) (e2 rfl))
  | true =>
    rw [if_pos rfl]
    refine CSafe.curType ?_
    have first : CSafe B (if typeOf s2.toks = .semicolon then emitOp 11 true else Pure.pure ()) s2 fun _ s3 => Adv Z B 1 0 s s3 ∧ Same s2.ctx s3.ctx := by
      split
      · exact op_same hL (by decide) _ h12
      · exact CSafe.pure ⟨h12, Same.refl _⟩
    refine jp_safe first fun s3 ⟨h3, c3⟩ => ?_
    have k3 := (c2.trans c3).keeps hne
    refine expectStmt_step (by decide) h3 (fun s4 h4 c4 => ?_) fun _ a b c => StQ.fail a (by rw [b]; exact k3) c
    unfold stmtEnd
    rw [if_pos rfl]
    refine sameCtx_safe (by rw [c4]; exact k3.1.length) ?_
    exact pop_pure (h3.tok h4) fun s5 h5 c5 _ => StQ.done h5 (by rw [c5, c4]; exact k3)

/-- What compiling a statement does, with the names. -/
def ST' (Z : Base) (B : UB → Prop) (D : Nat) (st : CM Bool) : Prop := ∀ s, Inv Z B s → D ≤ s.depth → CSafe B st s (StQ Z B (Scoped s.toks) s)

theorem ST'.st {D : Nat} {st : CM Bool} (h : ST' Z B D st) : ST Z B D st := fun s hi hd =>
  (h s hi hd).mono fun _ _ ⟨h1, h2, h3⟩ => ⟨h1, h2.1, h3⟩

theorem pushRec_toks (h : Adv Z B k p s s1) : CSafe B pushRec s1 fun ok s2 => s2.toks = s1.toks ∧ s2.ctx = s1.ctx ∧
    if ok then Adv Z B (k + 1) p s s2 ∧ s1.depth ≤ 256 else Adv Z B k p s s2 ∧ s2.vm.errors ≠ [] := by
  unfold pushRec
  refine CSafe.cget ?_
  by_cases hd : s1.depth > 256
  · rw [if_pos hd]
    exact CSafe.err ⟨rfl, rfl, h.err' _⟩
  · rw [if_neg hd]
    exact CSafe.cmod ⟨rfl, rfl, { h with inv := h.inv.dep _, depth := by have := h.depth; show _ ≤ s1.depth + 1; omega }, by omega⟩

theorem statementBody_step (hL : B .longjmp) (hO : B .overflow) {F : FloatOps} {D : Nat} {st : CM Bool} (hst : D ≤ 256 → ST Z B (D + 1) st) :
    ST' Z B D (statementBody F st) := by
  intro s h hd
  have hne := h.wf.ctx
  unfold statementBody
  refine CSafe.cget ?_
  dsimp only
  refine (pushRec_toks (Adv.refl h)).bind fun ok s1 ⟨t1, c1, h1⟩ => ?_
  cases ok with
  | false => exact CSafe.pure (StQ.fail h1.1 (Keeps.scope ((Same.of_eq c1).keeps hne)) h1.2)
  | true =>
    rw [if_pos rfl]
    obtain ⟨h1, hdep⟩ := h1
    replace hst := hst (by omega)
    have hfd : FDS Z B (D + 1) (functionDef st true) := fun s hi hd => (functionDef_step hL hst true hi hd).mono fun o s' ⟨a, b, _⟩ => ⟨a, b⟩
    have hce : ∀ d, CE Z B (D + 1) (compileExpr F (functionDef st true) d) := fun d s hi hd => compileExpr_step hL hO hfd d hi hd
    have hci : CI Z B (D + 1) (compileNoEmit F (functionDef st true) true) := fun s hi hd => compileNoEmit_step hO hfd true hi hd
    have hd1 : D + 1 ≤ s1.depth := by have := h1.depth; omega
    have kk : ∀ b, Keeps s1.ctx b → CtxTo s.ctx b ∧ Scoped s.toks s.ctx b := by
      intro b hb
      rw [c1] at hb
      exact ⟨hb.1, hb.scope⟩
    have ex : CSafe B (exprStmt (compileExpr F (functionDef st true) true) s.ctx.length) s1 (StQ Z B (Scoped s.toks) s) :=
      (exprStmt_step hL (hce true) h1 c1 hd1).mono fun _ _ ⟨a, b, c⟩ => ⟨a, b.scope, c⟩
    have lift : ∀ {b : Bool} {s2 : CS}, StQ Z B Keeps s1 b s2 → StQ Z B (Scoped s.toks) s b s2 := fun ⟨a, b, c⟩ =>
      ⟨(h1.trans a).weaken (by omega) (by omega), (kk _ b).2, c⟩
    refine CSafe.curType ?_
    split
    · refine (err_step h1 _).bind fun _ s2 ⟨h2, c2, e2⟩ => CSafe.pure (StQ.fail h2 ?_ e2)
      rw [c2, c1]; exact ((Same.refl _).keeps hne).scope
    · next ht =>
      refine (varDecl_step hL (hce false) h1.inv hd1).mono fun b s2 ⟨a, b, c⟩ => ⟨(h1.trans a).weaken (by omega) (by omega), ?_, c⟩
      rw [c1] at b
      exact ⟨b, fun hn => absurd (.inl (by rw [← t1]; exact ht)) hn⟩
    · exact (returnStmt_step hL (hce false) h1.inv hd1).mono fun b s2 h2 => lift h2
    · exact (block_step hL hst h1.inv hd1).bind fun b s2 h2 => stmtEnd_step kk h1 h2
    · exact (ifStmt_step hL hst (hce false) h1.inv hd1).bind fun b s2 h2 => stmtEnd_step kk h1 h2
    · exact (whileStmt_step hL hst (hce false) h1.inv hd1).bind fun b s2 h2 => stmtEnd_step kk h1 h2
    · exact (doStmt_step hL hst (hce false) h1.inv hd1).bind fun b s2 h2 => stmtEnd_step kk h1 h2
    · exact (forStmt_step hL hst (hce false) hci h1.inv hd1).bind fun b s2 h2 => stmtEnd_step kk h1 h2
    · exact (breakStmt_step hL h1.inv).bind fun b s2 h2 => stmtEnd_step kk h1 h2
    · next ht =>
      refine CSafe.bind (P := fun a s2 => a = typeOf s1.toks.tail ∧ s2 = s1)
        (CSafe.ok (a := typeOf s1.toks.tail) (s' := s1) rfl ⟨rfl, rfl⟩) fun a s2 ⟨ha, hs2⟩ => ?_
      subst hs2
      split
      · next hp =>
        refine (functionDef_step hL hst false h1.inv hd1).bind fun o s2 ⟨a, b, c⟩ => ?_
        refine stmtEnd_step (R := CtxTo) (fun b hb => ?_) h1 ⟨a, b, fun ho => c (by simpa using ho)⟩
        rw [c1] at hb
        exact ⟨hb, hb, fun hn => absurd (.inr ⟨by rw [← t1]; exact ht, by rw [← t1, ← ha]; exact hp⟩) hn⟩
      · exact ex
    · exact ex

theorem statement_step (hL : B .longjmp) (hO : B .overflow) (F : FloatOps) : ∀ (n D : Nat), 258 ≤ n + D → 1 ≤ n → ST' Z B D (statement F n)
  | 0, _, _, h => by omega
  | n + 1, D, h1, _ => by
    unfold statement
    exact statementBody_step hL hO fun hd => (statement_step hL hO F n (D + 1) (by omega) (by omega)).st

theorem script_step {D : Nat} {st : CM Bool} (hst : ST Z B D st) (h : Inv Z B s) (hd : D ≤ s.depth) :
    CSafe B (script st) s fun b s' => Adv Z B 0 0 s s' ∧ CtxTo s.ctx s'.ctx ∧ (b = false → s'.vm.errors ≠ []) := by
  have hne := h.wf.ctx
  unfold script
  refine CSafe.cget ?_
  refine (pushRec_step (Adv.refl h)).bind fun ok s1 ⟨c1, h1⟩ => ?_
  cases ok with
  | false => exact CSafe.pure ⟨h1.1, by rw [c1]; exact CtxTo.refl hne, fun _ => h1.2⟩
  | true =>
    rw [if_pos rfl]
    replace h1 := h1.1
    refine CSafe.cget ?_
    have := h1.depth
    refine (blockLoop_step hst _ h1.inv (by omega) (by omega)).bind fun b s2 ⟨h2, c2, e2⟩ => ?_
    rw [c1] at c2
    have h12 : Adv Z B 1 0 s s2 := h1.zero h2
    cases b with
    | false => exact pop_pure h12 fun s3 h3 c3 e3 => ⟨h3, by rw [c3]; exact c2, fun _ => by rw [e3]; exact e2 rfl⟩
    | true =>
      rw [if_pos rfl]
      refine CSafe.curType ?_
      split
      · refine (err_step h12 _).bind fun _ s3 ⟨h3, c3, e3⟩ => CSafe.pure ⟨h3.weaken (by omega) (by omega), by rw [c3]; exact c2, fun _ => e3⟩
      · refine sameCtx_safe c2.length ?_
        exact pop_pure h12 fun s3 h3 c3 e3 => ⟨h3, by rw [c3]; exact c2, (fun h => nomatch h)⟩

end Nk.Cc
