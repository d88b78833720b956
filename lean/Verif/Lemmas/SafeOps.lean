import Verif.Lemmas.Safe
/-!
# Safety of the instructions
-/
namespace Nk
variable {B : UB → Prop} {n : Nat} {vm : VM} (F : FloatOps) (H : Host)

/-! ## New objects -/

theorem I.addObject (h : I n vm) {i : Nat} {t : Table Obj} {g : GCInfo} (hw : t.WF) (hn : vm.objects.entry i = none)
    (he : ∀ j, t.entry j = if j = i then some Obj.init else vm.objects.entry j)
    (hg : g.lastGCPass = vm.gc.lastGCPass) : I n { vm with objects := t, gc := g } := by
  obtain ⟨ty, ht1, ht2, ht3, ht4⟩ := h.inv.heap.co.type
  refine ⟨⟨⟨⟨h.str.tab, h.str.blen, h.str.nodup, h.str.mem, h.str.hash, h.str.bucket, h.str.inj⟩, hw, ?_,
    h.inv.heap.statics, ?_, ?_, ?_⟩, h.inv.instrs, ?_, h.inv.natives, ?_⟩, ?_⟩
  · refine ⟨h.inv.heap.co.root, h.inv.heap.co.stack, ?_, ?_, h.inv.heap.co.chain, h.inv.heap.co.type⟩
    · intro j x hx hco
      have hx : t.entry j = some x := hx
      rw [he] at hx
      by_cases hj : j = i
      · rw [if_pos hj] at hx; cases hx
        exact absurd hco.symm ht4
      · rw [if_neg hj] at hx; exact h.inv.heap.co.own j x hx hco
    · intro k c hk hc
      obtain ⟨j, x, g1, g2, g3⟩ := h.inv.heap.co.owned k c hk hc
      refine ⟨j, x, g1, ?_, g3⟩
      show t.entry j = some x
      have : j ≠ i := by rintro rfl; rw [hn] at g2; cases g2
      rw [he, if_neg this]; exact g2
  · intro j hj
    obtain ⟨x, hx⟩ := h.inv.heap.handles j hj
    refine ⟨x, ?_⟩
    show t.entry j = some x
    have : j ≠ i := by rintro rfl; rw [hn] at hx; cases hx
    rw [he, if_neg this]; exact hx
  · intro j x hx
    have hx : t.entry j = some x := hx
    show x.lastGCPass ≤ g.lastGCPass
    rw [he] at hx
    by_cases hj : j = i
    · rw [if_pos hj] at hx; cases hx
      exact Nat.zero_le _
    · rw [if_neg hj] at hx; rw [hg]; exact h.inv.heap.passO j x hx
  · intro j x hx
    show x.lastGCPass ≤ g.lastGCPass
    rw [hg]; exact h.inv.heap.passS j x hx
  · intro j x hx
    have hx : t.entry j = some x := hx
    rw [he] at hx
    by_cases hj : j = i
    · rw [if_pos hj] at hx; cases hx; rfl
    · rw [if_neg hj] at hx; exact h.inv.buckets j x hx
  · rcases h.inv.sizes with h1 | h1
    · exact .inl h1
    · refine .inr fun j x hx => ?_
      have hx : t.entry j = some x := hx
      rw [he] at hx
      by_cases hj : j = i
      · rw [if_pos hj] at hx; cases hx; exact ⟨rfl, by decide⟩
      · rw [if_neg hj] at hx; exact h1 j x hx
  · show g.lastGCPass = n
    rw [hg]; exact h.pass

theorem createObject_safe (h : I n vm) : Safe B createObject vm (fun id vm' => I n vm' ∧ vm'.ctxs = vm.ctxs ∧
    vm'.cur = vm.cur ∧ vm'.coType = vm.coType ∧
    (vm'.objects.entry id = some Obj.init ∨ (id = UINT_MAX ∧ vm'.objects = vm.objects))) := by
  unfold createObject
  refine Safe.get ?_
  rcases Table.add_spec h.tab Obj.init with ⟨i, t, h1, h2, h3, h4, h5, _⟩ | ⟨h1, h2, h3⟩
  · rw [h1]
    refine (Safe.ok (Q := fun a v => a = (some i, t) ∧ v = vm) (liftR_ok _ _) ⟨rfl, rfl⟩).bind ?_
    rintro _ v ⟨rfl, rfl⟩
    refine (Safe.ok (Q := fun _ w => w = { v with
      objects := t
      gc := { v.gc with newObjCountdown := v.gc.newObjCountdown - 1 } }) (modify_run _ _) rfl).bind ?_
    rintro _ w rfl
    refine Safe.pure ⟨h.addObject h2 h3 h5 rfl, rfl, rfl, rfl, .inl ?_⟩
    show t.entry i = _
    rw [h5, if_pos rfl]
  · rw [h1]
    refine (Safe.ok (Q := fun a v => a = (none, vm.objects) ∧ v = vm) (liftR_ok _ _) ⟨rfl, rfl⟩).bind ?_
    rintro _ v ⟨rfl, rfl⟩
    refine (Safe.ok (Q := fun _ w => w = v.addErr _) (addError_run _ _) rfl).bind ?_
    rintro _ w rfl
    exact Safe.pure ⟨h.addErr _, rfl, rfl, rfl, .inr ⟨rfl, rfl⟩⟩

theorem I.modIp (h : I n vm) (g : Ctx → Nat) :
    Safe B (Nk.modCur fun c => { c with ip := g c }) vm (fun _ vm' => I n vm' ∧ vm'.objects = vm.objects) :=
  h.modCur (fun _ => rfl) (fun _ => rfl) (fun _ => rfl)

/-! ## Arithmetic -/

theorem i32_ub {x : Int} {k : UB} (h : i32 x = .ub k) : k = .overflow := by
  unfold i32 at h
  split at h
  · cases h
  · cases h; rfl

theorem liftR_safe {α : Type} {r : Res α} (hr : ∀ k, r = .ub k → B k) :
    Safe B (liftR r) vm (fun _ vm' => vm' = vm) := by
  cases hx : r with
  | ok a => exact Safe.ok (liftR_ok a vm) rfl
  | ub k => exact Safe.ub (liftR_ub k vm) (hr k hx)

theorem intOp_safe (ho : B .overflow) (h : I n vm) (f : Int → Int → Int) (a b : BitVec 32) :
    Safe B (intOp f a b) vm (fun _ vm' => I n vm') := by
  unfold intOp
  refine (liftR_safe fun k hk => by rw [i32_ub hk]; exact ho).bind fun r v e => ?_
  subst e
  exact (pushInt_safe h r).mono fun _ _ h => h.i

theorem opAdd_safe (ho : B .overflow) (hc : B .cast) (h : I n vm) : Safe B (opAdd F) vm (fun _ vm' => I n vm') := by
  unfold opAdd
  refine (pop_safe h).bind fun b v1 h1 => ?_
  refine (pop_safe h1.i).bind fun a v2 h2 => ?_
  have h2 := h2.i
  cases a with
  | int i => exact (valueToInt_safe hc h2 b).bind fun j v3 h3 => intOp_safe ho h3.1 _ _ _
  | float x =>
    exact (valueToFloat_safe F h2 b).bind fun j v3 h3 => (push_safe h3.1 _).mono fun _ _ h => h.i
  | str id =>
    refine (getString_safe h2 id).bind fun s1 v3 e => ?_
    subst e
    exact (valueToString_safe F h2 b).bind fun s2 v4 h4 => pushString_safe h4.1 _
  | fn k => exact (addError_safe h2 _).mono fun _ _ h => h.i
  | obj k => exact (addError_safe h2 _).mono fun _ _ h => h.i
  | nil => exact (addError_safe h2 _).mono fun _ _ h => h.i
  | bad k r => exact (addError_safe h2 _).mono fun _ _ h => h.i

theorem opSub_safe (ho : B .overflow) (hc : B .cast) (h : I n vm) : Safe B (opSub F) vm (fun _ vm' => I n vm') := by
  unfold opSub
  refine (pop_safe h).bind fun b v1 h1 => ?_
  refine (pop_safe h1.i).bind fun a v2 h2 => ?_
  have h2 := h2.i
  cases a with
  | int i => exact (valueToInt_safe hc h2 b).bind fun j v3 h3 => intOp_safe ho h3.1 _ _ _
  | float x =>
    exact (valueToFloat_safe F h2 b).bind fun j v3 h3 => (push_safe h3.1 _).mono fun _ _ h => h.i
  | str id => exact (addError_safe h2 _).mono fun _ _ h => h.i
  | fn k => exact (addError_safe h2 _).mono fun _ _ h => h.i
  | obj k => exact (addError_safe h2 _).mono fun _ _ h => h.i
  | nil => exact (addError_safe h2 _).mono fun _ _ h => h.i
  | bad k r => exact (addError_safe h2 _).mono fun _ _ h => h.i

theorem opMul_safe (ho : B .overflow) (hc : B .cast) (h : I n vm) : Safe B (opMul F) vm (fun _ vm' => I n vm') := by
  unfold opMul
  refine (pop_safe h).bind fun b v1 h1 => ?_
  refine (pop_safe h1.i).bind fun a v2 h2 => ?_
  have h2 := h2.i
  cases a with
  | int i => exact (valueToInt_safe hc h2 b).bind fun j v3 h3 => intOp_safe ho h3.1 _ _ _
  | float x =>
    exact (valueToFloat_safe F h2 b).bind fun j v3 h3 => (push_safe h3.1 _).mono fun _ _ h => h.i
  | str id => exact (addError_safe h2 _).mono fun _ _ h => h.i
  | fn k => exact (addError_safe h2 _).mono fun _ _ h => h.i
  | obj k => exact (addError_safe h2 _).mono fun _ _ h => h.i
  | nil => exact (addError_safe h2 _).mono fun _ _ h => h.i
  | bad k r => exact (addError_safe h2 _).mono fun _ _ h => h.i

theorem opDiv_safe (ho : B .overflow) (hc : B .cast) (h : I n vm) : Safe B (opDiv F) vm (fun _ vm' => I n vm') := by
  unfold opDiv
  refine (pop_safe h).bind fun b v1 h1 => ?_
  refine (pop_safe h1.i).bind fun a v2 h2 => ?_
  have h2 := h2.i
  cases a with
  | int i =>
    refine (valueToInt_safe hc h2 b).bind fun j v3 h3 => ?_
    split
    · exact (addError_safe h3.1 _).mono fun _ _ h => h.i
    · exact intOp_safe ho h3.1 _ _ _
  | float x =>
    exact (valueToFloat_safe F h2 b).bind fun j v3 h3 => (push_safe h3.1 _).mono fun _ _ h => h.i
  | str id => exact (addError_safe h2 _).mono fun _ _ h => h.i
  | fn k => exact (addError_safe h2 _).mono fun _ _ h => h.i
  | obj k => exact (addError_safe h2 _).mono fun _ _ h => h.i
  | nil => exact (addError_safe h2 _).mono fun _ _ h => h.i
  | bad k r => exact (addError_safe h2 _).mono fun _ _ h => h.i

theorem opMod_safe (ho : B .overflow) (hc : B .cast) (h : I n vm) : Safe B opMod vm (fun _ vm' => I n vm') := by
  unfold opMod
  refine (pop_safe h).bind fun b v1 h1 => ?_
  refine (pop_safe h1.i).bind fun a v2 h2 => ?_
  have h2 := h2.i
  cases a with
  | int i =>
    refine (valueToInt_safe hc h2 b).bind fun j v3 h3 => ?_
    split
    · exact (addError_safe h3.1 _).mono fun _ _ h => h.i
    · exact intOp_safe ho h3.1 _ _ _
  | float x => exact (addError_safe h2 _).mono fun _ _ h => h.i
  | str id => exact (addError_safe h2 _).mono fun _ _ h => h.i
  | fn k => exact (addError_safe h2 _).mono fun _ _ h => h.i
  | obj k => exact (addError_safe h2 _).mono fun _ _ h => h.i
  | nil => exact (addError_safe h2 _).mono fun _ _ h => h.i
  | bad k r => exact (addError_safe h2 _).mono fun _ _ h => h.i

theorem opNeg_safe (ho : B .overflow) (h : I n vm) : Safe B opNeg vm (fun _ vm' => I n vm') := by
  unfold opNeg
  refine (pop_safe h).bind fun a v2 h2 => ?_
  have h2 := h2.i
  cases a with
  | int i =>
    refine (liftR_safe fun k hk => by rw [i32_ub hk]; exact ho).bind fun r v e => ?_
    subst e
    exact (pushInt_safe h2 r).mono fun _ _ h => h.i
  | float x => exact (push_safe h2 _).mono fun _ _ h => h.i
  | str id => exact (addError_safe h2 _).mono fun _ _ h => h.i
  | fn k => exact (addError_safe h2 _).mono fun _ _ h => h.i
  | obj k => exact (addError_safe h2 _).mono fun _ _ h => h.i
  | nil => exact (addError_safe h2 _).mono fun _ _ h => h.i
  | bad k r => exact (addError_safe h2 _).mono fun _ _ h => h.i

/-! ## Literals, stack and global variables, jumps -/

theorem instrAt_ok (h : I n vm) (ip : Nat) : ∃ w, instrAt vm ip = .ok w := by
  have hlt : ip &&& vm.instrMask < vm.instrs.length := by
    rw [h.inv.instrs]
    exact Nat.lt_succ_of_le Nat.and_le_right
  unfold instrAt
  rw [List.getElem?_eq_getElem hlt]
  exact ⟨_, rfl⟩

theorem slot_ip {vm : VM} {i : Nat} (h : Slot vm i) {c : Ctx} (hc : vm.At c) (ip : Nat) :
    Slot (vm.setC { c with ip := ip }) i := by
  obtain ⟨c', hc', hi⟩ := h
  have : c' = c := by unfold VM.At at *; rw [hc] at hc'; cases hc'; rfl
  subst this
  exact ⟨_, hc.setC _, hi⟩

theorem opPushLiteral_safe (h : I n vm) (mk : BitVec 32 → Value) :
    Safe B (opPushLiteral mk) vm (fun _ vm' => I n vm') := by
  unfold opPushLiteral
  refine (pushSlot_safe h).bind fun i v1 ⟨h1, hs⟩ => ?_
  obtain ⟨c, hc, hw⟩ := h1.i.cur
  refine (Safe.ok (Q := fun _ v => v = v1.setC { c with ip := u32 (c.ip + 1) }) (modCur_at hc _) rfl).bind ?_
  rintro _ v rfl
  have h2 : I n (v1.setC { c with ip := u32 (c.ip + 1) }) := h1.i.setC hc hw rfl rfl
  refine (curCtx_safe h2).bind fun c' v3 ⟨e, hc', _⟩ => ?_
  subst e
  refine Safe.get ?_
  obtain ⟨w, hw⟩ := instrAt_ok h2 c'.ip
  rw [hw]
  refine (Safe.ok (Q := fun _ v => v = _) (liftR_ok _ _) rfl).bind ?_
  rintro _ v rfl
  exact (pokeAt_safe h2 (slot_ip hs hc _) _).mono fun _ _ h => h.i

theorem opPopN_safe (hc : B .cast) (h : I n vm) : Safe B opPopN vm (fun _ vm' => I n vm') := by
  unfold opPopN
  refine (pop_safe h).bind fun v v1 h1 => ?_
  refine (valueToInt_safe hc h1.i v).bind fun k v2 h2 => ?_
  exact (popN_safe h2.1 _).mono fun _ _ h => h.i

theorem opStackPeek_safe (h : I n vm) : Safe B opStackPeek vm (fun _ vm' => I n vm') := by
  unfold opStackPeek
  refine (pop_safe h).bind fun v v1 h1 => ?_
  have h1 := h1.i
  split
  · refine (curStack_safe h1).bind fun s v2 ⟨e, _⟩ => ?_
    subst e
    refine (peek_safe h1 _).bind fun x v3 e => ?_
    subst e
    exact (push_safe h1 x).mono fun _ _ h => h.i
  · exact (addError_safe h1 _).mono fun _ _ h => h.i

theorem opStackPoke_safe (h : I n vm) : Safe B opStackPoke vm (fun _ vm' => I n vm') := by
  unfold opStackPoke
  refine (pop_safe h).bind fun v v1 h1 => ?_
  have h1 := h1.i
  split
  · refine (curStack_safe h1).bind fun s v2 ⟨e, _⟩ => ?_
    subst e
    refine (peek_safe h1 _).bind fun x v3 e => ?_
    subst e
    exact (poke_safe h1 _ x).mono fun _ _ h => h.i
  · exact (addError_safe h1 _).mono fun _ _ h => h.i

theorem static_lt (h : I n vm) (i : Nat) : i &&& vm.staticMask < vm.statics.length := by
  rw [h.inv.heap.statics]
  exact Nat.lt_succ_of_le Nat.and_le_right

theorem opStaticPeek_safe (h : I n vm) : Safe B opStaticPeek vm (fun _ vm' => I n vm') := by
  unfold opStaticPeek
  refine (pop_safe h).bind fun v v1 h1 => ?_
  have h1 := h1.i
  split
  · next i =>
    refine Safe.get ?_
    rw [List.getElem?_eq_getElem (static_lt h1 i.toNat)]
    exact (push_safe h1 _).mono fun _ _ h => h.i
  · exact (addError_safe h1 _).mono fun _ _ h => h.i

theorem opStaticPoke_safe (h : I n vm) : Safe B opStaticPoke vm (fun _ vm' => I n vm') := by
  unfold opStaticPoke
  refine (pop_safe h).bind fun v v1 h1 => ?_
  have h1 := h1.i
  split
  · next i =>
    refine (curStack_safe h1).bind fun s v2 ⟨e, _⟩ => ?_
    subst e
    refine (peek_safe h1 _).bind fun x v3 e => ?_
    subst e
    refine Safe.get ?_
    simp only [static_lt h1 i.toNat, if_true]
    exact Safe.ok (modify_run _ _) (h1.set_statics (by simp))
  · exact (addError_safe h1 _).mono fun _ _ h => h.i

theorem opJump_safe (hc : B .cast) (h : I n vm) : Safe B opJump vm (fun _ vm' => I n vm') := by
  unfold opJump
  refine (pop_safe h).bind fun v v1 h1 => ?_
  refine (valueToInt_safe hc h1.i v).bind fun k v2 h2 => ?_
  exact (h2.1.modIp _).mono fun _ _ h => h.1

theorem opJz_safe (hc : B .cast) (h : I n vm) : Safe B opJz vm (fun _ vm' => I n vm') := by
  unfold opJz
  refine (pop_safe h).bind fun v v1 h1 => ?_
  refine (pop_safe h1.i).bind fun w v2 h2 => ?_
  refine (valueToInt_safe hc h2.i w).bind fun k v3 h3 => ?_
  split
  · refine (valueToInt_safe hc h3.1 v).bind fun k v4 h4 => ?_
    exact (h4.1.modIp _).mono fun _ _ h => h.1
  · exact Safe.pure h3.1

/-! ## Comparison and logic -/

theorem popCompare_safe (hc : B .cast) (h : I n vm) : Safe B (popCompare F) vm (fun _ vm' => I n vm') := by
  unfold popCompare
  refine (pop_safe h).bind fun v v1 h1 => ?_
  refine (pop_safe h1.i).bind fun w v2 h2 => ?_
  exact (valueCompare_safe F hc h2.i _ _ _).mono fun _ _ h => h.1

theorem opCompare_safe (hc : B .cast) (h : I n vm) (p : Int → Bool) :
    Safe B (opCompare F p) vm (fun _ vm' => I n vm') := by
  unfold opCompare
  refine (popCompare_safe F hc h).bind fun v v1 h1 => ?_
  exact (pushInt_safe h1 _).mono fun _ _ h => h.i

theorem opEqSameType_safe (hc : B .cast) (h : I n vm) : Safe B (opEqSameType F) vm (fun _ vm' => I n vm') := by
  unfold opEqSameType
  refine (curStack_safe h).bind fun s v2 ⟨e, _⟩ => ?_
  subst e
  refine (peek_safe h _).bind fun x v3 e => ?_
  subst e
  refine (peek_safe h _).bind fun y v3 e => ?_
  subst e
  split
  · refine (popCompare_safe F hc h).bind fun v v1 h1 => ?_
    exact (pushInt_safe h1 _).mono fun _ _ h => h.i
  · refine (popN_safe h 2).bind fun v v1 h1 => ?_
    exact (pushInt_safe h1.i _).mono fun _ _ h => h.i

theorem opNot_safe (hc : B .cast) (h : I n vm) : Safe B opNot vm (fun _ vm' => I n vm') := by
  unfold opNot
  refine (pop_safe h).bind fun v v1 h1 => ?_
  refine (valueToInt_safe hc h1.i v).bind fun k v2 h2 => ?_
  exact (pushInt_safe h2.1 _).mono fun _ _ h => h.i

theorem opAnd_safe (hc : B .cast) (h : I n vm) : Safe B opAnd vm (fun _ vm' => I n vm') := by
  unfold opAnd
  refine (pop_safe h).bind fun v v1 h1 => ?_
  refine (valueToInt_safe hc h1.i v).bind fun k v2 h2 => ?_
  refine (pop_safe h2.1).bind fun v v1 h1 => ?_
  refine (valueToInt_safe hc h1.i v).bind fun k v2 h2 => ?_
  exact (pushInt_safe h2.1 _).mono fun _ _ h => h.i

theorem opOr_safe (hc : B .cast) (h : I n vm) : Safe B opOr vm (fun _ vm' => I n vm') := by
  unfold opOr
  refine (pop_safe h).bind fun v v1 h1 => ?_
  refine (valueToInt_safe hc h1.i v).bind fun k v2 h2 => ?_
  refine (pop_safe h2.1).bind fun v v1 h1 => ?_
  refine (valueToInt_safe hc h1.i v).bind fun k v2 h2 => ?_
  exact (pushInt_safe h2.1 _).mono fun _ _ h => h.i

/-! ## Objects -/

theorem opCreateObject_safe (h : I n vm) : Safe B opCreateObject vm (fun _ vm' => I n vm') := by
  unfold opCreateObject
  refine (pushSlot_safe h).bind fun i v1 ⟨h1, hs⟩ => ?_
  refine (createObject_safe h1.i).bind fun id v2 ⟨h2, e1, e2, _⟩ => ?_
  exact (pokeAt_safe h2 (hs.congr e1 e2) _).mono fun _ _ h => h.i

theorem opFieldGet_safe (hc : B .cast) (h : I n vm) (po : Bool) :
    Safe B (opFieldGet F po) vm (fun _ vm' => I n vm') := by
  unfold opFieldGet
  refine (pop_safe h).bind fun key v1 h1 => ?_
  have h1 := h1.i
  have hpk : Safe B (if po = true then pop else do
    let s ← curStack
    peek (usub s.size 1)) v1 (fun _ vm' => I n vm') := by
    cases po with
    | true => exact (pop_safe h1).mono fun _ _ h => h.i
    | false =>
      refine (curStack_safe h1).bind fun s v2 ⟨e, _⟩ => ?_
      subst e
      exact (peek_safe h1 _).mono fun _ _ e => by subst e; exact h1
  refine hpk.bind fun o v2 h2 => ?_
  split
  · next id =>
    refine (getObj_safe h2 id).bind fun x v3 ⟨e1, e2⟩ => ?_
    subst e1
    cases x with
    | none => exact (addError_safe h2 _).mono fun _ _ h => h.i
    | some ob =>
      refine (pushSlot_safe h2).bind fun i v4 ⟨h4, hs⟩ => ?_
      refine (lookupField_safe F hc h4.i (o := ob) (by rw [h4.obj]; exact e2.symm) key).bind fun r v5 ⟨h5, hx⟩ => ?_
      exact (pokeAt_safe h5 (hs.congr hx.ctxs hx.cur) _).mono fun _ _ h => h.i
  · exact (addError_safe h2 _).mono fun _ _ h => h.i

theorem opFieldSet_safe (hc : B .cast) (hA : B .assert ∨ SizesOK vm) (h : I n vm) :
    Safe B (opFieldSet F) vm (fun _ vm' => I n vm') := by
  unfold opFieldSet
  refine (pop_safe h).bind fun key v1 h1 => ?_
  refine (pop_safe h1.i).bind fun o v2 h2 => ?_
  refine (pop_safe h2.i).bind fun v v3 h3 => ?_
  have hob : v3.objects = vm.objects := h3.obj.trans (h2.obj.trans h1.obj)
  have h3 := h3.i
  split
  · next id =>
    refine (getObj_safe h3 id).bind fun x v4 ⟨e1, e2⟩ => ?_
    subst e1
    cases x with
    | none => exact (addError_safe h3 _).mono fun _ _ h => h.i
    | some ob =>
      refine (storeField_safe F hc (hA.imp (fun x => x) fun hk => by unfold SizesOK; rw [hob]; exact hk) h3 e2.symm key v).bind
        fun _ v5 h5 => ?_
      exact (push_safe h5 v).mono fun _ _ h => h.i
  · exact (addError_safe h3 _).mono fun _ _ h => h.i

theorem opPrepareSelfCall_safe (hc : B .cast) (h : I n vm) : Safe B opPrepareSelfCall vm (fun _ vm' => I n vm') := by
  unfold opPrepareSelfCall
  refine (curStack_safe h).bind fun s v2 ⟨e, _⟩ => ?_
  subst e
  refine (peek_safe h _).bind fun x v3 e => ?_
  subst e
  refine (valueToInt_safe hc h x).bind fun k v4 h4 => ?_
  refine (peek_safe h4.1 _).bind fun x v3 e => ?_
  subst e
  refine (peek_safe h4.1 _).bind fun y v3 e => ?_
  subst e
  refine (poke_safe h4.1 _ _).bind fun _ v5 h5 => ?_
  refine (poke_safe h5.i _ _).bind fun _ v6 h6 => ?_
  exact (poke_safe h6.i _ _).mono fun _ _ h => h.i

theorem opLen_safe (h : I n vm) : Safe B opLen vm (fun _ vm' => I n vm') := by
  unfold opLen
  refine (pop_safe h).bind fun v v1 h1 => ?_
  refine (pushSlot_safe h1.i).bind fun i v2 ⟨h2, hs⟩ => ?_
  split
  · refine (objectSize_safe h2.i _).bind fun k v3 ⟨h3, hx⟩ => ?_
    exact (pokeAt_safe h3 (hs.congr hx.ctxs hx.cur) _).mono fun _ _ h => h.i
  · exact (addError_safe h2.i _).mono fun _ _ h => h.i

theorem opEnd_safe (h : I n vm) : Safe B opEnd vm (fun _ vm' => I n vm') := by
  unfold opEnd
  refine (curStack_safe h).bind fun s v1 ⟨e, _⟩ => ?_
  subst e
  dsimp only
  split
  · exact (addError_safe h _).bind fun _ v2 h2 => (h2.i.modIp _).mono fun _ _ h => h.1
  · exact (h.modIp _).mono fun _ _ h => h.1

theorem opReturn_safe (hc : B .cast) (h : I n vm) : Safe B opReturn vm (fun _ vm' => I n vm') := by
  unfold opReturn
  refine (pop_safe h).bind fun cnt v1 h1 => ?_
  refine (pop_safe h1.i).bind fun rv v2 h2 => ?_
  refine (valueToInt_safe hc h2.i cnt).bind fun k v3 h3 => ?_
  refine (popN_safe h3.1 _).bind fun _ v4 h4 => ?_
  refine (pop_safe h4.i).bind fun ra v5 h5 => ?_
  refine (valueToInt_safe hc h5.i ra).bind fun ra v6 h6 => ?_
  refine (pop_safe h6.1).bind fun ac v7 h7 => ?_
  refine (valueToInt_safe hc h7.i ac).bind fun ac v8 h8 => ?_
  refine (popN_safe h8.1 _).bind fun _ v9 h9 => ?_
  refine (pop_safe h9.i).bind fun _ v10 h10 => ?_
  have h10 := h10.i
  split
  · refine (h10.modCur (f := fun c => { c with state := .finished, ip := UINT_MAX }) (fun _ => rfl) (fun _ => rfl) (fun _ => rfl)).bind fun _ v11 h11 => ?_
    refine (popContext_safe h11.1).bind fun _ v12 h12 => ?_
    exact (push_safe h12 rv).mono fun _ _ h => h.i
  · refine (push_safe h10 rv).bind fun _ v11 h11 => ?_
    exact (h11.i.modIp _).mono fun _ _ h => h.1

/-! ## Calls -/

theorem shiftArgs_safe (base : Nat) (k : Nat) : ∀ {vm : VM}, I n vm →
    Safe B (shiftArgs base k) vm (fun _ vm' => I n vm') := by
  induction k with
  | zero => intro vm h; exact Safe.pure h
  | succ k ih =>
    intro vm h
    rw [shiftArgs.eq_2]
    refine (peek_safe h _).bind fun v v1 e => ?_
    subst e
    exact (poke_safe h _ v).bind fun _ v2 h2 => ih h2.i

theorem resolveCallable_safe (hc : B .cast) (r : Nat) : ∀ (argc : Nat) (v : Value) {vm : VM}, I n vm →
    Safe B (resolveCallable F r argc v) vm (fun _ vm' => I n vm') := by
  induction r with
  | zero =>
    intro argc v vm h
    cases v with
    | obj id =>
      rw [resolveCallable]
      exact (addError_safe h _).bind fun _ v1 h1 => Safe.pure h1.i
    | _ => exact Safe.pure h
  | succ r ih =>
    intro argc v vm h
    cases v with
    | obj id =>
      rw [resolveCallable]
      refine (findOrAddString_safe h _).bind fun kx v1 h1 => ?_
      refine (lookupPublic_safe F hc h1.1 _ _).bind fun f v2 h2 => ?_
      refine (findOrAddString_safe h2.1 _).bind fun kd v3 h3 => ?_
      refine (lookupPublic_safe F hc h3.1 _ _).bind fun d v4 h4 => ?_
      cases d with
      | none =>
        cases f with
        | none => exact Safe.pure h4.1
        | some f => exact ih _ _ h4.1
      | some d =>
        simp only []
        split
        · exact (addError_safe h4.1 _).bind fun _ v1 h1 => Safe.pure h1.i
        · refine (pushSlot_safe h4.1).bind fun _ v5 h5 => ?_
          refine (curStack_safe h5.1.i).bind fun s v6 ⟨e, _⟩ => ?_
          subst e
          refine (shiftArgs_safe _ _ h5.1.i).bind fun _ v7 h7 => ?_
          refine (poke_safe h7 _ _).bind fun _ v8 h8 => ?_
          refine (poke_safe h8.i _ _).bind fun _ v9 h9 => ?_
          cases f with
          | none => exact Safe.pure h9.i
          | some f => exact ih _ _ h9.i
    | _ => exact Safe.pure h

theorem copyArgs_safe (base : Nat) (k : Nat) : ∀ (i : Nat) {vm : VM}, I n vm →
    Safe B (copyArgs base i k) vm (fun l vm' => vm' = vm ∧ l.length = k) := by
  induction k with
  | zero => intro i vm h; exact Safe.pure ⟨rfl, rfl⟩
  | succ k ih =>
    intro i vm h
    rw [copyArgs.eq_2]
    refine (peek_safe h _).bind fun v v1 e => ?_
    subst e
    refine (ih (i + 1) h).bind fun vs v2 ⟨e, hl⟩ => ?_
    subst e
    exact Safe.pure ⟨rfl, by simp [hl]⟩

theorem checkArgs_safe (f : ExtFunc) (l : List Value) : ∀ (i : Nat) {vm : VM}, I n vm →
    i + l.length ≤ f.argTypes.length → i + l.length ≤ f.argExtTypes.length →
    Safe B (checkArgs f i l) vm (fun _ vm' => I n vm') := by
  induction l with
  | nil => intro i vm h _ _; exact Safe.pure h
  | cons v vs ih =>
    intro i vm h h1 h2
    simp only [List.length_cons] at h1 h2
    rw [checkArgs.eq_2, List.getElem?_eq_getElem (by omega), List.getElem?_eq_getElem (by omega)]
    simp only []
    split
    · exact ih (i + 1) h (by omega) (by omega)
    · split
      · exact (addError_safe h _).bind fun _ v1 h1 => Safe.pure h1.i
      · split
        · refine (getObj_safe h _).bind fun x v3 ⟨e1, e2⟩ => ?_
          subst e1
          cases x with
          | none => exact (addError_safe h _).bind fun _ v1 h1 => Safe.pure h1.i
          | some o =>
            simp only []
            split
            · exact (addError_safe h _).bind fun _ v1 h1 => Safe.pure h1.i
            · exact ih (i + 1) h (by omega) (by omega)
        · exact ih (i + 1) h (by omega) (by omega)

/-- States that are in order, whatever the pass number. -/
abbrev Post (_ : Unit) (vm : VM) : Prop := ∃ m, I m vm

variable {K : UB → Prop} (hH : HostOK H K) (hK : ∀ k, K k → B k)
include hH hK

theorem callNative_safe (h : I n vm) (hn : n + 1 < 4294967296) (extId argc : Nat) :
    Safe B (callNative H extId argc) vm Post := by
  unfold callNative
  refine Safe.get ?_
  cases hf : vm.extFuncs[extId]? with
  | none => exact (addError_safe h _).mono fun _ _ h => ⟨_, h.i⟩
  | some f =>
    simp only []
    cases hcb : f.callback with
    | none => exact (addError_safe h _).mono fun _ _ h => ⟨_, h.i⟩
    | some cb =>
      simp only []
      refine (curStack_safe h).bind fun s v1 ⟨e, _⟩ => ?_
      subst e
      refine (copyArgs_safe _ _ _ h).bind fun args v2 ⟨e, hl⟩ => ?_
      subst e
      refine Safe.bind (Q := fun _ v => I n v) ?_ ?_
      · split
        · next hne =>
          have hnat := h.inv.natives f (List.mem_of_getElem? hf) hne
          split
          · exact (addError_safe h _).bind fun _ v1 h1 => Safe.pure h1.i
          · next heq =>
            have heq : f.argc = argc := by
              rcases Decidable.em (f.argc = argc) with h | h
              · exact h
              · exact absurd h heq
            exact checkArgs_safe f args 0 h (by rw [hnat.1, hl, heq]; omega) (by rw [hnat.2, hl, heq]; omega)
        · exact Safe.pure h
      · intro ok v3 h3
        split
        · refine Safe.bind (Q := fun _ v => ∃ m, I m v) ?_ ?_
          · have := hH cb args v3 h3.inv (by rw [h3.pass]; exact hn)
            unfold Safe
            split
            · next r v4 e => rw [e] at this; exact ⟨_, this, rfl⟩
            · next k e => rw [e] at this; exact hK k this
          · rintro r v4 ⟨m, h4⟩
            refine (popN_safe h4 _).bind fun _ v5 h5 => ?_
            exact (push_safe h5.i r).mono fun _ _ h => ⟨_, h.i⟩
        · exact Safe.pure ⟨_, h3⟩

theorem opCall_safe (hc : B .cast) (h : I n vm) (hn : n + 1 < 4294967296) : Safe B (opCall F H) vm Post := by
  unfold opCall
  refine (curStack_safe h).bind fun s v1 ⟨e, _⟩ => ?_
  subst e
  refine (peek_safe h _).bind fun x v3 e => ?_
  subst e
  refine (valueToInt_safe hc h x).bind fun k v4 h4 => ?_
  refine (peek_safe h4.1 _).bind fun fv v3 e => ?_
  subst e
  refine (resolveCallable_safe F hc 10 k.toNat fv h4.1).bind fun r v5 h5 => ?_
  split
  · exact Safe.pure ⟨_, h5⟩
  · refine Safe.get ?_
    split
    · exact (addError_safe h5 _).mono fun _ _ h => ⟨_, h.i⟩
    · next f hf =>
      split
      · exact (addError_safe h5 _).mono fun _ _ h => ⟨_, h.i⟩
      · split
        · exact callNative_safe H hH hK h5 hn _ _
        · refine (curCtx_safe h5).bind fun c v6 ⟨e, _⟩ => ?_
          subst e
          refine (pushInt_safe h5 _).bind fun _ v7 h7 => ?_
          exact (h7.i.modIp _).mono fun _ _ h => ⟨_, h.1⟩
  · exact (addError_safe h5 _).mono fun _ _ h => ⟨_, h.i⟩

/-! ## Coroutines -/

omit hH hK in
theorem ctxs_append {l : List (Option Ctx)} {x : Option Ctx} (j : Nat) :
    (l ++ [x])[j]? = if j < l.length then l[j]? else if j = l.length then some x else none := by
  by_cases h : j < l.length
  · rw [if_pos h, List.getElem?_append_left h]
  · rw [if_neg h, List.getElem?_append_right (by omega)]
    by_cases h2 : j = l.length
    · simp [h2]
    · rw [if_neg h2, List.getElem?_eq_none (by simp; omega)]

omit hH hK in
/-- A context that is gone again leaves no trace. -/
theorem I.append_none (h : I n vm) : I n { vm with ctxs := vm.ctxs ++ [none] } := by
  have key : ∀ (j : Nat) (c : Ctx), (vm.ctxs ++ [none])[j]? = some (some c) ↔ vm.ctxs[j]? = some (some c) := by
    intro j c
    rw [ctxs_append]
    split
    · exact Iff.rfl
    · next hj =>
      constructor
      · intro h; split at h <;> cases h
      · intro h; exact absurd (List.getElem?_eq_some_iff.mp h).1 hj
  have hco := h.inv.heap.co
  refine I.ctxs h ⟨?_, ?_, ?_, ?_, ?_, hco.type⟩
  · obtain ⟨r, h1, h2⟩ := hco.root
    exact ⟨r, (key 0 r).mpr h1, h2⟩
  · intro i c hc; exact hco.stack i c ((key i c).mp hc)
  · intro id o h1 h2
    obtain ⟨i, c, g1, g2, g3, g4⟩ := hco.own id o h1 h2
    exact ⟨i, c, g1, g2, (key i c).mpr g3, g4⟩
  · intro i c hi hc; exact hco.owned i c hi ((key i c).mp hc)
  · obtain ⟨l, a1, a2, a3, a4, a5⟩ := hco.chain
    refine ⟨l, a1, a2, a3, ?_, ?_⟩
    · intro m x y hx hy
      obtain ⟨d, d1, d2⟩ := a4 m x y hx hy
      exact ⟨d, (key x d).mpr d1, d2⟩
    · intro j d hd hn
      exact a5 j d ((key j d).mp hd) hn

/-- The context of a new coroutine. -/
def newCtx (id : Nat) : Ctx := { Ctx.init with coObj := .obj id, state := .created }

/-- The object of a new coroutine. -/
def newCo (vm : VM) : Obj := { Obj.init with extType := vm.coType, extData := some vm.ctxs.length }

omit hH hK in
/-- A new object becomes a coroutine. -/
theorem I.newCo (h : I n vm) {id : Nat} (he : vm.objects.entry id = some Obj.init) :
    I n (({ vm with ctxs := vm.ctxs ++ [some (newCtx id)] } : VM).setO id (newCo vm)) := by
  have hco := h.inv.heap.co
  obtain ⟨ty, _, _, _, hne⟩ := hco.type
  have hent := setO_entry (vm := { vm with ctxs := vm.ctxs ++ [some (newCtx id)] }) h.tab he (Nk.newCo vm)
  have hwf := setO_wf (vm := { vm with ctxs := vm.ctxs ++ [some (newCtx id)] }) h.tab he (Nk.newCo vm)
  have hgt : ∀ (j : Nat) (c : Ctx), vm.ctxs[j]? = some (some c) → (vm.ctxs ++ [some (newCtx id)])[j]? = some (some c) := by
    intro j c hj
    rw [ctxs_append, if_pos (List.getElem?_eq_some_iff.mp hj).1]; exact hj
  have hnew : (vm.ctxs ++ [some (newCtx id)])[vm.ctxs.length]? = some (some (newCtx id)) := by
    rw [ctxs_append]; simp
  have hinv : ∀ (j : Nat) (c : Ctx), (vm.ctxs ++ [some (newCtx id)])[j]? = some (some c) →
      vm.ctxs[j]? = some (some c) ∨ (j = vm.ctxs.length ∧ c = newCtx id) := by
    intro j c hj
    rw [ctxs_append] at hj
    split at hj
    · exact .inl hj
    · split at hj
      · next e => cases hj; exact .inr ⟨e, rfl⟩
      · cases hj
  obtain ⟨r, hr1, hr2, hr3⟩ := hco.root
  have hpos : vm.ctxs.length ≠ 0 := by
    have := (List.getElem?_eq_some_iff.mp hr1).1
    omega
  refine ⟨⟨⟨setO_strWF (vm := { vm with ctxs := vm.ctxs ++ [some (newCtx id)] })
    ⟨h.str.tab, h.str.blen, h.str.nodup, h.str.mem, h.str.hash, h.str.bucket, h.str.inj⟩ id _, hwf, ?_,
    h.inv.heap.statics, ?_, ?_, h.inv.heap.passS⟩, h.inv.instrs, ?_, h.inv.natives, ?_⟩, h.pass⟩
  · refine ⟨⟨r, hgt 0 r hr1, hr2, hr3⟩, ?_, ?_, ?_, ?_, hco.type⟩
    · intro i c hc
      rcases hinv i c hc with h1 | ⟨_, rfl⟩
      · exact hco.stack i c h1
      · exact Stack.init_wf
    · intro j x hx hty
      rw [hent] at hx
      by_cases hj : j = id
      · rw [if_pos hj] at hx; cases hx; subst hj
        exact ⟨vm.ctxs.length, newCtx j, rfl, hpos, hnew, rfl⟩
      · rw [if_neg hj] at hx
        obtain ⟨i, c, g1, g2, g3, g4⟩ := hco.own j x hx hty
        exact ⟨i, c, g1, g2, hgt i c g3, g4⟩
    · intro i c hi hc
      rcases hinv i c hc with h1 | ⟨rfl, rfl⟩
      · obtain ⟨j, x, g1, g2, g3⟩ := hco.owned i c hi h1
        have hj : j ≠ id := by
          rintro rfl
          rw [he] at g2; cases g2
          exact hne g3.1.symm
        exact ⟨j, x, g1, by rw [hent, if_neg hj]; exact g2, g3⟩
      · exact ⟨id, Nk.newCo vm, rfl, by rw [hent, if_pos rfl], rfl, rfl⟩
    · obtain ⟨l, a1, a2, a3, a4, a5⟩ := hco.chain
      refine ⟨l, a1, a2, a3, ?_, ?_⟩
      · intro m x y hx hy
        obtain ⟨d, d1, d2⟩ := a4 m x y hx hy
        exact ⟨d, hgt x d d1, d2⟩
      · intro j d hd hn
        rcases hinv j d hd with h1 | ⟨_, rfl⟩
        · exact a5 j d h1 hn
        · exact absurd rfl hn
  · intro j hj
    obtain ⟨x, hx⟩ := h.inv.heap.handles j hj
    rw [hent]
    by_cases hji : j = id
    · exact ⟨_, if_pos hji⟩
    · rw [if_neg hji]; exact ⟨x, hx⟩
  · intro j x hx
    rw [hent] at hx
    by_cases hji : j = id
    · rw [if_pos hji] at hx; cases hx; exact Nat.zero_le _
    · rw [if_neg hji] at hx; exact h.inv.heap.passO j x hx
  · intro j x hx
    rw [hent] at hx
    by_cases hji : j = id
    · rw [if_pos hji] at hx; cases hx; rfl
    · rw [if_neg hji] at hx; exact h.inv.buckets j x hx
  · rcases h.inv.sizes with h1 | h1
    · exact .inl h1
    · refine .inr fun j x hx => ?_
      rw [hent] at hx
      by_cases hji : j = id
      · rw [if_pos hji] at hx; cases hx; exact ⟨rfl, show (0:Nat) < 4294967296 by decide⟩
      · rw [if_neg hji] at hx; exact h1 j x hx

omit hH hK in
theorem setExtType_run {vm : VM} (h : vm.objects.WF) {id : Nat} {o : Obj} (he : vm.objects.entry id = some o) (t : Nat) :
    setExtType (.obj id) t vm = .ok (true, vm.setO id { o with extType := t }) := by
  unfold setExtType
  rw [M.bind_ok (objFromValue_obj h id), he]
  show (setObj id _ >>= _) vm = _
  rw [M.bind_ok (setObj_run h he _)]; rfl

omit hH hK in
theorem setExtData_run {vm : VM} (h : vm.objects.WF) {id : Nat} {o : Obj} (he : vm.objects.entry id = some o) (d : Nat) :
    setExtData (.obj id) d vm = .ok (true, vm.setO id { o with extData := some d }) := by
  unfold setExtData
  rw [M.bind_ok (objFromValue_obj h id), he]
  show (setObj id _ >>= _) vm = _
  rw [M.bind_ok (setObj_run h he _)]; rfl

omit hH hK in
theorem setExtType_none {vm : VM} (h : vm.objects.WF) {id : Nat} (he : vm.objects.entry id = none) (t : Nat) :
    setExtType (.obj id) t vm = .ok (false, vm.addErr "Bad object ID in nkiVmObjectSetExternalType.") := by
  unfold setExtType
  rw [M.bind_ok (objFromValue_obj h id), he]
  rfl

omit hH hK in
theorem clearExt_none {vm : VM} (h : vm.objects.WF) {id : Nat} (he : vm.objects.entry id = none) :
    clearExt (.obj id) vm = .ok (false, vm.addErr "Bad object ID in nkiVmObjectClearExternalType.") := by
  unfold clearExt
  rw [M.bind_ok (objFromValue_obj h id), he]
  rfl

omit hH hK in
theorem freeCtx_run {vm : VM} {k : Nat} {c : Ctx} (h : vm.ctxs[k]? = some (some c)) :
    freeCtx (some k) vm = .ok ((), { vm with ctxs := vm.ctxs.set k none }) := by
  unfold freeCtx
  simp only [ctxAt_iff.mpr h]

omit hH hK in
theorem entry_max {vm : VM} (h : vm.objects.WF) : vm.objects.entry UINT_MAX = none := by
  obtain ⟨k, hk, hc⟩ := h.pow
  have : vm.objects.cap ≤ 2147483648 := by
    rw [hc]; exact Nat.pow_le_pow_right (by decide) hk
  unfold Table.entry
  rw [List.getElem?_eq_none (by rw [h.len]; unfold UINT_MAX; omega)]
  rfl

theorem opCoroutineCreate_safe (hc : B .cast) (h : I n vm) (hn : n + 1 < 4294967296) :
    Safe B (opCoroutineCreate F H) vm Post := by
  unfold opCoroutineCreate
  refine (pop_safe h).bind fun ac v1 h1 => ?_
  refine (valueToInt_safe hc h1.i ac).bind fun argc v2 h2 => ?_
  split
  · exact (addError_safe h2.1 _).mono fun _ _ h => ⟨_, h.i⟩
  refine (curStack_safe h2.1).bind fun s v3 ⟨e, hs, _⟩ => ?_
  subst e
  have h2 := h2.1
  split
  · exact (addError_safe h2 _).mono fun _ _ h => ⟨_, h.i⟩
  split
  · next hbad => exact absurd hs.size (by rw [← hs.len]; omega)
  refine (popN_safe h2 _).bind fun _ v4 h4 => ?_
  refine (pop_safe h4.i).bind fun fv v5 h5 => ?_
  refine (pushSlot_safe h5.i).bind fun slot v6 ⟨h6, hslot⟩ => ?_
  refine (createObject_safe h6.i).bind fun id v7 ⟨h7, e1, e2, e3, hid⟩ => ?_
  refine (pokeAt_safe h7 (hslot.congr e1 e2) _).bind fun _ v8 h8 => ?_
  have hid : v8.objects.entry id = some Obj.init ∨ v8.objects.entry id = none := by
    rw [h8.obj]
    rcases hid with hid | ⟨rfl, _⟩
    · exact .inl hid
    · exact .inr (entry_max h7.tab)
  have h8 := h8.i
  refine Safe.get ?_
  refine (Safe.ok (Q := fun _ w => w = { v8 with ctxs := v8.ctxs ++ [some (newCtx id)] }) (modify_run _ _) rfl).bind ?_
  rintro _ w rfl
  have hwfo : ({ v8 with ctxs := v8.ctxs ++ [some (newCtx id)] } : VM).objects.WF := h8.tab
  have hnew : (v8.ctxs ++ [some (newCtx id)])[v8.ctxs.length]? = some (some (newCtx id)) := by
    rw [ctxs_append]; simp
  rcases hid with hid | hid
  · have he0 : ({ v8 with ctxs := v8.ctxs ++ [some (newCtx id)] } : VM).objects.entry id = some Obj.init := hid
    refine (Safe.ok (Q := fun b w => b = true ∧ w = ({ v8 with ctxs := v8.ctxs ++ [some (newCtx id)] } : VM).setO id
      { Obj.init with extType := v8.coType }) (setExtType_run hwfo he0 _) ⟨rfl, rfl⟩).bind ?_
    rintro _ w ⟨rfl, rfl⟩
    rw [if_pos rfl]
    have hwf1 := setO_wf hwfo he0 { Obj.init with extType := v8.coType }
    have he1 : (({ v8 with ctxs := v8.ctxs ++ [some (newCtx id)] } : VM).setO id
        { Obj.init with extType := v8.coType }).objects.entry id = some { Obj.init with extType := v8.coType } := by
      rw [setO_entry hwfo he0, if_pos rfl]
    refine (Safe.ok (Q := fun b w => b = true ∧ w = ({ v8 with ctxs := v8.ctxs ++ [some (newCtx id)] } : VM).setO id
      (newCo v8)) (setExtData_run hwf1 he1 _) ⟨rfl, ?_⟩).bind ?_
    · rw [VM.setO_setO]; rfl
    rintro _ w ⟨rfl, rfl⟩
    rw [if_pos rfl]
    have h9 := h8.newCo hid
    obtain ⟨r, hr1, _⟩ := h8.inv.heap.co.root
    have hpos : v8.ctxs.length ≠ 0 := by
      have := (List.getElem?_eq_some_iff.mp hr1).1
      omega
    generalize hv9 : (({ v8 with ctxs := v8.ctxs ++ [some (newCtx id)] } : VM).setO id (newCo v8)) = v9 at h9
    have hc9 : v9.ctxs[v8.ctxs.length]? = some (some (newCtx id)) := by rw [← hv9]; exact hnew
    refine (Safe.ok (pushContext_run hc9 rfl)
      (Q := fun _ w => I n w ∧ w.cur = v8.ctxs.length) ⟨h9.ctxs (h9.inv.heap.co.push hc9 hpos rfl), rfl⟩).bind ?_
    rintro _ w1 ⟨g1, c1⟩
    refine (push_safe g1 fv).bind fun _ w2 g2 => ?_
    refine (pushAll_safe _ g2.i).bind fun _ w3 g3 => ?_
    refine (pushInt_safe g3.1 argc).bind fun _ w4 g4 => ?_
    have hcur : w4.cur = v8.ctxs.length := by rw [g4.cur, g3.2, g2.cur, c1]
    obtain ⟨d, hd, hdw⟩ := g4.i.cur
    have hd' : w4.ctxs[v8.ctxs.length]? = some (some d) := by rw [← hcur]; exact hd
    refine (Safe.ok (Q := fun _ w => I n w) (a := ())
      (vm' := { w4 with ctxs := w4.ctxs.set v8.ctxs.length (some { d with ip := UINT_MAX }) }) ?_ ?_).bind ?_
    · simp only [ctxAt_iff.mpr hd']
    · exact g4.i.setCtx hd' (by exact hdw) rfl rfl
    intro _ w5 g5
    refine (opCall_safe F H hH hK hc g5 hn).bind ?_
    rintro _ w6 ⟨m, g6⟩
    exact (popContext_safe g6).mono fun _ _ h => ⟨_, h⟩
  · have he0 : ({ v8 with ctxs := v8.ctxs ++ [some (newCtx id)] } : VM).objects.entry id = none := hid
    refine (Safe.ok (Q := fun b w => b = false ∧ w = ({ v8 with ctxs := v8.ctxs ++ [some (newCtx id)] } : VM).addErr _)
      (setExtType_none hwfo he0 _) ⟨rfl, rfl⟩).bind ?_
    rintro _ w ⟨rfl, rfl⟩
    simp only [Bool.false_eq_true, if_false, M.pure_bind]
    refine (Safe.ok (Q := fun _ w => w = (({ v8 with ctxs := v8.ctxs ++ [some (newCtx id)] } : VM).addErr _).addErr _)
      (clearExt_none (vm := ({ v8 with ctxs := v8.ctxs ++ [some (newCtx id)] } : VM).addErr _) hwfo he0) rfl).bind ?_
    rintro _ w rfl
    refine (Safe.ok (Q := fun _ w => I n w) (a := ())
      (vm' := { (v8.addErr "Bad object ID in nkiVmObjectSetExternalType.").addErr "Bad object ID in nkiVmObjectClearExternalType."
        with ctxs := v8.ctxs ++ [none] }) ?_ ?_).bind ?_
    · rw [freeCtx_run (c := newCtx id) hnew]
      simp [VM.addErr]
    · exact ((h8.addErr _).addErr _).append_none
    intro _ w5 g5
    exact (addError_safe g5 _).mono fun _ _ h => ⟨_, h.i⟩

omit hH hK in
theorem opYield_safe (h : I n vm) : Safe B opYield vm (fun _ vm' => I n vm') := by
  unfold opYield
  refine Safe.get ?_
  split
  · exact (addError_safe h _).mono fun _ _ h => h.i
  · refine (pop_safe h).bind fun v v1 h1 => ?_
    refine (popContext_safe h1.i).bind fun _ v2 h2 => ?_
    exact (push_safe h2 v).mono fun _ _ h => h.i

omit hH hK in
theorem opResume_safe (h : I n vm) : Safe B opResume vm (fun _ vm' => I n vm') := by
  unfold opResume
  refine (pop_safe h).bind fun v v1 h1 => ?_
  refine (pop_safe h1.i).bind fun co v2 h2 => ?_
  have h2 := h2.i
  refine Safe.get ?_
  refine (getExtType_safe h2 co).bind fun t v3 ⟨h3, hx, hco⟩ => ?_
  split
  · exact (addError_safe h3 _).mono fun _ _ h => h.i
  · next hne =>
    have ht : v2.coType = t := Decidable.not_not.mp hne
    obtain ⟨id, o, rfl, g2, g3⟩ := hco ht.symm
    have f9 : v3.coType = v2.coType := by have := congrArg VM.coType hx.frame; exact this
    refine (getExtData_co h3 (o := o) (entry_sext hx g2) (by rw [f9]; exact g3)).bind fun d v4 ⟨e, k, c, e2, hk, hkc⟩ => ?_
    subst e; subst e2
    simp only []
    refine Safe.get ?_
    rw [ctxAt_iff.mpr hkc]
    refine (Safe.ok (Q := fun a w => a = c ∧ w = v4) (liftR_ok _ _) ⟨rfl, rfl⟩).bind ?_
    rintro _ w ⟨rfl, rfl⟩
    split
    · exact (addError_safe h3 _).mono fun _ _ h => h.i
    · exact (push_safe h3 _).mono fun _ _ h => h.i
    · next st _ _ =>
      split
      · exact (addError_safe h3 _).mono fun _ _ h => h.i
      · next hp =>
        have g9 := h3.ctxs (h3.inv.heap.co.push hkc hk hp)
        refine (Safe.ok (pushContext_run hkc hp) (Q := fun _ u => I n u ∧ u.cur = k) ⟨g9, rfl⟩).bind ?_
        rintro _ u ⟨g, cu⟩
        split
        · refine Safe.get ?_
          obtain ⟨d, hd, hdw⟩ := g.cur
          have hd' : u.ctxs[k]? = some (some d) := by rw [← cu]; exact hd
          rw [ctxAt_iff.mpr hd']
          refine (Safe.ok (Q := fun a w => a = d ∧ w = u) (liftR_ok _ _) ⟨rfl, rfl⟩).bind ?_
          rintro d u' ⟨rfl, rfl⟩
          refine Safe.ok (a := ()) (vm' := { u' with ctxs := u'.ctxs.set k (some { d with state := .running }) }) ?_
            (g.setCtx hd' (by exact hdw) rfl rfl)
          · unfold setCtx
            simp only [ctxAt_iff.mpr hd']
        · exact (push_safe g v).mono fun _ _ h => h.i

omit hH hK in
theorem opIsFinished_safe (h : I n vm) : Safe B opIsFinished vm (fun _ vm' => I n vm') := by
  unfold opIsFinished
  refine (pop_safe h).bind fun co v2 h2 => ?_
  have h2 := h2.i
  refine Safe.get ?_
  refine (getExtType_safe h2 co).bind fun t v3 ⟨h3, hx, hco⟩ => ?_
  split
  · exact (addError_safe h3 _).mono fun _ _ h => h.i
  · next hne =>
    have ht : v2.coType = t := Decidable.not_not.mp hne
    obtain ⟨id, o, rfl, g2, g3⟩ := hco ht.symm
    have f9 : v3.coType = v2.coType := by have := congrArg VM.coType hx.frame; exact this
    refine (getExtData_co h3 (o := o) (entry_sext hx g2) (by rw [f9]; exact g3)).bind fun d v4 ⟨e, k, c, e2, hk, hkc⟩ => ?_
    subst e; subst e2
    simp only []
    refine Safe.get ?_
    rw [ctxAt_iff.mpr hkc]
    refine (Safe.ok (Q := fun a w => a = c ∧ w = v4) (liftR_ok _ _) ⟨rfl, rfl⟩).bind ?_
    rintro _ w ⟨rfl, rfl⟩
    exact (push_safe h3 _).mono fun _ _ h => h.i

/-! ## Dispatch -/

theorem dispatch_safe (ho : B .overflow) (hc : B .cast) (hA : B .assert ∨ SizesOK vm) (h : I n vm)
    (hn : n + 1 < 4294967296) (op : Nat) : Safe B (dispatch F H op) vm Post := by
  have fin : ∀ {m : M Unit}, Safe B m vm (fun _ vm' => I n vm') → Safe B m vm Post :=
    fun hm => hm.mono fun _ _ h => ⟨_, h⟩
  have pp : ∀ {m : M Unit}, Safe B m vm (fun _ vm' => Kept n vm vm') → Safe B m vm Post :=
    fun hm => hm.mono fun _ _ h => ⟨_, h.i⟩
  unfold dispatch
  split
  · exact fin (opAdd_safe F ho hc h)
  · exact fin (opSub_safe F ho hc h)
  · exact fin (opMul_safe F ho hc h)
  · exact fin (opDiv_safe F ho hc h)
  · exact fin (opNeg_safe ho h)
  · exact fin (opMod_safe ho hc h)
  · exact fin (opPushLiteral_safe h _)
  · exact fin (opPushLiteral_safe h _)
  · exact fin (opPushLiteral_safe h _)
  · exact fin (opPushLiteral_safe h _)
  · exact (pop_safe h).bind fun _ _ h1 => Safe.pure ⟨_, h1.i⟩
  · exact fin (opPopN_safe hc h)
  · exact fin (opStackPeek_safe h)
  · exact fin (opStackPoke_safe h)
  · exact fin (opStaticPoke_safe h)
  · exact fin (opStaticPeek_safe h)
  · exact fin (opJump_safe hc h)
  · exact opCall_safe F H hH hK hc h hn
  · exact fin (opReturn_safe hc h)
  · exact fin (opEnd_safe h)
  · exact fin (opJz_safe hc h)
  · exact fin (opCompare_safe F hc h _)
  · exact fin (opCompare_safe F hc h _)
  · exact fin (opCompare_safe F hc h _)
  · exact fin (opCompare_safe F hc h _)
  · exact fin (opCompare_safe F hc h _)
  · exact fin (opCompare_safe F hc h _)
  · exact fin (opEqSameType_safe F hc h)
  · exact fin (opNot_safe hc h)
  · exact fin (opAnd_safe hc h)
  · exact fin (opOr_safe hc h)
  · exact fin (opCreateObject_safe h)
  · exact fin (opFieldGet_safe F hc h _)
  · exact fin (opFieldSet_safe F hc hA h)
  · exact fin (opFieldGet_safe F hc h _)
  · exact fin (opPrepareSelfCall_safe hc h)
  · exact pp (push_safe h _)
  · exact opCoroutineCreate_safe F H hH hK hc h hn
  · exact fin (opYield_safe h)
  · exact fin (opResume_safe h)
  · exact fin (opIsFinished_safe h)
  · exact fin (opLen_safe h)
  · exact Safe.pure ⟨_, h⟩

/-! ## One step of the interpreter -/

omit hH hK in
theorem Inv.collected {vm vm' : VM} (h : Inv vm) (c : Collected H vm vm') : Inv vm' := by
  refine ⟨c.wf H h.heap, ?_, ?_, ?_, ?_⟩
  · have h1 : vm'.instrs = vm.instrs := by have := congrArg VM.instrs c.frame; exact this
    have h2 : vm'.instrMask = vm.instrMask := by have := congrArg VM.instrMask c.frame; exact this
    rw [h1, h2]; exact h.instrs
  · intro id o he
    obtain ⟨o0, g1, _, rfl⟩ := (c.obj id o).mp he
    exact h.buckets id o0 g1
  · have h1 : vm'.extFuncs = vm.extFuncs := by have := congrArg VM.extFuncs c.frame; exact this
    rw [h1]; exact h.natives
  · rcases h.sizes with h1 | h1
    · exact .inl (c.errs.subset h1)
    · refine .inr fun id o he => ?_
      obtain ⟨o0, g1, _, rfl⟩ := (c.obj id o).mp he
      exact h1 id o0 g1

omit hH hK in
theorem Safe.lift {β : Type} {a : α} {f : α → M β} {vm : VM} {R : β → VM → Prop} (h : Safe B (f a) vm R) :
    Safe B (liftR (.ok a) >>= f) vm R :=
  Safe.bind (Q := fun x u => x = a ∧ u = vm) (Safe.ok (liftR_ok a vm) ⟨rfl, rfl⟩) (by rintro _ _ ⟨rfl, rfl⟩; exact h)

omit hH hK in
theorem Safe.modify {β : Type} {g : VM → VM} {f : Unit → M β} {vm : VM} {R : β → VM → Prop} (h : Safe B (f ()) (g vm) R) :
    Safe B (Nk.modify g >>= f) vm R :=
  Safe.bind (Q := fun _ u => u = g vm) (Safe.ok (modify_run g vm) rfl) (by rintro _ _ rfl; exact h)

omit hH hK in
theorem I.tick (h : I n vm) : I n (Nk.tick vm) := h.set_counters (g := { vm.gc with countdown := usub vm.gc.countdown 1 }) rfl _
omit hH hK in
theorem I.charge (h : I n vm) : I n (Nk.charge vm) := h.set_counters (g := vm.gc) rfl _
omit hH hK in
theorem I.noneLeft (h : I n vm) : I n (Nk.noneLeft vm) := h.set_counters (g := vm.gc) rfl _
omit hH hK in
theorem I.resetNew (h : I n vm) : I n (Nk.resetNew vm) := h.set_counters (g := { vm.gc with newObjCountdown := vm.gc.newObjInterval }) rfl _
omit hH hK in
theorem I.resetCountdown (h : I n vm) : I n (Nk.resetCountdown vm) := h.set_counters (g := { vm.gc with countdown := vm.gc.interval }) rfl _

omit hH hK in
theorem tick_objects (vm : VM) : (Nk.tick vm).objects = vm.objects := by cases vm; rfl
omit hH hK in
theorem charge_objects (vm : VM) : (Nk.charge vm).objects = vm.objects := by cases vm; rfl
omit hH hK in
theorem resetCountdown_objects (vm : VM) : (Nk.resetCountdown vm).objects = vm.objects := by cases vm; rfl

omit hH hK in
theorem SizesOK.congr {vm vm' : VM} (h : SizesOK vm) (e : vm'.objects = vm.objects) : SizesOK vm' := by
  unfold SizesOK; rw [e]; exact h

attribute [local irreducible] Safe

theorem execute_safe (ho : B .overflow) (hc : B .cast) (hA : B .assert ∨ SizesOK vm) (h : I n vm)
    (hn : n + 1 < 4294967296) (op : Nat) : Safe B (execute F H op) vm (fun _ vm' => Inv vm') := by
  refine (dispatch_safe F H hH hK ho hc hA h hn op).bind ?_
  rintro _ v1 ⟨j, hj⟩
  exact (hj.modIp fun c => u32 (c.ip + 1)).mono fun _ _ h => h.1.inv

omit hH hK in
theorem collectIfDue_safe (h : I n vm) (hn : n + 1 < 4294967296) :
    Safe B (collectIfDue H) vm (fun _ vm' => (∃ m, I m vm' ∧ m ≤ n + 1) ∧ (SizesOK vm → SizesOK vm')) := by
  unfold collectIfDue
  refine Safe.get ?_
  split
  · obtain ⟨z, hz, hcol⟩ := garbageCollect_run H h.inv.heap (by rw [h.pass]; omega)
    have hz2 : I (n + 1) z := ⟨h.inv.collected H hcol, by rw [hcol.gcPass, h.pass]⟩
    refine (Safe.ok (Q := fun _ q => q = z) hz rfl).bind ?_
    rintro _ q rfl
    refine Safe.ok (modify_run _ _) ⟨⟨_, hz2.resetNew, Nat.le_refl _⟩, fun s id o he => ?_⟩
    obtain ⟨o0, g1, _, rfl⟩ := (hcol.obj id o).mp he
    exact s id o0 g1
  · refine Safe.pure ?_
    exact ⟨⟨_, h, Nat.le_succ _⟩, fun s => s⟩

theorem iterateOp_safe (h : I n vm) (ho : B .overflow) (hc : B .cast) (hA : B .assert ∨ SizesOK vm)
    (hn : n + 2 < 4294967296) (op : Nat) : Safe B (iterateOp F H op) vm (fun _ vm' => Inv vm') := by
  unfold iterateOp
  refine Safe.modify ?_
  have h1 := h.tick
  have hA1 : B .assert ∨ SizesOK (tick vm) := hA.imp_right fun s => SizesOK.congr s (tick_objects vm)
  refine Safe.get ?_
  split
  · split
    · refine (addError_safe h1 _).bind fun _ y hy => ?_
      exact Safe.ok (modify_run _ _) hy.i.noneLeft.inv
    · refine Safe.modify ?_
      refine (collectIfDue_safe H h1.charge (by omega)).bind ?_
      rintro _ y ⟨⟨m, hm, hle⟩, hs⟩
      refine Safe.modify ?_
      exact execute_safe F H hH hK ho hc (hA1.imp_right fun s => SizesOK.congr (hs (SizesOK.congr s (charge_objects _)))
        (resetCountdown_objects y)) hm.resetCountdown
        (by omega) op
  · exact execute_safe F H hH hK ho hc hA1 h1 (by omega) op

theorem iterate_safe {vm : VM} (h : Inv vm) (ho : B .overflow) (hc : B .cast) (ha : refusal ∈ vm.errors → B .assert)
    (hn : vm.gc.lastGCPass + 2 < 4294967296) : Safe B (iterate F H) vm (fun _ vm' => Inv vm') := by
  have h0 : I vm.gc.lastGCPass vm := ⟨h, rfl⟩
  have hsz : B .assert ∨ SizesOK vm := h.sizes.imp ha id
  unfold iterate
  refine (curCtx_safe h0).bind ?_
  rintro c' v1 ⟨rfl, -, -⟩
  refine Safe.get ?_
  obtain ⟨w, hw⟩ := instrAt_ok h0 c'.ip
  rw [hw]
  refine Safe.lift ?_
  have := iterateOp_safe F H hH hK h0 ho hc hsz hn
  exact this _

end Nk
