import Verif.Spec.ArgCheck
import Verif.Props.Api
/-!
# C73: checks for native functions
-/
namespace Nk.Props
open Nk.Spec

variable {args : List Value} {fn : Option Bytes} {vm : VM}

theorem callee_eq (fn : Option Bytes) : orNull fn = callee fn := by cases fn <;> rfl

/-- **C73**: `nkxFunctionCallbackCheckArgCount` returns true exactly if the number of arguments is the one asked for, and then does nothing. -/
theorem C73_count (args : List Value) (fn : Option Bytes) (n : Nat) (vm : VM) :
    checkArgCount args n fn vm = .ok (if args.length = n then (true, vm)
      else (false, vm.reported (cs "Bad argument count in " ++ callee fn))) := by
  unfold checkArgCount
  by_cases h : args.length = n
  · rw [if_neg (by simp [h]), if_pos h]; rfl
  · rw [if_pos h, if_neg h, callee_eq]; rfl

theorem checkTypes_skip {types : List Nat} (hl : args.length = types.length) {i : Nat} (hi : i ≤ types.length)
    (pre : ∀ j, j < i → (args[j]?).map Value.ty = types[j]?) (m j : Nat) (hj : j + m = i) :
    checkTypesFrom args fn j (types.length - j) (types.drop j) vm =
      checkTypesFrom args fn i (types.length - i) (types.drop i) vm := by
  induction m generalizing j with
  | zero => rw [show j = i by omega]
  | succ m ih =>
    have hjt : j < types.length := by omega
    have hja : j < args.length := by omega
    rw [← ih (j + 1) (by omega)]
    have h := pre j (by omega)
    rw [List.getElem?_eq_getElem hja, List.getElem?_eq_getElem hjt] at h
    rw [show types.length - j = (types.length - (j + 1)) + 1 by omega, List.drop_eq_getElem_cons hjt]
    conv => lhs; unfold checkTypesFrom
    rw [List.getElem?_eq_getElem hja]
    dsimp only
    rw [if_neg]
    simp only [Option.map_some, Option.some.injEq] at h
    simp [h]

/-- **C73**: the wrong number of arguments is reported by `nkxFunctionCallbackCheckArguments`, and only that. -/
theorem C73_wrong_count {types : List Nat} (h : args.length ≠ types.length) :
    checkArguments args fn types.length types vm = .ok (false, vm.reported (callee fn ++ cs ": Expected " ++ natDec types.length ++
      cs " arguments, but passed " ++ natDec args.length ++ cs ".")) := by
  unfold checkArguments
  rw [if_pos (Ne.symm h), callee_eq]; rfl

/-- **C73**: of several arguments of wrong types the first is reported, and only that. -/
theorem C73_wrong_type {types : List Nat} (hl : args.length = types.length) {i t : Nat} {v : Value}
    (pre : ∀ j, j < i → (args[j]?).map Value.ty = types[j]?) (hv : args[i]? = some v) (ht : types[i]? = some t) (h : v.ty ≠ t) :
    checkArguments args fn types.length types vm = .ok (false, vm.reported (callee fn ++ cs ": Argument " ++ natDec i ++
      cs ": Expected " ++ cs (typeName t) ++ cs " but passed " ++ cs (typeName v.ty) ++ cs ".")) := by
  obtain ⟨hi, ht⟩ := List.getElem?_eq_some_iff.1 ht
  unfold checkArguments
  rw [if_neg (by simp [hl])]
  have := checkTypes_skip (fn := fn) (vm := vm) hl (Nat.le_of_lt hi) pre i 0 (by omega)
  rw [Nat.sub_zero, List.drop_zero] at this
  rw [this, show types.length - i = (types.length - (i + 1)) + 1 by omega, List.drop_eq_getElem_cons hi, ht]
  unfold checkTypesFrom
  rw [hv]
  dsimp only
  rw [if_pos h, callee_eq]; rfl

/-- **C73**: arguments of the right number and types are accepted, and nothing happens. -/
theorem C73_right (args : List Value) (fn : Option Bytes) (vm : VM) :
    checkArguments args fn (args.map Value.ty).length (args.map Value.ty) vm = .ok (true, vm) := by
  have hl : args.length = (args.map Value.ty).length := by simp
  unfold checkArguments
  rw [if_neg (by simp)]
  have := checkTypes_skip (fn := fn) (vm := vm) hl (Nat.le_refl _) (fun j _ => by simp) _ 0 (Nat.zero_add _)
  rw [Nat.sub_zero, List.drop_zero] at this
  rw [this, Nat.sub_self]
  unfold checkTypesFrom
  rfl

/-- Either all types are right or there is a first argument of a wrong one. -/
theorem first_wrong {types : List Nat} (hl : args.length = types.length) : args.map Value.ty = types ∨
    ∃ (i : Nat) (v : Value) (t : Nat), (∀ j, j < i → (args[j]?).map Value.ty = types[j]?) ∧ args[i]? = some v ∧ types[i]? = some t ∧ v.ty ≠ t := by
  induction args generalizing types with
  | nil => cases types with
    | nil => exact .inl rfl
    | cons => cases hl
  | cons v args ih => cases types with
    | nil => cases hl
    | cons t types =>
      by_cases h : v.ty = t
      · rcases ih (Nat.succ.inj hl) with hm | ⟨i, w, s, pre, h1, h2, h3⟩
        · left; rw [List.map_cons, hm, h]
        · refine .inr ⟨i + 1, w, s, fun j hj => ?_, h1, h2, h3⟩
          cases j with
          | zero => simp [h]
          | succ j => simpa using pre j (by omega)
      · exact .inr ⟨0, v, t, fun j hj => absurd hj (by omega), rfl, rfl, h⟩

/-- **C73**: a native function goes on only if the number and the types of its arguments are the ones it asked for. -/
theorem C73_accepted {types : List Nat} {vm' : VM} (h : checkArguments args fn types.length types vm = .ok (true, vm')) :
    args.map Value.ty = types ∧ vm' = vm := by
  by_cases hl : args.length = types.length
  · rcases first_wrong hl with hm | ⟨i, v, t, pre, h1, h2, h3⟩
    · refine ⟨hm, ?_⟩
      subst hm
      rw [C73_right] at h
      cases h; rfl
    · rw [C73_wrong_type hl pre h1 h2 h3] at h; cases h
  · rw [C73_wrong_count hl] at h; cases h

/-! ## External data -/

/-- **C73**: of an object of the type asked for, `nkxFunctionCallbackGetExternalDataArgument` returns the data, and does nothing else. -/
theorem C73_data (hw : vm.objects.WF) {i t id : Nat} {o : Obj} (ha : args[i]? = some (.obj id)) (he : vm.objects.entry id = some o)
    (ht : t < vm.extTypes.length) (hto : o.extType = t) : dataArgument args fn i t vm = .ok (o.extData, vm) := by
  unfold dataArgument
  rw [ha]
  dsimp only
  rw [if_neg (by simp [Value.ty]), M.bind_ok (get_run vm), if_neg (by omega), M.bind_ok (getExtType_run hw he), if_neg (by simp [hto])]
  exact getExtData_run hw he

/-- **C73**: an argument that was not passed is reported. -/
theorem C73_data_beyond {i t : Nat} (h : args.length ≤ i) : dataArgument args fn i t vm = .ok (none,
    vm.reported (callee fn ++ cs ": Tried to decode an external object that is beyond the end of the arguments list.")) := by
  unfold dataArgument
  rw [List.getElem?_eq_none h, callee_eq]; rfl

/-- **C73**: a value that is not an object is reported. -/
theorem C73_data_no_object {i t : Nat} {v : Value} (ha : args[i]? = some v) (h : v.ty ≠ 4) : dataArgument args fn i t vm = .ok (none,
    vm.reported (callee fn ++ cs ": Tried to decode an external object that is not even an object for argument " ++ natDec i ++
      cs ".")) := by
  unfold dataArgument
  rw [ha]
  dsimp only
  rw [if_pos h, callee_eq]; rfl

/-- **C73**: asking for a type that is not registered is reported. -/
theorem C73_data_bad_type {i t : Nat} {v : Value} (ha : args[i]? = some v) (h : v.ty = 4) (ht : vm.extTypes.length ≤ t) :
    dataArgument args fn i t vm = .ok (none, vm.reported (callee fn ++ cs ": Argument " ++ natDec i ++
      cs ": Bad type specified in external function.")) := by
  unfold dataArgument
  rw [ha]
  dsimp only
  rw [if_neg (by simp [h]), M.bind_ok (get_run vm), if_pos ht, callee_eq]; rfl

/-- **C73**: an object of another type is reported, with the names of both types. -/
theorem C73_data_mismatch (hw : vm.objects.WF) {i t id : Nat} {o : Obj} {x : ExtType} (ha : args[i]? = some (.obj id))
    (he : vm.objects.entry id = some o) (ht : vm.extTypes[t]? = some x) (hto : o.extType ≠ t) :
    dataArgument args fn i t vm = .ok (none, vm.reported (callee fn ++ cs ": Argument " ++ natDec i ++
      cs ": Type mismatch. Expected " ++ x.name ++ cs ". Got " ++ objectKind vm o ++ cs ".")) := by
  obtain ⟨hlt, _⟩ := List.getElem?_eq_some_iff.1 ht
  have hn : nameOfTypeOf (.obj id) vm = .ok (objectKind vm o, vm) := by
    unfold nameOfTypeOf
    rw [if_pos (show (Value.obj id).ty = 4 from rfl), M.bind_ok (getExtType_run hw he), M.bind_ok (get_run vm)]
    unfold objectKind extTypeName
    by_cases hu : o.extType = UINT_MAX
    · rw [if_neg (by simp [hu]), if_pos hu]; rfl
    · rw [if_pos hu, if_neg hu]
      cases vm.extTypes[o.extType]? <;> rfl
  unfold dataArgument
  rw [ha]
  dsimp only
  rw [if_neg (by simp [Value.ty]), M.bind_ok (get_run vm), if_neg (by omega), M.bind_ok (getExtType_run hw he), if_pos hto,
    M.bind_ok hn, callee_eq]
  unfold extTypeName
  rw [ht]
  rfl

theorem objFromValue_dead (hw : vm.objects.WF) {v : Value} (hd : ∀ id, v = .obj id → vm.objects.entry id = none) :
    objFromValue v vm = .ok (none, vm) := by
  cases v with
  | obj id => rw [objFromValue_obj hw, hd id rfl]; rfl
  | _ => rfl

theorem getExtType_dead (hw : vm.objects.WF) {v : Value} (hd : ∀ id, v = .obj id → vm.objects.entry id = none) :
    getExtType v vm = .ok (UINT_MAX, { vm with errors := vm.errors ++ ["Bad object ID in nkiVmObjectGetExternalType."] }) := by
  unfold getExtType
  rw [M.bind_ok (objFromValue_dead hw hd)]; rfl

/-- **C73**: an object that does not exist any more is reported (three times). -/
theorem C73_data_dead (hw : vm.objects.WF) {i t : Nat} {v : Value} (ha : args[i]? = some v) (hv : v.ty = 4)
    (hd : ∀ id, v = .obj id → vm.objects.entry id = none) {x : ExtType} (ht : vm.extTypes[t]? = some x) (hu : t < UINT_MAX) :
    dataArgument args fn i t vm = .ok (none, { vm with errors := vm.errors ++ ["Bad object ID in nkiVmObjectGetExternalType.",
      "Bad object ID in nkiVmObjectGetExternalType.", latin (callee fn ++ cs ": Argument " ++ natDec i ++
        cs ": Type mismatch. Expected " ++ x.name ++ cs ". Got object.")] }) := by
  obtain ⟨hlt, _⟩ := List.getElem?_eq_some_iff.1 ht
  have hn : nameOfTypeOf v { vm with errors := vm.errors ++ ["Bad object ID in nkiVmObjectGetExternalType."] } =
      .ok (cs "object", { vm with errors := vm.errors ++ ["Bad object ID in nkiVmObjectGetExternalType.",
        "Bad object ID in nkiVmObjectGetExternalType."] }) := by
    unfold nameOfTypeOf
    rw [if_pos hv, M.bind_ok (getExtType_dead (vm := { vm with errors := vm.errors ++ ["Bad object ID in nkiVmObjectGetExternalType."] }) hw hd), M.bind_ok (get_run _), if_neg (by simp), hv]
    show Res.ok _ = _
    simp [typeName]
  unfold dataArgument
  rw [ha]
  dsimp only
  rw [if_neg (by simp [hv]), M.bind_ok (get_run vm), if_neg (by omega), M.bind_ok (getExtType_dead hw hd),
    if_pos (by omega), M.bind_ok hn, callee_eq]
  unfold extTypeName
  rw [ht]
  show Res.ok _ = _
  simp only [List.append_assoc, List.cons_append, List.nil_append]
  rfl

/-- **C73**: data is returned only of an existing object of a registered type, the one asked for, and then nothing else happens. -/
theorem C73_data_only (hw : vm.objects.WF) {i t d : Nat} {vm' : VM} (hu : vm.extTypes.length ≤ UINT_MAX)
    (h : dataArgument args fn i t vm = .ok (some d, vm')) :
    vm' = vm ∧ t < vm.extTypes.length ∧ ∃ id o, args[i]? = some (.obj id) ∧ vm.objects.entry id = some o ∧ o.extType = t ∧
      o.extData = some d := by
  cases ha : args[i]? with
  | none => rw [C73_data_beyond (List.getElem?_eq_none_iff.1 ha)] at h; cases h
  | some v =>
    by_cases hv : v.ty = 4
    · by_cases ht : vm.extTypes.length ≤ t
      · rw [C73_data_bad_type ha hv ht] at h; cases h
      · have hx := List.getElem?_eq_getElem (Nat.not_le.1 ht)
        by_cases hd : ∃ id o, v = .obj id ∧ vm.objects.entry id = some o
        · obtain ⟨id, o, rfl, he⟩ := hd
          by_cases hto : o.extType = t
          · rw [C73_data hw ha he (by omega) hto] at h
            have hod : o.extData = some d := (Prod.mk.inj (Res.ok.inj h)).1
            exact ⟨((Prod.mk.inj (Res.ok.inj h)).2).symm, by omega, id, o, rfl, he, hto, hod⟩
          · rw [C73_data_mismatch hw ha he hx hto] at h; cases h
        · rw [C73_data_dead hw ha hv (fun id e => by
            cases he : vm.objects.entry id with
            | none => rfl
            | some o => exact absurd ⟨id, o, e, he⟩ hd) hx (by omega)] at h
          cases h
    · rw [C73_data_no_object ha hv] at h; cases h

/-- **C73**, what does not hold: NULL does not mean that an error was reported.  It is also the data of an object of the right type
that has none. -/
theorem C73_null (hw : vm.objects.WF) {i t id : Nat} {o : Obj} (ha : args[i]? = some (.obj id)) (he : vm.objects.entry id = some o)
    (ht : t < vm.extTypes.length) (hto : o.extType = t) (hn : o.extData = none) : dataArgument args fn i t vm = .ok (none, vm) := by
  rw [C73_data hw ha he ht hto, hn]

/-! ## Subsystems -/

/-- **C73**: `nkxGetExternalSubsystemDataOrError` returns the data of the subsystem, or reports that there is none. -/
theorem C73_subsystem {name : Bytes} {r : Option Nat} (h : subsystemData vm name = .ok r) :
    subsystemOrError name vm = .ok (if r = none ∨ r = some 0 then (none, vm.reported (cs "Could not find subsystem data: " ++ name))
      else (r, vm)) := by
  unfold subsystemOrError
  rw [M.bind_ok (get_run vm), h, M.bind_ok (liftR_ok r vm)]
  cases r with
  | none => rfl
  | some d => cases d <;> rfl

/-! ## As parts of native functions -/

theorem errors_run (F : FloatOps) (H : Host) (fuel : Nat) (es : List String) (p : Api) (vm : VM) :
    (es.foldr .error p).run F H fuel vm = p.run F H fuel { vm with errors := vm.errors ++ es } := by
  induction es generalizing vm with
  | nil => rw [List.append_nil]; rfl
  | cons s es ih =>
    show (Api.error s (es.foldr .error p)).run F H fuel vm = _
    conv => lhs; unfold Api.run
    rw [M.bind_ok (a := ()) (vm' := { vm with errors := vm.errors ++ [s] }) rfl, ih]
    dsimp only
    rw [List.append_assoc, List.singleton_append]

/-- **C73**: what C72 says about native functions holds too if they use these checks. -/
theorem C73_in_native {α : Type} {m : M α} {r : α} {es : List String} (h : m vm = .ok (r, { vm with errors := vm.errors ++ es }))
    (F : FloatOps) (H : Host) (fuel : Nat) (k : α → Api) :
    (Api.using m k).run F H fuel vm = (do let r ← m; (k r).run F H fuel : M Value) vm := by
  rw [M.bind_ok h]
  conv => lhs; unfold Api.using Api.run
  rw [M.bind_ok (get_run vm)]
  dsimp only
  rw [h]
  dsimp only
  rw [List.drop_left, errors_run]

/-- The result is there, and all that happened is that errors were added. -/
def OnlyErrors {α : Type} (m : M α) (vm : VM) : Prop := ∃ r es, m vm = .ok (r, { vm with errors := vm.errors ++ es })

theorem onlyErrors_none {α : Type} {m : M α} {r : α} (h : m vm = .ok (r, vm)) : OnlyErrors m vm :=
  ⟨r, [], by rw [h, List.append_nil]⟩

theorem onlyErrors_one {α : Type} {m : M α} {r : α} {s : Bytes} (h : m vm = .ok (r, vm.reported s)) : OnlyErrors m vm := ⟨r, _, h⟩

/-- **C73**: the checks only add errors. -/
theorem C73_only_errors (hw : vm.objects.WF) (hu : vm.extTypes.length ≤ UINT_MAX) (args : List Value) (fn : Option Bytes)
    (n : Nat) (types : List Nat) (i t : Nat) :
    OnlyErrors (checkArgCount args n fn) vm ∧ OnlyErrors (checkArguments args fn types.length types) vm ∧
      OnlyErrors (dataArgument args fn i t) vm := by
  refine ⟨?_, ?_, ?_⟩
  · have h := C73_count args fn n vm
    split at h
    · exact onlyErrors_none h
    · exact onlyErrors_one h
  · by_cases hl : args.length = types.length
    · rcases first_wrong hl with hm | ⟨i, v, t, pre, h1, h2, h3⟩
      · subst hm; exact onlyErrors_none (C73_right args fn vm)
      · exact onlyErrors_one (C73_wrong_type hl pre h1 h2 h3)
    · exact onlyErrors_one (C73_wrong_count hl)
  · cases ha : args[i]? with
    | none => exact onlyErrors_one (C73_data_beyond (List.getElem?_eq_none_iff.1 ha))
    | some v =>
      by_cases hv : v.ty = 4
      · by_cases ht : vm.extTypes.length ≤ t
        · exact onlyErrors_one (C73_data_bad_type ha hv ht)
        · have hx := List.getElem?_eq_getElem (Nat.not_le.1 ht)
          by_cases hd : ∃ id o, v = .obj id ∧ vm.objects.entry id = some o
          · obtain ⟨id, o, rfl, he⟩ := hd
            by_cases hto : o.extType = t
            · exact onlyErrors_none (C73_data hw ha he (by omega) hto)
            · exact onlyErrors_one (C73_data_mismatch hw ha he hx hto)
          · exact ⟨_, _, C73_data_dead hw ha hv (fun id e => by
              cases he : vm.objects.entry id with
              | none => rfl
              | some o => exact absurd ⟨id, o, e, he⟩ hd) hx (by omega)⟩
      · exact onlyErrors_one (C73_data_no_object ha hv)

/-! ## Concrete cases -/

namespace ArgEx

/-- The number, the second type and the last type are wrong. -/
example : (checkArguments [.int 1, .nil] (some (cs "f")) 1 [0] VM.create).test fun p => p.1 = false ∧
    p.2.errors = ["f: Expected 1 arguments, but passed 2."] := by decide +kernel
example : (checkArguments [.int 1, .nil, .str 0] (some (cs "f")) 3 [0, 2, 3] VM.create).test fun p => p.1 = false ∧
    p.2.errors = ["f: Argument 1: Expected string but passed nil."] := by decide +kernel
example : (checkArguments [.int 1, .str 0] none 2 [0, 3] VM.create).test fun p => p.1 = false ∧
    p.2.errors = ["<null>: Argument 1: Expected function but passed string."] := by decide +kernel
example : (checkArguments [.int 1, .str 0] none 2 [0, 2] VM.create).test fun p => p.1 = true ∧ p.2.errors = [] := by decide +kernel

/-- Registers the type `widget`, makes a widget with data 5 and an object that is none, and asks for their data. -/
def prog : M (Option Nat × Option Nat × Option Nat × Option Nat) := do
  let t ← registerExternalType { name := cs "widget", hasSerialize := false, hasCleanup := false, hasMark := false }
  let a ← createObject
  let b ← createObject
  let _ ← setExtType (.obj a) t
  let _ ← setExtData (.obj a) 5
  let args : List Value := [.obj a, .obj b, .int 3]
  let f := some (cs "f")
  let r0 ← dataArgument args f 0 t
  let r1 ← dataArgument args f 1 t
  let r2 ← dataArgument args f 2 t
  let r3 ← dataArgument args f 3 t
  return (r0, r1, r2, r3)

example : (prog VM.create).test fun p => p.1 = (some 5, none, none, none) ∧
    p.2.errors = ["f: Argument 1: Type mismatch. Expected widget. Got object.",
      "f: Tried to decode an external object that is not even an object for argument 2.",
      "f: Tried to decode an external object that is beyond the end of the arguments list."] := by decide +kernel

/-- A native function that checks what it is passed, as part of C72. -/
example : ((apiHost Sample.F Sample.H.mark (fun _ args => .using (checkArguments args (some (cs "f")) 1 [2]) fun ok =>
    if ok then .string (cs "ok") .done else .done .nil) 10 1).call 0 [.int 1] VM.create).test fun p => p.1 = .nil ∧
    p.2.errors = ["f: Argument 0: Expected string but passed integer."] := by decide +kernel

end ArgEx
end Nk.Props
