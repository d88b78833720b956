import Verif.Model.Api
/-!
# Checks for native functions: `src/nkx.c:378-400` and `805-966`

Convenience functions of the API by which native functions check what they were called with.  `data->arguments` is the list of
arguments and `data->argumentCount` its length.  Left out: failing allocations while an error text is put together.
-/
namespace Nk

/-- A C string as the text of an error, byte by byte. -/
def latin (b : Bytes) : String := String.ofList (b.map fun c => Char.ofNat c.toNat)

/-- The start of a text, `nkiDynStrCreate` and `nkiDynStrAppend`, `src/nkdynstr.c:45-68`: `none` is NULL. -/
def orNull (s : Option Bytes) : Bytes := s.getD (cs "<null>")

/-- `nkxFunctionCallbackCheckArgCount`, `src/nkx.c:378-400`. -/
def checkArgCount (args : List Value) (n : Nat) (fn : Option Bytes) : M Bool :=
  if args.length ≠ n then do
    addError (latin (cs "Bad argument count in " ++ orNull fn))
    return false
  else return true

/-- The loop of `nkxFunctionCallbackCheckArguments`, `src/nkx.c:837-861`, from argument `i` on: `n` more rounds, `types` is what is
left of the variable arguments. -/
def checkTypesFrom (args : List Value) (fn : Option Bytes) : Nat → Nat → List Nat → M Bool
  | _, 0, _ => return true
  | _, _ + 1, [] => liftR (.ub .oob)
  | i, n + 1, t :: ts =>
    match args[i]? with
    | none => liftR (.ub .oob)
    | some v =>
      if v.ty ≠ t then do
        addError (latin (orNull fn ++ cs ": Argument " ++ natDec i ++ cs ": Expected " ++ cs (typeName t) ++ cs " but passed " ++
          cs (typeName v.ty) ++ cs "."))
        return false
      else checkTypesFrom args fn (i + 1) n ts

/-- `nkxFunctionCallbackCheckArguments`, `src/nkx.c:805-868`: `n` is `expectedArgumentCount`, `types` are the variable arguments. -/
def checkArguments (args : List Value) (fn : Option Bytes) (n : Nat) (types : List Nat) : M Bool :=
  if n ≠ args.length then do
    addError (latin (orNull fn ++ cs ": Expected " ++ natDec n ++ cs " arguments, but passed " ++ natDec args.length ++ cs "."))
    return false
  else checkTypesFrom args fn 0 n types

/-- `nkiVmGetExternalTypeName`, `src/nkvm.c:518-525`. -/
def extTypeName (vm : VM) (t : Nat) : Bytes :=
  match vm.extTypes[t]? with
  | some x => x.name
  | none => []

/-- `nkiValueGetTypeNameOfValue`, `src/nkvalue.c:46-62`. -/
def nameOfTypeOf (v : Value) : M Bytes :=
  if v.ty = 4 then do
    let t ← getExtType v
    let vm ← get
    if t ≠ UINT_MAX then return extTypeName vm t else return cs (typeName v.ty)
  else return cs (typeName v.ty)

/-- `nkxFunctionCallbackGetExternalDataArgument`, `src/nkx.c:899-966`; `none` is NULL. -/
def dataArgument (args : List Value) (fn : Option Bytes) (i t : Nat) : M (Option Nat) :=
  match args[i]? with
  | none => do
    addError (latin (orNull fn ++ cs ": Tried to decode an external object that is beyond the end of the arguments list."))
    return none
  | some v =>
    if v.ty ≠ 4 then do
      addError (latin (orNull fn ++ cs ": Tried to decode an external object that is not even an object for argument " ++ natDec i ++
        cs "."))
      return none
    else do
      let vm ← get
      if vm.extTypes.length ≤ t then do
        addError (latin (orNull fn ++ cs ": Argument " ++ natDec i ++ cs ": Bad type specified in external function."))
        return none
      else do
        let t' ← getExtType v
        if t' ≠ t then do
          let got ← nameOfTypeOf v
          addError (latin (orNull fn ++ cs ": Argument " ++ natDec i ++ cs ": Type mismatch. Expected " ++ extTypeName vm t ++
            cs ". Got " ++ got ++ cs "."))
          return none
        else getExtData v

/-- `nkxGetExternalSubsystemDataOrError`, `src/nkx.c:872-897`; `none` is NULL, and so is `0` as the data of a subsystem. -/
def subsystemOrError (name : Bytes) : M (Option Nat) := do
  let vm ← get
  let d ← liftR (subsystemData vm name)
  match d with
  | some (d + 1) => return some (d + 1)
  | _ => do
    addError (latin (cs "Could not find subsystem data: " ++ name))
    return none

/-- A native function that calls `m`, which only adds errors, and goes on with the result. -/
def Api.using {α : Type} (m : M α) (k : α → Api) : Api :=
  .look fun vm =>
    match m vm with
    | .ok (r, vm') => (vm'.errors.drop vm.errors.length).foldr .error (k r)
    | .ub _ => .done .nil

end Nk
