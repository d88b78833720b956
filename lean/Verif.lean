import Verif.Model.Api
import Verif.Model.ArgCheck
import Verif.Model.Base
import Verif.Model.CStr
import Verif.Model.Compile
import Verif.Model.Dbg
import Verif.Model.Destroy
import Verif.Model.ErrText
import Verif.Model.Exec
import Verif.Model.Expr
import Verif.Model.Fail
import Verif.Model.Fault
import Verif.Model.FaultGC
import Verif.Model.File
import Verif.Model.Find
import Verif.Model.GC
import Verif.Model.Handles
import Verif.Model.Mem
import Verif.Model.Opcode
import Verif.Model.Registry
import Verif.Model.Repl
import Verif.Model.Save
import Verif.Model.SaveHost
import Verif.Model.SaveSink
import Verif.Model.Shrink
import Verif.Model.Table
import Verif.Model.Token
import Verif.Model.VM
import Verif.Model.Value
import Verif.Spec.ArgCheck
import Verif.Spec.CStr
import Verif.Spec.Calls
import Verif.Spec.Code
import Verif.Spec.Coroutine
import Verif.Spec.Dbg
import Verif.Spec.ErrText
import Verif.Spec.Exec
import Verif.Spec.Fault
import Verif.Spec.Find
import Verif.Spec.Fold
import Verif.Spec.Func
import Verif.Spec.Heap
import Verif.Spec.Layout
import Verif.Spec.Lex
import Verif.Spec.Lexeme
import Verif.Spec.Literal
import Verif.Spec.Load
import Verif.Spec.Machine
import Verif.Spec.Mem
import Verif.Spec.Native
import Verif.Spec.Objects
import Verif.Spec.Parse
import Verif.Spec.Position
import Verif.Spec.Registry
import Verif.Spec.Rename
import Verif.Spec.Repl
import Verif.Spec.Sample
import Verif.Spec.Sandbox
import Verif.Spec.Save
import Verif.Spec.SaveAgain
import Verif.Spec.SaveHost
import Verif.Spec.SaveSink
import Verif.Spec.Script
import Verif.Spec.Session
import Verif.Spec.Stack
import Verif.Spec.Stmt
import Verif.Spec.Table
import Verif.Spec.Token
import Verif.Lemmas.Api
import Verif.Lemmas.ApiPres
import Verif.Lemmas.ApiQuiet
import Verif.Lemmas.CStr
import Verif.Lemmas.Callable
import Verif.Lemmas.Calls
import Verif.Lemmas.Clock
import Verif.Lemmas.CodeEmit
import Verif.Lemmas.CodeExpr
import Verif.Lemmas.CodeGen
import Verif.Lemmas.CodeRun
import Verif.Lemmas.Collect
import Verif.Lemmas.CompKeep
import Verif.Lemmas.CompMono
import Verif.Lemmas.CompSafe
import Verif.Lemmas.CompSafe2
import Verif.Lemmas.CompSafe3
import Verif.Lemmas.CompSafe4
import Verif.Lemmas.CompSafe5
import Verif.Lemmas.Compare
import Verif.Lemmas.Coroutine
import Verif.Lemmas.Dbg
import Verif.Lemmas.Destroy
import Verif.Lemmas.Exec
import Verif.Lemmas.Execute
import Verif.Lemmas.Fault
import Verif.Lemmas.FaultGC
import Verif.Lemmas.Final
import Verif.Lemmas.Fold
import Verif.Lemmas.Frame
import Verif.Lemmas.FuncCall
import Verif.Lemmas.FuncComp
import Verif.Lemmas.FuncDef
import Verif.Lemmas.FuncHead
import Verif.Lemmas.FuncProg
import Verif.Lemmas.Held
import Verif.Lemmas.HostCall
import Verif.Lemmas.Layout
import Verif.Lemmas.Lex
import Verif.Lemmas.LexLoop
import Verif.Lemmas.LexTotal
import Verif.Lemmas.Life
import Verif.Lemmas.Literal
import Verif.Lemmas.Mark
import Verif.Lemmas.Mem
import Verif.Lemmas.MemStep
import Verif.Lemmas.MemUser
import Verif.Lemmas.Objects
import Verif.Lemmas.Ops
import Verif.Lemmas.Parse
import Verif.Lemmas.ParseSafe
import Verif.Lemmas.Position
import Verif.Lemmas.Pres
import Verif.Lemmas.Refuse
import Verif.Lemmas.Registry
import Verif.Lemmas.Repl
import Verif.Lemmas.Safe
import Verif.Lemmas.SafeOps
import Verif.Lemmas.SaveAgain
import Verif.Lemmas.SaveAll
import Verif.Lemmas.SaveAny
import Verif.Lemmas.SaveChain
import Verif.Lemmas.SaveCo
import Verif.Lemmas.SaveFuncs
import Verif.Lemmas.SaveHost
import Verif.Lemmas.SaveLists
import Verif.Lemmas.SaveObjects
import Verif.Lemmas.SaveRead
import Verif.Lemmas.SaveReject
import Verif.Lemmas.SaveRestored
import Verif.Lemmas.SaveRun
import Verif.Lemmas.SaveSink
import Verif.Lemmas.SaveTables
import Verif.Lemmas.Session
import Verif.Lemmas.Shrink
import Verif.Lemmas.ShrinkAgain
import Verif.Lemmas.ShrinkField
import Verif.Lemmas.ShrinkTight
import Verif.Lemmas.Stack
import Verif.Lemmas.StmtAll
import Verif.Lemmas.StmtComp
import Verif.Lemmas.StmtGen
import Verif.Lemmas.StmtRun
import Verif.Lemmas.Strings
import Verif.Lemmas.Sweep
import Verif.Lemmas.Switch
import Verif.Lemmas.Table
import Verif.Lemmas.TokKinds
import Verif.Lemmas.Token
import Verif.Lemmas.Value
import Verif.Props.Api
import Verif.Props.ArgCheck
import Verif.Props.Arith
import Verif.Props.CStr
import Verif.Props.Callable
import Verif.Props.Calls
import Verif.Props.Code
import Verif.Props.Coroutine
import Verif.Props.Dbg
import Verif.Props.Entries
import Verif.Props.ErrText
import Verif.Props.Exec
import Verif.Props.Fail
import Verif.Props.Fault
import Verif.Props.FaultGC
import Verif.Props.File
import Verif.Props.Final
import Verif.Props.Find
import Verif.Props.Fold
import Verif.Props.Func
import Verif.Props.GC
import Verif.Props.Handles
import Verif.Props.HostCall
import Verif.Props.IncDec
import Verif.Props.Instr
import Verif.Props.Lex
import Verif.Props.Lexeme
import Verif.Props.Life
import Verif.Props.Literal
import Verif.Props.Mem
import Verif.Props.Method
import Verif.Props.Native
import Verif.Props.Objects
import Verif.Props.Parse
import Verif.Props.Position
import Verif.Props.Refuse
import Verif.Props.Registry
import Verif.Props.Repl
import Verif.Props.Sandbox
import Verif.Props.Save
import Verif.Props.SaveAgain
import Verif.Props.SaveHost
import Verif.Props.SaveSink
import Verif.Props.Scope
import Verif.Props.Script
import Verif.Props.Session
import Verif.Props.Shrink
import Verif.Props.ShrinkTight
import Verif.Props.Stack
import Verif.Props.Stmt
import Verif.Props.Strings
import Verif.Props.Table
import Verif.Props.Token
import Verif.Props.Value
