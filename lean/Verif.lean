import Verif.AMap
import Verif.Memory.Props
import Verif.Heap.Props
import Verif.Str.Props
import Verif.SemVer.Props
import Verif.Ints.Props
import Verif.Lex.Props
import Verif.Scope.Props
import Verif.Scope.Overload
import Verif.Brackets.Props
import Verif.Lex.Numbers
import Verif.Types.Props
import Verif.Expr.Props
import Verif.Interp.Props
import Verif.Interp.Switch
import Verif.Interp.Exit
import Verif.Interp.Witness
import Verif.Check.Model
import Verif.Check.Every
import Verif.Check.Jumps
import Verif.Check.Returns
import Verif.Check.Throws
import Verif.Check.Props
import Verif.Methods.Props
import Verif.Generic.Props
import Verif.Classes.Props
import Verif.Classes.CreateProps
import Verif.Enums.Props
import Verif.Debug.Props
import Verif.Threads.Props
import Verif.Imports.Props
import Verif.Pkg.Props
import Verif.Coll.Props
import Verif.Coll.MapSet
import Verif.Stmt.Props
import Verif.Stmt.Facts
import Verif.Names.Access
import Verif.Decl.Props
import Verif.Vars.Props
import Verif.Files.Props
import Verif.Text.Props
import Verif.Args.Props
import Verif.Heap.Inherit
import Verif.Heap.InheritProps
import Verif.Objs.CtorProps
import Verif.Objs.MembersProps
import Verif.Coll.Cursor
import Verif.Calc.Props
import Verif.Whole.Props
import Verif.Whole.Demo
import Verif.Json.Props
import Verif.Interp.Hangs
import Verif.Whole.Outcomes
import Verif.Whole.DemoFor
import Verif.Whole.DemoOutcomes
import Verif.Whole.Rules
import Verif.Whole.Checked
import Verif.Whole.Rejects
import Verif.Whole.DemoRejects
import Verif.Whole.DemoMore
import Verif.Whole.DemoUse
import Verif.Whole.DemoSwitch
import Verif.Whole.DemoText
import Verif.Whole.DemoAssert
import Verif.Whole.DemoElse
import Verif.Whole.DemoRejectsSwitch
import Verif.Json.Builder
import Verif.Json.Built
import Verif.SemVer.Script
import Verif.SemVer.ScriptProps
import Verif.Trees.Model
import Verif.Trees.Props
import Verif.Csv.Model
import Verif.Csv.Props
import Verif.Global.Model
import Verif.Global.Spec
import Verif.Global.Lemmas
import Verif.Global.Main
import Verif.Global.Props
import Verif.Global.Faults
import Verif.Sudoku.Spec
import Verif.Sudoku.Model
import Verif.Sudoku.Lemmas
import Verif.Sudoku.Props
import Verif.Debug.Session
import Verif.Debug.SessionProps
import Verif.Whole.Sane
import Verif.Generic.Uses
import Verif.Expr.Literals
import Verif.Net.Model
import Verif.Net.Props
import Verif.Calc.Shown
import Verif.Embed.Model
import Verif.Embed.Props
import Verif.Str.Config
import Verif.Str.Std
import Verif.Log.Model
import Verif.Log.Props
import Verif.Ints.Power
import Verif.Libc.Model
import Verif.Libc.Props
import Verif.Web.Model
import Verif.Web.Props
import Verif.Repo.Model
import Verif.Repo.Props
import Verif.Anc.Model
import Verif.Anc.Props
import Verif.Query.Model
import Verif.Query.Props
import Verif.Trace.Model
import Verif.Trace.Props
import Verif.Files.Scanner
import Verif.Dump.Model
import Verif.Dump.Props
import Verif.Heap.Shutdown
import Verif.Heap.ShutdownExact
