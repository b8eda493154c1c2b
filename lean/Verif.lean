import Verif.Common.Basic
import Verif.Common.Rle
import Verif.Common.Pool
import Verif.Common.Vecc
import Verif.Common.Bluff
import Verif.Bytecode
import Verif.Ast
import Verif.Value
import Verif.Arith
import Verif.Hash
import Verif.Vm.Instr
import Verif.Vm.Prims
import Verif.Vm.Machine
import Verif.Vm.Api
import Verif.Vm.Lemmas
import Verif.Vm.Inv
import Verif.Vm.Limits
import Verif.Vm.HostSub
import Verif.Props.Data
import Verif.Props.Arith
import Verif.Props.Values
import Verif.Props.Vm
import Verif.Props.VmApi
import Verif.Compiler.State
import Verif.Compiler.Compile
import Verif.Compiler.Gen
import Verif.Compiler.GenEq
import Verif.Sem.Source
import Verif.Sem.Rel
import Verif.Compiler.GenInv
import Verif.Compiler.GenCases
import Verif.Compiler.GenExt
import Verif.Sem.Wf
import Verif.Sem.World
import Verif.Sem.Post
import Verif.Sem.SimBase
import Verif.Sem.SimExpr
import Verif.Sem.SimNode
import Verif.Sem.SimFun
import Verif.Sem.SimScope
import Verif.Sem.SimStmt
import Verif.Sem.SimCtl
import Verif.Sem.SimLoop
import Verif.Sem.SimCtx
import Verif.Sem.SimCall
import Verif.Sem.Sim
import Verif.Sem.SimTop
import Verif.Sem.Program
import Verif.Compiler.Fits
import Verif.Sem.Api
import Verif.Sem.SourceInv
import Verif.Sem.Shaped
import Verif.Sem.Only
import Verif.Sem.SourceEq
import Verif.Sem.Scope
import Verif.Sem.Ready
import Verif.Props.Correct
import Verif.Props.Lang
import Verif.Props.Scoping
import Verif.Compiler.Jumps
import Verif.Disasm
import Verif.Compiler.Boundary
import Verif.DisasmLemmas
import Verif.Compiler.Accept
import Verif.Props.Code
import Verif.Show
import Verif.Parser.Peg
import Verif.Parser.Implicit
import Verif.Parser.Grammar
import Verif.Parser.Shape
import Verif.Parser.Sound
import Verif.Parser.Includes
import Verif.Parser.IncludeLemmas
import Verif.Parser.Tie
import Verif.Parser.Literals
import Verif.Parser.LiteralText
import Verif.Parser.Placed
import Verif.Props.Parser
import Verif.Props.Text
import Verif.Lib.Args
import Verif.Lib.Core
import Verif.Lib.Strings
import Verif.Lib.Math
import Verif.Lib.Std
import Verif.Lib.ArgLemmas
import Verif.Lib.Radix
import Verif.Props.Builtins
import Verif.Props.Strings
import Verif.Props.Numbers
import Verif.Lib.Rel
import Verif.Props.Std
import Verif.Repl
import Verif.Compiler.Names
import Verif.Sem.Session
import Verif.Props.Session
import Verif.Compiler.NoPanic
import Verif.Parser.Ops
import Verif.Props.NoPanic
import Verif.Parser.Concrete
import Verif.Parser.Gives
import Verif.Parser.Lists
import Verif.Parser.LitRead
import Verif.Parser.Heads
import Verif.Parser.NodeLit
import Verif.Parser.Strip
import Verif.Parser.Follow
import Verif.Parser.Steps
import Verif.Parser.Forms
import Verif.Parser.Stmts
import Verif.Parser.Conds
import Verif.Parser.Complete
import Verif.Props.Concrete
import Verif.Vm.Bottom
import Verif.Sem.Reuse
import Verif.Props.Reuse
import Verif.Check.Repo
import Verif.Report
import Verif.ReportLemmas
import Verif.Compiler.Spans
import Verif.Vm.Flow
import Verif.Vm.Place
import Verif.Parser.Sources
import Verif.Parser.Nest
import Verif.Props.Flow
import Verif.Props.Report
import Verif.Lib.Colors
import Verif.Lib.Io
import Verif.Lib.IoRel
import Verif.Lib.Errors
import Verif.Sem.Errors
import Verif.Check.Env
import Verif.Cli
import Verif.CliSem
import Verif.Props.Cli
import Verif.ReplLoop
import Verif.Props.Loop
import Verif.Props.Errors
import Verif.Props.Convert
import Verif.Props.Io
import Verif.Lib.Ieee
import Verif.Lib.IeeeLemmas
import Verif.Props.Floats
import Verif.Lib.IeeeText
import Verif.Props.FloatText
import Verif.Props.Decimals
import Verif.Props.Colors
import Verif.Props.Hues
import Verif.Sem.Rename
import Verif.Sem.Alpha
import Verif.Sem.Layout
import Verif.Props.Layout
import Verif.Vm.Values
import Verif.Compiler.Consts
import Verif.Props.Memory
import Verif.Props.MemoryLib
import Verif.Message
import Verif.Props.Messages
import Verif.Props.TimeLimit
import Verif.TextLemmas
import Verif.Listing
import Verif.Props.Listing
import Verif.Sem.Ends
import Verif.Sem.Finish
import Verif.Props.Ends
import Verif.Props.Nest
import Verif.Lib.Docs
import Verif.Lib.DocLemmas
import Verif.Lib.DocAudit
import Verif.Props.Docs
import Verif.Sem.Compare
import Verif.Sem.CompareText
import Verif.Props.Compared
import Verif.HostValue
import Verif.Props.HostValue
import Verif.Parser.Traced
import Verif.Parser.Forget
import Verif.Parser.Marks
import Verif.Props.SyntaxErrors
import Verif.Compiler.Lengths
import Verif.Compiler.Places
import Verif.Compiler.Blame
import Verif.Compiler.Exact
import Verif.Props.CompileErrors
import Verif.Facade
import Verif.FacadeLemmas
import Verif.Props.Facade
import Verif.Sem.BlameSpec
import Verif.Sem.Blame
import Verif.Props.Blame
import Verif.Compiler.Misplaced
import Verif.Lib.Crash
import Verif.Props.Crash
import Verif.Vm.Reported
import Verif.Drawn
import Verif.Props.Drawn
import Verif.Compiler.RoomSpec
import Verif.Compiler.Heights
import Verif.Compiler.Rooms
import Verif.Vm.Room
import Verif.Props.Room
import Verif.Vm.Builds
import Verif.Lib.Builds
import Verif.Compiler.Builds
import Verif.Vm.BuildsApi
import Verif.Props.Builds
import Verif.Vm.Spoil
import Verif.Sem.Spoil
import Verif.Sem.Twins
import Verif.Props.Worlds
import Verif.Sem.Raise
import Verif.Props.Larger
import Verif.Sem.Splice
import Verif.Props.Splice
import Verif.Vm.Keeps
import Verif.Props.Output
import Verif.Sem.Flat
import Verif.Sem.Worn
import Verif.Vm.Worn
import Verif.Sem.WornReady
import Verif.Props.Depth
import Verif.Compiler.Relabel
import Verif.Vm.Relabel
import Verif.Props.Rename
import Verif.Sem.Unused
import Verif.Props.Unused
import Verif.Props.Order
import Verif.Props.Fail
import Verif.Props.Tidy
import Verif.Sem.Cong
import Verif.Props.Replace
