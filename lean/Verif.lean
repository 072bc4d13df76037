import Verif.Model.Prim
import Verif.Model.Types
import Verif.Model.Gen
import Verif.Model.Api
import Verif.Model.Op
import Verif.Spec
import Verif.Machine
import Verif.Lemmas.Bits
import Verif.Lemmas.Store
import Verif.Lemmas.Loops
import Verif.Lemmas.Field
import Verif.Lemmas.Setter
import Verif.Lemmas.Assign
import Verif.Lemmas.Whole
import Verif.Lemmas.Endian
import Verif.Lemmas.BitOps
import Verif.Lemmas.Decode
import Verif.Lemmas.Refine
import Verif.Lemmas.Calls
import Verif.Lemmas.Effect
import Verif.Lemmas.Ranges
import Verif.Props.Example
import Verif.Props.Fields
import Verif.Props.Construct
import Verif.Props.Convert
import Verif.Props.Write
import Verif.Props.BitAccess
import Verif.Props.ClearInvert
import Verif.Props.History
import Verif.Props.Hidden
import Verif.Props.Safety
import Verif.Props.Backings
import Verif.Props.Findings
import Verif.Model.ConstExpr
import Verif.Model.Args
import Verif.Model.Parser
import Verif.SpecDecl
import Verif.Lemmas.Layout
import Verif.Lemmas.Fields
import Verif.Lemmas.Literal
import Verif.Lemmas.Decl
import Verif.Lemmas.Accept
import Verif.Props.Literal
import Verif.Props.Layout
import Verif.Props.ParserFindings
import Verif.Model.Surface
import Verif.SpecSurface
import Verif.Lemmas.Surface
import Verif.Props.Surface
import Verif.Model.Bitflag
import Verif.SpecFlag
import Verif.Lemmas.Bitflag
import Verif.Props.Bitflag
import Verif.Props.Nested
import Verif.Model.Obj
import Verif.Props.Ignored
import Verif.Lemmas.Rename
import Verif.MachineFull
import Verif.Lemmas.Exact
import Verif.Props.Exact
import Verif.SpecNames
import Verif.Lemmas.Names
import Verif.Lemmas.Idents
import Verif.Props.Names
import Verif.SpecRun
import Verif.Lemmas.Run
import Verif.Props.Declared
import Verif.Model.Rust
import Verif.Model.Quote
import Verif.SpecCall
import Verif.SpecCode
import Verif.Lemmas.Code
import Verif.Lemmas.CodeTok
import Verif.Lemmas.CodeField
import Verif.Lemmas.CodeSet
import Verif.Lemmas.CodeCall
import Verif.Lemmas.CodeBody
import Verif.Lemmas.CodeFn
import Verif.Lemmas.CodeConv
import Verif.Lemmas.CodeWhole
import Verif.Lemmas.CodeSlice
import Verif.Lemmas.CodeWrite
import Verif.Lemmas.CodeBits
import Verif.Lemmas.CodeRange
import Verif.Lemmas.CodeRangeFn
import Verif.Lemmas.CodeGetRange
import Verif.Lemmas.CodeGetRangeFn
import Verif.Lemmas.CodeBuilder
import Verif.Lemmas.CodeProgram
import Verif.Lemmas.CodeRun
import Verif.Lemmas.CodeMake
import Verif.Lemmas.Codegen
import Verif.Props.Codegen
import Verif.SpecForm
import Verif.Lemmas.Form
import Verif.Props.Form
import Verif.SpecReport
import Verif.SpecConst
import Verif.Lemmas.Report
import Verif.Lemmas.Const
import Verif.Props.Report
import Verif.Props.Const
import Verif.SpecArgs
import Verif.Lemmas.Arguments
import Verif.Props.Arguments
import Verif.Model.Paths
import Verif.SpecPaths
import Verif.Lemmas.Paths
import Verif.Props.Paths
import Verif.SpecIdent
import Verif.Lemmas.Ident
import Verif.Model.Expand
import Verif.SpecExpand
import Verif.Lemmas.Expand
import Verif.Props.Expand
import Verif.Model.Docs
import Verif.SpecDocs
import Verif.Lemmas.Docs
import Verif.Props.Docs
import Verif.SpecTypes
import Verif.Lemmas.Typed
import Verif.Lemmas.TypedFns
import Verif.Lemmas.TypedExact
import Verif.Props.Typed
import Verif.SpecAny
import Verif.Lemmas.Sane
import Verif.Lemmas.SaneCall
import Verif.Props.AnyLayout
import Verif.Lemmas.Odd
import Verif.Props.Odd
import Verif.Model.Cargo
import Verif.SpecCargo
import Verif.Props.Cargo
import Verif.Model.BuildScript
import Verif.SpecBuild
import Verif.Lemmas.BuildScript
import Verif.Props.BuildScript
import Verif.SpecNested
import Verif.Props.Composed
import Verif.Model.Tokens
import Verif.Model.Emit
import Verif.Model.EmitDecl
import Verif.Model.Syntax
import Verif.SpecText
import Verif.Lemmas.TextCore
import Verif.Lemmas.TextHelper
import Verif.Lemmas.TextSet
import Verif.Lemmas.TextInit
import Verif.Lemmas.TextSig
import Verif.Lemmas.TextFns
import Verif.Lemmas.TextConv
import Verif.Lemmas.TextOps
import Verif.Lemmas.TextItems
import Verif.Lemmas.TextImpls
import Verif.Props.Text
import Verif.Model.EmitFlag
import Verif.SpecFlagText
import Verif.Lemmas.TextFlag
import Verif.Props.FlagText
import Verif.SpecMut
import Verif.Lemmas.Mut
import Verif.Lemmas.MutFns
import Verif.Props.Mut
import Verif.SpecMove
import Verif.Lemmas.Move
import Verif.Lemmas.MoveCore
import Verif.Lemmas.MoveFns
import Verif.Lemmas.MoveAll
import Verif.Lemmas.MoveItems
import Verif.Props.Move
import Verif.SpecMessage
import Verif.Lemmas.Message
import Verif.Props.Message
import Verif.Props.State
import Verif.Props.Evolve
import Verif.SpecScope
import Verif.Lemmas.Scope
import Verif.Lemmas.ScopeFns
import Verif.Lemmas.ScopeCode
import Verif.Lemmas.ScopeItems
import Verif.Props.Scope
import Verif.SpecDebug
import Verif.Lemmas.DebugText
import Verif.Props.DebugText
import Verif.SpecWords
import Verif.Lemmas.Words
import Verif.Lemmas.WordsFns
import Verif.Lemmas.WordsAll
import Verif.Lemmas.WordsFlag
import Verif.Props.Words
import Verif.SpecBorrow
import Verif.Lemmas.Borrow
import Verif.Lemmas.BorrowFns
import Verif.Lemmas.BorrowRet
import Verif.Props.Borrow
import Verif.Props.BorrowFlag
