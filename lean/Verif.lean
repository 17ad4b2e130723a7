import Verif.Assembler.CodeAt
import Verif.Assembler.Inversion
import Verif.Assembler.Labels
import Verif.Assembler.Model
import Verif.Ast.Model
import Verif.Bundle.Lemmas
import Verif.Bundle.Model
import Verif.Bundle.PoolModel
import Verif.Bundle.PoolProps
import Verif.Bundle.ReloadProps
import Verif.Bundle.SaveProps
import Verif.Bytecode.Cursor
import Verif.Bytecode.CursorProps
import Verif.Bytecode.LabelProps
import Verif.Bytecode.LayoutProps
import Verif.Bytecode.Lemmas
import Verif.Bytecode.Model
import Verif.Bytecode.Props
import Verif.Bytecode.ReadBack
import Verif.Codec.Lemmas
import Verif.Codec.Model
import Verif.Codec.Props
import Verif.Cte.Model
import Verif.Cte.Props
import Verif.Decompiler.DeclPrintModel
import Verif.Decompiler.ExprProps
import Verif.Decompiler.FilesModel
import Verif.Decompiler.FilesProps
import Verif.Decompiler.ListingModel
import Verif.Decompiler.ListingProps
import Verif.Decompiler.MergeModel
import Verif.Decompiler.MergeProps
import Verif.Decompiler.Model
import Verif.Decompiler.PrintCex
import Verif.Decompiler.PrintDecl
import Verif.Decompiler.PrintDeclProps
import Verif.Decompiler.PrintModel
import Verif.Decompiler.PrintOps
import Verif.Decompiler.PrintProps
import Verif.Decompiler.PrintStmt
import Verif.Decompiler.Props
import Verif.Decompiler.ShownCode
import Verif.Decompiler.ShownContext
import Verif.Decompiler.ShownJumps
import Verif.Decompiler.ShownMeaning
import Verif.Decompiler.ShownPaths
import Verif.Decompiler.ShownProps
import Verif.Decompiler.ShownReads
import Verif.Decompiler.ShownSpec
import Verif.Decompiler.TextProps
import Verif.Definition.Model
import Verif.Definition.Props
import Verif.Definition.ReadBack
import Verif.Desugar.Basics
import Verif.Desugar.BelowProps
import Verif.Desugar.Bisim
import Verif.Desugar.Blind
import Verif.Desugar.BlindProps
import Verif.Desugar.Cells
import Verif.Desugar.Claims
import Verif.Desugar.ExprProps
import Verif.Desugar.FixedClaim
import Verif.Desugar.FixedProps
import Verif.Desugar.ForEach
import Verif.Desugar.ForIn
import Verif.Desugar.InOrdClaim
import Verif.Desugar.Literals
import Verif.Desugar.Meaning
import Verif.Desugar.Model
import Verif.Desugar.Order
import Verif.Desugar.Pending
import Verif.Desugar.Positions
import Verif.Desugar.Stmts
import Verif.Desugar.SugarExamples
import Verif.Desugar.Toy
import Verif.Diagnostics.Model
import Verif.Diagnostics.Props
import Verif.Diagnostics.ReturnProps
import Verif.Names.Model
import Verif.Names.Props
import Verif.Parser.DeclRules
import Verif.Parser.DeclaredNames
import Verif.Parser.Ends
import Verif.Parser.EndsDecl
import Verif.Parser.EndsProps
import Verif.Parser.ExprModel
import Verif.Parser.ExprProps
import Verif.Parser.LexModel
import Verif.Parser.LexProps
import Verif.Parser.ReadsAtoms
import Verif.Parser.ReadsConst
import Verif.Parser.ReadsDecl
import Verif.Parser.ReadsEntry
import Verif.Parser.ReadsExpr
import Verif.Parser.ReadsModule
import Verif.Parser.ReadsProps
import Verif.Parser.ReadsStmt
import Verif.Parser.Steps
import Verif.Pipeline.Checked
import Verif.Pipeline.Demo
import Verif.Pipeline.Desugared
import Verif.Pipeline.Plain
import Verif.Pipeline.Props
import Verif.Pipeline.Written
import Verif.Report.Model
import Verif.Report.PlaceProps
import Verif.Report.ReportProps
import Verif.Scc.CApi
import Verif.Scc.CliExample
import Verif.Scc.CliModel
import Verif.Scc.CliProps
import Verif.Scc.HintsDir
import Verif.Scc.LaunchModel
import Verif.Scc.LaunchProps
import Verif.Scc.Model
import Verif.Scc.PathFirst
import Verif.Scc.PathHistory
import Verif.Scc.PathIndependent
import Verif.Scc.PathLaunch
import Verif.Scc.PathNames
import Verif.Scc.PathUpdate
import Verif.Scc.PrepModel
import Verif.Scc.PrepProps
import Verif.Scc.PrepSeparate
import Verif.Scc.ToolProps
import Verif.Scope.BlockModel
import Verif.Scope.BlockProps
import Verif.Scope.ImportProps
import Verif.Scope.Model
import Verif.SourceMap.DirModel
import Verif.SourceMap.DirProps
import Verif.SourceMap.Model
import Verif.SourceMap.Props
import Verif.Typecheck.Arity
import Verif.Typecheck.Basics
import Verif.Typecheck.Claim
import Verif.Typecheck.Elab
import Verif.Typecheck.Model
import Verif.Typecheck.Permissive
import Verif.Typecheck.Pieces
import Verif.Typecheck.Rules
import Verif.Typecheck.Sound
import Verif.Typed.Model
import Verif.Types.ConvProps
import Verif.Types.IndexProps
import Verif.Types.Model
import Verif.Types.OverloadProps
import Verif.Unit.ClashClean
import Verif.Unit.ClashExamples
import Verif.Unit.ClashLoops
import Verif.Unit.ClashPlain
import Verif.Unit.ClashProps
import Verif.Unit.ClashSpec
import Verif.Unit.ClashSteps
import Verif.Unit.ClashSymbols
import Verif.Unit.CleanupModel
import Verif.Unit.CleanupProps
import Verif.Unit.CompileBodies
import Verif.Unit.CompileClasses
import Verif.Unit.CompileExample
import Verif.Unit.CompileFiles
import Verif.Unit.CompileFilesExample
import Verif.Unit.CompileModel
import Verif.Unit.CompileProps
import Verif.Unit.CompileRest
import Verif.Unit.CompileRestExample
import Verif.Unit.CompileRestLoops
import Verif.Unit.CompileTheorems
import Verif.Unit.DeclAdds
import Verif.Unit.DeclDemo
import Verif.Unit.DeclDone
import Verif.Unit.DeclDoneFirst
import Verif.Unit.DeclDoneLocate
import Verif.Unit.DeclDoneQueue
import Verif.Unit.DeclDoneSpec
import Verif.Unit.DeclDoneSteps
import Verif.Unit.DeclDoneTheorems
import Verif.Unit.DeclFiles
import Verif.Unit.DeclFrame
import Verif.Unit.DeclInv
import Verif.Unit.DeclLate
import Verif.Unit.DeclModel
import Verif.Unit.DeclNames
import Verif.Unit.DeclRefs
import Verif.Unit.DeclRefsLoop
import Verif.Unit.DeclSpec
import Verif.Unit.DeclSteps
import Verif.Unit.DeclSyms
import Verif.Unit.DeclTable
import Verif.Unit.DeclTheorems
import Verif.Unit.DeclTypes
import Verif.Unit.DeclVisibility
import Verif.Unit.DefaultExamples
import Verif.Unit.DefaultModel
import Verif.Unit.DefaultProps
import Verif.Unit.DiagModel
import Verif.Unit.DiagProps
import Verif.Unit.OrderExample
import Verif.Unit.OrderProps
import Verif.Unit.RefModel
import Verif.Unit.SourceRefs
import Verif.Unit.SourceRefsExample
import Verif.Unit.WrapCompiled
import Verif.Unit.WrapCompiledExample
import Verif.Unit.WrapExample
import Verif.Unit.WrapFinish
import Verif.Unit.WrapFirst
import Verif.Unit.WrapModel
import Verif.Unit.WrapProps
import Verif.Unit.WrapProxies
import Verif.Unit.WrapSecond
import Verif.Unit.WrapTheorems
import Verif.Unit.WrappedCallExample
import Verif.Unit.WrappedCallProps
import Verif.Util.AMap
import Verif.Util.BinarySearch
import Verif.Util.List
import Verif.Vm.CallProps
import Verif.Vm.Determinism
import Verif.Vm.Examples
import Verif.Vm.ExprProps
import Verif.Vm.Machine
import Verif.Vm.Mono
import Verif.Vm.Props
import Verif.Vm.Rename
import Verif.Vm.Shape
import Verif.Vm.Sim
import Verif.Vm.Source
import Verif.Vm.StmtProps
