import Verif.Model.AlgorithmsInfo
import Verif.Model.Comments
import Verif.Model.Common
import Verif.Model.Config
import Verif.Model.Console
import Verif.Model.CountCrash
import Verif.Model.CountRng
import Verif.Model.Driver
import Verif.Model.Json
import Verif.Model.Languages
import Verif.Model.MutationVisitor
import Verif.Model.MutatorBase
import Verif.Model.NodePrinter
import Verif.Model.Operators
import Verif.Model.Path
import Verif.Model.Permissions
import Verif.Model.Preferences
import Verif.Model.Printer
import Verif.Model.PrinterOps
import Verif.Model.SolidityMutators
import Verif.Model.SolidityPrinter
import Verif.Model.Strings
import Verif.Model.System
import Verif.Model.Tool
import Verif.Model.Traverse
import Verif.Model.VyperMutators
import Verif.Model.VyperPrinter
import Verif.Proofs.Anchored
import Verif.Proofs.Candidates
import Verif.Proofs.Comments
import Verif.Proofs.Console
import Verif.Proofs.Duplicates
import Verif.Proofs.Ends
import Verif.Proofs.Extension
import Verif.Proofs.Fits
import Verif.Proofs.Flow
import Verif.Proofs.Frame
import Verif.Proofs.Generate
import Verif.Proofs.InterfaceWords
import Verif.Proofs.Json
import Verif.Proofs.Lex
import Verif.Proofs.ListedExact
import Verif.Proofs.Literals
import Verif.Proofs.Loop
import Verif.Proofs.LoopLog
import Verif.Proofs.MutatorNodes
import Verif.Proofs.Mutators
import Verif.Proofs.NodePrinter
import Verif.Proofs.OneLine
import Verif.Proofs.Paint
import Verif.Proofs.Path
import Verif.Proofs.Prefs
import Verif.Proofs.Printer
import Verif.Proofs.PrinterShift
import Verif.Proofs.PrinterText
import Verif.Proofs.Reach
import Verif.Proofs.Repro
import Verif.Proofs.RunEnds
import Verif.Proofs.Select
import Verif.Proofs.SolidityChange
import Verif.Proofs.SolidityChunk
import Verif.Proofs.SolidityComment
import Verif.Proofs.SolidityDoc
import Verif.Proofs.SolidityEdit
import Verif.Proofs.SolidityExpr
import Verif.Proofs.SolidityFile
import Verif.Proofs.SolidityGrammar
import Verif.Proofs.SolidityMutants
import Verif.Proofs.SolidityNodes
import Verif.Proofs.SolidityPlace
import Verif.Proofs.SolidityPrinter
import Verif.Proofs.SolidityProgram
import Verif.Proofs.SolidityRead
import Verif.Proofs.SolidityReadComment
import Verif.Proofs.SolidityReadFile
import Verif.Proofs.SolidityReadItems
import Verif.Proofs.SolidityReadStmt
import Verif.Proofs.SolidityReadYul
import Verif.Proofs.SolidityRows
import Verif.Proofs.SoliditySturdy
import Verif.Proofs.SolidityTokens
import Verif.Proofs.Sort
import Verif.Proofs.Spread
import Verif.Proofs.Sturdy
import Verif.Proofs.SturdyMutants
import Verif.Proofs.SturdyVyperMutants
import Verif.Proofs.Tool
import Verif.Proofs.Trace
import Verif.Proofs.Traced
import Verif.Proofs.TraverseInv
import Verif.Proofs.Tree
import Verif.Proofs.Visitor
import Verif.Proofs.VyperBlocks
import Verif.Proofs.VyperCalls
import Verif.Proofs.VyperChange
import Verif.Proofs.VyperComment
import Verif.Proofs.VyperExpr
import Verif.Proofs.VyperGrammar
import Verif.Proofs.VyperHeads
import Verif.Proofs.VyperLayout
import Verif.Proofs.VyperMutants
import Verif.Proofs.VyperNoted
import Verif.Proofs.VyperPrinter
import Verif.Proofs.VyperRead
import Verif.Proofs.VyperReadBack
import Verif.Proofs.VyperRows
import Verif.Proofs.VyperSturdy
import Verif.Proofs.VyperText
import Verif.Proofs.Yul
import Verif.Props.Command
import Verif.Props.CommentedOut
import Verif.Props.Comments
import Verif.Props.CompilerArgs
import Verif.Props.Config
import Verif.Props.Considered
import Verif.Props.Console
import Verif.Props.CountCrash
import Verif.Props.Counting
import Verif.Props.Demo
import Verif.Props.Duplicates
import Verif.Props.Effort
import Verif.Props.Ends
import Verif.Props.EndsExact
import Verif.Props.Flow
import Verif.Props.Idle
import Verif.Props.InputsKept
import Verif.Props.InterfaceWords
import Verif.Props.Json
import Verif.Props.Languages
import Verif.Props.Listing
import Verif.Props.Literals
import Verif.Props.Loading
import Verif.Props.Loop
import Verif.Props.Names
import Verif.Props.NodePrinter
import Verif.Props.Operators
import Verif.Props.OutputNames
import Verif.Props.Paths
import Verif.Props.Permissions
import Verif.Props.Preferences
import Verif.Props.PrettyPrint
import Verif.Props.Printer
import Verif.Props.Reach
import Verif.Props.ReachRun
import Verif.Props.Recognition
import Verif.Props.Repeats
import Verif.Props.Replacement
import Verif.Props.Results
import Verif.Props.RunEnds
import Verif.Props.RunEndsWell
import Verif.Props.Runs
import Verif.Props.SavedCompiler
import Verif.Props.Selection
import Verif.Props.ShownOperators
import Verif.Props.SolidityCallMutant
import Verif.Props.SolidityExpr
import Verif.Props.SolidityHunk
import Verif.Props.SolidityLiteral
import Verif.Props.SolidityMutants
import Verif.Props.SolidityMutators
import Verif.Props.SolidityPragma
import Verif.Props.SolidityProgram
import Verif.Props.SolidityReader
import Verif.Props.SolidityText
import Verif.Props.Strings
import Verif.Props.Sturdy
import Verif.Props.SturdyMutants
import Verif.Props.SturdyRuns
import Verif.Props.SturdyVyperMutants
import Verif.Props.SyntaxTree
import Verif.Props.Tool
import Verif.Props.Traverse
import Verif.Props.Validation
import Verif.Props.Visitor
import Verif.Props.VyperExpr
import Verif.Props.VyperHunk
import Verif.Props.VyperLines
import Verif.Props.VyperLiteral
import Verif.Props.VyperMutants
import Verif.Props.VyperMutators
import Verif.Props.VyperPrinter
import Verif.Props.VyperProgram
import Verif.Props.VyperStable
import Verif.Props.VyperUnprinted
import Verif.Props.VyperWhole
import Verif.Spec.Brackets
import Verif.Spec.Candidates
import Verif.Spec.Command
import Verif.Spec.CommentedOut
import Verif.Spec.Comments
import Verif.Spec.Compiling
import Verif.Spec.Considered
import Verif.Spec.DemoMachine
import Verif.Spec.DemoNodes
import Verif.Spec.DemoSystem
import Verif.Spec.DemoVyper
import Verif.Spec.Ends
import Verif.Spec.Events
import Verif.Spec.History
import Verif.Spec.Idle
import Verif.Spec.JsonSpec
import Verif.Spec.Lex
import Verif.Spec.Listing
import Verif.Spec.Mutant
import Verif.Spec.MutatorSpec
import Verif.Spec.Paths
import Verif.Spec.PrefSpec
import Verif.Spec.PrintNodes
import Verif.Spec.Reach
import Verif.Spec.Replacement
import Verif.Spec.Runs
import Verif.Spec.Selection
import Verif.Spec.Solc
import Verif.Spec.SolidityChange
import Verif.Spec.SolidityExpr
import Verif.Spec.SolidityFile
import Verif.Spec.SolidityGrammar
import Verif.Spec.SolidityHunk
import Verif.Spec.SolidityLiteral
import Verif.Spec.SolidityMutation
import Verif.Spec.SolidityProgram
import Verif.Spec.SolidityRead
import Verif.Spec.SolidityText
import Verif.Spec.Sturdy
import Verif.Spec.Trace
import Verif.Spec.Tree
import Verif.Spec.VyperChange
import Verif.Spec.VyperExpr
import Verif.Spec.VyperGrammar
import Verif.Spec.VyperHunk
import Verif.Spec.VyperLiteral
import Verif.Spec.VyperMutation
import Verif.Spec.VyperNodes
import Verif.Spec.VyperProgram
import Verif.Spec.Yul
