import Verif.Model.AsmText
import Verif.Model.Assembler
import Verif.Model.Basic
import Verif.Model.Color
import Verif.Model.Compile
import Verif.Model.CompileList
import Verif.Model.CompilerState
import Verif.Model.Dates
import Verif.Model.Decimal
import Verif.Model.Digits
import Verif.Model.Dimension
import Verif.Model.ErrorMod
import Verif.Model.Expand
import Verif.Model.ExprEval
import Verif.Model.ExprOps
import Verif.Model.Flt
import Verif.Model.Functions
import Verif.Model.Lexer
import Verif.Model.Node
import Verif.Model.NodeText
import Verif.Model.NodeType
import Verif.Model.NthChild
import Verif.Model.NumValue
import Verif.Model.Parser
import Verif.Model.Pipeline
import Verif.Model.Scripts
import Verif.Model.Selector
import Verif.Model.SystemScripts
import Verif.Model.Tool
import Verif.Model.Tree
import Verif.Model.UnicodeRange
import Verif.Model.UserFunc
import Verif.Model.Utf8
import Verif.Model.Validation
import Verif.Model.Vars
import Verif.Spec.Allowed
import Verif.Spec.AnB
import Verif.Spec.AnBlank
import Verif.Spec.Args
import Verif.Spec.Arguments
import Verif.Spec.Assign
import Verif.Spec.Branches
import Verif.Spec.ColorNames
import Verif.Spec.Compiled
import Verif.Spec.Files
import Verif.Spec.FunctionTable
import Verif.Spec.Layout
import Verif.Spec.Lexemes
import Verif.Spec.Lines
import Verif.Spec.Literal
import Verif.Spec.Marks
import Verif.Spec.Nest
import Verif.Spec.NodeFields
import Verif.Spec.NodeText
import Verif.Spec.ParseText
import Verif.Spec.ParserTree
import Verif.Spec.Plain
import Verif.Spec.PlainVars
import Verif.Spec.Preprocess
import Verif.Spec.Scopes
import Verif.Spec.SelectorIds
import Verif.Spec.Selectors
import Verif.Spec.Template
import Verif.Spec.Text
import Verif.Spec.TokenFields
import Verif.Spec.Tool
import Verif.Spec.ToolRun
import Verif.Spec.UserFunc
import Verif.Spec.Utf8
import Verif.Spec.Written
import Verif.Lemmas.CompileAll
import Verif.Lemmas.CompileAt
import Verif.Lemmas.CompileEnd
import Verif.Lemmas.CompileGives
import Verif.Lemmas.CompileLoops
import Verif.Lemmas.CompilePlace
import Verif.Lemmas.CompileRun
import Verif.Lemmas.CompileSize
import Verif.Lemmas.Definitions
import Verif.Lemmas.Digits
import Verif.Lemmas.Flt
import Verif.Lemmas.FltBound
import Verif.Lemmas.FltErr
import Verif.Lemmas.LexOrigin
import Verif.Lemmas.LexReach
import Verif.Lemmas.LexReach2
import Verif.Lemmas.LexReach3
import Verif.Lemmas.LexSpell
import Verif.Lemmas.LexSpell10
import Verif.Lemmas.LexSpell11
import Verif.Lemmas.LexSpell12
import Verif.Lemmas.LexSpell13
import Verif.Lemmas.LexSpell2
import Verif.Lemmas.LexSpell3
import Verif.Lemmas.LexSpell4
import Verif.Lemmas.LexSpell5
import Verif.Lemmas.LexSpell6
import Verif.Lemmas.LexSpell7
import Verif.Lemmas.LexSpell8
import Verif.Lemmas.LexSpell9
import Verif.Lemmas.LexText
import Verif.Lemmas.LexType
import Verif.Lemmas.Literal
import Verif.Lemmas.Literal2
import Verif.Lemmas.NthChild
import Verif.Lemmas.NthChildParse
import Verif.Lemmas.NthText
import Verif.Lemmas.ParserBack
import Verif.Lemmas.ParserEntry
import Verif.Lemmas.ParserRun
import Verif.Lemmas.ParserShape
import Verif.Lemmas.ParserShape2
import Verif.Lemmas.ParserSpecs
import Verif.Lemmas.ParserTr
import Verif.Lemmas.ParserTree
import Verif.Lemmas.PlainComp
import Verif.Lemmas.PlainDef
import Verif.Lemmas.PlainEnd
import Verif.Lemmas.PlainExpr
import Verif.Lemmas.PlainLex
import Verif.Lemmas.PlainOut
import Verif.Lemmas.PlainParse
import Verif.Lemmas.PlainSeg
import Verif.Lemmas.PlainSel
import Verif.Lemmas.PlainVars
import Verif.Lemmas.ScriptGood
import Verif.Lemmas.ScriptLex
import Verif.Lemmas.ScriptParse
import Verif.Lemmas.ScriptTree
import Verif.Lemmas.Selector
import Verif.Lemmas.Selector2
import Verif.Lemmas.Selector3
import Verif.Lemmas.SystemRead
import Verif.Lemmas.UnicodeRange
import Verif.Lemmas.ValidExpr
import Verif.Lemmas.ValidPass
import Verif.Lemmas.ValidRun
import Verif.Lemmas.VarsFuel
import Verif.Lemmas.VarsRun
import Verif.Lemmas.VarsStep
import Verif.Lemmas.Wheel
import Verif.Lemmas.Wheel1
import Verif.Lemmas.Wheel2
import Verif.Lemmas.Wheel3
import Verif.Lemmas.Wheel4
import Verif.Lemmas.Written
import Verif.Lemmas.Written2
import Verif.Lemmas.Written3
import Verif.Lemmas.Written4
import Verif.Lemmas.Written5
import Verif.Lemmas.Written6
import Verif.Lemmas.Written7
import Verif.Lemmas.Written8
import Verif.Lemmas.WrittenNum
import Verif.Props.Args
import Verif.Props.Assembler
import Verif.Props.AssemblerText
import Verif.Props.Branches
import Verif.Props.Call
import Verif.Props.Children
import Verif.Props.Clone
import Verif.Props.Color
import Verif.Props.CompileDecl
import Verif.Props.CompileFrames
import Verif.Props.CompileList
import Verif.Props.CompileLocal
import Verif.Props.CompileMessage
import Verif.Props.CompileWhole
import Verif.Props.CompilerState
import Verif.Props.Dates
import Verif.Props.Decimal
import Verif.Props.Define
import Verif.Props.Dimension
import Verif.Props.ErrorMod
import Verif.Props.Expand
import Verif.Props.ExprAdd
import Verif.Props.ExprCompare
import Verif.Props.ExprFrame
import Verif.Props.ExprGrammar
import Verif.Props.ExprIndex
import Verif.Props.ExprMap
import Verif.Props.ExprTable
import Verif.Props.ExprTerm
import Verif.Props.Folding
import Verif.Props.Forever
import Verif.Props.Frames
import Verif.Props.Functions
import Verif.Props.FunctionsAngle
import Verif.Props.FunctionsColor
import Verif.Props.FunctionsConv
import Verif.Props.FunctionsGray
import Verif.Props.FunctionsHsl
import Verif.Props.FunctionsHue
import Verif.Props.FunctionsIf
import Verif.Props.FunctionsMax
import Verif.Props.FunctionsMisc
import Verif.Props.FunctionsNum
import Verif.Props.FunctionsPart
import Verif.Props.FunctionsSqrt
import Verif.Props.FunctionsWheel
import Verif.Props.If
import Verif.Props.Import
import Verif.Props.LexGrammar
import Verif.Props.LexTokens
import Verif.Props.Lexer
import Verif.Props.Literal
import Verif.Props.Marks
import Verif.Props.Nest
import Verif.Props.Node
import Verif.Props.NodeText
import Verif.Props.NodeTextMore
import Verif.Props.NodeTextRead
import Verif.Props.NthChild
import Verif.Props.NthText
import Verif.Props.Parser
import Verif.Props.ParserTree
import Verif.Props.Pipeline
import Verif.Props.PlainVars
import Verif.Props.Reports
import Verif.Props.RoundTrip
import Verif.Props.RoundTripNum
import Verif.Props.RoundTripRange
import Verif.Props.Scopes
import Verif.Props.Selector
import Verif.Props.SetVar
import Verif.Props.SystemScripts
import Verif.Props.Tool
import Verif.Props.ToolMore
import Verif.Props.ToolRun
import Verif.Props.UnicodeRange
import Verif.Props.UserFunc
import Verif.Props.Utf8
import Verif.Props.Validation
import Verif.Props.Vars
import Verif.Props.Written
