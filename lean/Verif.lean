import Verif.Model.Token
import Verif.Model.Utf8
import Verif.Model.Scanner
import Verif.Spec.Token
import Verif.Spec.Lexical
import Verif.Proof.ScannerBasic
import Verif.Proof.ScannerSteps
import Verif.Proof.ScannerLex
import Verif.Proof.ScannerLit
import Verif.Proof.ScannerAhead
import Verif.Proof.ScannerOp
import Verif.Proof.ScannerPass
import Verif.Proof.ScannerSame
import Verif.Proof.ScannerErase
import Verif.Props.Token
import Verif.Model.Tokener
import Verif.Proof.ScannerRun
import Verif.Proof.ScannerTok
import Verif.Proof.ScannerClean
import Verif.Proof.ScannerForward
import Verif.Proof.ScannerReads
import Verif.Proof.ScannerAccept
import Verif.Proof.ScannerView
import Verif.Props.Scanner
import Verif.Props.Lexer
import Verif.Model.Grammar
import Verif.Spec.Trace
import Verif.Spec.Peg
import Verif.Spec.GrPeg
import Verif.Proof.Match
import Verif.Proof.MatchBound
import Verif.Proof.Trace
import Verif.Proof.PegBasic
import Verif.Proof.Peg
import Verif.Proof.PegCheck
import Verif.Spec.Steps
import Verif.Proof.Steps
import Verif.Props.Grammar
import Verif.Props.Matcher
import Verif.Props.Compiler
import Verif.Model.Go
import Verif.Model.Interp
import Verif.Proof.Go
import Verif.Proof.Keeps
import Verif.Spec.Interp
import Verif.Proof.Interp
import Verif.Props.Interp
import Verif.Model.Calc
import Verif.Spec.Calc
import Verif.Proof.Calc
import Verif.Proof.CalcEval
import Verif.Proof.CalcGrammar
import Verif.Proof.CalcParse
import Verif.Props.Calc
import Verif.Model.Extractor
import Verif.Model.Builtin
import Verif.Model.Qlang
import Verif.Spec.Extractor
import Verif.Proof.Relate
import Verif.Proof.Extractor
import Verif.Props.Extractor
import Verif.Spec.Builtin
import Verif.Spec.Qlang
import Verif.Proof.Builtin
import Verif.Proof.Qlang
import Verif.Proof.QlangCall
import Verif.Spec.QlangGrammar
import Verif.Props.Builtin
import Verif.Props.Qlang
import Verif.Model.Generator
import Verif.Spec.Generator
import Verif.Proof.Generator
import Verif.Proof.GeneratorCode
import Verif.Props.Generator
import Verif.Spec.Print
import Verif.Proof.ScannerSpell
import Verif.Proof.ScannerWords
import Verif.Proof.PegEquiv
import Verif.Proof.Print
import Verif.Proof.PrintText
import Verif.Proof.PrintDoc
import Verif.Proof.PrintRead
import Verif.Props.Print
import Verif.Spec.QlangSyntax
import Verif.Spec.QlangMarks
import Verif.Proof.Hoare
import Verif.Proof.SimpleLex
import Verif.Proof.QlangTable
import Verif.Proof.QlangText
import Verif.Proof.QlangRead
import Verif.Proof.QlangEvents
import Verif.Proof.QlangMarks
import Verif.Proof.QlangParse
import Verif.Proof.QlangParses
import Verif.Props.QlangSource
import Verif.Spec.QlangSem
import Verif.Proof.Ends
import Verif.Proof.Halts
import Verif.Proof.QlangLost
import Verif.Proof.QlangDoes
import Verif.Proof.QlangActs
import Verif.Proof.QlangMuted
import Verif.Proof.QlangVals
import Verif.Proof.QlangVars
import Verif.Proof.QlangGo
import Verif.Proof.QlangCode
import Verif.Proof.QlangApply
import Verif.Proof.QlangCtl
import Verif.Proof.QlangKept
import Verif.Proof.QlangLive
import Verif.Proof.QlangSim
import Verif.Props.QlangMeaning
import Verif.Spec.QlangSafe
import Verif.Model.QlangEngine
import Verif.Props.QlangEngine
import Verif.Proof.Keep
import Verif.Proof.QlangKeep
import Verif.Spec.QlangSession
import Verif.Props.QlangSession
import Verif.Model.QlangInterp
import Verif.Spec.QlangInterp
import Verif.Proof.QlangInterp
import Verif.Props.QlangInterp
import Verif.Proof.Accepts
import Verif.Proof.QlangAccepts
import Verif.Props.QlangAccepts
import Verif.Model.Repl
import Verif.Spec.Repl
import Verif.Proof.CalcKeep
import Verif.Props.Reads
import Verif.Props.Repl
import Verif.Props.ReplBack
import Verif.Spec.Containers
import Verif.Proof.Containers
import Verif.Proof.ContainerLaws
import Verif.Props.Containers
import Verif.Model.Tplconv
import Verif.Spec.Tplconv
import Verif.Props.Tplconv
import Verif.Model.Tplgen
import Verif.Spec.Tplgen
import Verif.Props.Tplgen
import Verif.Model.Strconv
import Verif.Spec.Literal
import Verif.Proof.Utf8
import Verif.Proof.Strconv
import Verif.Props.Literal
import Verif.Model.StaticInterp
import Verif.Spec.StaticInterp
import Verif.Proof.Alike
import Verif.Proof.StaticInterp
import Verif.Props.StaticInterp
import Verif.Props.TokenEnd
import Verif.Spec.Share
import Verif.Proof.Share
import Verif.Proof.ShareCl
import Verif.Proof.ShareTok
import Verif.Props.Share
import Verif.Props.Given
import Verif.Spec.Layout
import Verif.Proof.Layout
import Verif.Props.Layout
import Verif.Spec.Place
import Verif.Proof.Place
import Verif.Proof.Replace
import Verif.Props.Place
import Verif.Spec.Crash
import Verif.Proof.Crash
import Verif.Props.Crash
import Verif.Spec.Quoted
import Verif.Proof.Quoted
import Verif.Props.Quoted
import Verif.Model.Concurrent
import Verif.Spec.Concurrent
import Verif.Proof.Concurrent
import Verif.Props.Concurrent
import Verif.Spec.Number
import Verif.Proof.Number
import Verif.Props.Number
import Verif.Model.Message
import Verif.Spec.Message
import Verif.Proof.Message
import Verif.Props.Message
import Verif.Model.BigRat
import Verif.Spec.Whole
import Verif.Props.Whole
import Verif.Spec.Concat
import Verif.Proof.Concat
import Verif.Props.Concat
import Verif.Props.MessageLater
import Verif.Spec.Parts
import Verif.Proof.QlangMono
import Verif.Props.Parts
import Verif.Spec.Added
import Verif.Proof.Added
import Verif.Props.Added
import Verif.Spec.Order
import Verif.Proof.Twin
import Verif.Proof.Order
import Verif.Props.Order
import Verif.Spec.Rename
import Verif.Proof.Rename
import Verif.Props.Rename
import Verif.Spec.Fold
import Verif.Proof.Fold
import Verif.Props.Fold
import Verif.Spec.QlangPlain
import Verif.Proof.QlangPlain
import Verif.Props.QlangEnds
import Verif.Spec.Group
import Verif.Proof.Group
import Verif.Proof.GroupText
import Verif.Props.Group
import Verif.Spec.Spell
import Verif.Proof.SpellText
import Verif.Props.Spell
import Verif.Props.Result
import Verif.Props.Import
import Verif.Proof.Plain
import Verif.Props.Wider
import Verif.Props.Compose
import Verif.Props.Reuse
import Verif.Props.QlangReturn
