import Verif.Lemmas.RunTmpl
import Verif.Lemmas.RunLit
import Verif.Lemmas.Means
import Verif.Spec.Means
import Verif.Basic
import Verif.Model.Ident
import Verif.Model.Ops
import Verif.Model.Markers
import Verif.Model.F64
import Verif.Spec.Ident
import Verif.Spec.Literal
import Verif.Lemmas.Markers
import Verif.Props.Ident
import Verif.Props.Ops
import Verif.Props.Markers
import Verif.Model.Number
import Verif.Spec.Number
import Verif.Lemmas.F64
import Verif.Lemmas.Number
import Verif.Props.Number
import Verif.Props.NumberOrder
import Verif.Model.Value
import Verif.Model.Expr
import Verif.Model.Eval
import Verif.Lemmas.EvalSim
import Verif.Lemmas.EvalRules
import Verif.Spec.Eval
import Verif.Props.EvalScope
import Verif.Props.EvalOps
import Verif.Props.EvalFor
import Verif.Props.EvalTrav
import Verif.Props.EvalFunc
import Verif.Props.EvalTmpl
import Verif.Model.InPlace
import Verif.Lemmas.EvalWF
import Verif.Lemmas.InPlace
import Verif.Spec.InPlace
import Verif.Props.InPlace
import Verif.Model.JsonSpec
import Verif.Spec.JsonSpec
import Verif.Lemmas.JsonSpec
import Verif.Props.JsonSpec
import Verif.Model.Body
import Verif.Spec.Body
import Verif.Lemmas.Body
import Verif.Props.Body
import Verif.Model.Templated
import Verif.Props.Templated
import Verif.Model.Bulk
import Verif.Props.Bulk
import Verif.Model.Format
import Verif.Lemmas.Format
import Verif.Spec.Layout
import Verif.Props.Format
import Verif.Model.Winnow
import Verif.Model.EditAst
import Verif.Model.EditEq
import Verif.Model.EditDedent
import Verif.Model.EditLex
import Verif.Model.EditParser
import Verif.Model.EditDespan
import Verif.Model.EditEncode
import Verif.Model.EditParse
import Verif.Spec.Trivia
import Verif.Spec.SourceLit
import Verif.Spec.Source
import Verif.Lemmas.ParseWp
import Verif.Lemmas.ParseLex
import Verif.Lemmas.Source
import Verif.Lemmas.ParseGram
import Verif.Lemmas.ParseExpr
import Verif.Lemmas.ParseTerm
import Verif.Lemmas.ParseBody
import Verif.Spec.Span
import Verif.Spec.Unique
import Verif.Spec.Location
import Verif.Model.EditError
import Verif.Lemmas.Nested
import Verif.Lemmas.ParseTop
import Verif.Lemmas.Location
import Verif.Props.Parse
import Verif.Props.OneLine
import Verif.Props.Pratt
import Verif.Lemmas.Run
import Verif.Lemmas.RunLex
import Verif.Lemmas.RunTrivia
import Verif.Lemmas.Despan
import Verif.Props.Lex
import Verif.Lemmas.RunNum
import Verif.Props.NumberText
import Verif.Spec.Content
import Verif.Lemmas.Content
import Verif.Props.Equality
import Verif.Model.Convert
import Verif.Spec.Convert
import Verif.Lemmas.Convert
import Verif.Props.Convert
import Verif.Spec.Visit
import Verif.Model.Visit
import Verif.Model.Ser
import Verif.Lemmas.Visit
import Verif.Props.Visit
import Verif.Spec.Dedent
import Verif.Lemmas.Dedent
import Verif.Props.Dedent
import Verif.Spec.Canon
import Verif.Spec.Ser
import Verif.Lemmas.Canon
import Verif.Lemmas.Ser
import Verif.Props.Reprint
import Verif.Props.Ser
import Verif.Spec.Syntax
import Verif.Lemmas.RunGap
import Verif.Lemmas.Spell
import Verif.Lemmas.Heads
import Verif.Lemmas.RunTerm
import Verif.Lemmas.RunObject
import Verif.Lemmas.RunAtom
import Verif.Lemmas.RunTrav
import Verif.Lemmas.RunExpr
import Verif.Lemmas.RunBody
import Verif.Props.Complete
import Verif.Spec.Printable
import Verif.Lemmas.Printable
import Verif.Lemmas.PrintValue
import Verif.Props.Roundtrip
import Verif.Model.De
import Verif.Spec.De
import Verif.Spec.RoundTrip
import Verif.Lemmas.De
import Verif.Lemmas.DeIdentity
import Verif.Lemmas.DeValue
import Verif.Lemmas.DeRoundTrip
import Verif.Props.De
import Verif.Props.DeRoundTrip
import Verif.Spec.Document
import Verif.Lemmas.Document
import Verif.Props.Document
import Verif.Spec.Reads
import Verif.Lemmas.Reads
import Verif.Lemmas.ReadsValue
import Verif.Lemmas.ReadsTotal
import Verif.Spec.ReadsExpr
import Verif.Lemmas.ReadsExpr
import Verif.Lemmas.ReadsExprTotal
import Verif.Lemmas.Portable
import Verif.Props.Reads
import Verif.Spec.Decorated
import Verif.Lemmas.SpellHead
import Verif.Lemmas.Decorated
import Verif.Props.Decorated
import Verif.Props.Macro
import Verif.Props.VisitMut
import Verif.Props.Iter
import Verif.Props.ErrorText
import Verif.Props.EvalLoc
import Verif.Props.ObjectMap
import Verif.Props.ParsedKeys
import Verif.Props.Halt
import Verif.Props.Splice
import Verif.Props.InPlaceLoc
import Verif.Props.Stages
import Verif.Props.StagesPlace
import Verif.Props.Tool
import Verif.Props.Reformat
import Verif.Props.TemplateText
import Verif.Props.ReformatTmpl
import Verif.Props.EvalText
import Verif.Props.EvalMessage
import Verif.Props.EvalFuncDef
import Verif.Props.From
import Verif.Props.Accessors
import Verif.Props.StructValue
import Verif.Props.Exchange
import Verif.Props.Rename
import Verif.Props.ExprBuild
import Verif.Props.ErrorMessage
import Verif.Props.EditAccessors
import Verif.Props.EditSeq
import Verif.Props.EditSeqText
import Verif.Props.EditInPlace
