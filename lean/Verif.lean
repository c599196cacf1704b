import Verif.Data.Vector
import Verif.Data.StringBuffer
import Verif.Data.Util
import Verif.Data.Errors
import Verif.Data.Annotation
import Verif.Data.AstType
import Verif.Data.Ast
import Verif.Data.Segment
import Verif.Props.Vector
import Verif.Props.StringBuffer
import Verif.Props.Util
import Verif.Props.Errors
import Verif.Props.Annotation
import Verif.Props.Ast
import Verif.Props.Segment
import Verif.Peg.Syntax
import Verif.Peg.Analysis
import Verif.Peg.Reader
import Verif.Peg.Sim
import Verif.Peg.Den
import Verif.Peg.Lines
import Verif.Peg.Keep
import Verif.Peg.Position
import Verif.Quick.Grammar
import Verif.Quick.Parser
import Verif.Quick.Den
import Verif.Quick.Live
import Verif.Quick.Tables
import Verif.Quick.Step
import Verif.Quick.Loop
import Verif.Quick.Facts
import Verif.Props.Quick
import Verif.Props.Cypher
import Verif.Cypher.Grammar
import Verif.Cypher.Host
import Verif.Cypher.Machine
import Verif.Cypher.Parser
import Verif.Cypher.Tables
import Verif.Peg.Called
import Verif.Cypher.Stack
import Verif.Cypher.Match
import Verif.Cypher.Typing
import Verif.Cypher.Abs
import Verif.Cypher.AbsTable
import Verif.Cypher.AbsSem
import Verif.Cypher.AbsSound
import Verif.Cypher.AbsBuild
import Verif.Cypher.AbsEval
import Verif.Cypher.Ending
import Verif.Cypher.Nesting
import Verif.Cypher.Skeleton
import Verif.Cypher.TextSpec
import Verif.Cypher.Leaf
import Verif.Cypher.LeafRules
import Verif.Cypher.Leaves
import Verif.Cypher.OpSpec
import Verif.Cypher.Height
import Verif.Cypher.OpSim
import Verif.Cypher.OpText
import Verif.Cypher.OpRun
import Verif.Cypher.OpStop
import Verif.Cypher.OpState
import Verif.Cypher.OpAtom
import Verif.Cypher.OpStep
import Verif.Cypher.OpLoop
import Verif.Cypher.OpMain
import Verif.Cypher.OpUnique
import Verif.Cypher.Step
import Verif.Cypher.Loop
import Verif.Peg.Twin
import Verif.Cypher.Related
import Verif.Cypher.Pair
import Verif.Props.Invariance
import Verif.Props.Colors
import Verif.Props.Text
import Verif.Props.Operators
import Verif.Cypher.Clone
import Verif.Props.Clone
import Verif.Cypher.Template
import Verif.Cypher.Shape
import Verif.Cypher.Fill
import Verif.Cypher.Pieces
import Verif.Props.RoundTrip
import Verif.Data.Print
import Verif.Props.Print
import Verif.Peg.Cost
import Verif.Peg.CostBound
import Verif.Cypher.Cost
import Verif.Props.Cost
import Verif.Cypher.Detail
import Verif.Cypher.DetailItems
import Verif.Cypher.DetailText
import Verif.Cypher.DetailTable
import Verif.Cypher.DetailFind
import Verif.Props.Detail
import Verif.Cypher.Fields
import Verif.Cypher.FieldsSound
import Verif.Cypher.FieldsEval
import Verif.Cypher.FieldsTable
import Verif.Props.Fields
import Verif.Cypher.Access
import Verif.Props.Access
import Verif.Props.AccessAll
import Verif.Cypher.Memory
import Verif.Props.Memory
import Verif.Lint.Lint
import Verif.Props.Lint
import Verif.Cypher.Window
import Verif.Cypher.ExprSpec
import Verif.Cypher.Layout
import Verif.Cypher.ExprCells
import Verif.Cypher.ExprText
import Verif.Cypher.ExprStop
import Verif.Cypher.ExprParts
import Verif.Cypher.ExprMatch
import Verif.Cypher.Quiet
import Verif.Cypher.Script
import Verif.Cypher.Takes
import Verif.Cypher.StmtSpec
import Verif.Cypher.StmtKeys
import Verif.Cypher.StmtLists
import Verif.Cypher.PatMatch
import Verif.Cypher.StmtMatch
import Verif.Cypher.StmtUpdate
import Verif.Cypher.StmtSchema
import Verif.Cypher.StmtClauses
import Verif.Props.Complete
import Verif.Cypher.Tame
import Verif.Cypher.Clear
import Verif.Cypher.Notes
import Verif.Cypher.Front
import Verif.Cypher.Commands
import Verif.Cypher.CommandResult
import Verif.Cypher.ClearLoop
import Verif.Props.Agree
import Verif.Props.AgreeAll
import Verif.Props.Reported
import Verif.Cypher.Abort
import Verif.Props.Abort
import Verif.Cypher.Handover
import Verif.Props.Handover
import Verif.Cypher.AllocCmd
import Verif.Cypher.AllocTable
import Verif.Cypher.AllocChk
import Verif.Cypher.Alloc
import Verif.Props.Alloc
