import Verif.Arith.Double
import Verif.Arith.Model
import Verif.Arith.Theorems
import Verif.Ast.Basic
import Verif.Ast.Deadlock
import Verif.Ast.Spec
import Verif.Ast.Theorems
import Verif.Avro.Accepts
import Verif.Avro.Basic
import Verif.Avro.Check
import Verif.Avro.CheckThm
import Verif.Avro.Compare
import Verif.Avro.CompareThm
import Verif.Avro.Conf
import Verif.Avro.Json
import Verif.Avro.JsonRound
import Verif.Avro.JsonThm
import Verif.Avro.JsonWit
import Verif.Axioms
import Verif.CallGraph.Model
import Verif.CallGraph.Theorems
import Verif.Cart.Cases
import Verif.Cart.Export
import Verif.Cart.Gain
import Verif.Cart.Grow
import Verif.Cart.Load
import Verif.Cart.Model
import Verif.Cart.Rows
import Verif.Cart.Sets
import Verif.Cart.Total
import Verif.Cart.Whole
import Verif.Chain.Assemble
import Verif.Chain.Check
import Verif.Chain.Defects
import Verif.Chain.Doc
import Verif.Chain.Emit
import Verif.Chain.Example
import Verif.Chain.Flow
import Verif.Chain.Model
import Verif.Chain.Names
import Verif.Chain.Sim
import Verif.Chain.Step
import Verif.Chain.Types
import Verif.Chain.Walk
import Verif.Chain.Whole
import Verif.Engine.Alias
import Verif.Engine.Build
import Verif.Engine.Instances
import Verif.Engine.Model
import Verif.Engine.Proofs
import Verif.Engine.Refine
import Verif.Engine.Snapshot
import Verif.Engine.Spec
import Verif.Engine.Theorems
import Verif.Engine.Witness
import Verif.Forward.Model
import Verif.Forward.Theorems
import Verif.Inspector.Change
import Verif.Inspector.Changed
import Verif.Inspector.Complete
import Verif.Inspector.Completed
import Verif.Inspector.Dumped
import Verif.Inspector.Find
import Verif.Inspector.Groups
import Verif.Inspector.Kept
import Verif.Inspector.Listed
import Verif.Inspector.Means
import Verif.Inspector.Memory
import Verif.Inspector.Pattern
import Verif.Inspector.Replaced
import Verif.La.Arrays
import Verif.La.Dicts
import Verif.La.Model
import Verif.La.Numpy
import Verif.Lang.Cast
import Verif.Lang.Check
import Verif.Lang.Control
import Verif.Lang.Example
import Verif.Lang.Inst
import Verif.Lang.Nodes
import Verif.Lang.Parts
import Verif.Lang.Points
import Verif.Lang.Run
import Verif.Lang.Seal
import Verif.Lang.Sound
import Verif.Lang.Triple
import Verif.Lang.Whole
import Verif.Lang.Wrong
import Verif.Lib.Combin
import Verif.Lib.Edit
import Verif.Lib.Eff
import Verif.Lib.HigherOrder
import Verif.Lib.LogSum
import Verif.Lib.Maps
import Verif.Lib.Num
import Verif.Lib.Quant
import Verif.Lib.Round
import Verif.Lib.Search
import Verif.Lib.SetOps
import Verif.Lib.Sort
import Verif.Lib.Str
import Verif.Lloyd.Descend
import Verif.Lloyd.Ends
import Verif.Lloyd.Export
import Verif.Lloyd.Model
import Verif.Lloyd.Random
import Verif.Lloyd.Stop
import Verif.Lock.Cell
import Verif.Lock.Pool
import Verif.Misc.Bytes
import Verif.Misc.Edges
import Verif.Misc.Rand
import Verif.Misc.Regex
import Verif.Misc.Small
import Verif.Misc.Test
import Verif.Near.Cluster
import Verif.Near.Interp
import Verif.Near.KMeans
import Verif.Near.Metric
import Verif.Near.Pick
import Verif.Near.Seeds
import Verif.Pack.Format
import Verif.Pack.Model
import Verif.Pack.Theorems
import Verif.Path.Model
import Verif.Path.Theorems
import Verif.Pretty.Back
import Verif.Pretty.Comments
import Verif.Pretty.Doc
import Verif.Pretty.DocLimits
import Verif.Pretty.DocParts
import Verif.Pretty.DocSay
import Verif.Pretty.DocShapes
import Verif.Pretty.DocTables
import Verif.Pretty.DocText
import Verif.Pretty.Grammar
import Verif.Pretty.Lalr
import Verif.Pretty.Lex
import Verif.Pretty.Limits
import Verif.Pretty.Lr
import Verif.Pretty.Mini
import Verif.Pretty.Operators
import Verif.Pretty.Order
import Verif.Pretty.Parse
import Verif.Pretty.Print
import Verif.Pretty.Say
import Verif.Pretty.Shapes
import Verif.Pretty.Shown
import Verif.Pretty.ShownBack
import Verif.Pretty.Tables
import Verif.Pretty.Types
import Verif.Pretty.Words
import Verif.Prob.Basic
import Verif.Prob.Closed
import Verif.Prob.Density
import Verif.Prob.Discrete
import Verif.Prob.Invert
import Verif.Prob.Series
import Verif.Producer.Access
import Verif.Producer.Look
import Verif.Producer.Looked
import Verif.Producer.Match
import Verif.Producer.Matched
import Verif.Producer.Python
import Verif.Producer.PythonBack
import Verif.Producer.PythonRun
import Verif.Producer.Replace
import Verif.Producer.Search
import Verif.Producer.Transform
import Verif.Py.Basic
import Verif.Reader.Back
import Verif.Reader.Base64
import Verif.Reader.Config
import Verif.Reader.Defaults
import Verif.Reader.Errors
import Verif.Reader.Model
import Verif.Reader.Node
import Verif.Reader.RoundTrip
import Verif.Reader.Sources
import Verif.Reader.Wrong
import Verif.Scope.Model
import Verif.Scope.Theorems
import Verif.Score.Kernel
import Verif.Score.Link
import Verif.Score.Naive
import Verif.Score.Reg
import Verif.Scripts.External
import Verif.Scripts.Externalized
import Verif.Scripts.Made
import Verif.Scripts.Passes
import Verif.Scripts.Program
import Verif.Scripts.Programs
import Verif.Scripts.Random
import Verif.Scripts.Reading
import Verif.Scripts.Size
import Verif.Scripts.Sized
import Verif.Sig.Broadest
import Verif.Sig.Complete
import Verif.Sig.Match
import Verif.Sig.MatchThm
import Verif.Sig.Options
import Verif.Sig.Version
import Verif.Slice.Model
import Verif.Slice.Theorems
import Verif.Stat.Cov
import Verif.Stat.Hist
import Verif.Stat.Hist2d
import Verif.Stat.Num
import Verif.Stat.Smooth
import Verif.Stat.TopN
import Verif.Stat.Update
import Verif.Stat.Window
import Verif.Time.Calendar
import Verif.Time.Model
import Verif.Time.Theorems
import Verif.Tree.Test
import Verif.Tree.Walk
import Verif.Types.Back
import Verif.Types.Print
import Verif.Util.Names
