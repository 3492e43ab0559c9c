import Verif.Model.Eval
import Verif.Props.ContextMap
import Verif.Props.Combinatorics
import Verif.Props.ParserBasics
import Verif.Props.Grammar
import Verif.Props.Eval
import Verif.Proofs.EvalCtx
import Verif.Proofs.EvalTerm
import Verif.Proofs.MathsShape
import Verif.Props.EvalCtx
import Verif.Num.Rat
import Verif.Props.EvalSafe
import Verif.Props.Arith
import Verif.Props.Inverse
import Verif.Props.Calculus
import Verif.Props.Float
import Verif.Num.Real
import Verif.Props.Roots
import Verif.Props.Linear
import Verif.Model.Lit
import Verif.Model.Print
import Verif.Num.Text
import Verif.Num.RatText
import Verif.Spec.Print
import Verif.Props.Steps
import Verif.Props.Latex
import Verif.Props.LatexCells
import Verif.Props.Unicode
import Verif.Props.ReadBack
import Verif.Spec.Reread
import Verif.Props.Reread
import Verif.Props.Denote
import Verif.Model.Errors
import Verif.Spec.Errors
import Verif.Props.Errors
import Verif.Spec.Tex
import Verif.Proofs.Tex
import Verif.Props.Tex
import Verif.Spec.Numbers
import Verif.Props.Numbers
import Verif.Spec.Newton
import Verif.Proofs.Newton
import Verif.Proofs.Quadratic
import Verif.Props.Newton
import Verif.Model.Values
import Verif.Spec.Values
import Verif.Props.Values
import Verif.Proofs.Accuracy
import Verif.Props.Accuracy
import Verif.Spec.Binary64
import Verif.Num.F64Lemmas
import Verif.Num.Binary64
import Verif.Spec.Rounding
import Verif.Spec.Near
import Verif.Spec.Whole
import Verif.Num.Libm
import Verif.Proofs.Rounding
import Verif.Proofs.RoundingExact
import Verif.Proofs.Whole
import Verif.Props.Rounding
import Verif.Proofs.FloatDeriv
import Verif.Props.FloatDeriv
import Verif.Proofs.SliceSum
import Verif.Proofs.FloatIntegral
import Verif.Props.FloatIntegral
import Verif.Spec.Scalar
import Verif.Props.Scalar
import Verif.Num.Tens
import Verif.Props.FloatRound
import Verif.Spec.FloatLinear
import Verif.Proofs.FloatLinear
import Verif.Props.FloatLinear
import Verif.Proofs.Gauss
import Verif.Spec.Systems
import Verif.Proofs.Systems
import Verif.Props.Systems
import Verif.Props.Literals
import Verif.Props.GaussErrors
import Verif.Props.Output
import Verif.Props.Rename
import Verif.Props.Replace
import Verif.Spec.Safe
import Verif.Proofs.EqSafe
import Verif.Proofs.EqSafe2
import Verif.Proofs.EqSafe3
import Verif.Props.EqSafe
import Verif.Props.EqTest
import Verif.Spec.Counts
import Verif.Props.Counts
import Verif.Props.FloatLaws
import Verif.Spec.CalculusRules
import Verif.Props.CalculusRules
import Verif.Model.Equality
import Verif.Spec.Equality
import Verif.Proofs.ParserNums
import Verif.Props.Equality
import Verif.Model.Serde
import Verif.Proofs.Serde
import Verif.Props.Serde
import Verif.Spec.NewtonRoots
import Verif.Proofs.NewtonRoots
import Verif.Props.NewtonRoots
import Verif.Spec.Partial
import Verif.Props.Partial
import Verif.Spec.White
import Verif.Spec.FloatNewton
import Verif.Proofs.FloatSearch
import Verif.Proofs.FloatFound
import Verif.Props.FloatNewton
import Verif.Props.Cycles
import Verif.Spec.Depth
import Verif.Props.Depth
import Verif.Props.Construct
import Verif.Model.Trace
import Verif.Spec.Trace
import Verif.Proofs.Trace
import Verif.Proofs.TraceFuel
import Verif.Proofs.ParserBuild
import Verif.Props.Trace
import Verif.Props.TraceEquation
import Verif.Props.TraceParts
import Verif.Props.TraceCalls
import Verif.Spec.Nested
import Verif.Props.Nested
import Verif.Props.NestedFloat
import Verif.Spec.Provenance
import Verif.Props.Provenance
import Verif.Model.Borrowed
import Verif.Props.Borrowed
import Verif.Spec.Overflow
import Verif.Props.Overflow
import Verif.Spec.Spelling
import Verif.Props.Spelling
import Verif.Props.Spelling2
import Verif.Spec.Strict
import Verif.Props.Strict
import Verif.Spec.StepByStep
import Verif.Props.StepByStep
import Verif.Spec.Readings
import Verif.Props.Readings
import Verif.Props.Quadratic
import Verif.Props.Shapes
import Verif.Spec.Features
import Verif.Props.Features
import Verif.Spec.Ragged
import Verif.Props.Ragged
import Verif.Spec.Agree
import Verif.Props.Agree
import Verif.Spec.Certain
import Verif.Props.Certain
import Verif.Witness.Certain
import Verif.Props.Reported
import Verif.Witness.Reported
import Verif.Witness.Agree
import Verif.Witness.Arith
import Verif.Witness.Calculus
import Verif.Witness.Eval
import Verif.Witness.Linear
import Verif.Witness.Newton
import Verif.Witness.Parsing
import Verif.Witness.Text
import Verif.Witness.Trees
import Verif.Conformance
import Verif.Props.Mirror
import Verif.Props.SameResults
import Verif.Props.SidesAnywhere
import Verif.Props.RenameText
import Verif.Props.Twice
import Verif.Props.Rewrite
import Verif.Props.RewriteText
import Verif.Props.FloatMonotone
import Verif.Props.Monotone
