import Verif.Lemmas.Accumulate
import Verif.Lemmas.Arctan
import Verif.Lemmas.ArgNear
import Verif.Lemmas.Assign
import Verif.Lemmas.AtanFixed
import Verif.Lemmas.AtanFloat
import Verif.Lemmas.AtanRel
import Verif.Lemmas.Case
import Verif.Lemmas.Counter
import Verif.Lemmas.Ends
import Verif.Lemmas.Extremes
import Verif.Lemmas.FixedReal
import Verif.Lemmas.Float
import Verif.Lemmas.FloatConv
import Verif.Lemmas.FloatFin
import Verif.Lemmas.FloatNear
import Verif.Lemmas.FloatSqrt
import Verif.Lemmas.FloatSqrtRun
import Verif.Lemmas.FloatSqrtTable
import Verif.Lemmas.FloatSym
import Verif.Lemmas.HalfPi
import Verif.Lemmas.Only
import Verif.Lemmas.OnlyInst
import Verif.Lemmas.Outcome
import Verif.Lemmas.PartText
import Verif.Lemmas.PowFloat
import Verif.Lemmas.Powi
import Verif.Lemmas.Prog
import Verif.Lemmas.Real
import Verif.Lemmas.RealParts
import Verif.Lemmas.RndNearest
import Verif.Lemmas.RndTie
import Verif.Lemmas.Round
import Verif.Lemmas.RoundTie
import Verif.Lemmas.RoundTo
import Verif.Lemmas.Rounds
import Verif.Lemmas.Run
import Verif.Lemmas.Shift
import Verif.Lemmas.Sim
import Verif.Lemmas.SimGen
import Verif.Lemmas.SimInst
import Verif.Lemmas.SinFloat
import Verif.Lemmas.SinRel
import Verif.Lemmas.SqrtCore
import Verif.Lemmas.SqrtError
import Verif.Lemmas.SqrtFixed
import Verif.Lemmas.SqrtInt
import Verif.Lemmas.SqrtIter
import Verif.Lemmas.SqrtNearest
import Verif.Lemmas.SqrtReal
import Verif.Lemmas.SqrtRun
import Verif.Lemmas.SqrtSmall
import Verif.Lemmas.SqrtTable
import Verif.Lemmas.SqrtTwo
import Verif.Lemmas.SumExact
import Verif.Lemmas.Taylor
import Verif.Lemmas.Text
import Verif.Lemmas.Time
import Verif.Lemmas.TimeFloat
import Verif.Lemmas.TimeOps
import Verif.Lemmas.Word
import Verif.Lemmas.Wrap
import Verif.Lemmas.WrapAcc
import Verif.Lemmas.WrapFloat
import Verif.Lemmas.WrapInst
import Verif.Model.Assign
import Verif.Model.Atan
import Verif.Model.Complex
import Verif.Model.Db
import Verif.Model.Delegate
import Verif.Model.Derive
import Verif.Model.Fixed
import Verif.Model.Float
import Verif.Model.Fmt
import Verif.Model.Ideal
import Verif.Model.Ieee
import Verif.Model.PInt
import Verif.Model.Prog
import Verif.Model.Sqrt
import Verif.Model.Target
import Verif.Model.Traits
import Verif.Model.Trig
import Verif.Model.Word
import Verif.Props.Accumulate
import Verif.Props.AddFormulas
import Verif.Props.AddSub
import Verif.Props.AssignPanic
import Verif.Props.Atan
import Verif.Props.AtanDoc
import Verif.Props.AtanExact
import Verif.Props.AtanFixed
import Verif.Props.AtanFloat
import Verif.Props.AtanFloatExact
import Verif.Props.AtanMono
import Verif.Props.CPowFixed
import Verif.Props.CPowLaws
import Verif.Props.ComplexFloat
import Verif.Props.ConjFixed
import Verif.Props.ConjMachine
import Verif.Props.Conv
import Verif.Props.CosFixed
import Verif.Props.DbFloat
import Verif.Props.DbLaws
import Verif.Props.Delegate
import Verif.Props.Display
import Verif.Props.Div
import Verif.Props.DivAssignZero
import Verif.Props.DivExact
import Verif.Props.DivFloat
import Verif.Props.Dot
import Verif.Props.ExactFloat
import Verif.Props.Exactly
import Verif.Props.ExpFloat
import Verif.Props.ExpLaws
import Verif.Props.ExpPolar
import Verif.Props.Filter
import Verif.Props.FixedComplex
import Verif.Props.FloatConv
import Verif.Props.FloatText
import Verif.Props.FloorFloat
import Verif.Props.Forms
import Verif.Props.Fourier
import Verif.Props.Infinite
import Verif.Props.Ints
import Verif.Props.Literals
import Verif.Props.MachineBounds
import Verif.Props.MagExact
import Verif.Props.MagFloat
import Verif.Props.MagFloatExact
import Verif.Props.MagSym
import Verif.Props.Methods
import Verif.Props.Misc
import Verif.Props.Modes
import Verif.Props.Monotone
import Verif.Props.Mul
import Verif.Props.Multiply
import Verif.Props.NearMonotone
import Verif.Props.Norm
import Verif.Props.NotANumber
import Verif.Props.Octants
import Verif.Props.Order
import Verif.Props.PanicReasons
import Verif.Props.Period
import Verif.Props.PhaseAcc
import Verif.Props.PhaseDiff
import Verif.Props.Phasor
import Verif.Props.Polar
import Verif.Props.PolarConst
import Verif.Props.PolarFixed
import Verif.Props.PolarFloat
import Verif.Props.PolarHom
import Verif.Props.PolarLaws
import Verif.Props.PolarMix
import Verif.Props.PolarOps
import Verif.Props.PolarOpsFloat
import Verif.Props.PolarText
import Verif.Props.PolarUp
import Verif.Props.PowFixed
import Verif.Props.PowFloat
import Verif.Props.PowLaws
import Verif.Props.PowRound
import Verif.Props.Pythagoras
import Verif.Props.RadixText
import Verif.Props.RealParts
import Verif.Props.RingFixed
import Verif.Props.RingFloat
import Verif.Props.RoundTrip
import Verif.Props.ScalarFixed
import Verif.Props.ScaleFloat
import Verif.Props.SimpleValues
import Verif.Props.SinFixed
import Verif.Props.SinRelease
import Verif.Props.SmallAngles
import Verif.Props.Spectrum
import Verif.Props.Sqrt
import Verif.Props.SqrtDoc
import Verif.Props.SqrtFixed
import Verif.Props.SqrtFloat
import Verif.Props.SqrtIter
import Verif.Props.SqrtMin
import Verif.Props.SqrtRelease
import Verif.Props.SqrtScale
import Verif.Props.SqrtThreeBits
import Verif.Props.SqrtUnsigned
import Verif.Props.SquareRoot
import Verif.Props.SteepAtan
import Verif.Props.Steepness
import Verif.Props.Supplements
import Verif.Props.SymFixed
import Verif.Props.SymFloat
import Verif.Props.Time
import Verif.Props.ToAndFro
import Verif.Props.Trig
import Verif.Props.TrigFixed
import Verif.Props.TrigFloat
import Verif.Props.TurnBack
import Verif.Props.Undo
import Verif.Props.UndoScale
import Verif.Props.WithinOne
import Verif.Props.Wrap
import Verif.Props.WrapFloat
import Verif.Props.WrapSym
import Verif.Spec.Accumulate
import Verif.Spec.Complex
import Verif.Spec.Extremes
import Verif.Spec.Filter
import Verif.Spec.Float
import Verif.Spec.FloatSame
import Verif.Spec.Fourier
import Verif.Spec.Infinite
import Verif.Spec.Libm
import Verif.Spec.Modes
import Verif.Spec.Multiply
import Verif.Spec.OnlyPanics
import Verif.Spec.Outcome
import Verif.Spec.PartText
import Verif.Spec.PhaseAcc
import Verif.Spec.PhaseDiff
import Verif.Spec.Phasor
import Verif.Spec.PolarUp
import Verif.Spec.Scale
import Verif.Spec.Spectrum
import Verif.Spec.SqrtNearest
import Verif.Spec.Symmetric
import Verif.Spec.Text
import Verif.Spec.Time
import Verif.Spec.ToAndFro
import Verif.Tests.DocProofs
import Verif.Tests.DocTests
import Verif.Tests.Instances
