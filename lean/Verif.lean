import Verif.Lemmas.Accepts
import Verif.Lemmas.Arrays
import Verif.Lemmas.BwdStable
import Verif.Lemmas.CholSmooth
import Verif.Lemmas.Cholesky
import Verif.Lemmas.FuncDeriv
import Verif.Lemmas.Gauss1
import Verif.Lemmas.GaussMv
import Verif.Lemmas.Heap
import Verif.Lemmas.HeapBwd
import Verif.Lemmas.HeapFwd
import Verif.Lemmas.HeapGrad
import Verif.Lemmas.HeapOde
import Verif.Lemmas.HeapVgp
import Verif.Lemmas.Ieee
import Verif.Lemmas.IeeeErr
import Verif.Lemmas.IeeeEval
import Verif.Lemmas.IeeeSpec
import Verif.Lemmas.Integral
import Verif.Lemmas.Law
import Verif.Lemmas.Logical
import Verif.Lemmas.LogicalGrad
import Verif.Lemmas.MatCalc
import Verif.Lemmas.Multiplier
import Verif.Lemmas.Ode
import Verif.Lemmas.OneStep
import Verif.Lemmas.Quad
import Verif.Lemmas.Rounding
import Verif.Lemmas.Scg
import Verif.Lemmas.ScgFloat
import Verif.Lemmas.ScgReal
import Verif.Lemmas.Spline
import Verif.Lemmas.Stein
import Verif.Lemmas.Sweep
import Verif.Model.Api
import Verif.Model.Args
import Verif.Model.Disk
import Verif.Model.DoubleWell
import Verif.Model.GaussianMoments
import Verif.Model.GradCheck
import Verif.Model.Heap
import Verif.Model.HeapCheck
import Verif.Model.HeapInit
import Verif.Model.HeapScg
import Verif.Model.HeapVgp
import Verif.Model.Ieee
import Verif.Model.IeeeDiff
import Verif.Model.IeeeEnergy
import Verif.Model.IeeeGrad
import Verif.Model.IeeeGrid
import Verif.Model.IeeeParams
import Verif.Model.Likelihood
import Verif.Model.LinAlg
import Verif.Model.LiveVgp
import Verif.Model.Lorenz63
import Verif.Model.Lorenz96
import Verif.Model.Main
import Verif.Model.Numerics
import Verif.Model.Ode
import Verif.Model.Pipeline
import Verif.Model.Process
import Verif.Model.Py
import Verif.Model.Rounded
import Verif.Model.Scg
import Verif.Model.ScgPrint
import Verif.Model.SharedParams
import Verif.Model.Simulation
import Verif.Model.Spline
import Verif.Model.UT
import Verif.Model.VarGP
import Verif.Props.Accepts
import Verif.Props.Alias
import Verif.Props.AliasCheck
import Verif.Props.AliasInit
import Verif.Props.AliasScg
import Verif.Props.Args
import Verif.Props.BadGradient
import Verif.Props.BadNumbers
import Verif.Props.Below
import Verif.Props.BelowN
import Verif.Props.Counts
import Verif.Props.Crash
import Verif.Props.Cyclic96
import Verif.Props.Defined96
import Verif.Props.Energy1
import Verif.Props.EnergyLimit
import Verif.Props.EnergyLimit63
import Verif.Props.EnergyLimit96
import Verif.Props.Evidence
import Verif.Props.ExactDescent
import Verif.Props.FiniteDiff
import Verif.Props.FloatDiff
import Verif.Props.FloatError
import Verif.Props.FloatGrid
import Verif.Props.FloatObs
import Verif.Props.FloatParams
import Verif.Props.Floats
import Verif.Props.GradCheck
import Verif.Props.GradError
import Verif.Props.GradExact
import Verif.Props.GradLimit
import Verif.Props.GradOrder
import Verif.Props.History
import Verif.Props.Law
import Verif.Props.Like1
import Verif.Props.LikeN
import Verif.Props.LinAlg
import Verif.Props.LiveVgp
import Verif.Props.Lorenz63
import Verif.Props.Lorenz96
import Verif.Props.LorenzGrad
import Verif.Props.LorenzNoise
import Verif.Props.Main
import Verif.Props.MaskLike
import Verif.Props.Masks
import Verif.Props.Meaning1
import Verif.Props.Meaning63
import Verif.Props.Meaning63Not
import Verif.Props.Meaning96
import Verif.Props.Mirror
import Verif.Props.Mirror63
import Verif.Props.Moments
import Verif.Props.Obs
import Verif.Props.OdeAdjoint
import Verif.Props.OdeBasic
import Verif.Props.OdeJumps
import Verif.Props.OdeLaws
import Verif.Props.OdeLimits
import Verif.Props.OdePos
import Verif.Props.OdeVarying
import Verif.Props.OneDimPaths
import Verif.Props.Order
import Verif.Props.Pipeline
import Verif.Props.Prior
import Verif.Props.PriorShift
import Verif.Props.Progress
import Verif.Props.Repeat
import Verif.Props.Reuse
import Verif.Props.Rounding
import Verif.Props.RunAgain
import Verif.Props.RunMethod
import Verif.Props.RunTotal
import Verif.Props.RunTotal63
import Verif.Props.RunTotal96
import Verif.Props.SameGradient
import Verif.Props.SameProgram
import Verif.Props.SaveLoad
import Verif.Props.ScgGeneric
import Verif.Props.ScgMap
import Verif.Props.ScgMethod
import Verif.Props.ScgPrint
import Verif.Props.ScgQuad
import Verif.Props.ScgRaises
import Verif.Props.ScgRate
import Verif.Props.ScgReal
import Verif.Props.ScgRuns
import Verif.Props.ScgSym
import Verif.Props.Shapes
import Verif.Props.SharedParams
import Verif.Props.SharedStep
import Verif.Props.Shift
import Verif.Props.Shipped
import Verif.Props.Shipped63
import Verif.Props.Simulation
import Verif.Props.Spline
import Verif.Props.Stall
import Verif.Props.StartUnits
import Verif.Props.Stored
import Verif.Props.Traj
import Verif.Props.Trapz
import Verif.Props.UT
import Verif.Props.Units
import Verif.Props.VarGP
import Verif.Props.VarGPGrad1
import Verif.Props.VarGPGradN
import Verif.Props.VarGPInit
import Verif.Props.VgpRun
import Verif.Spec.Args
import Verif.Spec.Ode
import Verif.Spec.Scg
import Verif.Spec.Taylor
