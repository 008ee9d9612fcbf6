import Verif.Props.PWStates
import Verif.Props.Channels2N
import Verif.Props.Layout
import Verif.Props.Tables
import Verif.Props.RunParams
import Verif.Props.Main
import Verif.Props.Sparse
import Verif.Props.H5
import Verif.Props.Potential
import Verif.Props.Numeric
import Verif.Props.Swp
import Verif.Props.Resolvent
import Verif.Props.OnShell
import Verif.Props.Kernel
import Verif.Props.Jacobi
import Verif.Props.Pade
import Verif.Props.PadeSolve
import Verif.Props.PadeSolve2
import Verif.Props.PadeSolve3
import Verif.Props.Dense
import Verif.Props.LOPot
import Verif.Props.Run
import Verif.Props.RunExample
import Verif.Props.BreakupTable
import Verif.Props.Permutation
import Verif.Props.FillP123
import Verif.Props.PermutationExample
import Verif.Props.PhiMesh
import Verif.Lemmas.Repro
import Verif.Lemmas.Repro2
import Verif.Props.Repro
import Verif.Props.Repro2
import Verif.Props.ReproExample
import Verif.Props.Format
import Verif.Model.Chp
import Verif.Spec.Chp
import Verif.Spec.ChiralForce
import Verif.Lemmas.Chp
import Verif.Lemmas.ChpProj
import Verif.Lemmas.ChpPoint
import Verif.Props.Chp
import Verif.Props.ChpMatrix
import Verif.Spec.ChiralColumns
import Verif.Props.ChpColumns
import Verif.Model.Walk
import Verif.Props.Walk
import Verif.Props.PotModes
import Verif.Props.Exact
import Verif.Props.Exact2
import Verif.Props.Exact3
import Verif.Props.Exact4
import Verif.Spec.Accept
import Verif.Props.Accept
import Verif.Props.Recovery
import Verif.Props.Loops
import Verif.Props.Dispersion
import Verif.Props.CentralTwoLoop
import Verif.Props.CentralTail
import Verif.Props.LoopHelper
import Verif.Props.LoopFacts
import Verif.Props.LoopForce
import Verif.Props.Nijmegen
import Verif.Props.NijmegenSym
import Verif.Props.NijmegenCe1
import Verif.Props.NijmegenSex
import Verif.Props.NijmegenSml
import Verif.Props.NijmegenRun
import Verif.Props.NijmegenCache
import Verif.Props.Program
import Verif.Props.ProgramBreakup
import Verif.Props.ProgramExample
import Verif.Props.RunBreakup
import Verif.Props.RunBreakup2
import Verif.Props.RunBreakupExample
import Verif.Props.BreakupShell
import Verif.Props.BreakupShellExample
import Verif.Spec.Sizes
import Verif.Model.Sizes
import Verif.Props.Sizes
import Verif.Spec.Record
import Verif.Model.Record
import Verif.Props.Record
import Verif.Spec.Kinematics
import Verif.Model.Kinematics
import Verif.Lemmas.Kinematics
import Verif.Props.Kinematics
import Verif.Props.KinematicsExample
import Verif.Lemmas.Sturm
import Verif.Lemmas.LegendreZeros
import Verif.Lemmas.LegendreNewton
import Verif.Lemmas.GaussNewton
import Verif.Spec.GaussRule
import Verif.Model.GaussRun
import Verif.Lemmas.GaussRule
import Verif.Props.GaussRun
import Verif.Model.ChpMesh
import Verif.Props.ChpMesh
import Verif.Lemmas.NewtonLocal
import Verif.Lemmas.PhiStart
import Verif.Lemmas.PhiRun
import Verif.Model.PermQuad
import Verif.Props.PhiRun
import Verif.Lemmas.PoleQuad
import Verif.Spec.OnePion
import Verif.Props.OnePion
import Verif.Spec.ChiralExact
import Verif.Props.ChiralPion
import Verif.Model.ResultFile
import Verif.Spec.ResultFile
import Verif.Props.ResultFile
import Verif.Spec.OwnMeshes
import Verif.Props.OwnMeshes
import Verif.Model.Double
import Verif.Spec.Double
import Verif.Lemmas.Double
import Verif.Lemmas.DoubleSub
import Verif.Props.Double
import Verif.Lemmas.DoubleGrid
import Verif.Props.DoubleGrid
import Verif.Model.DoubleShell
import Verif.Spec.DoubleShell
import Verif.Lemmas.DoubleShell
import Verif.Props.DoubleShell
import Verif.Model.Messages
import Verif.Spec.Messages
import Verif.Props.Messages
import Verif.Model.Bounds
import Verif.Props.Bounds
import Verif.Props.BoundsRun
import Verif.Model.Heap
import Verif.Lemmas.HeapCheck
import Verif.Lemmas.HeapSound
import Verif.Spec.Heap
import Verif.Props.Heap
import Verif.Model.Races
import Verif.Props.Races
import Verif.Props.NoPoints
