import Verif.Model.Py
import Verif.Model.Engine
import Verif.Spec.Search
import Verif.Lemmas.Search
import Verif.Lemmas.SearchBounds
import Verif.Lemmas.Fold
import Verif.Lemmas.Engine
import Verif.Lemmas.Tables
import Verif.Lemmas.Paths
import Verif.Spec.Spell
import Verif.Lemmas.Transition
import Verif.Model.GenSys
import Verif.Model.Tools
import Verif.Spec.Declared
import Verif.Lemmas.GenSys
import Verif.Lemmas.Solution
import Verif.Lemmas.Constraint
import Verif.Props.Solution
import Verif.Lemmas.NonSingular
import Verif.Examples.Ex1
import Verif.Examples.Ex1Run
import Verif.Props.Engine
import Verif.Props.SolutionEx
import Verif.Examples.Ex1Cells
import Verif.Props.Traj
import Verif.Examples.Ex1Low
import Verif.Lemmas.Irfs
import Verif.Props.Irfs
import Verif.Model.Batch
import Verif.Props.Batch
import Verif.Props.Sim
import Verif.Model.Names
import Verif.Props.GenSys
import Verif.Model.Params
import Verif.Lemmas.Params
import Verif.Props.Params
import Verif.Model.Symbols
import Verif.Props.Symbols
import Verif.Model.Expr
import Verif.Model.Parser
import Verif.Spec.PathEq
import Verif.Lemmas.Parser
import Verif.Lemmas.ParserExt
import Verif.Lemmas.Deriv
import Verif.Props.Parser
import Verif.Props.Matrices
import Verif.Model.ParaFunc
import Verif.Props.ParaFunc
import Verif.Model.Cov
import Verif.Props.Cov
import Verif.Model.Cache
import Verif.Props.Cache
import Verif.Model.Estim
import Verif.Props.Estim
import Verif.Model.Mcmc
import Verif.Props.Mcmc
import Verif.Model.Filter
import Verif.Examples.Ex2
import Verif.Props.Filter
import Verif.Model.Stats
import Verif.Examples.Ex3
import Verif.Examples.Ex3Run
import Verif.Props.Stats
import Verif.Model.Files
import Verif.Props.Files
import Verif.Props.Flags
import Verif.Model.Pipeline
import Verif.Spec.ModelFile
import Verif.Lemmas.Pipeline
import Verif.Props.ModelFile
import Verif.Props.ModelFileEx
import Verif.Model.Persist
import Verif.Props.Persist
import Verif.Model.Dict
import Verif.Props.Dict
import Verif.Examples.Ex4
import Verif.Props.Static
import Verif.Props.ParSets
import Verif.Model.Create
import Verif.Props.Create
import Verif.Model.Calls
import Verif.Props.Calls
import Verif.Model.Slices
import Verif.Props.Slices
import Verif.Lemmas.Unique
import Verif.Props.Unique
import Verif.Examples.Flip
import Verif.Props.UniqueEx
import Verif.Props.Scale
import Verif.Props.Causal
import Verif.Model.Mask
import Verif.Props.Mask
import Verif.Model.Chains
import Verif.Props.Chains
import Verif.Props.TimeCons
import Verif.Examples.Ex5
import Verif.Props.TimeConsEx
import Verif.Props.LastWins
import Verif.Model.Extract
import Verif.Props.Extract
import Verif.Model.Resolve
import Verif.Props.Resolve
import Verif.Model.PrepEstim
import Verif.Props.PrepEstim
import Verif.Props.LinearPrep
import Verif.Props.PrepState
import Verif.Props.Stability
import Verif.Examples.Ex6
import Verif.Examples.Ex6Run
import Verif.Props.StabilityEx
import Verif.Model.Text
import Verif.Props.Text
import Verif.Model.Mbcs
import Verif.Props.Mbcs
import Verif.Model.Assemble
import Verif.Props.Assemble
import Verif.Model.Pack
import Verif.Props.Pack
import Verif.Props.Satellite
import Verif.Examples.Ex7
import Verif.Props.SatelliteEx
import Verif.Model.Gfevd
import Verif.Props.Gfevd
import Verif.Props.Convex
import Verif.Examples.Ex8
import Verif.Props.Tiny
import Verif.Model.SimMany
import Verif.Props.SimMany
import Verif.Props.Relax
import Verif.Props.Rename
import Verif.Props.ConLag
import Verif.Props.ConLagEx
import Verif.Props.Edge
import Verif.Props.EdgeEx
import Verif.Props.Cycles
import Verif.Model.ParDict
import Verif.Props.ParDict
import Verif.Examples.Ex10
import Verif.Props.Continuity
import Verif.Props.ContinuityEx
import Verif.Props.TrajArgs
import Verif.Model.Alias
import Verif.Props.Alias
import Verif.Props.AliasContents
import Verif.Model.Book
import Verif.Props.Book
import Verif.Model.Dumper
import Verif.Props.Dumper
import Verif.Props.Shift
import Verif.Examples.Ex11
import Verif.Props.LanneNyberg
import Verif.Props.HistLin
import Verif.Props.EpsLin
import Verif.Props.OneEq
import Verif.Examples.Ex12
import Verif.Props.OneEqEx
import Verif.Model.Report
import Verif.Props.Report
import Verif.Props.Found
import Verif.Model.Masked
import Verif.Props.Masked
import Verif.Model.Info
import Verif.Props.Info
import Verif.Model.VerbLike
import Verif.Props.VerbLike
import Verif.Props.Growth
import Verif.Model.PriorHist
import Verif.Props.PriorHist
import Verif.Model.Nan
import Verif.Props.Nan
import Verif.Lemmas.Solvable
import Verif.Lemmas.FromReduced
import Verif.Examples.Ex13
import Verif.Props.Solvable
import Verif.Lemmas.RQExists
import Verif.Props.Rounding
import Verif.Props.FoundLag
import Verif.Props.FoundLagEx
import Verif.Props.RoundingLag
import Verif.Props.TimeConsUnique
import Verif.Examples.Ex14
import Verif.Props.MultFlag
import Verif.Props.MultFlagEx
import Verif.Lemmas.Accept
import Verif.Props.Accept
import Verif.Props.AcceptFile
import Verif.Lemmas.Cover
import Verif.Props.GlobalLip
import Verif.Props.GlobalLipEx
import Verif.Examples.Ex15
import Verif.Props.Substitute
import Verif.Props.SubstituteEx
import Verif.Model.Imposed
import Verif.Props.Imposed
import Verif.Props.Outcomes
import Verif.Props.HistExact
import Verif.Props.ExactMore
import Verif.Props.ForceExact
import Verif.Props.GetCov
import Verif.Lemmas.Lcp
import Verif.Lemmas.MMatrix
import Verif.Lemmas.Disturbed
import Verif.Props.Existence
import Verif.Props.ExistenceEx
import Verif.Props.PoolExact
import Verif.Props.SampleExact
import Verif.Props.MiscExact
import Verif.Props.SetupExact
import Verif.Props.TextExact
import Verif.Props.ChainExact
import Verif.Props.DictExact
import Verif.Props.InfoExact
import Verif.Props.Unused
import Verif.Props.CovFree
import Verif.Props.Exact3
import Verif.Props.Exogenous
import Verif.Props.Sufficient
import Verif.Props.Exact4
import Verif.Examples.Ex16
import Verif.Examples.Ex17
import Verif.Props.ZeroShare
import Verif.Props.OrderExact
import Verif.Props.Direction
import Verif.Props.Direction2
import Verif.Props.Below
import Verif.Props.Compare
import Verif.Props.CompareEx
import Verif.Props.Constants
import Verif.Props.Averages
import Verif.Props.AveragesEx
import Verif.Props.LowerBound
import Verif.Props.LowerBoundEx
import Verif.Props.Larger
import Verif.Props.Guidance
import Verif.Props.NoReversal
import Verif.Props.BestSet
import Verif.Props.Copies
import Verif.Props.Durations
import Verif.Props.DurationsBound
import Verif.Props.DurationsEx
import Verif.Props.Tested
import Verif.Props.AnyTables
import Verif.Props.FlagIff
import Verif.Props.AsAnnounced
import Verif.Props.StaysRegular
import Verif.Props.ForceUnique
import Verif.Props.SilentUnique
import Verif.Props.TrajDeclared
import Verif.Props.PositiveBound
import Verif.Props.LeadCut
import Verif.Props.ModelFileCut
import Verif.Props.NoLeads
import Verif.Props.NoLags
