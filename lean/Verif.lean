import Verif.Lemmas.AP
import Verif.Lemmas.Again
import Verif.Lemmas.Assess
import Verif.Lemmas.Bootstrap
import Verif.Lemmas.Bounds
import Verif.Lemmas.BoxImproved
import Verif.Lemmas.BoxMonotone
import Verif.Lemmas.Cmd
import Verif.Lemmas.Collapse
import Verif.Lemmas.Coord
import Verif.Lemmas.Copies
import Verif.Lemmas.Curve
import Verif.Lemmas.CurveRounding
import Verif.Lemmas.CurvesLast
import Verif.Lemmas.CutOff
import Verif.Lemmas.Cuts
import Verif.Lemmas.Decompose
import Verif.Lemmas.Dilution
import Verif.Lemmas.Disk
import Verif.Lemmas.Draws
import Verif.Lemmas.Dump
import Verif.Lemmas.Endings
import Verif.Lemmas.Engine
import Verif.Lemmas.Extremes
import Verif.Lemmas.FileNames
import Verif.Lemmas.Grammar
import Verif.Lemmas.Greedy
import Verif.Lemmas.Help
import Verif.Lemmas.Hits
import Verif.Lemmas.Ids
import Verif.Lemmas.Ieee
import Verif.Lemmas.Initial
import Verif.Lemmas.IntervalLaw
import Verif.Lemmas.IntervalRuns
import Verif.Lemmas.Intervals
import Verif.Lemmas.Layout
import Verif.Lemmas.Main
import Verif.Lemmas.Mapper
import Verif.Lemmas.Matcher
import Verif.Lemmas.Messages
import Verif.Lemmas.Monotone
import Verif.Lemmas.Moved
import Verif.Lemmas.Ndcg
import Verif.Lemmas.NdcgDouble
import Verif.Lemmas.NdcgGain
import Verif.Lemmas.NdcgNear
import Verif.Lemmas.NdcgUnit
import Verif.Lemmas.NoWrong
import Verif.Lemmas.Number
import Verif.Lemmas.Numbers
import Verif.Lemmas.OneWrong
import Verif.Lemmas.Order
import Verif.Lemmas.Output
import Verif.Lemmas.OutputMain
import Verif.Lemmas.OverflowAP
import Verif.Lemmas.OverflowArith
import Verif.Lemmas.OverflowInput
import Verif.Lemmas.OverflowMain
import Verif.Lemmas.OverflowNdcg
import Verif.Lemmas.OverflowRun
import Verif.Lemmas.Ownership
import Verif.Lemmas.PR
import Verif.Lemmas.Pooling
import Verif.Lemmas.Query
import Verif.Lemmas.QueryFiles
import Verif.Lemmas.Ranking
import Verif.Lemmas.Reader
import Verif.Lemmas.Relabel
import Verif.Lemmas.Rename
import Verif.Lemmas.Resampling
import Verif.Lemmas.Rescore
import Verif.Lemmas.Rounding
import Verif.Lemmas.RunIntervals
import Verif.Lemmas.Sample
import Verif.Lemmas.Scorers
import Verif.Lemmas.SegMonotone
import Verif.Lemmas.SegTally
import Verif.Lemmas.Sets
import Verif.Lemmas.Sort
import Verif.Lemmas.Stable
import Verif.Lemmas.StdSet
import Verif.Lemmas.Stream
import Verif.Lemmas.Tactics
import Verif.Lemmas.Tail
import Verif.Lemmas.TailBox
import Verif.Lemmas.Threshold
import Verif.Lemmas.Tool
import Verif.Lemmas.ToolDouble
import Verif.Lemmas.Total
import Verif.Lemmas.Unfound
import Verif.Lemmas.Writing
import Verif.Lemmas.WrongLine
import Verif.Lemmas.WrongOne
import Verif.Model.Assessment
import Verif.Model.Bootstrap
import Verif.Model.Cmd
import Verif.Model.Cpp
import Verif.Model.Engine
import Verif.Model.EventMappers
import Verif.Model.EventSets
import Verif.Model.Events
import Verif.Model.Geometry
import Verif.Model.Help
import Verif.Model.Ieee
import Verif.Model.Mapper
import Verif.Model.Match
import Verif.Model.Matcher
import Verif.Model.NdcgDouble
import Verif.Model.Number
import Verif.Model.Output
import Verif.Model.Ownership
import Verif.Model.Reader
import Verif.Model.Scorers
import Verif.Model.Statistic
import Verif.Model.Stream
import Verif.Model.Tool
import Verif.Model.ToolDouble
import Verif.Model.Writing
import Verif.Props.Again
import Verif.Props.AnyCurve
import Verif.Props.AnyOrder
import Verif.Props.Bootstrap
import Verif.Props.Bounds
import Verif.Props.BoxImprovement
import Verif.Props.Cmd
import Verif.Props.Collapse
import Verif.Props.Copies
import Verif.Props.Counts
import Verif.Props.CurveFiles
import Verif.Props.CurveRounding
import Verif.Props.Curves
import Verif.Props.CutOff
import Verif.Props.Decompose
import Verif.Props.Dilution
import Verif.Props.Disk
import Verif.Props.DistinctScores
import Verif.Props.Dump
import Verif.Props.Endings
import Verif.Props.Engine
import Verif.Props.ErrorValues
import Verif.Props.Evaluation
import Verif.Props.EventMappers
import Verif.Props.Extremes
import Verif.Props.FileNames
import Verif.Props.Geometry
import Verif.Props.Grouping
import Verif.Props.HandedIn
import Verif.Props.Help
import Verif.Props.Hits
import Verif.Props.Ids
import Verif.Props.Improvement
import Verif.Props.Initial
import Verif.Props.Instances
import Verif.Props.IntervalDouble
import Verif.Props.IntervalLaw
import Verif.Props.IntervalPlace
import Verif.Props.Intervals
import Verif.Props.Layout
import Verif.Props.LineOrder
import Verif.Props.Mapper
import Verif.Props.Mappers
import Verif.Props.MatchValue
import Verif.Props.Matcher
import Verif.Props.Messages
import Verif.Props.Moved
import Verif.Props.Ndcg
import Verif.Props.NdcgDouble
import Verif.Props.NumberStart
import Verif.Props.Numbers
import Verif.Props.OneWrong
import Verif.Props.OptionOrder
import Verif.Props.Options
import Verif.Props.Order
import Verif.Props.Output
import Verif.Props.Overflow
import Verif.Props.Ownership
import Verif.Props.Parts
import Verif.Props.Pooling
import Verif.Props.Query
import Verif.Props.QueryComments
import Verif.Props.QueryFiles
import Verif.Props.Ranking
import Verif.Props.Reader
import Verif.Props.Resampling
import Verif.Props.Rescoring
import Verif.Props.Rounding
import Verif.Props.RunInstances
import Verif.Props.RunIntervals
import Verif.Props.Runs
import Verif.Props.Sampling
import Verif.Props.Scorers
import Verif.Props.Scores
import Verif.Props.Sets
import Verif.Props.Shared
import Verif.Props.SingleGroup
import Verif.Props.Statistic
import Verif.Props.Tail
import Verif.Props.Threshold
import Verif.Props.Ties
import Verif.Props.Tool
import Verif.Props.ToolDouble
import Verif.Props.ToolMatching
import Verif.Props.Unfound
import Verif.Props.Writing
import Verif.Props.WrongLine
import Verif.Spec.Again
import Verif.Spec.Assessment
import Verif.Spec.Bootstrap
import Verif.Spec.Bounds
import Verif.Spec.BoxRanking
import Verif.Spec.CommandLine
import Verif.Spec.Copies
import Verif.Spec.Curves
import Verif.Spec.CutOff
import Verif.Spec.Cuts
import Verif.Spec.Decompose
import Verif.Spec.Dilution
import Verif.Spec.Disk
import Verif.Spec.Endings
import Verif.Spec.Engine
import Verif.Spec.Evaluation
import Verif.Spec.EventMappers
import Verif.Spec.Extremes
import Verif.Spec.FileNames
import Verif.Spec.Geometry
import Verif.Spec.Grammar
import Verif.Spec.HandedIn
import Verif.Spec.Help
import Verif.Spec.Hits
import Verif.Spec.Initial
import Verif.Spec.IntervalLaw
import Verif.Spec.Intervals
import Verif.Spec.Layout
import Verif.Spec.Libm
import Verif.Spec.Mapping
import Verif.Spec.Matching
import Verif.Spec.Messages
import Verif.Spec.Moved
import Verif.Spec.OneWrong
import Verif.Spec.OptionOrder
import Verif.Spec.Options
import Verif.Spec.Order
import Verif.Spec.Output
import Verif.Spec.Overflow
import Verif.Spec.Ownership
import Verif.Spec.Parts
import Verif.Spec.Pooling
import Verif.Spec.Query
import Verif.Spec.QueryComments
import Verif.Spec.QueryFiles
import Verif.Spec.Ranking
import Verif.Spec.Reading
import Verif.Spec.Resampling
import Verif.Spec.RunIntervals
import Verif.Spec.Scoring
import Verif.Spec.Sets
import Verif.Spec.Statistic
import Verif.Spec.Tail
import Verif.Spec.Ties
import Verif.Spec.Tool
import Verif.Spec.ToolDouble
import Verif.Spec.Unfound
import Verif.Spec.Writing
import Verif.Spec.WrongLine
import Verif.Tests.Assessment
import Verif.Tests.Cmd
import Verif.Tests.Core
import Verif.Tests.Engine
import Verif.Tests.Examples
