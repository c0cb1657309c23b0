import Verif.Audit
import Verif.Basic
import Verif.Contract
import Verif.Data
import Verif.Lemmas.Attain
import Verif.Lemmas.BigM
import Verif.Lemmas.Bounds
import Verif.Lemmas.Bracket
import Verif.Lemmas.Brute
import Verif.Lemmas.Certify
import Verif.Lemmas.ContTol
import Verif.Lemmas.CostRefiner
import Verif.Lemmas.CsvText
import Verif.Lemmas.Deter
import Verif.Lemmas.ExactSolver
import Verif.Lemmas.Exec
import Verif.Lemmas.ExportTables
import Verif.Lemmas.FloatKnapsack
import Verif.Lemmas.FloatMilp
import Verif.Lemmas.FloatOptim
import Verif.Lemmas.FloatRow
import Verif.Lemmas.FloatViolations
import Verif.Lemmas.GapRun
import Verif.Lemmas.GridSolver
import Verif.Lemmas.Initializer
import Verif.Lemmas.Instance
import Verif.Lemmas.Knapsack
import Verif.Lemmas.LP
import Verif.Lemmas.LbLog
import Verif.Lemmas.Loop
import Verif.Lemmas.LowerBounder
import Verif.Lemmas.MergeSites
import Verif.Lemmas.Merger
import Verif.Lemmas.NoFuel
import Verif.Lemmas.Optim
import Verif.Lemmas.OrLibText
import Verif.Lemmas.Parse
import Verif.Lemmas.PartInst
import Verif.Lemmas.Py
import Verif.Lemmas.PyNumber
import Verif.Lemmas.Refiner
import Verif.Lemmas.Report
import Verif.Lemmas.Shape
import Verif.Lemmas.SubEnv
import Verif.Lemmas.Time
import Verif.Lemmas.TimeError
import Verif.Lemmas.Tolerances
import Verif.Lemmas.Twin
import Verif.Lemmas.UpperBounder
import Verif.Lemmas.View
import Verif.Lemmas.Violations
import Verif.Lemmas.Wp
import Verif.Model.BigM
import Verif.Model.CommandLine
import Verif.Model.CsvText
import Verif.Model.Evaluator
import Verif.Model.ExportTables
import Verif.Model.Float
import Verif.Model.FloatAdaptive
import Verif.Model.FloatExport
import Verif.Model.FloatFiles
import Verif.Model.FloatKnapsack
import Verif.Model.FloatMilp
import Verif.Model.FloatOptim
import Verif.Model.FloatRow
import Verif.Model.FloatSort
import Verif.Model.FloatViolations
import Verif.Model.Generator
import Verif.Model.Gurobi
import Verif.Model.Initializer
import Verif.Model.Instance
import Verif.Model.Knapsack
import Verif.Model.LowerBounder
import Verif.Model.Merger
import Verif.Model.MilpSolver
import Verif.Model.Optim
import Verif.Model.OrLibFiles
import Verif.Model.OrLibText
import Verif.Model.PartInst
import Verif.Model.PyNumber
import Verif.Model.Refiner
import Verif.Model.Report
import Verif.Model.SaveBounds
import Verif.Model.Solve
import Verif.Model.Song
import Verif.Model.Tolerances
import Verif.Model.UpperBounder
import Verif.Model.Violations
import Verif.Model.ViolationsMem
import Verif.Model.Workflow
import Verif.Props.Agree
import Verif.Props.Announced
import Verif.Props.Anytime
import Verif.Props.BelottiTol
import Verif.Props.BigM
import Verif.Props.Bounding
import Verif.Props.Certificates
import Verif.Props.CommandLine
import Verif.Props.ContTol
import Verif.Props.ContinuousCrash
import Verif.Props.CsvText
import Verif.Props.Deadline
import Verif.Props.DefaultGap
import Verif.Props.Execution
import Verif.Props.Export
import Verif.Props.ExportGaps
import Verif.Props.Feasibility
import Verif.Props.Float
import Verif.Props.FloatAdaptive
import Verif.Props.FloatAdaptiveCont
import Verif.Props.FloatAdaptiveFiles
import Verif.Props.FloatBelotti
import Verif.Props.FloatExport
import Verif.Props.FloatFiles
import Verif.Props.FloatGenerated
import Verif.Props.FloatKnapsack
import Verif.Props.FloatMilp
import Verif.Props.FloatOptim
import Verif.Props.FloatPipeline
import Verif.Props.FloatPipeline2
import Verif.Props.FloatRow
import Verif.Props.FloatRowColumns
import Verif.Props.FloatSort
import Verif.Props.FloatTotal
import Verif.Props.FloatViolations
import Verif.Props.Generator
import Verif.Props.GridValues
import Verif.Props.GurobiTol
import Verif.Props.History
import Verif.Props.Initial
import Verif.Props.Knapsack
import Verif.Props.Log
import Verif.Props.LowerGap
import Verif.Props.Merge
import Verif.Props.Milp
import Verif.Props.NonTermination
import Verif.Props.OrLibText
import Verif.Props.Parsing
import Verif.Props.Partition
import Verif.Props.Progress
import Verif.Props.Refine
import Verif.Props.Reported
import Verif.Props.Reproducible
import Verif.Props.RowMeaning
import Verif.Props.Rows
import Verif.Props.Selection
import Verif.Props.SortingBounds
import Verif.Props.SplitMerge
import Verif.Props.StopReason
import Verif.Props.Tables
import Verif.Props.Tolerance
import Verif.Props.Trajectory
import Verif.Props.Violations
import Verif.Props.ViolationsMem
import Verif.Props.WarmStart
import Verif.Props.Workflow
import Verif.Props.WorkflowTables
import Verif.Py
import Verif.Spec
