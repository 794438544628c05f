import Verif.Props.Counter
import Verif.Props.CounterConc
import Verif.Props.Dist3
import Verif.Proofs.DistAvg
import Verif.Props.Dist4
import Verif.Props.Dist5
import Verif.Props.FloatDist
import Verif.Props.FloatDist2
import Verif.Props.Rng
import Verif.Props.Meter
import Verif.Props.Val
import Verif.Props.BoolVal
import Verif.Props.FuncStats
import Verif.Props.FuncStats2
import Verif.Props.FuncSeries
import Verif.Props.Highwater
import Verif.Props.FuncSet
import Verif.Props.SpanBag
import Verif.Props.Spans
import Verif.Props.Locks
import Verif.Props.Observers
import Verif.Props.Watchers
import Verif.Props.AllTraces
import Verif.Props.Collector
import Verif.Props.Ctx
import Verif.Props.Tasks
import Verif.Props.Calls
import Verif.Props.Id
import Verif.Props.Tags
import Verif.Props.Scope
import Verif.Props.RegScopes
import Verif.Props.Transform
import Verif.Props.Delta
import Verif.Props.Struct
import Verif.Props.StructNames
import Verif.Props.ErrorNames
import Verif.Props.Callers
import Verif.Props.Headers
import Verif.Props.Wrap
import Verif.Props.Dot
import Verif.Props.ListWriter
import Verif.Props.Path
import Verif.Props.KeepAlive
import Verif.Props.Svg
import Verif.Props.Runtime
import Verif.Props.Monotime
import Verif.Props.SpinLock
import Verif.Props.TaskFunc
import Verif.Props.TraceVals
import Verif.Props.Annotations
import Verif.Props.Present
import Verif.Props.Buffered
import Verif.Props.SvgText
import Verif.Props.SvgBar
import Verif.Props.Ticker
import Verif.Props.MeterConc
import Verif.Props.CasSafe
import Verif.Props.StructVal
import Verif.Props.Val2
import Verif.Props.FindSpan
import Verif.Props.Remote
import Verif.Props.RemoteReturns
import Verif.Props.RemotePanic
import Verif.Props.WatchSpans
import Verif.Props.CollectSpans
import Verif.Props.EndLock
import Verif.Props.JsonDocs
import Verif.Props.StatsText
import Verif.Props.Http
import Verif.Props.TraceQuery
import Verif.Props.ProcFs
import Verif.Props.ProcStats
import Verif.Props.Colour
import Verif.Props.Listing
import Verif.Props.FuncConc
import Verif.Props.TraceHttp
import Verif.Props.TraceHttpCb
import Verif.Props.TagsConc
import Verif.Props.Report
import Verif.Props.DiffConc
import Verif.Props.RemoteCb
import Verif.Props.QuantileLock
import Verif.Props.RuntimeConc
import Verif.Props.Env
import Verif.Props.Returns.Registry
import Verif.Props.Returns.Collect
import Verif.Props.Returns.Values
import Verif.Props.Returns.Scope
import Verif.Props.Returns.LockFree
import Verif.Props.ErrorBuilds
import Verif.Props.Rusage
import Verif.Props.Args
import Verif.Props.Fair
import Verif.Props.Quantile
import Verif.Props.Average
import Verif.Props.StatsJson
import Verif.Model.Whole
import Verif.Spec.Whole
import Verif.Proofs.Whole
import Verif.Proofs.WholeRun
import Verif.Props.Whole
import Verif.Model.Clock
import Verif.Spec.Clock
import Verif.Props.Clock
import Verif.Model.Attach
import Verif.Props.Attach
import Verif.Model.Clash
import Verif.Props.Clash
import Verif.Model.ObsPanic
import Verif.Spec.ObsPanic
import Verif.Proofs.ObsPanic
import Verif.Proofs.ObsPanic2
import Verif.Props.ObsPanic
import Verif.Spec.Leftovers
import Verif.Props.Leftovers
import Verif.Model.LiveArgs
import Verif.Spec.LiveArgs
import Verif.Proofs.LiveArgs
import Verif.Props.LiveArgs
import Verif.Model.DeltaReports
import Verif.Spec.DeltaReports
import Verif.Proofs.DeltaReports
import Verif.Props.DeltaReports
import Verif.Model.Quiet
import Verif.Props.Quiet
import Verif.Model.ClashTask
import Verif.Props.ClashTask
import Verif.Spec.TextRead
import Verif.Proofs.TextRead
import Verif.Props.TextRead
import Verif.Props.KeepAliveReturns
import Verif.Props.WatchReturns
import Verif.Model.ReExit
import Verif.Proofs.ReExit
import Verif.Props.ReExit
import Verif.Go.DurText
import Verif.Model.Times
import Verif.Spec.Times
import Verif.Proofs.Times
import Verif.Props.Times
import Verif.Go.Race
import Verif.Model.Races
import Verif.Proofs.Race
import Verif.Props.Races
import Verif.Proofs.Races
import Verif.Proofs.Deadlock
import Verif.Props.Deadlock
import Verif.Props.Traced
import Verif.Props.Series
import Verif.Audit
