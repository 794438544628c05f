import Verif.Model.Races
import Verif.Proofs.Race

/-!
# The table of functions passes the check
-/

namespace Monkit.Races
open Go Go.Race

/-- How the variables are protected. -/
def cls : V → Class K
  | .counterVal | .counterLow | .counterHigh | .counterNonempty => .guarded .counter
  | .valDist => .guarded .val
  | .boolTrues | .boolFalses | .boolRecent => .atomic
  | .structRecent => .guarded .structVal
  | .timerTimes | .timerStopped => .guarded .timer
  | .meterTotal | .meterSlices => .guarded .meter
  | .tickerStarted | .tickerMeters => .guarded .ticker
  | .current | .highwater | .first => .atomic
  | .rest | .errors | .panics | .successTimes | .failureTimes => .guarded .funcSet
  | .spanConst | .tagAll => .const
  | .done | .orphaned | .children | .annotations => .guarded .span
  | .spanCount | .observers => .atomic
  | .vals => .guarded .trace
  | .traceWatcher => .atomic
  | .watcherCounter | .traceWatchers => .guarded .watcher
  | .regScopes => .guarded .scopes
  | .regSpans => .guarded .spans
  | .regOrphans => .guarded .orphans
  | .sources | .chains => .guarded .scope
  | .lastTotals => .guarded .delta
  | .handlers | .idCounter | .check | .finderDone => .atomic
  | .root | .spansByParent => .guarded .collector
  | .cancelers | .stopping | .existingTraces => .guarded .allTraces
  | .pingErr | .stopped => .guarded .keepAlive
  | .remoteTrace => .guarded .remote
  | .crc => .guarded .crcOnce
  | .taskFunc | .gcDist | .tagStr => .free

/-- The order of the locks. -/
def disc : Disc K where
  rank
    | .taskOnce | .remote | .allTraces | .span => 0
    | .scope => 1
    | _ => 2
  once
    | .taskOnce | .crcOnce => true
    | _ => false

theorem rank_le (k : K) : disc.rank k ≤ 2 := by cases k <;> decide

theorem free_only (v : V) : cls v = .free → v = .taskFunc ∨ v = .tagStr ∨ v = .gcDist := by cases v <;> decide

theorem checked : ∀ m ∈ library, Ends (chk disc cls m []) := by decide +kernel

/-- The same if nothing that races is called. -/
def cls' : V → Class K
  | .taskFunc => .guarded .taskOnce
  | .gcDist | .tagStr => .const
  | v => cls v

theorem not_free (v : V) : cls' v ≠ .free := by cases v <;> decide

theorem checked' : ∀ m ∈ library, m ≠ taskGetFunc → m ≠ tagString 0 → m ≠ deltaCall → m ≠ runtimeStats → Ends (chk disc cls' m []) := by decide +kernel

theorem ordered : ∀ m ∈ clashCounter :: clashFunc :: library, Ends (chk disc (fun _ => .free) m []) := by decide +kernel

end Monkit.Races
