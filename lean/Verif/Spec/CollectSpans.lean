import Verif.Model.CollectSpans
import Verif.Spec.WatchSpans

/-!
# What `CollectSpans` should return: the tree of Spec/WatchSpans
-/

namespace Monkit.CollectSpans

/-- The part of the collector. -/
def collOf (tr : List Ev) : List Collector.Ev := tr.filterMap fun e => match e with | .coll e => some e | _ => none

end Monkit.CollectSpans
