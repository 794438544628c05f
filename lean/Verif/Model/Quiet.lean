import Verif.Model.FuncStats
import Verif.Model.Counter
import Verif.Go.StrOrd

/-!
# Reports of a registry at rest

What `Registry.Stats` may report (registry.go:227-236, scope.go:296-322) while nothing is recorded, registered or reset.  Everything is visited in a fixed order but for two maps: the
sources of a scope (scope.go:298) and the errors of a function (funcstats.go:164), which Go visits in an order of its own choice, each time anew.
-/

namespace Monkit.Quiet
open Go

/-- One statistic (stats.go:150-160). -/
abbrev Stat := Key × Str × FVal

/-- A source: a function, a distribution in an `IntVal` or `DurationVal`, or anything that reports the same list each time while it is at rest, such as counters, `BoolVal`s and gauges
(scope.go:95-283). -/
inductive Source (G : Type) where
  | func (f : FuncStats G)
  | dist (d : Dist Int64 ℚ G)
  | fixed (l : List Stat)

/-- What `Stats` of a source may report: funcstats.go:148-175 with the errors in any order `ord`, val.go:50-62 of a copy with any generator, or the list. -/
inductive Reports {G : Type} (K : DistKind Int64 ℚ) : Source G → List Stat → Prop where
  | func (f ord g1 g2 l) (h : ord.Perm f.errors) (hl : f.stats K ord g1 g2 = some l) : Reports K (.func f) l
  | dist (d g d' l) (hl : (d.copy g).stats K = some (d', l)) : Reports K (.dist d) l
  | fixed (l) : Reports K (.fixed l) l

/-- A scope: its name, its sources by name and its chained sources (scope.go:25-31). -/
structure Scope (G : Type) where
  name : Str
  sources : Map Str (Source G)
  chains : List (Source G)

/-- What `Scope.Stats` may report: scope.go:306-322, the sources in any order, then the chained ones in order. -/
def ScopeReports {G : Type} (K : DistKind Int64 ℚ) (sc : Scope G) (out : List Stat) : Prop :=
  ∃ ord ls ls', ord.Perm sc.sources ∧ List.Forall₂ (fun x l => Reports K x.2 l) ord ls ∧ List.Forall₂ (Reports K) sc.chains ls' ∧
    out = (ls.flatten ++ ls'.flatten).map fun x => (x.1.withTag b!"scope" sc.name, x.2.1, x.2.2)

/-- What `Registry.Stats` may report, scope by scope: registry.go:211-222, 227-232, the scopes sorted by name. Without transformers. -/
def RegistryReports {G : Type} (K : DistKind Int64 ℚ) (scopes : List (Scope G)) (outs : List (List Stat)) : Prop :=
  ∃ c, c.Perm scopes ∧ c.Pairwise (fun a b => strLe a.name b.name = true) ∧ List.Forall₂ (ScopeReports K) c outs

end Monkit.Quiet
