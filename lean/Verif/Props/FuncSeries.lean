import Verif.Props.FuncStats2

/-!
# C17: no value of a function's report takes the place of another
-/

namespace Monkit.FuncStats
open Go Monkit.Dist Monkit.Spec
variable {G E : Type}

/-- Two reported values have the same measurement, the same tags and the same field. -/
def SameSeries (x y : Key × Str × FVal) : Prop :=
  x.1.measurement = y.1.measurement ∧ (∀ t, Map.get x.1.tags t = Map.get y.1.tags t) ∧ x.2.1 = y.2.1

theorem times_fields {k : Key} {vs : List Int64} {r : List (Key × Str × FVal)} (h : TimesReport k vs r) :
    (∀ x ∈ r, x.1 = k) ∧ (r.map (·.2.1)).Nodup := by
  by_cases hv : vs = []
  · rw [h.1 hv]; simp
  · obtain ⟨_, _, _, _, _, _, _, _, _, _, _, _, _, _, _, _, _, _, _, _, _, _, rfl⟩ := h.2 hv
    exact ⟨by simp, by simp only [List.map_cons, List.map_nil]; decide⟩

theorem times_pairwise {k : Key} {vs : List Int64} {r : List (Key × Str × FVal)} (h : TimesReport k vs r) :
    r.Pairwise fun x y => ¬ SameSeries x y := by
  have := (times_fields h).2
  rw [List.Nodup, List.pairwise_map] at this
  exact this.imp fun hne hs => hne hs.2.2

/-- **C17 (each value once).**  No two values that `Stats` emits on a reachable `FuncStats` have the same measurement, tags and field, whatever
tags the function has: none takes the place of another where values are kept by their series. -/
theorem C17_series_once {oob fused} (next : G → UInt64 × G)
    (name : E → Str) (key : Key) (g1 g2 : G) (ops : List (Op E)) (hlen : ops.length < 2 ^ 63)
    (hd : ∀ err p d W, Op.finish err p d W ∈ ops → d.toInt ≤ 2 ^ 63 - 2 ^ 38 - 1)
    (f : FuncStats G) (hrun : (new (durKind oob fused) key g1 g2).run (durKind oob fused) next name ops = some f)
    (ord : Map Str Int64) (hord : ord.Perm f.errors) (g1' g2' : G) :
    ∃ r, f.stats (durKind oob fused) ord g1' g2' = some r ∧ r.Pairwise fun x y => ¬ SameSeries x y := by
  obtain ⟨counts, ks, r1, kf, r2, e, hcv, k1, t1, k2, t2⟩ :=
    times_split next name key g1 g2 ops hlen hd f hrun ord hord g1' g2'
  refine ⟨_, e, ?_⟩
  obtain ⟨f', hr, hi⟩ := inv_run (.inr rfl) next name key g1 g2 ops hlen
  rw [hrun] at hr
  obtain rfl := Option.some.inj hr
  have hnd : (ord.map (·.1)).Nodup := (hord.map Prod.fst).nodup_iff.mpr hi.ok
  have hm : ∀ x ∈ r1, x.1.measurement = key.measurement ++ b!"_times" := fun x hx => by
    rw [(times_fields t1).1 x hx, k1.1]
  have hm2 : ∀ x ∈ r2, x.1.measurement = key.measurement ++ b!"_times" := fun x hx => by
    rw [(times_fields t2).1 x hx, k2.1]
  have hne : key.measurement ≠ key.measurement ++ b!"_times" := fun h => by
    have := congrArg List.length h
    simp at this
  obtain ⟨v1, v2, v3, v4, v5, v6, v7, rfl⟩ := hcv
  have hne' : ∀ n m : Str, n ≠ m →
      ¬ ∀ t, Map.get (key.withTag b!"error_name" n).tags t = Map.get (key.withTag b!"error_name" m).tags t := by
    intro n m h hh
    have := hh b!"error_name"
    simp only [Key.withTag, Map.get_set, if_true, Option.some.injEq] at this
    exact h this
  have herr : (ord.map fun x => (key.withTag b!"error_name" x.1, b!"count", FVal.int x.2)).Pairwise
      fun x y => ¬ SameSeries x y := by
    rw [List.pairwise_map]
    rw [List.Nodup, List.pairwise_map] at hnd
    refine hnd.imp ?_
    intro a b h hs
    exact hne' a.1 b.1 h hs.2.1
  have hcounts : ([(key, b!"current", v1), (key, b!"highwater", v2), (key, b!"successes", v3)] ++
        ord.map (fun x => (key.withTag b!"error_name" x.1, b!"count", FVal.int x.2)) ++
        [(key, b!"errors", v4), (key, b!"panics", v5), (key, b!"failures", v6), (key, b!"total", v7)]).Pairwise
      fun x y => ¬ SameSeries x y := by
    have h1 : ∀ l : List (Key × Str × FVal), (l.map (·.2.1)).Nodup → l.Pairwise fun x y => ¬ SameSeries x y := by
      intro l h
      rw [List.Nodup, List.pairwise_map] at h
      exact h.imp fun hn hs => hn hs.2.2
    rw [List.pairwise_append, List.pairwise_append]
    refine ⟨⟨h1 _ (by simp only [List.map_cons, List.map_nil]; decide), herr, ?_⟩,
      h1 _ (by simp only [List.map_cons, List.map_nil]; decide), ?_⟩
    · intro x hx y hy hs
      have hf := hs.2.2
      obtain ⟨z, _, rfl⟩ := List.mem_map.mp hy
      simp only [List.mem_cons, List.not_mem_nil, or_false] at hx
      rcases hx with rfl | rfl | rfl <;> exact absurd hf (by simp)
    · intro x hx y hy hs
      have hf := hs.2.2
      simp only [List.mem_append, List.mem_cons, List.not_mem_nil, or_false, List.mem_map] at hx hy
      rcases hx with (rfl | rfl | rfl) | ⟨z, _, rfl⟩ <;> rcases hy with rfl | rfl | rfl | rfl <;> exact absurd hf (by simp)
  have hc : ∀ x ∈ ([(key, b!"current", v1), (key, b!"highwater", v2), (key, b!"successes", v3)] ++
        ord.map (fun x => (key.withTag b!"error_name" x.1, b!"count", FVal.int x.2)) ++
        [(key, b!"errors", v4), (key, b!"panics", v5), (key, b!"failures", v6), (key, b!"total", v7)]),
      x.1.measurement = key.measurement := by
    intro x hx
    simp only [List.mem_append, List.mem_cons, List.not_mem_nil, or_false, List.mem_map] at hx
    rcases hx with ((rfl | rfl | rfl) | ⟨y, _, rfl⟩) | (rfl | rfl | rfl | rfl) <;> rfl
  rw [List.pairwise_append, List.pairwise_append]
  refine ⟨⟨hcounts, times_pairwise t1, ?_⟩, times_pairwise t2, ?_⟩
  · intro x hx y hy hs
    exact hne (by rw [← hm y hy, ← hs.1, hc x hx])
  · intro x hx y hy hs
    rcases List.mem_append.mp hx with hx | hx
    · exact hne (by rw [← hm2 y hy, ← hs.1, hc x hx])
    · have := hs.2.1 b!"kind"
      rw [(times_fields t1).1 x hx, (times_fields t2).1 y hy, k1.2, k2.2] at this
      simp at this

/-- The hypotheses are met by a function with two names of errors and a panic, whose own tags are called `kind` and `error_name`. -/
example : let ops : List (Op Str) := [.start, .start, .finish (some b!"EOF") false 5 1024, .finish none false 7 1024,
       .start, .finish (some b!"x") false 2 1024, .start, .finish none true 3 1024]
    ops.length < 2 ^ 63 ∧ (∀ err p d W, Op.finish err p d W ∈ ops → d.toInt ≤ 2 ^ 63 - 2 ^ 38 - 1) ∧
    ((new (durKind (fun _ => 0) false) ⟨b!"function", [(b!"kind", b!"a"), (b!"error_name", b!"b")]⟩ () ()).run
      (durKind (fun _ => 0) false) (fun g => (0, g)) id ops).isSome := by
  refine ⟨by decide, ?_, by decide +kernel⟩
  intro err p d W h
  simp only [List.mem_cons, Op.finish.injEq, reduceCtorEq, false_or, List.not_mem_nil, or_false] at h
  rcases h with ⟨_, _, rfl, _⟩ | ⟨_, _, rfl, _⟩ | ⟨_, _, rfl, _⟩ | ⟨_, _, rfl, _⟩ <;> decide

end Monkit.FuncStats
