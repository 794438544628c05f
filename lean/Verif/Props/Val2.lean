import Verif.Props.Val
import Verif.Props.FloatDist

/-!
# C68 for `FloatVal`
-/

namespace Monkit.FloatVal
open Go.Mutex Monkit Monkit.Spec Go.Float Monkit.Val

variable {G : Type}

/-- The history of distribution calls that a list of `FloatVal` calls amounts to. -/
def distOps : List (Op F G) → List (Dist.Op F)
  | [] => []
  | .observe v W :: os => .insert v W :: distOps os
  | .quantile q :: os => .query q :: distOps os
  | .stats _ :: os => distOps os

/-- The values observed by a list of calls. -/
def observed (ops : List (Op F G)) : List F := ops.filterMap fun o => match o with | .observe v _ => some v | _ => none

theorem seqRun_dist (K : DistKind F F) (next : G → UInt64 × G) (ops : List (Op F G)) (d : Dist F F G) :
    (seqRun (obj K next).exec (some d) ops).1 = d.run K next (distOps ops) := by
  have dead : ∀ ops : List (Op F G), (seqRun (obj K next).exec none ops).1 = none := by
    intro ops
    induction ops with
    | nil => rfl
    | cons o os ih => cases o <;> exact ih
  induction ops generalizing d with
  | nil => rfl
  | cons o os ih =>
    cases o with
    | observe v W =>
      show (seqRun (obj K next).exec (d.insert K next W v) os).1 =
        (d.insert K next W v).bind fun d' => d'.run K next (distOps os)
      cases h : d.insert K next W v with
      | none => exact dead os
      | some d' => exact ih d'
    | quantile q =>
      show (seqRun (obj K next).exec ((d.query K q).map (·.1)) os).1 =
        ((d.query K q).map (·.1)).bind fun d' => d'.run K next (distOps os)
      cases h : d.query K q with
      | none => exact dead os
      | some d' => exact ih d'.1
    | stats g => exact ih d

theorem inserted_distOps (ops : List (Op F G)) : inserted (distOps ops) = observed ops := by
  have key : ∀ (ops : List (Op F G)) (acc : List F),
      (distOps ops).foldl (fun acc o => match o with
        | .insert v _ => acc ++ [v]
        | .reset => []
        | _ => acc) acc = acc ++ observed ops := by
    intro ops
    induction ops with
    | nil => intro acc; simp [distOps, observed]
    | cons o os ih =>
      intro acc
      cases o <;> simp only [distOps, List.foldl_cons, ih] <;> simp [observed]
  have := key ops []
  rw [List.nil_append] at this
  rw [← this]; unfold inserted; congr 1; funext acc o; cases o <;> rfl

theorem distOps_length (l : List (Op F G)) : (distOps l).length ≤ l.length := by
  induction l with
  | nil => simp [distOps]
  | cons o os ih => cases o <;> simp [distOps] <;> omega

theorem distOps_query (l : List (Op F G)) (q : ℚ) (h : Dist.Op.query q ∈ distOps l) : Op.quantile q ∈ l := by
  induction l with
  | nil => simp [distOps] at h
  | cons o os ih => cases o <;> simp [distOps] at h ⊢ <;> grind

/-- **C68 (for `FloatVal`, with any float64 values).** Any number of goroutines observing values and asking for quantiles
and statistics of one `FloatVal`, in any schedule, ending with no call in progress: nothing panicked, and there is one order `lin` of all calls, agreeing
with each goroutine's own order, such that the distribution holds exactly the observed values; each quantile lies between two of the values observed
before it (as float32) if these fit a float32, and is NaN or lies between two of them if none of them is NaN; and each report is made from a distribution holding exactly the values observed before it. -/
theorem C68_float_val_concurrent (fused : Bool) (next : G → UInt64 × G) (key : Key) (g : G) (tr : List (Event (Op F G) (Res F F G)))
    (c : Config (Option (Dist F F G)) (Res F F G) (Op F G))
    (h : Exec (obj (floatKind fused) next) (some (Dist.new (floatKind fused) key g)) tr c) (quiet : ∀ t, c.thr t = .idle)
    (hlen : tr.length < 2 ^ 63) (hq : ∀ t q, Op.quantile q ∈ callsOf t tr → Rep 53 q) :
    ∃ lin : List (Nat × Op F G × Res F F G),
      (∀ t, callsOf t tr = (lin.filter (·.1 = t)).map (·.2.1) ∧ retsOf t tr = (lin.filter (·.1 = t)).map (·.2.2)) ∧
      (∃ d, c.sh = some d ∧ FHolds (observed (lin.map (·.2.1))) d) ∧
      (∀ pre t q r post, lin = pre ++ (t, .quantile q, r) :: post → observed (pre.map (·.2.1)) ≠ [] →
        ∃ y, r = .val (some y) ∧ ((∀ v ∈ observed (pre.map (·.2.1)), Fits v) → Within (observed (pre.map (·.2.1))) y) ∧
          ((∀ v ∈ observed (pre.map (·.2.1)), v ≠ .nan) → y = .nan ∨ Within (observed (pre.map (·.2.1))) y)) ∧
      (∀ pre t g' r post, lin = pre ++ (t, .stats g', r) :: post →
        ∃ d : Dist F F G, FHolds (observed (pre.map (·.2.1))) d ∧ d.rng = g' ∧ r = .copy (some d)) := by
  obtain ⟨lin, h1, h2⟩ := C03_no_lost_update _ _ tr c h quiet
  have a2 : lin.length ≤ tr.length := lin_length_le lin tr (fun t => by rw [(h2 t).1, List.length_map])
  have hin : ∀ x ∈ lin, ∀ q, x.2.1 = Op.quantile q → Rep 53 q := by
    intro x hx q he
    refine hq x.1 q ?_
    rw [(h2 x.1).1, ← he]
    exact List.mem_map.mpr ⟨x, by simp [hx], rfl⟩
  have hstate : ∀ pre : List (Nat × Op F G × Res F F G), (∀ x ∈ pre, x ∈ lin) → pre.length ≤ lin.length →
      ∃ d, (seqRun (obj (floatKind fused) next).exec (some (Dist.new (floatKind fused) key g)) (pre.map (·.2.1))).1 = some d ∧
        Dist.Inv (floatKind fused) (observed (pre.map (·.2.1))) d := by
    intro pre hp hl
    have hv1 : ∀ q, Dist.Op.query q ∈ distOps (pre.map (·.2.1)) → Rep 53 q := by
      intro q hm
      have := distOps_query _ q hm
      rw [List.mem_map] at this
      obtain ⟨x, hx, he⟩ := this
      exact hin x (hp x hx) q he
    have hv2 : (distOps (pre.map (·.2.1))).length < 2 ^ 63 := by
      have := distOps_length (pre.map (·.2.1))
      rw [List.length_map] at this
      omega
    obtain ⟨d, e, b⟩ := Dist.inv_run (Dist.float_ordered fused) next key g _ hv1 hv2
    rw [inserted_distOps] at b
    exact ⟨d, by rw [seqRun_dist, e], b⟩
  have hres : ∀ pre x post, lin = pre ++ x :: post → x.2.2 =
      ((obj (floatKind fused) next).exec
        (seqRun (obj (floatKind fused) next).exec (some (Dist.new (floatKind fused) key g)) (pre.map (·.2.1))).1 x.2.1).2 := by
    intro pre x post hl
    refine seqRun_split _ pre x post _ ?_
    rw [← hl, h1]
  have hpre : ∀ pre x post, lin = pre ++ x :: post → (∀ y ∈ pre, y ∈ lin) ∧ pre.length ≤ lin.length := by
    intro pre x post hl
    subst hl
    exact ⟨fun y hy => List.mem_append_left _ hy, by rw [List.length_append]; omega⟩
  refine ⟨lin, h2, ?_, ?_, ?_⟩
  · obtain ⟨d, e, hh⟩ := hstate lin (fun _ h => h) (le_refl _)
    rw [h1] at e
    exact ⟨d, e, FloatDist.holds hh⟩
  · intro pre t q r post hl hne
    obtain ⟨p1, p2⟩ := hpre _ _ _ hl
    obtain ⟨d, e, i⟩ := hstate pre p1 p2
    obtain ⟨d', y, e', g1, g2⟩ := FloatDist.query_between i hne (hin (t, .quantile q, r) (by rw [hl]; simp) q rfl)
    have hr := hres _ _ _ hl
    rw [e] at hr
    refine ⟨y, ?_, g2, g1⟩
    change r = .val ((d.query (floatKind fused) q).map (·.2)) at hr
    rw [hr, e']; rfl
  · intro pre t g' r post hl
    obtain ⟨p1, p2⟩ := hpre _ _ _ hl
    obtain ⟨d, e, hh⟩ := hstate pre p1 p2
    have hr := hres _ _ _ hl
    rw [e] at hr
    change r = .copy (some (d.copy g')) at hr
    have hh := FloatDist.holds hh
    exact ⟨d.copy g', ⟨hh.count, hh.sum, hh.recent, hh.least, hh.greatest, hh.nan, hh.empty⟩, rfl, hr⟩

/-- The hypotheses are met: a quantile is asked for while another goroutine waits to observe. -/
example : ∃ tr c, Exec (obj (floatKind false) (fun g : Unit => (0, g)))
      (some (Dist.new (floatKind false) ⟨[], []⟩ ())) tr c ∧ (∀ t, c.thr t = .idle) ∧ tr.length < 2 ^ 63 ∧
    (∀ t q, Op.quantile q ∈ callsOf t tr → Rep 53 q) ∧ observed (callsOf 0 tr) = [.fin (1/2)] ∧ callsOf 1 tr = [.quantile 1] := by
  have e := Exec.start (o := obj (floatKind false) (fun g : Unit => (0, g))) (s₀ := some (Dist.new (floatKind false) ⟨[], []⟩ ()))
  have e := Exec.step _ e (.call _ 1 (.quantile 1) rfl)
  have e := Exec.step _ e (.lock _ 1 _ rfl rfl)
  have e := Exec.step _ e (.call _ 0 (.observe (.fin (1/2)) 1024) rfl)
  have e := Exec.step _ e (.access _ 1 _ _ _ _ rfl)
  have e := Exec.step _ e (.unlock _ 1 _ _ rfl)
  have e := Exec.step _ e (.lock _ 0 _ rfl rfl)
  have e := Exec.step _ e (.access _ 0 _ _ _ _ rfl)
  have e := Exec.step _ e (.unlock _ 0 _ _ rfl)
  refine ⟨_, _, e, ?_, by decide, ?_, rfl, rfl⟩
  · intro t
    by_cases h0 : t = 0 <;> by_cases h1 : t = 1 <;> simp [upd, Config.init, *]
  · intro t q hq
    have hq1 : q = 1 := by
      clear e
      by_cases h0 : t = 0 <;> by_cases h1 : t = 1 <;> simp_all [callsOf] <;> grind
    rw [hq1]
    have := rep_int (p := 53) (by norm_num) (k := 1) (by norm_num)
    exact_mod_cast this

end Monkit.FloatVal
