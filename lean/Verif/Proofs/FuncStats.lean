import Verif.Spec.FuncStats
import Verif.Props.Dist2

namespace Monkit.FuncStats
open Go Monkit.Spec

variable {G E : Type}

/-- What one call does to the distribution of successes, and of failures. -/
def succOp : Op E → List (Dist.Op Int64)
  | .start => []
  | .finish none false d W => [.insert d W]
  | .finish _ _ _ _ => []
  | .reset => [.reset]

def failOp : Op E → List (Dist.Op Int64)
  | .start => []
  | .finish none false _ _ => []
  | .finish _ _ d W => [.insert d W]
  | .reset => [.reset]

theorem dist_run_append {V R : Type} (K : DistKind V R) (next : G → UInt64 × G) (d : Dist V R G)
    (a b : List (Dist.Op V)) : d.run K next (a ++ b) = (d.run K next a).bind fun d' => d'.run K next b := by
  induction a generalizing d with
  | nil => rfl
  | cons o os ih =>
    simp only [List.cons_append, Dist.run]
    cases d.step K next o with
    | none => rfl
    | some d' => exact ih d'

theorem run_append (K : DistKind Int64 ℚ) (next : G → UInt64 × G) (name : E → Str) (f : FuncStats G)
    (a b : List (Op E)) :
    f.run K next name (a ++ b) = (f.run K next name a).bind fun f' => f'.run K next name b := by
  induction a generalizing f with
  | nil => rfl
  | cons o os ih =>
    simp only [List.cons_append, run]
    cases f.step K next name o with
    | none => rfl
    | some d' => exact ih d'

/-- The number of observations of a class. -/
def num (p : Class E → Bool) (ops : List (Op E)) : Nat := ((finishedObs ops).map (·.1)).countP p

theorem finishedObs_snoc (ops : List (Op E)) (o : Op E) :
    finishedObs (ops ++ [o]) = match o with
      | .start => finishedObs ops
      | .finish err p d _ => finishedObs ops ++ [(classify err p, d)]
      | .reset => [] := by
  cases o <;> simp [finishedObs]

theorem inserted_snoc (ops : List (Dist.Op Int64)) (o : Dist.Op Int64) :
    inserted (ops ++ [o]) = match o with
      | .insert v _ => inserted ops ++ [v]
      | .reset => []
      | _ => inserted ops := by
  cases o <;> simp [inserted]

theorem isS1 : (Class.success : Class E).isSuccess = true := rfl
theorem isS2 : (Class.panic : Class E).isSuccess = false := rfl
theorem isS3 (e : E) : (Class.error e).isSuccess = false := rfl

/-- Which durations reach which distribution. -/
theorem inserted_succ (ops : List (Op E)) :
    inserted (ops.flatMap succOp) = ((finishedObs ops).filter (·.1.isSuccess)).map (·.2) := by
  induction ops using List.reverseRecOn with
  | nil => rfl
  | append_singleton ops o ih =>
    rw [List.flatMap_append, finishedObs_snoc]
    cases o with
    | start => simpa [succOp] using ih
    | reset => simp [succOp, inserted_snoc]
    | finish err p d W =>
      cases p <;> cases err <;>
        simp [succOp, inserted_snoc, ih, classify, List.filter_cons, isS1, isS2, isS3]

theorem inserted_fail (ops : List (Op E)) :
    inserted (ops.flatMap failOp) = ((finishedObs ops).filter (fun x => !x.1.isSuccess)).map (·.2) := by
  induction ops using List.reverseRecOn with
  | nil => rfl
  | append_singleton ops o ih =>
    rw [List.flatMap_append, finishedObs_snoc]
    cases o with
    | start => simpa [failOp] using ih
    | reset => simp [failOp, inserted_snoc]
    | finish err p d W =>
      cases p <;> cases err <;>
        simp [failOp, inserted_snoc, ih, classify, List.filter_cons, isS1, isS2, isS3]

theorem num_snoc (p : Class E → Bool) (ops : List (Op E)) (o : Op E) :
    num p (ops ++ [o]) = match o with
      | .start => num p ops
      | .finish err pa _ _ => num p ops + (p (classify err pa)).toNat
      | .reset => 0 := by
  unfold num
  rw [finishedObs_snoc]
  cases o with
  | start => rfl
  | reset => rfl
  | finish err pa d W =>
    simp only [List.map_append, List.countP_append, List.map_cons, List.map_nil]
    cases h : p (classify err pa) <;> simp [h]

structure Inv (K : DistKind Int64 ℚ) (next : G → UInt64 × G) (name : E → Str) (key : Key) (g1 g2 : G)
    (ops : List (Op E)) (f : FuncStats G) : Prop where
  hkey : f.key = key
  succ : (new K key g1 g2).success.run K next (ops.flatMap succOp) = some f.success
  fail : (new K key g1 g2).failure.run K next (ops.flatMap failOp) = some f.failure
  panics : f.panics = Int64.ofNat (num Class.isPanic ops)
  ok : Map.Ok f.errors
  errs : ∀ n, Map.get f.errors n = if num (Class.named name n) ops = 0 then none
    else some (Int64.ofNat (num (Class.named name n) ops))

theorem length_succ (ops : List (Op E)) : (ops.flatMap succOp).length ≤ ops.length := by
  induction ops with
  | nil => simp
  | cons o os ih =>
    rw [List.flatMap_cons, List.length_append, List.length_cons]
    have : (succOp o).length ≤ 1 := by
      cases o with
      | finish e p d W => cases e <;> cases p <;> simp [succOp]
      | _ => simp [succOp]
    omega

theorem length_fail (ops : List (Op E)) : (ops.flatMap failOp).length ≤ ops.length := by
  induction ops with
  | nil => simp
  | cons o os ih =>
    rw [List.flatMap_cons, List.length_append, List.length_cons]
    have : (failOp o).length ≤ 1 := by
      cases o with
      | finish e p d W => cases e <;> cases p <;> simp [failOp]
      | _ => simp [failOp]
    omega

theorem noquery_succ (ops : List (Op E)) (q : ℚ) : Dist.Op.query q ∉ ops.flatMap succOp := by
  simp only [List.mem_flatMap, not_exists, not_and]
  intro o _ h
  cases o with
  | finish e p d W => cases e <;> cases p <;> simp [succOp] at h
  | _ => simp [succOp] at h

theorem noquery_fail (ops : List (Op E)) (q : ℚ) : Dist.Op.query q ∉ ops.flatMap failOp := by
  simp only [List.mem_flatMap, not_exists, not_and]
  intro o _ h
  cases o with
  | finish e p d W => cases e <;> cases p <;> simp [failOp] at h
  | _ => simp [failOp] at h

theorem valid_succ (ops : List (Op E)) (h : ops.length < 2 ^ 63) : Valid (ops.flatMap succOp) :=
  ⟨lt_of_le_of_lt (length_succ ops) h, fun q hq => absurd hq (noquery_succ ops q)⟩

theorem valid_fail (ops : List (Op E)) (h : ops.length < 2 ^ 63) : Valid (ops.flatMap failOp) :=
  ⟨lt_of_le_of_lt (length_fail ops) h, fun q hq => absurd hq (noquery_fail ops q)⟩

theorem num_le (p : Class E → Bool) (ops : List (Op E)) : num p ops ≤ ops.length := by
  induction ops using List.reverseRecOn with
  | nil => simp [num, finishedObs]
  | append_singleton ops o ih =>
    rw [num_snoc, List.length_append]
    cases o with
    | start => simp; omega
    | reset => simp
    | finish e pa d W => have := Bool.toNat_le (p (classify e pa)); simp; omega

theorem bump_get (m : Map Str Int64) (k n : Str) :
    Map.get (bump m k) n = if k = n then some ((Map.get m k).getD 0 + 1) else Map.get m n := by
  unfold bump; rw [Map.get_set]

theorem inv_new (K : DistKind Int64 ℚ) (next : G → UInt64 × G) (name : E → Str) (key : Key)
    (g1 g2 : G) : Inv K next name key g1 g2 [] (new K key g1 g2) :=
  ⟨rfl, rfl, rfl, rfl, Map.ok_nil, fun n => by simp [new, num, finishedObs]⟩

theorem inv_snoc {K oob fused} (hK : IsIntKind K oob fused) {next : G → UInt64 × G}
    {name : E → Str} {key : Key} {g1 g2 : G} {ops : List (Op E)} {f : FuncStats G}
    (h : Inv K next name key g1 g2 ops f) (o : Op E) (hlen : (ops ++ [o]).length < 2 ^ 63) :
    ∃ f', f.step K next name o = some f' ∧ Inv K next name key g1 g2 (ops ++ [o]) f' := by
  obtain ⟨ds, hds, _⟩ := C04_dist_aggregates hK next (new K key g1 g2).success.key g1 _
    (valid_succ (ops ++ [o]) hlen)
  obtain ⟨df, hdf, _⟩ := C04_dist_aggregates hK next (new K key g1 g2).failure.key g2 _
    (valid_fail (ops ++ [o]) hlen)
  change (new K key g1 g2).success.run K next _ = _ at hds
  change (new K key g1 g2).failure.run K next _ = _ at hdf
  rw [List.flatMap_append, dist_run_append, h.succ, Option.bind_some] at hds
  rw [List.flatMap_append, dist_run_append, h.fail, Option.bind_some] at hdf
  have rs : (new K key g1 g2).success.run K next ((ops ++ [o]).flatMap succOp) = some ds := by
    rw [List.flatMap_append, dist_run_append, h.succ, Option.bind_some, hds]
  have rf : (new K key g1 g2).failure.run K next ((ops ++ [o]).flatMap failOp) = some df := by
    rw [List.flatMap_append, dist_run_append, h.fail, Option.bind_some, hdf]
  cases o with
  | start =>
    have e1 : ds = f.success := by simpa [succOp, Dist.run] using hds.symm
    have e2 : df = f.failure := by simpa [failOp, Dist.run] using hdf.symm
    refine ⟨_, rfl, ?_⟩
    have hst : f.start.success = f.success ∧ f.start.failure = f.failure ∧
        f.start.errors = f.errors ∧ f.start.panics = f.panics ∧ f.start.key = f.key := by
      unfold start; dsimp only; split <;> exact ⟨rfl, rfl, rfl, rfl, rfl⟩
    obtain ⟨a1, a2, a3, a4, a5⟩ := hst
    refine ⟨a5.trans h.hkey, ?_, ?_, ?_, a3 ▸ h.ok, ?_⟩
    · rw [rs, e1, a1]
    · rw [rf, e2, a2]
    · rw [a4, num_snoc, h.panics]
    · intro n; rw [a3, num_snoc, h.errs]
  | reset =>
    have e1 : ds = f.success.reset K := by simpa [succOp, Dist.run, Dist.step] using hds.symm
    have e2 : df = f.failure.reset K := by simpa [failOp, Dist.run, Dist.step] using hdf.symm
    refine ⟨_, rfl, h.hkey, ?_, ?_, ?_, Map.ok_nil, ?_⟩
    · rw [rs, e1]; rfl
    · rw [rf, e2]; rfl
    · rw [num_snoc]; rfl
    · intro n; rw [num_snoc]; rfl
  | finish err p d W =>
    cases p with
    | true =>
      have e1 : ds = f.success := by cases err <;> simpa [succOp, Dist.run] using hds.symm
      have e2 : f.failure.insert K next W d = some df := by
        cases err <;> simpa [failOp, Dist.run, Dist.step] using hdf
      refine ⟨{ f with current := f.current + (-1), panics := f.panics + 1, failure := df }, ?_,
        h.hkey, ?_, rf, ?_, h.ok, ?_⟩
      · simp [step, finish, e2]
      · rw [rs, e1]
      · rw [num_snoc]
        simp [classify, Class.isPanic, h.panics, Int64.ofNat_add]
      · intro n
        rw [num_snoc]
        simp [classify, Class.named, h.errs]
    | false =>
      cases err with
      | none =>
        have e1 : f.success.insert K next W d = some ds := by
          simpa [succOp, Dist.run, Dist.step] using hds
        have e2 : df = f.failure := by simpa [failOp, Dist.run] using hdf.symm
        refine ⟨{ f with current := f.current + (-1), success := ds }, ?_, h.hkey, rs, ?_, ?_, h.ok, ?_⟩
        · simp [step, finish, e1]
        · rw [rf, e2]
        · rw [num_snoc]
          simp [classify, Class.isPanic, h.panics]
        · intro n
          rw [num_snoc]
          simp [classify, Class.named, h.errs]
      | some e =>
        have e1 : ds = f.success := by simpa [succOp, Dist.run] using hds.symm
        have e2 : f.failure.insert K next W d = some df := by
          simpa [failOp, Dist.run, Dist.step] using hdf
        refine ⟨{ f with current := f.current + (-1), failure := df, errors := bump f.errors (name e) }, ?_,
          h.hkey, ?_, rf, ?_, Map.ok_set h.ok _ _, ?_⟩
        · simp [step, finish, e2]
        · rw [rs, e1]
        · rw [num_snoc]
          simp [classify, Class.isPanic, h.panics]
        · intro n
          rw [num_snoc]
          simp only [classify, Class.named, bump_get, h.errs]
          by_cases hn : name e = n
          · subst hn
            simp only [if_true, beq_self_eq_true, Bool.toNat_true, Nat.add_eq_zero_iff,
              Nat.one_ne_zero, and_false, if_false, Int64.ofNat_add]
            by_cases hz : num (Class.named name (name e)) ops = 0
            · simp [hz]
            · simp [hz]
          · simp [hn]

theorem inv_run {K oob fused} (hK : IsIntKind K oob fused) (next : G → UInt64 × G)
    (name : E → Str) (key : Key) (g1 g2 : G) (ops : List (Op E)) (hlen : ops.length < 2 ^ 63) :
    ∃ f, (new K key g1 g2).run K next name ops = some f ∧ Inv K next name key g1 g2 ops f := by
  induction ops using List.reverseRecOn with
  | nil => exact ⟨_, rfl, inv_new K next name key g1 g2⟩
  | append_singleton ops o ih =>
    obtain ⟨f, h1, h2⟩ := ih (by simp at hlen; omega)
    obtain ⟨f', h3, h4⟩ := inv_snoc hK h2 o hlen
    refine ⟨f', ?_, h4⟩
    rw [run_append, h1, Option.bind_some]
    simp [run, h3]

end Monkit.FuncStats
