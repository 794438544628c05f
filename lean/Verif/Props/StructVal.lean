import Verif.Model.StructVal
import Verif.Props.Struct
import Verif.Props.Val

/-!
# C84: a StructVal reports the most recent struct
-/

namespace Monkit.StructVal
open Go.Mutex Go Monkit.Struct Monkit.Struct.Spec

/-- The value observed last. -/
def latest (ops : List Op) : Option Struct.Val :=
  ops.foldl (fun m o => match o with | .observe v => v | .stats => m) none

theorem seqRun_latest (key : Key) (ops : List Op) (s : Option Struct.Val) :
    (seqRun (obj key).exec s ops).1 = ops.foldl (fun m o => match o with | .observe v => v | .stats => m) s := by
  induction ops generalizing s with
  | nil => rfl
  | cons o os ih => cases o <;> exact ih _

/-- **C84.** Any number of goroutines observing structs and reporting, in any schedule, ending with no call in progress: there is one order of all
calls, agreeing with each goroutine's own, such that every report is about the value observed last before it: nothing if there is none yet; if it is a
struct, or pointers to one, without nil pointers, then exactly its numbers, named by the paths of the fields, under the key of the StructVal. -/
theorem C84_latest (key : Key) (tr : List (Event Op Res)) (c : Config (Option Struct.Val) (Option Struct.Val) Op)
    (h : Exec (obj key) none tr c) (quiet : ∀ t, c.thr t = .idle) :
    ∃ lin : List (Nat × Op × Res),
      (∀ t, callsOf t tr = (lin.filter (·.1 = t)).map (·.2.1) ∧ retsOf t tr = (lin.filter (·.1 = t)).map (·.2.2)) ∧
      ∀ pre t res post, lin = pre ++ (t, .stats, res) :: post →
        (latest (pre.map (·.2.1)) = none → res = .report (some [])) ∧
        (∀ v fs, latest (pre.map (·.2.1)) = some v → Follows v (.struct fs) → Clean v →
          ∃ l, Struct.Spec.Shows fs l ∧ (∀ l', Struct.Spec.Shows fs l' → l' = l) ∧ res = .report (some (l.map fun x => (key, dotted x.1, x.2)))) ∧
        ∀ v w, latest (pre.map (·.2.1)) = some v → Follows v w → (∀ fs, w ≠ .struct fs) → res = .report (some []) := by
  obtain ⟨lin, h1, h2⟩ := C03_no_lost_update _ _ tr c h quiet
  refine ⟨lin, h2, fun pre t res post hl => ?_⟩
  have hr := Val.seqRun_split (obj key).exec pre (t, .stats, res) post none (by rw [← hl, h1])
  rw [seqRun_latest] at hr
  change res = ((obj key).exec (latest (pre.map (·.2.1))) .stats).2 at hr
  refine ⟨fun e => ?_, fun v fs e hf hc => ?_, fun v w e hf hw => ?_⟩
  · rw [e] at hr; exact hr
  · rw [e] at hr
    obtain ⟨l, s1, s2, s3⟩ := C47_reports_partial v fs hf hc
    refine ⟨l, s1, s2, ?_⟩
    change res = .report ((Struct.stats v).map (·.map fun x => (key, x.1, x.2))) at hr
    rw [hr, s3]
    simp [Function.comp_def]
  · rw [e] at hr
    change res = .report ((Struct.stats v).map (·.map fun x => (key, x.1, x.2))) at hr
    rw [hr, C47_not_struct v w hf hw]; rfl

/-- The hypotheses are met, and reports differ before and after an observation. -/
example : ∃ tr c, Exec (obj ⟨b!"s", []⟩) none tr c ∧ (∀ t, c.thr t = .idle) ∧
    tr.length = 9 ∧ callsOf 1 tr = [.stats, .stats] ∧ callsOf 0 tr = [.observe (some exampleStruct)] := by
  have e := Exec.start (o := obj ⟨b!"s", []⟩) (s₀ := none)
  have e := Exec.step _ e (.call _ 1 .stats rfl)
  have e := Exec.step _ e (.lock _ 1 _ rfl rfl)
  have e := Exec.step _ e (.call _ 0 (.observe (some exampleStruct)) rfl)
  have e := Exec.step _ e (.access _ 1 _ _ _ _ rfl)
  have e := Exec.step _ e (.unlock _ 1 _ _ rfl)
  have e := Exec.step _ e (.lock _ 0 _ rfl rfl)
  have e := Exec.step _ e (.access _ 0 _ _ _ _ rfl)
  have e := Exec.step _ e (.unlock _ 0 _ _ rfl)
  have e := Exec.step _ e (.call _ 1 .stats rfl)
  have e := Exec.step _ e (.lock _ 1 _ rfl rfl)
  have e := Exec.step _ e (.access _ 1 _ _ _ _ rfl)
  have e := Exec.step _ e (.unlock _ 1 _ _ rfl)
  refine ⟨_, _, e, ?_, rfl, rfl, rfl⟩
  intro t
  by_cases h0 : t = 0 <;> by_cases h1 : t = 1 <;> simp [upd, Config.init, *]

end Monkit.StructVal
