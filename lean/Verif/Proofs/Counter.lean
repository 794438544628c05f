import Verif.Spec.Counter

namespace Monkit.Counter
open Monkit.Spec

theorem counterValue_snoc (ops : List Op) (o : Op) :
    counterValue (ops ++ [o]) = (match o with
      | .set v => v.toInt
      | .inc d => wrap (counterValue ops + d.toInt)
      | .dec d => wrap (counterValue ops - d.toInt)
      | .reset => 0
      | _ => counterValue ops) := by
  cases o <;> simp [counterValue]

theorem took_snoc_update {ops : List Op} {o : Op} (h : isUpdate o = true) (v : Int) :
    tookSinceReset (ops ++ [o]) v ↔ v = counterValue (ops ++ [o]) ∨ tookSinceReset ops v := by
  constructor
  · rintro ⟨pre, u, post, he, hu, hr, hv⟩
    rcases List.eq_nil_or_concat post with rfl | ⟨post', o', rfl⟩
    · left
      rw [he]; simpa using hv
    · right
      have he' : ops ++ [o] = (pre ++ u :: post') ++ [o'] := by simp [he]
      obtain ⟨h1, h2⟩ := List.append_inj' he' rfl
      refine ⟨pre, u, post', h1, hu, ?_, hv⟩
      simp at hr; simp [hr.1]
  · rintro (rfl | ⟨pre, u, post, rfl, hu, hr, hv⟩)
    · exact ⟨ops, o, [], rfl, h, by simp, rfl⟩
    · refine ⟨pre, u, post ++ [o], by simp, hu, ?_, hv⟩
      simp only [List.mem_append, List.mem_singleton, not_or]
      refine ⟨hr, ?_⟩
      rintro rfl; simp [isUpdate] at h

theorem took_snoc_reset {ops : List Op} (v : Int) : ¬ tookSinceReset (ops ++ [Op.reset]) v := by
  rintro ⟨pre, u, post, he, hu, hr, hv⟩
  rcases List.eq_nil_or_concat post with rfl | ⟨post', o', rfl⟩
  · have := List.append_inj' he rfl
    simp at this; rw [← this.2] at hu; simp [isUpdate] at hu
  · have he' : ops ++ [Op.reset] = (pre ++ u :: post') ++ [o'] := by simp [he]
    obtain ⟨h1, h2⟩ := List.append_inj' he' rfl
    simp at h2 hr; exact hr.2 h2

theorem took_snoc_read {ops : List Op} {o : Op} (h : isUpdate o = false) (h' : o ≠ .reset)
    (v : Int) : tookSinceReset (ops ++ [o]) v ↔ tookSinceReset ops v := by
  constructor
  · rintro ⟨pre, u, post, he, hu, hr, hv⟩
    rcases List.eq_nil_or_concat post with rfl | ⟨post', o', rfl⟩
    · have := List.append_inj' he rfl
      simp at this; rw [← this.2, h] at hu; cases hu
    · have he' : ops ++ [o] = (pre ++ u :: post') ++ [o'] := by simp [he]
      obtain ⟨h1, h2⟩ := List.append_inj' he' rfl
      refine ⟨pre, u, post', h1, hu, ?_, hv⟩
      simp at hr; simp [hr.1]
  · rintro ⟨pre, u, post, rfl, hu, hr, hv⟩
    refine ⟨pre, u, post ++ [o], by simp, hu, ?_, hv⟩
    simp [hr, Ne.symm h']

/-- The invariant relating a counter to the history that produced it. -/
structure Inv (k : Key) (ops : List Op) (c : Counter) : Prop where
  key : c.key = k
  val : c.val.toInt = counterValue ops
  empty : c.nonempty = false → c.val = 0 ∧ c.low = 0 ∧ c.high = 0 ∧ ∀ v, ¬ tookSinceReset ops v
  full : c.nonempty = true →
    tookSinceReset ops c.val.toInt ∧
    tookSinceReset ops c.low.toInt ∧ tookSinceReset ops c.high.toInt ∧
    ∀ v, tookSinceReset ops v → c.low.toInt ≤ v ∧ v ≤ c.high.toInt

theorem inv_new (k : Key) : Inv k [] (new k) := by
  refine ⟨rfl, by simp [new, counterValue], ?_, by simp [new]⟩
  intro _
  refine ⟨rfl, rfl, rfl, ?_⟩
  rintro v ⟨pre, u, post, he, _⟩
  simp at he

theorem inv_set {k ops c} (h : Inv k ops c) (o : Op) (x : Int64) (hu : isUpdate o = true)
    (hx : x.toInt = counterValue (ops ++ [o])) : Inv k (ops ++ [o]) (c.set x) := by
  have ht := took_snoc_update (ops := ops) hu
  cases hne : c.nonempty with
  | false =>
    have h0 := (h.empty hne).2.2.2
    have hs : c.set x = { c with val := x, low := x, high := x, nonempty := true } := by
      simp [set, hne]
    rw [hs]
    refine ⟨h.key, hx, by simp, fun _ => ?_⟩
    simp only [ht, ← hx, h0, or_false, true_and]
    rintro v rfl; exact ⟨Int.le_refl _, Int.le_refl _⟩
  | true =>
    obtain ⟨hv, hl, hh, hb⟩ := h.full hne
    have hs : c.set x = { c with
        val := x, low := if x < c.low then x else c.low,
        high := if c.high < x then x else c.high, nonempty := true } := by
      simp only [set, hne]
      by_cases h1 : x < c.low <;> by_cases h2 : c.high < x <;> simp [h1, h2]
    rw [hs]
    refine ⟨h.key, hx, by simp, fun _ => ?_⟩
    simp only [ht, ← hx]
    have hlh := (hb _ hl).2
    refine ⟨Or.inl trivial, ?_, ?_, ?_⟩
    · split
      · exact Or.inl rfl
      · exact Or.inr hl
    · split
      · exact Or.inl rfl
      · exact Or.inr hh
    · rintro v (rfl | hv)
      · constructor
        · split
          · exact Int.le_refl _
          · next hn => rw [Int64.lt_iff_toInt_lt] at hn; omega
        · split
          · exact Int.le_refl _
          · next hn => rw [Int64.lt_iff_toInt_lt] at hn; omega
      · have := hb v hv
        constructor
        · split
          · next hn => rw [Int64.lt_iff_toInt_lt] at hn; omega
          · omega
        · split
          · next hn => rw [Int64.lt_iff_toInt_lt] at hn; omega
          · omega

theorem inv_reset {k ops c} (h : Inv k ops c) : Inv k (ops ++ [Op.reset]) c.Reset.1 := by
  refine ⟨h.key, ?_, ?_, ?_⟩
  · rw [counterValue_snoc]; rfl
  · intro _; exact ⟨rfl, rfl, rfl, took_snoc_reset⟩
  · simp [Reset]

theorem inv_read {k ops c} (h : Inv k ops c) (o : Op) (h1 : isUpdate o = false)
    (h2 : o ≠ .reset) : Inv k (ops ++ [o]) c := by
  have ht := took_snoc_read (ops := ops) h1 h2
  refine ⟨h.key, ?_, ?_, ?_⟩
  · rw [counterValue_snoc, h.val]
    cases o <;> simp_all [isUpdate]
  · simpa only [ht] using h.empty
  · simpa only [ht] using h.full

theorem inv_step {k ops c} (h : Inv k ops c) (o : Op) : Inv k (ops ++ [o]) (c.step o).1 := by
  cases o with
  | set v => exact inv_set h _ _ rfl (by rw [counterValue_snoc])
  | inc d =>
    refine inv_set h _ _ rfl ?_
    rw [counterValue_snoc, Int64.toInt_add, h.val]; rfl
  | dec d =>
    refine inv_set h _ _ rfl ?_
    rw [counterValue_snoc]
    simp only [wrap]
    rw [← h.val, Int64.toInt_add, Int64.toInt_neg, Int.add_bmod_bmod, Int.sub_eq_add_neg]
  | reset => exact inv_reset h
  | high => exact inv_read h _ rfl (by simp)
  | low => exact inv_read h _ rfl (by simp)
  | current => exact inv_read h _ rfl (by simp)
  | stats => exact inv_read h _ rfl (by simp)

theorem run_append (c : Counter) (a b : List Op) :
    (c.run (a ++ b)).1 = ((c.run a).1.run b).1 := by
  induction a generalizing c with
  | nil => rfl
  | cons o os ih => simp [run, ih]

theorem inv_run_from {k ops c} (h : Inv k ops c) (os : List Op) :
    Inv k (ops ++ os) (c.run os).1 := by
  induction os generalizing ops c with
  | nil => simpa [run] using h
  | cons o os ih =>
    have := ih (inv_step h o)
    simpa [run] using this

theorem inv_run (k : Key) (ops : List Op) : Inv k ops ((new k).run ops).1 := by
  simpa using inv_run_from (inv_new k) ops

end Monkit.Counter
