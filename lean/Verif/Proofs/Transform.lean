import Verif.Model.Transform

namespace Monkit.Transform
open Go

variable {σ V : Type}

structure Inv (s : State σ V) : Prop where
  rok : ∀ r ∈ s.regs, r.Ok s.heap
  uok : ∀ u ∈ s.user, u.Ok s.heap
  apart : ∀ r ∈ s.regs, ∀ u ∈ s.user, 0 < r.cap → 0 < u.cap → r.arr ≠ u.arr

/-- What a change of the heap must not touch. -/
theorem read_eq {h h' : Arrays (Tr σ V)} {s : Slice} (hs : s.Ok h) (ha : 0 < s.cap → h'.array s.arr = h.array s.arr) :
    s.read h' = s.read h := by
  by_cases h0 : 0 < s.cap
  · unfold Slice.read; rw [ha h0]
  · have : s.len = 0 := by have := hs.1; omega
    unfold Slice.read; simp [this]

theorem ok_eq {h h' : Arrays (Tr σ V)} {s : Slice} (hs : s.Ok h) (hl : h.length ≤ h'.length)
    (ha : 0 < s.cap → (h'.array s.arr).length = (h.array s.arr).length) : s.Ok h' :=
  ⟨hs.1, fun h0 => ⟨Nat.lt_of_lt_of_le (hs.2 h0).1 hl, (ha h0).trans (hs.2 h0).2⟩⟩

/-- The heap and slice of a `WithTransformers`. -/
theorem with_facts (nil : Tr σ V) (s : State σ V) (rs us : Slice) (hr : rs.Ok s.heap) (hu : us.Ok s.heap) (g1 g2 : Nat) :
    let a := s.heap.append nil .nil (rs.read s.heap) g1
    let b := a.1.append nil a.2 (us.read a.1) g2
    b.2.read b.1 = rs.read s.heap ++ us.read s.heap ∧ b.2.Ok b.1 ∧ (0 < b.2.cap → s.heap.length ≤ b.2.arr) ∧
      s.heap.length ≤ b.1.length ∧ ∀ i, i < s.heap.length → b.1.array i = s.heap.array i := by
  intro a b
  have nok : Slice.nil.Ok s.heap := ⟨Nat.le_refl _, fun h => absurd h (by decide)⟩
  obtain ⟨r1, o1⟩ := Arrays.read_append (zero := nil) s.heap .nil nok (rs.read s.heap) g1
  have fr := fun i hi => Arrays.append_array (zero := nil) s.heap .nil (rs.read s.heap) g1 i hi (Or.inr rfl) nok
  have wh := Arrays.append_arr (zero := nil) s.heap .nil (rs.read s.heap) g1
  change a.2.read a.1 = _ at r1
  change a.2.Ok a.1 at o1
  change ∀ i, i < _ → a.1.array i = s.heap.array i ∧ s.heap.length ≤ a.1.length at fr
  change a.2.arr = 0 ∧ a.2.cap = 0 ∨ a.2.arr = s.heap.length at wh
  have al : s.heap.length ≤ a.1.length := Arrays.length_append (zero := nil) s.heap .nil (rs.read s.heap) g1
  have ue : us.read a.1 = us.read s.heap := read_eq hu (fun h0 => (fr _ (hu.2 h0).1).1)
  obtain ⟨r2, o2⟩ := Arrays.read_append (zero := nil) a.1 a.2 o1 (us.read a.1) g2
  change b.2.read b.1 = _ at r2
  change b.2.Ok b.1 at o2
  have wh2 := Arrays.append_arr (zero := nil) a.1 a.2 (us.read a.1) g2
  change b.2.arr = a.2.arr ∧ b.2.cap = a.2.cap ∨ b.2.arr = a.1.length at wh2
  have bl : a.1.length ≤ b.1.length := Arrays.length_append (zero := nil) a.1 a.2 (us.read a.1) g2
  refine ⟨?_, o2, ?_, Nat.le_trans al bl, ?_⟩
  · rw [r2, r1, ue]
    have : Slice.nil.read s.heap = [] := by simp [Slice.read, Slice.nil]
    rw [this, List.nil_append]
  · intro h0
    rcases wh2 with ⟨e1, e2⟩ | e1
    · rcases wh with ⟨e3, e4⟩ | e3
      · omega
      · omega
    · omega
  · intro i hi
    have hia : i < a.1.length := Nat.lt_of_lt_of_le hi al
    have := Arrays.append_array (zero := nil) a.1 a.2 (us.read a.1) g2 i hia
      (by rcases wh with ⟨_, e⟩ | e
          · exact Or.inr e
          · exact Or.inl (by omega)) o1
    exact this.1.trans (fr i hi).1

theorem inv_init : Inv (State.init : State σ V) := by
  constructor
  · intro r hr
    simp [State.init] at hr
    subst hr
    exact ⟨Nat.le_refl _, fun h => absurd h (by decide)⟩
  · intro u hu; simp [State.init] at hu
  · intro r _ u hu; simp [State.init] at hu

theorem getMem {α : Type} {l : List α} {i : Nat} {x : α} (h : l[i]? = some x) : x ∈ l := List.mem_of_getElem? h

/-- A step keeps the invariant and what every registry has. -/
theorem step_facts (nil : Tr σ V) {s : State σ V} (hi : Inv s) (op : Op σ V) :
    Inv (step nil s op) ∧ s.regs <+: (step nil s op).regs ∧ ∀ r ∈ s.regs, r.read (step nil s op).heap = r.read s.heap := by
  obtain ⟨i1, i2, i3⟩ := hi
  cases op with
  | «with» r u g1 g2 =>
    simp only [step]
    cases hr : s.regs[r]? with
    | none => exact ⟨⟨i1, i2, i3⟩, List.prefix_refl _, fun _ _ => rfl⟩
    | some rs =>
      cases hu : s.user[u]? with
      | none => exact ⟨⟨i1, i2, i3⟩, List.prefix_refl _, fun _ _ => rfl⟩
      | some us =>
        obtain ⟨f1, f2, f3, f4, f5⟩ := with_facts nil s rs us (i1 rs (getMem hr)) (i2 us (getMem hu)) g1 g2
        simp only
        refine ⟨⟨?_, ?_, ?_⟩, List.prefix_append _ _, ?_⟩
        · intro x hx
          rw [List.mem_append, List.mem_singleton] at hx
          rcases hx with hx | hx
          · exact ok_eq (i1 x hx) f4 (fun h0 => by rw [f5 _ ((i1 x hx).2 h0).1])
          · rw [hx]; exact f2
        · intro x hx
          exact ok_eq (i2 x hx) f4 (fun h0 => by rw [f5 _ ((i2 x hx).2 h0).1])
        · intro x hx y hy hx0 hy0
          rw [List.mem_append, List.mem_singleton] at hx
          rcases hx with hx | hx
          · exact i3 x hx y hy hx0 hy0
          · rw [hx] at hx0 ⊢
            have h1 := f3 hx0
            have h2 := ((i2 y hy).2 hy0).1
            omega
        · intro x hx
          exact read_eq (i1 x hx) (fun h0 => f5 _ ((i1 x hx).2 h0).1)
  | alloc ts extra =>
    simp only [step, Arrays.alloc]
    have arr : ∀ i, i < s.heap.length → Arrays.array (s.heap ++ [ts ++ List.replicate extra nil]) i = s.heap.array i := by
      intro i hi
      rw [Arrays.array_append, if_neg (by omega)]
    have hl : s.heap.length ≤ (s.heap ++ [ts ++ List.replicate extra nil]).length := by simp
    refine ⟨⟨?_, ?_, ?_⟩, List.prefix_refl _, ?_⟩
    · intro x hx
      exact ok_eq (i1 x hx) hl (fun h0 => by rw [arr _ ((i1 x hx).2 h0).1])
    · intro x hx
      rw [List.mem_append, List.mem_singleton] at hx
      rcases hx with hx | hx
      · exact ok_eq (i2 x hx) hl (fun h0 => by rw [arr _ ((i2 x hx).2 h0).1])
      · subst hx
        refine ⟨by simp, fun _ => ⟨by simp, ?_⟩⟩
        simp only
        rw [Arrays.array_append, if_pos rfl]
        simp
    · intro x hx y hy hx0 hy0
      rw [List.mem_append, List.mem_singleton] at hy
      rcases hy with hy | hy
      · exact i3 x hx y hy hx0 hy0
      · subst hy
        have := ((i1 x hx).2 hx0).1
        simp only
        omega
    · intro x hx
      exact read_eq (i1 x hx) (fun h0 => arr _ ((i1 x hx).2 h0).1)
  | write u i t =>
    simp only [step]
    cases hu : s.user[u]? with
    | none => exact ⟨⟨i1, i2, i3⟩, List.prefix_refl _, fun _ _ => rfl⟩
    | some us =>
      simp only
      split
      · rename_i hlt
        have uo := i2 us (getMem hu)
        have h0 : 0 < us.cap := by have := uo.1; omega
        obtain ⟨ha, hc⟩ := uo.2 h0
        have arr : ∀ j, (s.heap.write us.arr i [t]).array j = if us.arr = j then
            (s.heap.array us.arr).take i ++ [t] ++ (s.heap.array us.arr).drop (i + [t].length) else s.heap.array j := by
          intro j
          unfold Arrays.write
          exact Arrays.array_set _ _ _ _ ha
        have hl : s.heap.length ≤ (s.heap.write us.arr i [t]).length := by simp [Arrays.write]
        have same : ∀ j, ((s.heap.write us.arr i [t]).array j).length = (s.heap.array j).length := by
          intro j
          rw [arr]
          split
          · rename_i e; subst e
            have := uo.1
            simp only [List.length_append, List.length_take, List.length_drop, List.length_singleton, hc]
            omega
          · rfl
        refine ⟨⟨?_, ?_, i3⟩, List.prefix_refl _, ?_⟩
        · intro x hx; exact ok_eq (i1 x hx) hl (fun _ => same _)
        · intro x hx; exact ok_eq (i2 x hx) hl (fun _ => same _)
        · intro x hx
          refine read_eq (i1 x hx) (fun hx0 => ?_)
          rw [arr, if_neg (fun e => i3 x hx us (getMem hu) hx0 h0 e.symm)]
      · exact ⟨⟨i1, i2, i3⟩, List.prefix_refl _, fun _ _ => rfl⟩
  | append u ts g =>
    simp only [step]
    cases hu : s.user[u]? with
    | none => exact ⟨⟨i1, i2, i3⟩, List.prefix_refl _, fun _ _ => rfl⟩
    | some us =>
      have uo := i2 us (getMem hu)
      simp only
      have hr := Arrays.read_append (zero := nil) s.heap us uo ts g
      have hw := Arrays.append_arr (zero := nil) s.heap us ts g
      have arr := fun i hi hne => Arrays.append_array (zero := nil) s.heap us ts g i hi hne uo
      have hl : s.heap.length ≤ (s.heap.append nil us ts g).1.length := Arrays.length_append s.heap us ts g
      have same : ∀ j, j < s.heap.length → ((s.heap.append nil us ts g).1.array j).length = (s.heap.array j).length := by
        intro j hj
        by_cases hne : j ≠ us.arr ∨ us.cap = 0
        · rw [(arr j hj hne).1]
        · have e1 : j = us.arr := by omega
          have e2 : 0 < us.cap := by omega
          unfold Arrays.append
          split
          · rename_i hc
            unfold Arrays.write
            simp only
            rw [Arrays.array_set _ _ _ _ (uo.2 e2).1, if_pos e1.symm]
            have h3 := (uo.2 e2).2
            rw [e1]
            simp only [List.length_append, List.length_take, List.length_drop, h3]
            omega
          · unfold Arrays.alloc
            simp only
            rw [Arrays.array_append, if_neg (by omega)]
      refine ⟨⟨?_, ?_, ?_⟩, List.prefix_refl _, ?_⟩
      · intro x hx; exact ok_eq (i1 x hx) hl (fun h0 => same _ ((i1 x hx).2 h0).1)
      · intro x hx
        rw [List.mem_append, List.mem_singleton] at hx
        rcases hx with hx | hx
        · exact ok_eq (i2 x hx) hl (fun h0 => same _ ((i2 x hx).2 h0).1)
        · rw [hx]; exact hr.2
      · intro x hx y hy hx0 hy0
        rw [List.mem_append, List.mem_singleton] at hy
        rcases hy with hy | hy
        · exact i3 x hx y hy hx0 hy0
        · rw [hy] at hy0 ⊢
          have hx1 := ((i1 x hx).2 hx0).1
          rcases hw with ⟨e1, e2⟩ | e1
          · rw [e1]; exact i3 x hx us (getMem hu) hx0 (e2 ▸ hy0)
          · omega
      · intro x hx
        refine read_eq (i1 x hx) (fun hx0 => ?_)
        refine (arr _ ((i1 x hx).2 hx0).1 ?_).1
        by_cases h0 : us.cap = 0
        · exact Or.inr h0
        · exact Or.inl (i3 x hx us (getMem hu) hx0 (by omega))

theorem run_snoc (nil : Tr σ V) (ops : List (Op σ V)) (op : Op σ V) : run nil (ops ++ [op]) = step nil (run nil ops) op := by
  unfold run; rw [List.foldl_append]; rfl

theorem inv_run (nil : Tr σ V) (ops : List (Op σ V)) : Inv (run nil ops) := by
  generalize hn : ops.length = n
  induction n generalizing ops with
  | zero => rw [List.length_eq_zero_iff.1 hn]; exact inv_init
  | succ n ih =>
    rcases List.eq_nil_or_concat ops with rfl | ⟨ops', op, rfl⟩
    · simp at hn
    · rw [List.concat_eq_append] at hn ⊢
      rw [run_snoc]
      exact (step_facts nil (ih ops' (by simpa using hn)) op).1

end Monkit.Transform
