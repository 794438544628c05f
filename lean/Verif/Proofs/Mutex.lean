import Verif.Go.Mutex

namespace Go.Mutex
variable {S L Op Ret : Type}

/-- Simulation relation between the real system and the atomic object. -/
structure Sim (o : Obj S L Op Ret) (c : Config S L Op) (s : S) (p : Nat → APC Op Ret) : Prop where
  free : c.held = false → c.sh = s ∧ ∀ t op r l, c.thr t ≠ .inside op r l
  busy : c.held = true → ∃ t op r l, c.thr t = .inside op r l ∧
    (∀ t' op' r' l', c.thr t' = .inside op' r' l' → t' = t) ∧
    (let x := r.foldl (fun x f => f x) (c.sh, l)
     x.1 = s ∧ p t = .done (o.result op x.2))
  idle : ∀ t, c.thr t = .idle → p t = .idle
  waiting : ∀ t op, c.thr t = .waiting op → p t = .called op

theorem sim_init (o : Obj S L Op Ret) (s₀ : S) : Sim o (Config.init s₀) s₀ (fun _ => .idle) := by
  constructor <;> simp [Config.init]

theorem sim_step {o : Obj S L Op Ret} {s₀ : S} {tr : List (Event Op Ret)} {c c' : Config S L Op}
    {e : Option (Event Op Ret)} {s : S} {p : Nat → APC Op Ret}
    (hA : Atomic o.exec s₀ tr s p) (hs : Sim o c s p) (st : Step o c e c') :
    ∃ s' p', Atomic o.exec s₀ (tr ++ e.toList) s' p' ∧ Sim o c' s' p' := by
  cases st with
  | call t op h =>
    refine ⟨s, _, .call t op hA (hs.idle t h), ?_⟩
    constructor
    · intro hf
      obtain ⟨h1, h2⟩ := hs.free hf
      refine ⟨h1, fun t' op' r' l' => ?_⟩
      by_cases ht : t' = t
      · subst ht; simp
      · simpa [upd_other _ _ ht] using h2 t' op' r' l'
    · intro hb
      obtain ⟨t₀, op₀, r, l, h1, h2, h3⟩ := hs.busy hb
      have ht : t₀ ≠ t := by rintro rfl; rw [h] at h1; cases h1
      refine ⟨t₀, op₀, r, l, by simpa [upd_other _ _ ht] using h1, ?_, h3.1,
        by simpa [upd_other _ _ ht] using h3.2⟩
      intro t' op' r' l'
      by_cases ht' : t' = t
      · subst ht'; simp
      · simpa [upd_other _ _ ht'] using h2 t' op' r' l'
    · intro t'
      by_cases ht' : t' = t
      · subst ht'; simp
      · simpa [upd_other _ _ ht'] using hs.idle t'
    · intro t' op'
      by_cases ht' : t' = t
      · subst ht'; simp
      · simpa [upd_other _ _ ht'] using hs.waiting t' op'
  | lock t op h free =>
    obtain ⟨h1, h2⟩ := hs.free free
    refine ⟨_, _, .effect t op hA (hs.waiting t op h), ?_⟩
    constructor
    · simp
    · intro _
      refine ⟨t, op, o.body op, o.enter op, by simp, ?_, ?_⟩
      · intro t' op' r' l' h'
        by_cases ht' : t' = t
        · exact ht'
        · simp only [upd_other _ _ ht'] at h'
          exact absurd h' (h2 t' op' r' l')
      · simp [Obj.exec, h1]
    · intro t'
      by_cases ht' : t' = t
      · subst ht'; simp
      · simpa [upd_other _ _ ht'] using hs.idle t'
    · intro t' op'
      by_cases ht' : t' = t
      · subst ht'; simp
      · simpa [upd_other _ _ ht'] using hs.waiting t' op'
  | access t op f rest l h =>
    refine ⟨s, p, by simpa using hA, ?_⟩
    have hh : c.held = true := by
      cases hc : c.held
      · exact absurd h ((hs.free hc).2 _ _ _ _)
      · rfl
    obtain ⟨t₀, op₀, r, l₀, h1, h2, h3⟩ := hs.busy hh
    have ht := h2 _ _ _ _ h
    subst ht
    rw [h] at h1; cases h1
    constructor
    · simp [hh]
    · intro _
      refine ⟨t, op, rest, (f (c.sh, l)).2, by simp, ?_, ?_⟩
      · intro t' op' r' l' h'
        by_cases ht' : t' = t
        · exact ht'
        · simp only [upd_other _ _ ht'] at h'
          exact h2 _ _ _ _ h'
      · simpa using h3
    · intro t'
      by_cases ht' : t' = t
      · subst ht'; simp
      · simpa [upd_other _ _ ht'] using hs.idle t'
    · intro t' op'
      by_cases ht' : t' = t
      · subst ht'; simp
      · simpa [upd_other _ _ ht'] using hs.waiting t' op'
  | unlock t op l h =>
    have hh : c.held = true := by
      cases hc : c.held
      · exact absurd h ((hs.free hc).2 _ _ _ _)
      · rfl
    obtain ⟨t₀, op₀, r, l₀, h1, h2, h3⟩ := hs.busy hh
    have ht := h2 _ _ _ _ h
    subst ht
    rw [h] at h1; cases h1
    refine ⟨s, _, .ret t _ hA h3.2, ?_⟩
    constructor
    · intro _
      refine ⟨h3.1, fun t' op' r' l' => ?_⟩
      by_cases ht' : t' = t
      · subst ht'; simp
      · simp only [upd_other _ _ ht']
        exact fun h' => ht' (h2 _ _ _ _ h')
    · simp
    · intro t'
      by_cases ht' : t' = t
      · subst ht'; simp
      · simpa [upd_other _ _ ht'] using hs.idle t'
    · intro t' op'
      by_cases ht' : t' = t
      · subst ht'; simp
      · simpa [upd_other _ _ ht'] using hs.waiting t' op'

theorem simulation {o : Obj S L Op Ret} {s₀ : S} {tr : List (Event Op Ret)} {c : Config S L Op}
    (h : Exec o s₀ tr c) : ∃ s p, Atomic o.exec s₀ tr s p ∧ Sim o c s p := by
  induction h with
  | start => exact ⟨_, _, .start, sim_init o s₀⟩
  | step e h st ih =>
    obtain ⟨s, p, hA, hs⟩ := ih
    exact sim_step hA hs st

/-- Progress: if some goroutine is inside a call, some goroutine already inside a call can move. -/
theorem progress {o : Obj S L Op Ret} {s₀ : S} {tr : List (Event Op Ret)} {c : Config S L Op}
    (h : Exec o s₀ tr c) (hb : ∃ t, c.thr t ≠ .idle) :
    ∃ e c', Step o c e c' ∧ ∀ t op, e ≠ some (.call t op) := by
  obtain ⟨s, p, _, hs⟩ := simulation h
  cases hh : c.held
  · obtain ⟨t, ht⟩ := hb
    cases hc : c.thr t with
    | idle => exact absurd hc ht
    | waiting op => exact ⟨_, _, .lock c t op hc hh, by simp⟩
    | inside op r l => exact absurd hc ((hs.free hh).2 _ _ _ _)
  · obtain ⟨t, op, r, l, h1, _⟩ := hs.busy hh
    cases r with
    | nil => exact ⟨_, _, .unlock c t op l h1, by simp⟩
    | cons f rest => exact ⟨_, _, .access c t op f rest l h1, by simp⟩

theorem seqRun_append (exec : S → Op → S × Ret) (s : S) (a b : List Op) :
    seqRun exec s (a ++ b) =
      ((seqRun exec (seqRun exec s a).1 b).1,
       (seqRun exec s a).2 ++ (seqRun exec (seqRun exec s a).1 b).2) := by
  induction a generalizing s with
  | nil => simp [seqRun]
  | cons o os ih => simp [seqRun, ih]

/-- The calls of `lin` made by goroutine `t`. -/
def sub (t : Nat) (lin : List (Nat × Op × Ret)) : List (Op × Ret) :=
  lin.filterMap fun x => if x.1 = t then some x.2 else none

theorem sub_snoc (t : Nat) (lin : List (Nat × Op × Ret)) (x : Nat × Op × Ret) :
    sub t (lin ++ [x]) = sub t lin ++ (if x.1 = t then [x.2] else []) := by
  simp only [sub, List.filterMap_append, List.filterMap_cons, List.filterMap_nil]
  split <;> simp_all

theorem atomic_lin {exec : S → Op → S × Ret} {s₀ : S} {tr : List (Event Op Ret)} {s : S}
    {p : Nat → APC Op Ret} (hA : Atomic exec s₀ tr s p) :
    ∃ lin : List (Nat × Op × Ret),
      seqRun exec s₀ (lin.map (·.2.1)) = (s, lin.map (·.2.2)) ∧
      ∀ t, match p t with
        | .idle => callsOf t tr = (sub t lin).map (·.1) ∧ retsOf t tr = (sub t lin).map (·.2)
        | .called op => callsOf t tr = (sub t lin).map (·.1) ++ [op] ∧
            retsOf t tr = (sub t lin).map (·.2)
        | .done r => callsOf t tr = (sub t lin).map (·.1) ∧
            retsOf t tr ++ [r] = (sub t lin).map (·.2) := by
  induction hA with
  | start => exact ⟨[], rfl, fun t => by simp [callsOf, retsOf, sub]⟩
  | @call tr s p t op h hp ih =>
    obtain ⟨lin, h1, h2⟩ := ih
    refine ⟨lin, h1, fun t' => ?_⟩
    have := h2 t'
    by_cases ht : t' = t
    · subst ht
      simp only [hp] at this
      simp [callsOf, retsOf] at this ⊢
      exact this
    · have ht' : ¬ t = t' := fun h => ht h.symm
      simp only [upd_other _ _ ht]
      simp only [callsOf, retsOf, List.filterMap_append, List.filterMap_cons, ht', if_false,
        List.filterMap_nil, List.append_nil] at this ⊢
      exact this
  | @effect tr s p t op h hp ih =>
    obtain ⟨lin, h1, h2⟩ := ih
    refine ⟨lin ++ [(t, op, (exec s op).2)], ?_, fun t' => ?_⟩
    · simp [seqRun_append, h1, seqRun]
    have := h2 t'
    by_cases ht : t' = t
    · subst ht
      simp only [hp] at this
      simp [callsOf, retsOf, sub_snoc] at this ⊢
      exact this
    · have ht' : ¬ t = t' := fun h => ht h.symm
      simp only [upd_other _ _ ht]
      simp only [callsOf, retsOf, List.filterMap_append, List.filterMap_cons, ht', if_false,
        List.filterMap_nil, List.append_nil, sub_snoc] at this ⊢
      exact this
  | @ret tr s p t r h hp ih =>
    obtain ⟨lin, h1, h2⟩ := ih
    refine ⟨lin, h1, fun t' => ?_⟩
    have := h2 t'
    by_cases ht : t' = t
    · subst ht
      simp only [hp] at this
      simp [callsOf, retsOf] at this ⊢
      exact this
    · have ht' : ¬ t = t' := fun h => ht h.symm
      simp only [upd_other _ _ ht]
      simp only [callsOf, retsOf, List.filterMap_append, List.filterMap_cons, ht', if_false,
        List.filterMap_nil, List.append_nil] at this ⊢
      exact this

/-- A list of calls that has, for every goroutine, as many entries as the trace has calls is no
longer than the trace. -/
theorem lin_length_le (lin : List (Nat × Op × Ret)) (tr : List (Event Op Ret))
    (hh : ∀ t, (callsOf t tr).length = (lin.filter (·.1 = t)).length) : lin.length ≤ tr.length := by
  induction tr generalizing lin with
  | nil =>
    cases lin with
    | nil => simp
    | cons x xs => have := hh x.1; simp [callsOf] at this
  | cons e es ih =>
    cases e with
    | call t op =>
      obtain ⟨x, hx, hxt⟩ : ∃ x ∈ lin, x.1 = t := by
        have := hh t
        simp only [callsOf, List.filterMap_cons, if_true, List.length_cons] at this
        have hpos : 0 < (lin.filter (·.1 = t)).length := by omega
        obtain ⟨x, hx⟩ := List.length_pos_iff_exists_mem.mp hpos
        simp at hx
        exact ⟨x, hx.1, hx.2⟩
      obtain ⟨l1, l2, rfl⟩ := List.append_of_mem hx
      have := ih (l1 ++ l2) (by
        intro t'
        have := hh t'
        by_cases htt : t = t'
        · subst htt
          simp only [callsOf, List.filterMap_cons, if_true, List.length_cons,
            List.filter_append, List.filter_cons, hxt, decide_true, List.length_append] at this
          simp only [callsOf, List.filter_append, List.length_append]
          omega
        · have hd : decide (x.1 = t') = false := by simp [hxt, htt]
          simp only [callsOf, List.filterMap_cons, if_neg htt,
            List.filter_append, List.filter_cons, hd, List.length_append,
            Bool.false_eq_true, if_false] at this
          simp only [callsOf, List.filter_append, List.length_append]
          exact this)
      simp only [List.length_append, List.length_cons] at this ⊢
      omega
    | acquire t =>
      have := ih lin (fun t' => by have := hh t'; simpa [callsOf] using this)
      simp only [List.length_cons]; omega
    | ret t r =>
      have := ih lin (fun t' => by have := hh t'; simpa [callsOf] using this)
      simp only [List.length_cons]; omega

end Go.Mutex
