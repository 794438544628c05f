import Verif.Spec.BoolVal

namespace Monkit.BoolVal
open Go Monkit.Spec.BoolVal

def cnt (v : Bool) (s : State) : Int64 := if v then s.trues else s.falses

def isAdd (v : Bool) : PC → Bool
  | .add w => w == v
  | _ => false

def isStore (v : Bool) : PC → Bool
  | .store w => w == v
  | .ret w => w == v
  | _ => false

/-- The three numbers behind a counter. -/
def Counts (v : Bool) (tr : List Event) (s : State) : Prop :=
  ∃ a n1 n2, cnt v s = Int64.ofNat a ∧ Census s.thr (isAdd v) n1 ∧ Census s.thr (isStore v) n2 ∧
    begun v tr = a + n1 ∧ a = finished v tr + n2

/-- `n` is a legitimate count of `v` for a report asked for after `pre`. -/
def Between (v : Bool) (pre tr : List Event) (x : Int64) : Prop :=
  ∃ n, x = Int64.ofNat n ∧ finished v pre ≤ n ∧ n ≤ begun v tr

/-- `p` is a prefix of `tr` containing `pre`. -/
def RecentOk (pre tr : List Event) (r : Int32) : Prop :=
  ∃ a b, tr = pre ++ a ++ b ∧ r = lastStored (pre ++ a)

def Asked (t : Nat) (pre mid tr : List Event) : Prop :=
  tr = pre ++ Event.ask t :: mid ∧ ∀ e ∈ mid, who e ≠ t

def StatsInv (tr : List Event) (t : Nat) : PC → Prop
  | .ld1 => ∃ pre mid, Asked t pre mid tr
  | .ld2 a => ∃ pre mid, Asked t pre mid tr ∧ Between true pre tr a
  | .ld3 a b => ∃ pre mid, Asked t pre mid tr ∧ Between true pre tr a ∧ Between false pre tr b
  | .rep a b r => ∃ pre mid, Asked t pre mid tr ∧ Between true pre tr a ∧ Between false pre tr b ∧
      RecentOk pre tr r
  | _ => True

structure Inv (tr : List Event) (s : State) : Prop where
  counts : ∀ v, Counts v tr s
  recent : s.recent = lastStored tr
  stats : ∀ t, StatsInv tr t (s.thr t)

theorem inv_init : Inv [] init := by
  refine ⟨fun v => ⟨0, 0, 0, ?_, census_zero (fun _ => rfl), census_zero (fun _ => rfl), rfl, rfl⟩,
    rfl, fun t => trivial⟩
  cases v <;> rfl

theorem begun_append (v : Bool) (a b : List Event) : begun v (a ++ b) = begun v a + begun v b := by
  simp [begun]

theorem finished_append (v : Bool) (a b : List Event) :
    finished v (a ++ b) = finished v a + finished v b := by
  simp [finished]

/-- Events of other goroutines keep a pending report's bounds. -/
theorem statsInv_mono {tr : List Event} {t : Nat} {pc : PC} (h : StatsInv tr t pc) (l : List Event)
    (hw : ∀ e ∈ l, who e ≠ t) : StatsInv (tr ++ l) t pc := by
  have hA : ∀ pre mid, Asked t pre mid tr → Asked t pre (mid ++ l) (tr ++ l) := by
    rintro pre mid ⟨h1, h2⟩
    refine ⟨by simp [h1], fun e he => ?_⟩
    rcases List.mem_append.mp he with he | he
    · exact h2 e he
    · exact hw e he
  have hB : ∀ v pre x, Between v pre tr x → Between v pre (tr ++ l) x := by
    rintro v pre x ⟨n, h1, h2, h3⟩
    exact ⟨n, h1, h2, by rw [begun_append]; omega⟩
  have hR : ∀ pre r, RecentOk pre tr r → RecentOk pre (tr ++ l) r := by
    rintro pre r ⟨a, b, h1, h2⟩
    exact ⟨a, b ++ l, by rw [h1]; simp, h2⟩
  cases pc with
  | ld1 => obtain ⟨pre, mid, h1⟩ := h; exact ⟨pre, _, hA _ _ h1⟩
  | ld2 a => obtain ⟨pre, mid, h1, h2⟩ := h; exact ⟨pre, _, hA _ _ h1, hB _ _ _ h2⟩
  | ld3 a b =>
    obtain ⟨pre, mid, h1, h2, h3⟩ := h
    exact ⟨pre, _, hA _ _ h1, hB _ _ _ h2, hB _ _ _ h3⟩
  | rep a b r =>
    obtain ⟨pre, mid, h1, h2, h3, h4⟩ := h
    exact ⟨pre, _, hA _ _ h1, hB _ _ _ h2, hB _ _ _ h3, hR _ _ h4⟩
  | _ => trivial

theorem counts_between {v : Bool} {tr : List Event} {s : State} (h : Counts v tr s) {t : Nat}
    {pre mid : List Event} (hA : Asked t pre mid tr) : Between v pre tr (cnt v s) := by
  obtain ⟨a, n1, n2, h1, _, _, h4, h5⟩ := h
  refine ⟨a, h1, ?_, by omega⟩
  rw [hA.1, finished_append] at h5
  omega

/-- A step that moves goroutine `t` to `pc`, emits `l`, and changes the counter of `v` by `da`. -/
theorem counts_step {v : Bool} {tr l : List Event} {s s' : State} {t : Nat} {pc : PC}
    (h : Counts v tr s) (hthr : s'.thr = upd s.thr t pc) (da : Nat)
    (hc : cnt v s' = cnt v s + Int64.ofNat da)
    (hb : begun v l + (isAdd v (s.thr t)).toNat = da + (isAdd v pc).toNat)
    (hf : da + (isStore v (s.thr t)).toNat = finished v l + (isStore v pc).toNat) :
    Counts v (tr ++ l) s' := by
  obtain ⟨a, n1, n2, h1, c1, c2, h4, h5⟩ := h
  obtain ⟨m1, d1, e1⟩ := c1.upd t pc
  obtain ⟨m2, d2, e2⟩ := c2.upd t pc
  refine ⟨a + da, m1, m2, by rw [hc, h1, Int64.ofNat_add], by rw [hthr]; exact d1,
    by rw [hthr]; exact d2, ?_, ?_⟩
  · rw [begun_append]; omega
  · rw [finished_append]; omega

theorem inv_step (tr : List Event) (s : State) (e : Option Event) (s' : State) (h : Inv tr s)
    (st : Step s e s') : Inv (tr ++ e.toList) s' := by
  have other : ∀ (t : Nat) (pc : PC) (l : List Event), (∀ e ∈ l, who e = t) →
      StatsInv (tr ++ l) t pc → ∀ t', StatsInv (tr ++ l) t' (upd s.thr t pc t') := by
    intro t pc l hl hpc t'
    by_cases ht : t' = t
    · subst ht; rwa [upd_same]
    · rw [upd_other _ _ ht]
      exact statsInv_mono (h.stats t') l (fun e he => by rw [hl e he]; exact fun h => ht h.symm)
  cases st with
  | begin t w hp =>
    refine ⟨fun v => counts_step (h.counts v) rfl 0 ?_ ?_ ?_, ?_, other t _ _ (by simp [who]) trivial⟩
    · cases v <;> simp [cnt]
    · rw [hp]; cases v <;> cases w <;> simp [begun, isAdd]
    · rw [hp]; cases v <;> cases w <;> simp [finished, isStore]
    · simp [lastStored, h.recent]
  | addTrue t hp =>
    refine ⟨fun v => counts_step (h.counts v) rfl (if v then 1 else 0) ?_ ?_ ?_, ?_,
      other t _ _ (by simp) trivial⟩
    · cases v <;> simp [cnt] <;> rfl
    · rw [hp]; cases v <;> simp [begun, isAdd]
    · rw [hp]; cases v <;> simp [finished, isStore]
    · simp [h.recent]
  | addFalse t hp =>
    refine ⟨fun v => counts_step (h.counts v) rfl (if v then 0 else 1) ?_ ?_ ?_, ?_,
      other t _ _ (by simp) trivial⟩
    · cases v <;> simp [cnt] <;> rfl
    · rw [hp]; cases v <;> simp [begun, isAdd]
    · rw [hp]; cases v <;> simp [finished, isStore]
    · simp [h.recent]
  | storeTrue t hp =>
    refine ⟨fun v => counts_step (h.counts v) rfl 0 ?_ ?_ ?_, ?_, other t _ _ (by simp [who]) trivial⟩
    · cases v <;> simp [cnt]
    · rw [hp]; cases v <;> simp [begun, isAdd]
    · rw [hp]; cases v <;> simp [finished, isStore]
    · simp [lastStored]
  | storeFalse t hp =>
    refine ⟨fun v => counts_step (h.counts v) rfl 0 ?_ ?_ ?_, ?_, other t _ _ (by simp [who]) trivial⟩
    · cases v <;> simp [cnt]
    · rw [hp]; cases v <;> simp [begun, isAdd]
    · rw [hp]; cases v <;> simp [finished, isStore]
    · simp [lastStored]
  | finish t w hp =>
    refine ⟨fun v => counts_step (h.counts v) rfl 0 ?_ ?_ ?_, ?_, other t _ _ (by simp [who]) trivial⟩
    · cases v <;> simp [cnt]
    · rw [hp]; cases v <;> cases w <;> simp [begun, isAdd]
    · rw [hp]; cases v <;> cases w <;> simp [finished, isStore]
    · simp [lastStored, h.recent]
  | ask t hp =>
    refine ⟨fun v => counts_step (h.counts v) rfl 0 ?_ ?_ ?_, ?_, other t _ _ (by simp [who]) ?_⟩
    · cases v <;> simp [cnt]
    · rw [hp]; cases v <;> simp [begun, isAdd]
    · rw [hp]; cases v <;> simp [finished, isStore]
    · simp [lastStored, h.recent]
    · exact ⟨tr, [], rfl, by simp⟩
  | load1 t hp =>
    have hs := h.stats t
    rw [hp] at hs
    refine ⟨fun v => counts_step (h.counts v) rfl 0 ?_ ?_ ?_, ?_, other t _ _ (by simp) ?_⟩
    · cases v <;> simp [cnt]
    · rw [hp]; cases v <;> simp [begun, isAdd]
    · rw [hp]; cases v <;> simp [finished, isStore]
    · simp [h.recent]
    · simp only [Option.toList, List.append_nil]
      obtain ⟨pre, mid, hA⟩ := hs
      exact ⟨pre, mid, hA, counts_between (h.counts true) hA⟩
  | load2 t a hp =>
    have hs := h.stats t
    rw [hp] at hs
    refine ⟨fun v => counts_step (h.counts v) rfl 0 ?_ ?_ ?_, ?_, other t _ _ (by simp) ?_⟩
    · cases v <;> simp [cnt]
    · rw [hp]; cases v <;> simp [begun, isAdd]
    · rw [hp]; cases v <;> simp [finished, isStore]
    · simp [h.recent]
    · simp only [Option.toList, List.append_nil]
      obtain ⟨pre, mid, hA, hB⟩ := hs
      exact ⟨pre, mid, hA, hB, counts_between (h.counts false) hA⟩
  | load3 t a b hp =>
    have hs := h.stats t
    rw [hp] at hs
    refine ⟨fun v => counts_step (h.counts v) rfl 0 ?_ ?_ ?_, ?_, other t _ _ (by simp) ?_⟩
    · cases v <;> simp [cnt]
    · rw [hp]; cases v <;> simp [begun, isAdd]
    · rw [hp]; cases v <;> simp [finished, isStore]
    · simp [h.recent]
    · simp only [Option.toList, List.append_nil]
      obtain ⟨pre, mid, hA, hB, hC⟩ := hs
      refine ⟨pre, mid, hA, hB, hC, Event.ask t :: mid, [], by simp [hA.1], ?_⟩
      rw [h.recent, hA.1]
  | report t a b r hp =>
    refine ⟨fun v => counts_step (h.counts v) rfl 0 ?_ ?_ ?_, ?_, other t _ _ (by simp [who]) trivial⟩
    · cases v <;> simp [cnt]
    · rw [hp]; cases v <;> simp [begun, isAdd]
    · rw [hp]; cases v <;> simp [finished, isStore]
    · simp [lastStored, h.recent]

theorem inv_exec {tr : List Event} {s : State} (h : Exec Step init tr s) : Inv tr s :=
  h.induct Inv inv_init inv_step

/-- What a goroutine did last, by where it is. -/
def Life (tr : List Event) (t : Nat) : PC → Prop
  | .add v | .store v => ∃ l, own t tr = l ++ [.begin t v]
  | .ret v => ∃ l, own t tr = l ++ [.begin t v, .stored t v]
  | _ => True

theorem own_append (t : Nat) (a b : List Event) : own t (a ++ b) = own t a ++ own t b := by simp [own]

theorem life_step (tr : List Event) (s : State) (e : Option Event) (s' : State) (h : ∀ t, Life tr t (s.thr t)) (st : Step s e s') :
    ∀ t, Life (tr ++ e.toList) t (s'.thr t) := by
  have other : ∀ (u : Nat) (l : List Event) (pc : PC), (∀ e ∈ l, who e = u) → Life (tr ++ l) u pc →
      ∀ t, Life (tr ++ l) t (upd s.thr u pc t) := by
    intro u l pc hl hu t
    by_cases ht : t = u
    · subst ht; rw [upd_same]; exact hu
    · rw [upd_other _ _ ht]
      have : own t (tr ++ l) = own t tr := by
        rw [own_append]
        have : own t l = [] := by
          simp only [own, List.filter_eq_nil_iff]
          intro e he; simp [hl e he, Ne.symm ht]
        simp [this]
      have := h t
      revert this
      cases s.thr t <;> simp_all [Life]
  cases st with
  | begin t v hp => exact other t [_] _ (by simp [who]) ⟨own t tr, by simp [own, who]⟩
  | addTrue t hp => exact other t [] _ (by simp) (by have := h t; rw [hp] at this; simpa [Life] using this)
  | addFalse t hp => exact other t [] _ (by simp) (by have := h t; rw [hp] at this; simpa [Life] using this)
  | storeTrue t hp =>
    refine other t [_] _ (by simp [who]) ?_
    have := h t; rw [hp] at this; obtain ⟨l, hl⟩ := this
    exact ⟨l, by rw [own_append, hl]; simp [own, who]⟩
  | storeFalse t hp =>
    refine other t [_] _ (by simp [who]) ?_
    have := h t; rw [hp] at this; obtain ⟨l, hl⟩ := this
    exact ⟨l, by rw [own_append, hl]; simp [own, who]⟩
  | finish t v hp => exact other t [_] _ (by simp [who]) trivial
  | ask t hp => exact other t [_] _ (by simp [who]) trivial
  | load1 t hp => exact other t [] _ (by simp) trivial
  | load2 t a hp => exact other t [] _ (by simp) trivial
  | load3 t a b hp => exact other t [] _ (by simp) trivial
  | report t a b r hp => exact other t [_] _ (by simp [who]) trivial

theorem life_exec {tr : List Event} {s : State} (h : Exec Step init tr s) : ∀ t, Life tr t (s.thr t) :=
  h.induct (fun tr s => ∀ t, Life tr t (s.thr t)) (fun _ => by simp [init, Life]) life_step

end Monkit.BoolVal
