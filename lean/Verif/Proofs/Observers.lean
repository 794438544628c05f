import Verif.Spec.Observers

namespace Monkit.Observers
open Go

def PC.holds : PC → Bool
  | .cat _ _ | .cfound _ _ | .ccas _ _ _ | .cdone _ => true
  | _ => false

/-- The list structure.  `rt n = some k`: tuple `n` was the `k`-th to be taken out. -/
structure InvL (head : Option Nat) (cdr : Nat → Option Nat) (next : Nat) (rt : Nat → Option Nat)
    (clk : Nat) : Prop where
  desc : ∀ n m, cdr n = some m → m < n
  headLt : ∀ m, head = some m → m < next
  cdrLt : ∀ n m, cdr n = some m → n < next
  headLive : ∀ m, head = some m → rt m = none
  cdrLive : ∀ n m, rt n = none → cdr n = some m → rt m = none
  cdrDead : ∀ n m k, rt n = some k → cdr n = some m → rt m = none ∨ ∃ k', rt m = some k' ∧ k < k'
  fromHead : ∀ x, x < next → rt x = none → ∃ m, head = some m ∧ x ≤ m
  fromCdr : ∀ n x, n < next → x < n → rt x = none → ∃ m, cdr n = some m ∧ x ≤ m
  rtLt : ∀ n k, rt n = some k → n < next ∧ k < clk

theorem InvL.push {head cdr next rt clk} (i : InvL head cdr next rt clk) :
    InvL (some next) (upd cdr next head) (next + 1) rt clk := by
  obtain ⟨i1, i2, i3, i4, i5, i6, i7, i8, i9⟩ := i
  have hrt : rt next = none := by
    cases hr : rt next with
    | none => rfl
    | some k => have := (i9 _ _ hr).1; omega
  refine ⟨?_, ?_, ?_, ?_, ?_, ?_, ?_, ?_, ?_⟩
  · intro n m h
    by_cases e : n = next
    · subst e; rw [upd_same] at h; exact i2 m h
    · rw [upd_other _ _ e] at h; exact i1 n m h
  · intro m h; cases h; omega
  · intro n m h
    by_cases e : n = next
    · omega
    · rw [upd_other _ _ e] at h; have := i3 n m h; omega
  · intro m h; cases h; exact hrt
  · intro n m hn h
    by_cases e : n = next
    · subst e; rw [upd_same] at h; exact i4 m h
    · rw [upd_other _ _ e] at h; exact i5 n m hn h
  · intro n m k hn h
    by_cases e : n = next
    · subst e; rw [hrt] at hn; cases hn
    · rw [upd_other _ _ e] at h; exact i6 n m k hn h
  · intro x hx hl; exact ⟨next, rfl, by omega⟩
  · intro n x hn hx hl
    by_cases e : n = next
    · subst e; rw [upd_same]; exact i7 x hx hl
    · rw [upd_other _ _ e]; exact i8 n x (by omega) hx hl
  · intro n k h; have := i9 n k h; omega

theorem InvL.remove {head cdr next rt clk} (i : InvL head cdr next rt clk) {ref : Nat} {p : Option Nat}
    (hr : rt ref = none) (hlt : ref < next)
    (hp : ∀ k, p = some k → k < next ∧ rt k = none ∧ cdr k = some ref)
    (h0 : p = none → head = some ref) :
    InvL (match p with | none => cdr ref | some _ => head)
      (match p with | none => cdr | some k => upd cdr k (cdr ref)) next (upd rt ref (some clk)) (clk + 1) := by
  obtain ⟨i1, i2, i3, i4, i5, i6, i7, i8, i9⟩ := i
  have live : ∀ x, upd rt ref (some clk) x = none ↔ x ≠ ref ∧ rt x = none := by
    intro x
    by_cases e : x = ref
    · subst e; simp
    · rw [upd_other _ _ e]; simp [e]
  have lt9 : ∀ n k, upd rt ref (some clk) n = some k → n < next ∧ k < clk + 1 := by
    intro n k h
    by_cases e : n = ref
    · subst e; simp at h; omega
    · rw [upd_other _ _ e] at h; have := i9 n k h; omega
  -- a pointer kept by an old (dead) tuple, or by ref itself, leads to something taken out later
  have dead : ∀ n m k, upd rt ref (some clk) n = some k → cdr n = some m →
      upd rt ref (some clk) m = none ∨ ∃ k', upd rt ref (some clk) m = some k' ∧ k < k' := by
    intro n m k hn h
    by_cases e : n = ref
    · subst e
      left
      rw [live]
      exact ⟨by have := i1 n m h; omega, i5 n m hr h⟩
    · rw [upd_other _ _ e] at hn
      by_cases e' : m = ref
      · subst e'
        exact .inr ⟨clk, by simp, (i9 n k hn).2⟩
      · rw [upd_other _ _ e']; exact i6 n m k hn h
  have cdrne : ∀ m, cdr ref = some m → m ≠ ref := fun m h => by have := i1 ref m h; omega
  cases p with
  | none =>
    have h0 := h0 rfl
    have topRef : ∀ x, x < next → rt x = none → x ≤ ref := fun x hx hl => by
      obtain ⟨m, hm, hle⟩ := i7 x hx hl
      rw [h0] at hm; cases hm; exact hle
    refine ⟨i1, ?_, i3, ?_, ?_, dead, ?_, ?_, lt9⟩
    · intro m h
      have := i1 ref m h
      show m < next
      omega
    · intro m h; rw [live]; exact ⟨cdrne m h, i5 ref m hr h⟩
    · intro n m hn h
      rw [live] at hn ⊢
      refine ⟨fun e => ?_, i5 n m hn.2 h⟩
      subst e
      -- a live tuple pointing to the head's tuple would be newer than the head
      have := topRef n (i3 n m h) hn.2
      have := i1 n m h
      omega
    · intro x hx hl
      rw [live] at hl
      have := topRef x hx hl.2
      exact i8 ref x hlt (by omega) hl.2
    · intro n x hn hx hl
      rw [live] at hl
      exact i8 n x hn hx hl.2
  | some k =>
    obtain ⟨k1, k2, k3⟩ := hp k rfl
    have hkr := i1 k ref k3
    have between : ∀ x, x < k → rt x = none → x ≤ ref := fun x hx hl => by
      obtain ⟨m, hm, hle⟩ := i8 k x k1 hx hl
      rw [k3] at hm; cases hm; exact hle
    refine ⟨?_, i2, ?_, ?_, ?_, ?_, ?_, ?_, lt9⟩
    · intro n m h
      by_cases e : n = k
      · subst e; simp only [upd_same] at h; have := i1 ref m h; omega
      · simp only [upd_other _ _ e] at h; exact i1 n m h
    · intro n m h
      by_cases e : n = k
      · omega
      · simp only [upd_other _ _ e] at h; exact i3 n m h
    · intro m h
      rw [live]
      refine ⟨fun e => ?_, i4 m h⟩
      subst e
      obtain ⟨m', hm', hle⟩ := i7 k k1 k2
      simp only at h
      rw [h] at hm'; cases hm'; omega
    · intro n m hn h
      rw [live] at hn ⊢
      by_cases e : n = k
      · subst e; simp only [upd_same] at h; exact ⟨cdrne m h, i5 ref m hr h⟩
      · simp only [upd_other _ _ e] at h
        refine ⟨fun e' => ?_, i5 n m hn.2 h⟩
        subst e'
        -- two live tuples pointing to ref: impossible
        rcases Nat.lt_trichotomy n k with hlt' | rfl | hlt'
        · have := between n hlt' hn.2
          have := i1 n m h
          omega
        · exact e rfl
        · obtain ⟨m', hm', hle⟩ := i8 n k (i3 n m h) hlt' k2
          rw [h] at hm'; cases hm'; omega
    · intro n m j hn h
      by_cases e : n = k
      · subst e
        rw [upd_other _ _ (by omega), k2] at hn; cases hn
      · simp only [upd_other _ _ e] at h; exact dead n m j hn h
    · intro x hx hl
      rw [live] at hl
      exact i7 x hx hl.2
    · intro n x hn hx hl
      rw [live] at hl
      by_cases e : n = k
      · subst e
        simp only [upd_same]
        have := between x hx hl.2
        exact i8 ref x hlt (by omega) hl.2
      · simp only [upd_other _ _ e]
        exact i8 n x hn hx hl.2

/-- What is known at each position of a cancel. -/
def ok (cdr : Nat → Option Nat) (next : Nat) (rt : Nat → Option Nat) : PC → Prop
  | .cwait ref => ref < next
  | .cat ref p => ref < next ∧ ∀ k, p = some k → k < next ∧ rt k = none ∧ (rt ref = none → ref < k)
  | .cfound ref p => ref < next ∧ rt ref = none ∧
      ∀ k, p = some k → k < next ∧ rt k = none ∧ cdr k = some ref
  | .ccas ref p c => ref < next ∧ rt ref = none ∧ c = cdr ref ∧
      ∀ k, p = some k → k < next ∧ rt k = none ∧ cdr k = some ref
  | .cdone ref => ref < next ∧ rt ref ≠ none
  | _ => True

structure InvT (s : State) (rt : Nat → Option Nat) : Prop where
  mtx : ∀ t, s.mtx = some t ↔ (s.pc t).holds = true
  ok : ∀ t, ok s.cdr s.next rt (s.pc t)

/-- How `rt` and `clk` change in a step: only a successful compare-and-swap changes them. -/
def ghost (s : State) (rt : Nat → Option Nat) (clk : Nat) (rt' : Nat → Option Nat) (clk' : Nat) : Prop :=
  (rt' = rt ∧ clk' = clk) ∨
  ∃ t ref p c, s.pc t = .ccas ref p c ∧ rt ref = none ∧ rt' = upd rt ref (some clk) ∧ clk' = clk + 1

theorem mtx_same {s : State} {t : Nat} {v : PC} (h : ∀ t, s.mtx = some t ↔ (s.pc t).holds = true)
    (hv : v.holds = (s.pc t).holds) : ∀ t', s.mtx = some t' ↔ (upd s.pc t v t').holds = true := by
  intro t'
  by_cases e : t' = t
  · subst e; rw [upd_same, hv, h]
  · rw [upd_other _ _ e, h]

theorem ok_upd {cdr : Nat → Option Nat} {next : Nat} {rt : Nat → Option Nat} {pc : Nat → PC} {t : Nat} {v : PC}
    (h : ∀ t, ok cdr next rt (pc t)) (hv : ok cdr next rt v) :
    ∀ t', ok cdr next rt (upd pc t v t') := by
  intro t'
  by_cases e : t' = t
  · subst e; rw [upd_same]; exact hv
  · rw [upd_other _ _ e]; exact h t'

theorem inv_init : InvL init.head init.cdr init.next (fun _ => none) 0 ∧ InvT init (fun _ => none) := by
  refine ⟨?_, ?_⟩ <;> constructor <;> simp [init, PC.holds, ok]

theorem inv_step {s s' : State} {e : Option Ev} {rt : Nat → Option Nat} {clk : Nat}
    (i : InvL s.head s.cdr s.next rt clk) (j : InvT s rt) (st : Step s e s') :
    ∃ rt' clk', ghost s rt clk rt' clk' ∧ InvL s'.head s'.cdr s'.next rt' clk' ∧ InvT s' rt' := by
  obtain ⟨j1, j2⟩ := j
  cases st with
  | pushOk t ex h hc =>
    subst hc
    refine ⟨rt, clk, .inl ⟨rfl, rfl⟩, i.push, mtx_same j1 (by rw [h]; rfl), ok_upd (fun t' => ?_) trivial⟩
    have hok := j2 t'
    have hk : ∀ k, k < s.next → upd s.cdr s.next s.head k = s.cdr k := fun k hk => upd_other _ _ (by omega)
    cases hpc : s.pc t' with
    | cwait ref => rw [hpc] at hok; simp only [ok] at hok ⊢; omega
    | cat ref p =>
      rw [hpc] at hok; simp only [ok] at hok ⊢
      refine ⟨by omega, fun k e => ?_⟩
      have := hok.2 k e
      exact ⟨by omega, this.2⟩
    | cfound ref p =>
      rw [hpc] at hok; simp only [ok] at hok ⊢
      refine ⟨by omega, hok.2.1, fun k e => ?_⟩
      obtain ⟨a, b, c⟩ := hok.2.2 k e
      exact ⟨by omega, b, by rw [hk k a, c]⟩
    | ccas ref p c =>
      rw [hpc] at hok; simp only [ok] at hok ⊢
      refine ⟨by omega, hok.2.1, by rw [hk ref hok.1]; exact hok.2.2.1, fun k e => ?_⟩
      obtain ⟨a, b, c⟩ := hok.2.2.2 k e
      exact ⟨by omega, b, by rw [hk k a, c]⟩
    | cdone ref => rw [hpc] at hok; simp only [ok] at hok ⊢; exact ⟨by omega, hok.2⟩
    | _ => trivial
  | casOk t ref p c h hc =>
    have hok := j2 t
    rw [h] at hok
    obtain ⟨a1, a2, a3, a4⟩ := hok
    refine ⟨upd rt ref (some clk), clk + 1, .inr ⟨t, ref, p, c, h, a2, rfl, rfl⟩, ?_, ?_, ?_⟩
    · have := i.remove a2 a1 a4 (fun e => by subst e; exact hc)
      subst a3
      cases p <;> exact this
    · have := mtx_same (t := t) (v := .cdone ref) j1 (by rw [h]; rfl)
      cases p <;> exact this
    · have hn : (s.setCell c p).next = s.next := by cases p <;> rfl
      intro t'
      by_cases e : t' = t
      · subst e
        show ok _ _ _ (upd s.pc t' (.cdone ref) t')
        rw [upd_same]
        exact ⟨by rw [hn]; exact a1, by simp⟩
      · show ok _ _ _ (upd s.pc t (.cdone ref) t')
        rw [upd_other _ _ e]
        have hnh : (s.pc t').holds = false := by
          cases hh : (s.pc t').holds with
          | false => rfl
          | true =>
            have h1 := (j1 t').mpr hh
            have h2 := (j1 t).mpr (by rw [h]; rfl)
            rw [h1] at h2; cases h2; exact absurd rfl e
        have hok := j2 t'
        cases hpc : s.pc t' with
        | cwait r => rw [hpc] at hok; simp only [ok] at hok ⊢; rw [hn]; exact hok
        | cat | cfound | ccas | cdone => rw [hpc] at hnh; cases hnh
        | _ => trivial
  | atNil t ref p h hc =>
    have hok := j2 t
    rw [h] at hok
    obtain ⟨a1, a2⟩ := hok
    refine ⟨rt, clk, .inl ⟨rfl, rfl⟩, i, mtx_same j1 (by rw [h]; rfl), ok_upd j2 ⟨a1, fun hl => ?_⟩⟩
    cases p with
    | none =>
      obtain ⟨m, hm, _⟩ := i.fromHead ref a1 hl
      simp only [State.cell] at hc
      rw [hc] at hm; cases hm
    | some k =>
      obtain ⟨k1, k2, k3⟩ := a2 k rfl
      obtain ⟨m, hm, _⟩ := i.fromCdr k ref k1 (k3 hl) hl
      simp only [State.cell] at hc
      rw [hc] at hm; cases hm
  | atNext t ref p n h hc hn =>
    have hok := j2 t
    rw [h] at hok
    obtain ⟨a1, a2⟩ := hok
    refine ⟨rt, clk, .inl ⟨rfl, rfl⟩, i, mtx_same j1 (by rw [h]; rfl), ok_upd j2 ⟨a1, fun k' e => ?_⟩⟩
    cases e
    cases p with
    | none =>
      simp only [State.cell] at hc
      refine ⟨i.headLt n hc, i.headLive n hc, fun hl => ?_⟩
      obtain ⟨m, hm, hle⟩ := i.fromHead ref a1 hl
      rw [hc] at hm; cases hm
      omega
    | some k =>
      obtain ⟨k1, k2, k3⟩ := a2 k rfl
      simp only [State.cell] at hc
      refine ⟨Nat.lt_trans (i.desc k n hc) k1, i.cdrLive k n k2 hc, fun hl => ?_⟩
      obtain ⟨m, hm, hle⟩ := i.fromCdr k ref k1 (k3 hl) hl
      rw [hc] at hm; cases hm
      omega
  | atFound t ref p h hc =>
    have hok := j2 t
    rw [h] at hok
    obtain ⟨a1, a2⟩ := hok
    refine ⟨rt, clk, .inl ⟨rfl, rfl⟩, i, mtx_same j1 (by rw [h]; rfl), ok_upd j2 ?_⟩
    cases p with
    | none => exact ⟨a1, i.headLive ref hc, by simp⟩
    | some k =>
      obtain ⟨k1, k2, k3⟩ := a2 k rfl
      exact ⟨a1, i.cdrLive k ref k2 hc, fun k' e => by cases e; exact ⟨k1, k2, hc⟩⟩
  | found t ref p h =>
    have hok := j2 t
    rw [h] at hok
    exact ⟨rt, clk, .inl ⟨rfl, rfl⟩, i, mtx_same j1 (by rw [h]; rfl),
      ok_upd j2 ⟨hok.1, hok.2.1, rfl, hok.2.2⟩⟩
  | casFail t ref p c h hc =>
    have hok := j2 t
    rw [h] at hok
    exact ⟨rt, clk, .inl ⟨rfl, rfl⟩, i, mtx_same j1 (by rw [h]; rfl), ok_upd j2 ⟨hok.1, by simp⟩⟩
  | lock t ref h free =>
    have hok := j2 t
    rw [h] at hok
    refine ⟨rt, clk, .inl ⟨rfl, rfl⟩, i, fun t' => ?_, ok_upd j2 ⟨hok, by simp⟩⟩
    by_cases e : t' = t
    · subst e; simp [PC.holds]
    · have := j1 t'
      rw [free] at this
      simp only [upd_other _ _ e, ← this]
      simp [Ne.symm e]
  | unlock t ref h =>
    refine ⟨rt, clk, .inl ⟨rfl, rfl⟩, i, fun t' => ?_, ok_upd j2 trivial⟩
    have h2 := (j1 t).mpr (by rw [h]; rfl)
    by_cases e : t' = t
    · subst e; simp [PC.holds]
    · have := j1 t'
      rw [h2] at this
      simp only [upd_other _ _ e, ← this]
      simp [Ne.symm e]
  | cancel t ref h hr =>
    exact ⟨rt, clk, .inl ⟨rfl, rfl⟩, i, mtx_same j1 (by rw [h]; rfl), ok_upd j2 hr⟩
  | regCall t h | regLoad t h | pushFail t _ h _ | begin t h | lookNil t h _ | lookSome t _ h _ | look2 t _ h
  | moreNil t _ h _ | moreNext t _ _ h _ | finish t h =>
    exact ⟨rt, clk, .inl ⟨rfl, rfl⟩, i, mtx_same j1 (by rw [h]; rfl), ok_upd j2 trivial⟩
  | call t n last h =>
    exact ⟨rt, clk, .inl ⟨rfl, rfl⟩, i, mtx_same j1 (by rw [h]; split <;> rfl),
      ok_upd j2 (by split <;> trivial)⟩

end Monkit.Observers
