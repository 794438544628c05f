import Verif.Proofs.FuncConc

/-! `current` and `highwater` while no `Reset` is called. -/

namespace Monkit.FuncConc
open Go Monkit.Spec

variable {G E : Type} {K : DistKind Int64 ℚ} {next : G → UInt64 × G} {name : E → Str} {kind : Nat → Kind E}

def PC.isIn : PC → Bool
  | .load _ | .cas _ _ | .running | .sub => true
  | _ => false

def PC.isNew : PC → Bool
  | .new => true
  | _ => false

/-- No `Reset` has been called. -/
def NoReset (kind : Nat → Kind E) (s : State G) : Prop := ∀ n, kind n = .reset → (s.pc n).isNew = true

theorem noReset_back {s s' : State G} (h : Reach K next name kind s s') (hn : NoReset kind s') : NoReset kind s := by
  intro n hk
  have h1 := rank_reach h n
  have h2 := hn n hk
  revert h1 h2
  cases s.pc n <;> cases s'.pc n <;> simp [PC.rank, PC.isNew]

theorem new_back {s s' : State G} (h : Reach K next name kind s s') {n : Nat} (hn : s'.pc n = .new) : s.pc n = .new := by
  have h1 := rank_reach h n
  rw [hn] at h1
  revert h1
  cases s.pc n <;> simp [PC.rank]

def InvC (s : State G) : Prop := ∃ k : Nat, Census s.pc PC.isIn k ∧ s.f.current = Int64.ofInt k

theorem invC_same {s : State G} (i : InvC s) (f : FuncStats G) (hf : f.current = s.f.current) (n : Nat) (v : PC) (hv : v.isIn = (s.pc n).isIn) (l : Option Nat) (lg : List Nat) :
    InvC (⟨f, l, upd s.pc n v, lg⟩ : State G) := by
  obtain ⟨k, h, e⟩ := i
  obtain ⟨k', h', e'⟩ := h.upd n v
  rw [hv] at e'
  have : k' = k := by omega
  subst this
  exact ⟨k', h', hf.trans e⟩

theorem invC_step {s s' : State G} (il : InvL kind s) (hr : NoReset kind s') (i : InvC s) (st : Step K next name kind s s') : InvC s' := by
  cases st with
  | add n h =>
    obtain ⟨k, hc, e⟩ := i
    obtain ⟨k', h', e'⟩ := hc.upd n (.load (s.f.current + 1))
    rw [h] at e'
    simp only [PC.isIn, Bool.toNat_false, Bool.toNat_true] at e'
    refine ⟨k', h', ?_⟩
    simp only [e]
    rw [show k' = k + 1 by omega, Nat.cast_add, Int64.ofInt_add]; rfl
  | sub n h =>
    obtain ⟨k, hc, e⟩ := i
    obtain ⟨k', h', e'⟩ := hc.upd n (.wait 0 0)
    rw [h] at e'
    simp only [PC.isIn, Bool.toNat_false, Bool.toNat_true] at e'
    refine ⟨k', h', ?_⟩
    simp only [e]
    rw [show ((k' : Nat) : Int) = k + (-1) by omega, Int64.ofInt_add]; rfl
  | zeroCur n h =>
    have h1 := hr n (il.kReset n (by rw [h]; rfl))
    simp [upd_apply, PC.isNew] at h1
  | zeroHw n h => exact invC_same (s := s) i { s.f with highwater := 0 } rfl n (.wait 0 0) (by rw [h]; rfl) s.lock s.log
  | record n c h e p d w f' hk hn hf =>
    exact invC_same i _ (record_same (show Same s.f s.f from rfl) hf).1 _ _ (by rw [hn]; rfl) _ _
  | clear n c h hk hn => exact invC_same i _ rfl _ _ (by rw [hn]; rfl) s.lock (s.log ++ [n])
  | start n e p d w hk h => exact invC_same i _ rfl _ _ (by rw [h]; rfl) _ _
  | load n cur h => exact invC_same i _ rfl _ _ (by rw [h]; rfl) _ _
  | enough n cur hw h => exact invC_same i _ rfl _ _ (by rw [h]; rfl) _ _
  | swap n cur hw h => exact invC_same i { s.f with highwater := cur } rfl n .running (by rw [h]; rfl) s.lock s.log
  | retry n cur hw h => exact invC_same i _ rfl _ _ (by rw [h]; rfl) _ _
  | finish n h => exact invC_same i _ rfl _ _ (by rw [h]; rfl) _ _
  | reset n hk h => exact invC_same i _ rfl _ _ (by rw [h]; rfl) _ _
  | report n hk h => exact invC_same i _ rfl _ _ (by rw [h]; rfl) _ _
  | readCur n h => exact invC_same i _ rfl _ _ (by rw [h]; rfl) _ _
  | readHw n c h => exact invC_same i _ rfl _ _ (by rw [h]; rfl) _ _
  | lock n c h hn => exact invC_same i _ rfl _ _ (by rw [hn]; rfl) _ _
  | copy n c h ord g1 g2 rep hk hn => exact invC_same i _ rfl _ _ (by rw [hn]; rfl) _ _
  | unlock n rep h => exact invC_same i _ rfl _ _ (by rw [h]; rfl) _ _

theorem invC_reach {key : Key} {g1 g2 : G} {s : State G} (h : Reach K next name kind (init K key g1 g2) s) (hr : NoReset kind s) : InvC s := by
  induction h with
  | start => exact ⟨0, census_zero fun _ => rfl, rfl⟩
  | step h st ih => exact invC_step (reach_inv h).1 hr (ih (noReset_back (.step .start st) hr)) st

theorem census_le {s : State G} {N k : Nat} (hN : ∀ n, N ≤ n → s.pc n = .new) (hc : Census s.pc PC.isIn k) : k ≤ N := by
  obtain ⟨A, h1, h2, rfl⟩ := hc
  have : A ⊆ List.range N := by
    intro n hn
    rw [List.mem_range]
    by_contra hc
    have := (h2 n).1 hn
    rw [hN n (by omega)] at this
    cases this
  simpa using (h1.subperm this).length_le

theorem toInt_small {k : Nat} (h : k < 2 ^ 63) : (Int64.ofInt (k : Int)).toInt = k := by
  rw [Int64.toInt_ofInt_of_le] <;> norm_num <;> omega

/-- Without a `Reset`, `current` is the number of calls inside. -/
theorem current_eq {key : Key} {g1 g2 : G} {s : State G} (h : Reach K next name kind (init K key g1 g2) s) (hr : NoReset kind s) {N : Nat}
    (hN : ∀ n, N ≤ n → s.pc n = .new) (hlt : N < 2 ^ 63) : ∃ k, Census s.pc PC.isIn k ∧ s.f.current.toInt = k := by
  obtain ⟨k, hc, e⟩ := invC_reach h hr
  have := census_le hN hc
  exact ⟨k, hc, by rw [e, toInt_small (by omega)]⟩

def PC.pending : PC → Option Int64
  | .load c | .cas c _ => some c
  | _ => none

structure InvH (s : State G) : Prop where
  peak : s.f.current ≤ s.f.highwater ∨ ∃ n c, (s.pc n).pending = some c ∧ s.f.current ≤ c
  seen : ∀ n c hw, s.pc n = .cas c hw → hw ≤ s.f.highwater

theorem le_of_not {a b : Int64} (h : ¬a ≤ b) : b ≤ a := by
  rw [Int64.le_iff_toInt_le] at h ⊢
  omega

theorem le_of_same {a b : Int64} (h : b = a) : a ≤ b := h ▸ Int64.le_refl a

theorem dec_le {a : Int64} (h : 1 ≤ a.toInt) : a + (-1) ≤ a := by
  rw [Int64.le_iff_toInt_le, Int64.toInt_add]
  have h1 := a.toInt_lt
  have e : (-1 : Int64).toInt = -1 := by decide
  rw [e, Int.bmod_def]
  split <;> omega

theorem hw_cur (f : FuncStats G) (c : Int64) (l : Option Nat) (p : Nat → PC) (lg : List Nat) :
    f.highwater ≤ (State.mk { f with current := c } l p lg).f.highwater := Int64.le_refl _

theorem peak_cur (f : FuncStats G) (c : Int64) (l : Option Nat) (p : Nat → PC) (lg : List Nat)
    (h : c ≤ f.highwater ∨ ∃ n c', (p n).pending = some c' ∧ c ≤ c') :
    (State.mk { f with current := c } l p lg).f.current ≤ (State.mk { f with current := c } l p lg).f.highwater ∨
      ∃ n c', ((State.mk { f with current := c } l p lg).pc n).pending = some c' ∧ (State.mk { f with current := c } l p lg).f.current ≤ c' := h

theorem hw_step {s s' : State G} (il : InvL kind s) (hr : NoReset kind s') (st : Step K next name kind s s') : s.f.highwater ≤ s'.f.highwater := by
  cases st with
  | swap n cur hw h gt same =>
    show s.f.highwater ≤ cur
    rw [same]
    exact le_of_not gt
  | zeroHw n h =>
    have h1 := hr n (il.kReset n (by rw [h]; rfl))
    simp [upd_apply, PC.isNew] at h1
  | record n c h e p d w f' hk hn hf =>
    show s.f.highwater ≤ f'.highwater
    exact le_of_same (record_same (show Same s.f s.f from rfl) hf).2.1
  | sub n h => exact hw_cur s.f _ _ _ _
  | _ => exact le_of_same rfl

theorem cas_step {s s' : State G} (st : Step K next name kind s s') {m : Nat} {c hw : Int64} (hm : s'.pc m = .cas c hw) :
    s.pc m = .cas c hw ∨ hw = s.f.highwater := by
  cases st <;> simp only [upd_apply] at hm <;> grind

theorem invH_step {s s' : State G} (il : InvL kind s) (hr : NoReset kind s') (pos : ∀ n, s.pc n = .sub → 1 ≤ s.f.current.toInt) (i : InvH s)
    (st : Step K next name kind s s') : InvH s' := by
  have mono := hw_step il hr st
  obtain ⟨i1, i2⟩ := i
  have le_trans : ∀ a b c : Int64, a ≤ b → b ≤ c → a ≤ c := fun a b c => Int64.le_trans
  constructor
  · cases st with
    | add n h => exact .inr ⟨n, s.f.current + 1, by simp [upd_apply, PC.pending], Int64.le_refl _⟩
    | sub n h =>
      have hp := pos n h
      have dec : s.f.current + (-1) ≤ s.f.current := dec_le hp
      refine peak_cur s.f _ _ _ _ ?_
      rcases i1 with i1 | ⟨m, c, hm, hc⟩
      · exact .inl (Int64.le_trans dec i1)
      · refine .inr ⟨m, c, ?_, Int64.le_trans dec hc⟩
        simp only [upd_apply]
        rw [if_neg]
        · exact hm
        · rintro rfl; rw [h] at hm; cases hm
    | zeroCur n h =>
      have h1 := hr n (il.kReset n (by rw [h]; rfl))
      simp [upd_apply, PC.isNew] at h1
    | zeroHw n h =>
      have h1 := hr n (il.kReset n (by rw [h]; rfl))
      simp [upd_apply, PC.isNew] at h1
    | record n c h e p d w f' hk hn hf =>
      obtain ⟨e1, e2, _⟩ := record_same (show Same s.f s.f from rfl) hf
      simp only [upd_apply, e1, e2]
      rcases i1 with i1 | ⟨m, c, hm, hc⟩
      · exact .inl i1
      · refine .inr ⟨m, c, ?_, hc⟩
        rw [if_neg]
        · exact hm
        · rintro rfl; rw [hn] at hm; cases hm
    | clear n c h hk hn =>
      rcases i1 with i1 | ⟨m, c, hm, hc⟩
      · exact .inl i1
      · refine .inr ⟨m, c, ?_, hc⟩
        simp only [upd_apply]
        rw [if_neg]
        · exact hm
        · rintro rfl; rw [hn] at hm; cases hm
    | load n cur h =>
      rcases i1 with i1 | ⟨m, c, hm, hc⟩
      · exact .inl i1
      · refine .inr ⟨m, c, ?_, hc⟩
        simp only [upd_apply]
        split
        · next e => subst e; rw [h] at hm; exact hm
        · exact hm
    | retry n cur hw h =>
      rcases i1 with i1 | ⟨m, c, hm, hc⟩
      · exact .inl i1
      · refine .inr ⟨m, c, ?_, hc⟩
        simp only [upd_apply]
        split
        · next e => subst e; rw [h] at hm; exact hm
        · exact hm
    | enough n cur hw h le =>
      rcases i1 with i1 | ⟨m, c, hm, hc⟩
      · exact .inl i1
      · by_cases e : m = n
        · subst e
          rw [h] at hm
          cases hm
          exact .inl (le_trans _ _ _ hc (le_trans _ _ _ le (i2 _ _ _ h)))
        · exact .inr ⟨m, c, by simp only [upd_apply, if_neg e]; exact hm, hc⟩
    | swap n cur hw h gt same =>
      rcases i1 with i1 | ⟨m, c, hm, hc⟩
      · exact .inl (le_trans _ _ _ i1 mono)
      · by_cases e : m = n
        · subst e
          rw [h] at hm
          cases hm
          exact .inl hc
        · exact .inr ⟨m, c, by simp only [upd_apply, if_neg e]; exact hm, hc⟩
    | start n e p d w hk h | finish n h | reset n hk h | report n hk h | readCur n h | readHw n c h | lock n c hh h | copy n c hh ord g1 g2 rep hk h | unlock n rep h =>
      rcases i1 with i1 | ⟨m, c, hm, hc⟩
      · exact .inl i1
      · refine .inr ⟨m, c, ?_, hc⟩
        simp only [upd_apply]
        rw [if_neg]
        · exact hm
        · rintro rfl; rw [h] at hm; cases hm
  · intro m c hw hm
    rcases cas_step st hm with old | rfl
    · exact Int64.le_trans (i2 m c hw old) mono
    · exact mono

theorem invH_reach {key : Key} {g1 g2 : G} {s : State G} (h : Reach K next name kind (init K key g1 g2) s) (hr : NoReset kind s) {N : Nat}
    (hN : ∀ n, N ≤ n → s.pc n = .new) (hlt : N < 2 ^ 63) : InvH s := by
  induction h with
  | start => exact ⟨.inl (Int64.le_refl _), fun n c hw h => by cases h⟩
  | @step s s' h st ih =>
    have b := Reach.step (K := K) (next := next) (name := name) (kind := kind) .start st
    have hr' := noReset_back b hr
    have hN' : ∀ n, N ≤ n → s.pc n = .new := fun n hn => new_back b (hN n hn)
    refine invH_step (reach_inv h).1 hr ?_ (ih hr' hN') st
    intro n hn
    obtain ⟨k, hc, e⟩ := current_eq h hr' hN' hlt
    have := hc.pos n (by rw [hn]; rfl)
    omega

theorem hw_reach {key : Key} {g1 g2 : G} {s s' : State G} (h : Reach K next name kind (init K key g1 g2) s) (h' : Reach K next name kind s s') (hr : NoReset kind s') :
    s.f.highwater ≤ s'.f.highwater := by
  induction h' with
  | start => exact Int64.le_refl _
  | step h1 st ih => exact Int64.le_trans (ih (noReset_back (.step .start st) hr)) (hw_step (reach_inv (h.trans h1)).1 hr st)

/-- What a call of `Stats` has loaded: `current` at a time after the call, `highwater` at a later time. -/
def Reads (K : DistKind Int64 ℚ) (next : G → UInt64 × G) (name : E → Str) (kind : Nat → Kind E) (s1 s : State G) : PC → Prop
  | .readHw c => ∃ a, Reach K next name kind s1 a ∧ Reach K next name kind a s ∧ c = a.f.current
  | .wait c h | .inside c h => ∃ a b, Reach K next name kind s1 a ∧ Reach K next name kind a b ∧ Reach K next name kind b s ∧ c = a.f.current ∧ h = b.f.highwater
  | .unlock rep | .over rep => ∃ a b k rest, Reach K next name kind s1 a ∧ Reach K next name kind a b ∧ Reach K next name kind b s ∧
      rep = (k, b!"current", .int a.f.current) :: (k, b!"highwater", .int b.f.highwater) :: rest
  | .new | .readCur => True
  | _ => False

theorem Reads.mono {s1 s s' : State G} {p : PC} (st : Step K next name kind s s') (h : Reads K next name kind s1 s p) : Reads K next name kind s1 s' p := by
  cases p with
  | readHw c => obtain ⟨a, h1, h2, e⟩ := h; exact ⟨a, h1, .step h2 st, e⟩
  | wait c h' => obtain ⟨a, b, h1, h2, h3, e⟩ := h; exact ⟨a, b, h1, h2, .step h3 st, e⟩
  | inside c h' => obtain ⟨a, b, h1, h2, h3, e⟩ := h; exact ⟨a, b, h1, h2, .step h3 st, e⟩
  | unlock rep => obtain ⟨a, b, k, r, h1, h2, h3, e⟩ := h; exact ⟨a, b, k, r, h1, h2, .step h3 st, e⟩
  | over rep => obtain ⟨a, b, k, r, h1, h2, h3, e⟩ := h; exact ⟨a, b, k, r, h1, h2, .step h3 st, e⟩
  | _ => exact h

theorem stats_head {f : FuncStats G} {ord : Map Str Int64} {x y : G} {rep : Report} (h : FuncStats.stats K f ord x y = some rep) :
    ∃ rest, rep = (f.key, b!"current", .int f.current) :: (f.key, b!"highwater", .int f.highwater) :: rest := by
  unfold FuncStats.stats at h
  simp only [Option.bind_eq_bind] at h
  cases h1 : (f.success.copy x).stats K with
  | none => rw [h1] at h; cases h
  | some a =>
    cases h2 : (f.failure.copy y).stats K with
    | none => rw [h1, h2] at h; cases h
    | some b => rw [h1, h2] at h; cases h; exact ⟨_, rfl⟩

theorem reads {key : Key} {g1 g2 : G} {s1 s2 : State G} (h1 : Reach K next name kind (init K key g1 g2) s1) (m : Nat) (hm : kind m = .report)
    (hnew : s1.pc m = .new) (h2 : Reach K next name kind s1 s2) : Reads K next name kind s1 s2 (s2.pc m) := by
  induction h2 with
  | start => rw [hnew]; trivial
  | @step s s' h st ih =>
    have il := (reach_inv (h1.trans h)).1
    have keep := Reads.mono st ih
    have b : Reach K next name kind s s' := .step .start st
    cases st with
    | readCur n hn =>
      simp only [upd_apply]
      split
      · exact ⟨s, h, b, rfl⟩
      · exact keep
    | readHw n c hn =>
      simp only [upd_apply]
      split
      · next e =>
        subst e
        rw [hn] at ih
        obtain ⟨a, x, y, e⟩ := ih
        exact ⟨a, s, x, y, b, e, rfl⟩
      · exact keep
    | lock n c hh hn =>
      simp only [upd_apply]
      split
      · next e => subst e; rw [hn] at keep; exact keep
      · exact keep
    | copy n c hh ord x y rep hk hn ho hr =>
      simp only [upd_apply]
      split
      · next e =>
        subst e
        rw [hn] at keep
        obtain ⟨a, b, x, y, z, rfl, rfl⟩ := keep
        obtain ⟨rest, e⟩ := stats_head hr
        exact ⟨a, b, _, rest, x, y, z, e⟩
      · exact keep
    | unlock n rep hn =>
      simp only [upd_apply]
      split
      · next e => subst e; rw [hn] at keep; exact keep
      · exact keep
    | report n hk hn =>
      simp only [upd_apply]
      split
      · trivial
      · exact keep
    | start n e p d w hk hn | reset n hk hn | record n c hh e p d w f' hk hn | clear n c hh hk hn =>
      simp only [upd_apply]
      split
      · next e => subst e; rw [hm] at hk; cases hk
      · exact keep
    | add n hn | load n cur hn | enough n cur hw hn | swap n cur hw hn | retry n cur hw hn | finish n hn | sub n hn =>
      simp only [upd_apply]
      split
      · next e =>
        subst e
        obtain ⟨_, _, _, _, e⟩ := il.kCall m (by rw [hn]; rfl)
        rw [hm] at e; cases e
      · exact keep
    | zeroCur n hn | zeroHw n hn =>
      simp only [upd_apply]
      split
      · next e =>
        subst e
        have e := il.kReset m (by rw [hn]; rfl)
        rw [hm] at e; cases e
      · exact keep

theorem step_key {f g : FuncStats G} {o : FuncStats.Op E} (h : FuncStats.step K next name f o = some g) : g.key = f.key := by
  cases o with
  | start => cases h; simp only [FuncStats.start]; split <;> rfl
  | reset => cases h; rfl
  | finish e p d w =>
    unfold FuncStats.step FuncStats.finish at h
    cases p with
    | true =>
      simp only [if_true, Option.map_eq_some_iff] at h
      obtain ⟨x, hx, rfl⟩ := h; rfl
    | false =>
      cases e with
      | none =>
        simp only [Bool.false_eq_true, if_false, Option.map_eq_some_iff] at h
        obtain ⟨x, hx, rfl⟩ := h; rfl
      | some e =>
        simp only [Bool.false_eq_true, if_false, Option.map_eq_some_iff] at h
        obtain ⟨x, hx, rfl⟩ := h; rfl

theorem run_key {ops : List (FuncStats.Op E)} : ∀ {f g : FuncStats G}, f.run K next name ops = some g → g.key = f.key := by
  induction ops with
  | nil => intro f g h; cases h; rfl
  | cons o l ih =>
    intro f g h
    simp only [FuncStats.run, Option.bind_eq_some_iff] at h
    obtain ⟨x, hx, hg⟩ := h
    rw [ih hg, step_key hx]

end Monkit.FuncConc
