import Verif.Proofs.Returns
import Verif.Proofs.Observers2
import Verif.Model.Highwater

/-!
# C109: calls return – the counters and the observers of a trace, which several goroutines change without a lock
-/

open Go Returns

namespace Returns

/-- What `AllReturn` says in the end: without new calls, a schedule leads to a state in which all calls have returned, and every schedule that stops only when nothing can go on does:
whenever none of the calls can go on, none is under way. -/
theorem C109_returned {S E P : Type} {step : S → Option E → S → Prop} {pc : S → Nat → P} {idle : P → Prop} {s : S} (h : AllReturn step pc idle s) :
    (∃ n s', Run step pc idle s n s' ∧ ∀ t, idle (pc s' t)) ∧
    ∀ n s', Run step pc idle s n s' → (¬ ∃ e s'', step s' e s'' ∧ NoCall pc idle s' s'' ∧ pc s'' ≠ pc s') → ∀ t, idle (pc s' t) := by
  obtain ⟨b, hb⟩ := h
  refine ⟨?_, fun n s' r hn t => Classical.not_not.1 fun ht => hn ((hb n s' r).2 ⟨t, ht⟩)⟩
  have : ∀ k n s', n + k = b + 1 → Run step pc idle s n s' → ∃ n s', Run step pc idle s n s' ∧ ∀ t, idle (pc s' t) := by
    intro k
    induction k with
    | zero => intro n s' hk r; have := (hb n s' r).1; omega
    | succ k ih =>
      intro n s' hk r
      by_cases hi : ∀ t, idle (pc s' t)
      · exact ⟨n, s', r, hi⟩
      · obtain ⟨e, s'', st, nc, hm⟩ := (hb n s' r).2 (Classical.not_forall.1 hi)
        exact ih (n + 1) s'' (by omega) (.move r st nc hm)
  exact this (b + 1) 0 s (by omega) .start

end Returns

namespace Monkit.Highwater

/-- Weight of a position: those that may yet change `highwater` can make the others try again. -/
def PC.weight (N : Nat) (hw : Int64) : PC → Nat
  | .out => 0
  | .running => 0
  | .add => 2 * N + 4
  | .load _ => 2 * N + 2
  | .cas _ h => if h = hw then 2 * N + 1 else 2 * N + 3
  | .sub => 1
  | .reset1 => 2 * N + 2
  | .reset2 => 2 * N + 1

/-- Between calls: not started, running, or over. -/
def PC.idle (p : PC) : Prop := p = .out ∨ p = .running

theorem one_moves {s e s'} (st : Step s e s') : ∃ t, ∀ u, u ≠ t → s'.thr u = s.thr u := by
  cases st with
  | start t | add t | load t | enough t | swap t | retry t | finish t | sub t | reset t | zeroCurrent t | zeroHighwater t =>
    exact ⟨t, fun u hu => upd_other _ _ hu⟩

theorem weight_change (N : Nat) (a b : Int64) (p : PC) : p.weight N a ≤ p.weight N b + 2 := by
  cases p <;> simp only [PC.weight] <;> (try split) <;> (try split) <;> omega

/-- **C109** for starting and ending observations and resetting the counters. -/
theorem C109_counters {tr s} (h : Exec Step init tr s) : AllReturn Step State.thr PC.idle s := by
  refine allReturn_pot (fun t => .inl rfl) (fun _ _ _ _ _ st => one_moves st) (fun N s => sumTo N fun t => (s.thr t).weight N s.highwater) ?_ ?_ ?_ h
  · intro tr s e s' N t h st hN ht hb hm ho
    have still : s'.highwater = s.highwater → (s'.thr t).weight N s.highwater < (s.thr t).weight N s.highwater →
        (sumTo N fun t => (s'.thr t).weight N s'.highwater) < sumTo N fun t => (s.thr t).weight N s.highwater := by
      intro h1 h2
      rw [h1]
      refine sum_lt N _ _ (fun u hu => ?_) ht h2
      by_cases hut : u = t
      · subst hut; exact Nat.le_of_lt h2
      · rw [ho u hut]; exact Nat.le_refl _
    have moved : (s'.thr t).weight N s'.highwater + (2 * N + 1) ≤ (s.thr t).weight N s.highwater →
        (sumTo N fun t => (s'.thr t).weight N s'.highwater) < sumTo N fun t => (s.thr t).weight N s.highwater := by
      intro h1
      have := sum_trade N (fun t => (s'.thr t).weight N s'.highwater) (fun t => (s.thr t).weight N s.highwater) 2 (2 * N + 1) ht
        (fun u _ hu => by rw [ho u hu]; exact weight_change _ _ _ _) h1
      omega
    have who : ∀ v p, s'.thr = upd s.thr v p → v = t := by
      intro v p hv
      by_contra hh
      exact hm (by rw [hv, upd_other _ _ (Ne.symm hh)])
    cases st with
    | start v hp | reset v hp => obtain rfl := who v _ rfl; exact absurd (.inl hp) hb
    | finish v hp => obtain rfl := who v _ rfl; exact absurd (.inr hp) hb
    | swap v cur hw hp _ hs =>
      obtain rfl := who v _ rfl
      exact moved (by simp [hp, hs, PC.weight])
    | zeroHighwater v hp =>
      obtain rfl := who v _ rfl
      exact moved (by simp [hp, PC.weight])
    | add v hp | load v _ hp | sub v hp | zeroCurrent v hp =>
      obtain rfl := who v _ rfl
      exact still rfl (by simp [hp, PC.weight])
    | enough v cur hw hp _ =>
      obtain rfl := who v _ rfl
      exact still rfl (by simp only [hp, PC.weight, upd_same]; split <;> omega)
    | retry v cur hw hp _ hc =>
      obtain rfl := who v _ rfl
      exact still rfl (by simp [hp, PC.weight, Ne.symm hc])
  · intro tr s e s' N h st hN heq
    cases st with
    | swap t _ _ hp => have := congrFun heq t; simp [hp] at this
    | zeroHighwater t hp => have := congrFun heq t; simp [hp] at this
    | _ => dsimp only at heq ⊢; rw [heq]; exact Nat.le_refl _
  · intro tr s t h ht
    refine ⟨t, ?_⟩
    cases hp : s.thr t with
    | out => exact absurd (.inl hp) ht
    | running => exact absurd (.inr hp) ht
    | add => exact ⟨_, _, by simp [PC.idle], .add s t hp, by simp⟩
    | load cur => exact ⟨_, _, by simp [PC.idle], .load s t cur hp, by simp⟩
    | cas cur hw =>
      by_cases h1 : cur ≤ hw
      · exact ⟨_, _, by simp [PC.idle], .enough s t cur hw hp h1, by simp⟩
      · by_cases h2 : s.highwater = hw
        · exact ⟨_, _, by simp [PC.idle], .swap s t cur hw hp h1 h2, by simp⟩
        · exact ⟨_, _, by simp [PC.idle], .retry s t cur hw hp h1 h2, by simp⟩
    | sub => exact ⟨_, _, by simp [PC.idle], .sub s t hp, by simp⟩
    | reset1 => exact ⟨_, _, by simp [PC.idle], .zeroCurrent s t hp, by simp⟩
    | reset2 => exact ⟨_, _, by simp [PC.idle], .zeroHighwater s t hp, by simp⟩

/-- Non-vacuity: two observations start at once; the first, which has seen the lower count, lost the race for `highwater` to the second and has to look again; a third counts down. -/
example : ∃ tr s, Exec Step init tr s ∧ s.thr 0 = .cas 2 0 ∧ s.highwater = 3 ∧ s.thr 1 = .running ∧ s.thr 2 = .sub := by
  have e := Exec.start (step := Step) (s₀ := init)
  have e := e.step _ (.start _ 2 rfl)
  have e := e.step _ (.add _ 2 rfl)
  have e := e.step _ (.start _ 0 rfl)
  have e := e.step _ (.add _ 0 rfl)
  have e := e.step _ (.load _ 0 _ rfl)
  have e := e.step _ (.start _ 1 rfl)
  have e := e.step _ (.add _ 1 rfl)
  have e := e.step _ (.load _ 1 _ rfl)
  have e := e.step _ (.swap _ 1 _ _ rfl (by decide) rfl)
  have e := e.step _ (.load _ 2 _ rfl)
  have e := e.step _ (.enough _ 2 _ _ rfl (by decide))
  have e := e.step _ (.finish _ 2 rfl)
  exact ⟨_, _, e, by decide, by decide, by decide, by decide⟩

end Monkit.Highwater

namespace Monkit.Observers

/-- Registrations under way. -/
def PC.pushes : PC → Nat
  | .reg | .push _ => 1
  | _ => 0

/-- Weight of a position, there being at most `M` tuples: those that may yet change the head of the list can make the others start again. -/
def PC.weight (M N : Nat) (head : Option Nat) : PC → Nat
  | .idle => 0
  | .reg => N * (M + 3) + 2
  | .push e => if head = e then N * (M + 3) + 1 else N * (M + 3) + 3
  | .cwait _ => N * (M + 3) + (M + 5)
  | .cat _ none => N * (M + 3) + (M + 4)
  | .cat _ (some n) => N * (M + 3) + (n + 4)
  | .cfound ref none => if head = some ref then N * (M + 3) + 3 else N * (M + 3) + (M + 6)
  | .cfound _ (some _) => N * (M + 3) + 3
  | .ccas ref none _ => if head = some ref then N * (M + 3) + 2 else N * (M + 3) + (M + 5)
  | .ccas _ (some _) _ => N * (M + 3) + 2
  | .cdone _ => 1
  | .look => 2 * M + 5
  | .look2 n => 2 * n + 4
  | .call n _ => 2 * n + 3
  | .more n => 2 * n + 2
  | .fin => 1

theorem one_moves {s e s'} (st : Step s e s') : ∃ t, ∀ u, u ≠ t → s'.pc u = s.pc u := by
  cases st with
  | regCall t | regLoad t | pushOk t | pushFail t | cancel t | lock t | atNil t | atNext t | atFound t | found t | casOk t | casFail t | unlock t | begin t | lookNil t
  | lookSome t | look2 t | call t | moreNil t | moreNext t | finish t =>
    exact ⟨t, fun u hu => upd_other _ _ hu⟩

theorem weight_mono {M M' : Nat} (N : Nat) (head : Option Nat) (p : PC) (h : M ≤ M') : p.weight M N head ≤ p.weight M' N head := by
  have := Nat.mul_le_mul_left N (Nat.add_le_add_right h 3)
  cases p with
  | cat r q => cases q <;> simp only [PC.weight] <;> omega
  | cfound r q => cases q <;> simp only [PC.weight] <;> (try split) <;> omega
  | ccas r q c => cases q <;> simp only [PC.weight] <;> (try split) <;> omega
  | _ => simp only [PC.weight] <;> (try split) <;> omega

theorem weight_change (M N : Nat) (a b : Option Nat) (p : PC) : p.weight M N a ≤ p.weight M N b + (M + 3) := by
  generalize hX : N * (M + 3) = X
  cases p with
  | cat r q => cases q <;> simp only [PC.weight, hX] <;> omega
  | cfound r q => cases q <;> simp only [PC.weight, hX] <;> (try split) <;> (try split) <;> omega
  | ccas r q c => cases q <;> simp only [PC.weight, hX] <;> (try split) <;> (try split) <;> omega
  | _ => simp only [PC.weight, hX] <;> (try split) <;> (try split) <;> omega

/-- Tuples there are or may yet be. -/
def most (N : Nat) (s : State) : Nat := s.next + sumTo N fun t => (s.pc t).pushes

/-- The potential. -/
def pot (N : Nat) (s : State) : Nat := sumTo N fun t => (s.pc t).weight (most N s) N s.head

theorem setCell_pc (s : State) (v p : Option Nat) : (s.setCell v p).pc = s.pc := by cases p <;> rfl

/-- **C109** for registering and cancelling observers of a trace, and for the calls of the observers when a span starts or finishes. -/
theorem C109_observers {tr s} (h : Exec Step init tr s) : AllReturn Step State.pc (· = .idle) s := by
  refine allReturn_pot (fun t => rfl) (fun _ _ _ _ _ st => one_moves st) pot ?_ ?_ ?_ h
  · intro tr s e s' N t h st hN ht hb hm ho
    obtain ⟨rt, clk, inv⟩ := inv_exec h
    have tok := inv.thr.ok t
    have hnext : s.next ≤ most N s := Nat.le_add_right _ _
    have fewer : s'.next + (s'.pc t).pushes ≤ s.next + (s.pc t).pushes → most N s' ≤ most N s := by
      intro h1
      have := sum_trade' N (fun u => (s'.pc u).pushes) (fun u => (s.pc u).pushes) ht (fun u _ hu => by rw [ho u hu])
      simp only [most]
      omega
    have still : s'.head = s.head → s'.next + (s'.pc t).pushes ≤ s.next + (s.pc t).pushes →
        (s'.pc t).weight (most N s) N s.head < (s.pc t).weight (most N s) N s.head → pot N s' < pot N s := by
      intro h1 h2 h3
      simp only [pot, h1]
      have hM := fewer h2
      refine sum_lt N _ _ (fun u hu => ?_) ht (Nat.lt_of_le_of_lt (weight_mono N _ _ hM) h3)
      by_cases hut : u = t
      · subst hut; exact Nat.le_of_lt (Nat.lt_of_le_of_lt (weight_mono N _ _ hM) h3)
      · rw [ho u hut]; exact weight_mono N _ _ hM
    have moved : s'.next + (s'.pc t).pushes ≤ s.next + (s.pc t).pushes →
        (s'.pc t).weight (most N s) N s'.head + (N * (most N s + 3) + 1) ≤ (s.pc t).weight (most N s) N s.head → pot N s' < pot N s := by
      intro h2 h3
      have hM := fewer h2
      have h4 := sum_trade N (fun u => (s'.pc u).weight (most N s) N s'.head) (fun u => (s.pc u).weight (most N s) N s.head) (most N s + 3)
        (N * (most N s + 3) + 1) ht (fun u _ hu => by rw [ho u hu]; exact weight_change _ _ _ _ _) h3
      have h5 := sum_le N (fun u => (s'.pc u).weight (most N s') N s'.head) (fun u => (s'.pc u).weight (most N s) N s'.head)
        (fun u _ => weight_mono N _ _ hM)
      have h6 := Nat.mul_le_mul_right (most N s + 3) (Nat.sub_le N 1)
      simp only [pot]
      omega
    have who : ∀ v p, s'.pc = upd s.pc v p → v = t := by
      intro v p hv
      by_contra hh
      exact hm (by rw [hv, upd_other _ _ (Ne.symm hh)])
    cases st with
    | regCall v hp | cancel v _ hp | begin v hp => obtain rfl := who v _ rfl; exact absurd hp hb
    | pushOk v e hp hc =>
      obtain rfl := who v _ rfl
      exact moved (by simp [hp, PC.pushes]) (by simp [hp, PC.weight, hc])
    | casOk v ref p c hp hc =>
      obtain rfl := who v _ rfl
      cases p with
      | none => 
        refine moved (by simp [hp, PC.pushes, State.setCell]) ?_
        have : s.head = some ref := hc
        simp only [hp, PC.weight, this, upd_same, if_true]
        omega
      | some k => exact still rfl (by simp [hp, PC.pushes, State.setCell]) (by simp [hp, PC.weight])
    | casFail v ref p c hp hc =>
      obtain rfl := who v _ rfl
      rw [hp] at tok
      cases p with
      | some k => exact absurd (tok.2.2.2 k rfl).2.2 hc
      | none => 
        refine still rfl (by simp [hp, PC.pushes]) ?_
        have : s.head ≠ some ref := hc
        simp [hp, PC.weight, this]
    | atNext v ref p n hp hc hn =>
      obtain rfl := who v _ rfl
      refine still rfl (by simp [hp, PC.pushes]) ?_
      cases p with
      | none => have := inv.list.headLt n hc; simp only [hp, PC.weight, upd_same]; omega
      | some k => have := inv.list.desc k n hc; simp only [hp, PC.weight, upd_same]; omega
    | atFound v ref p hp hc =>
      obtain rfl := who v _ rfl
      refine still rfl (by simp [hp, PC.pushes]) ?_
      cases p with
      | none => have : s.head = some ref := hc; simp only [hp, PC.weight, upd_same, this, if_true]; omega
      | some k => simp only [hp, PC.weight, upd_same]; omega
    | atNil v ref p hp hc | found v ref p hp =>
      obtain rfl := who v _ rfl
      refine still rfl (by simp [hp, PC.pushes]) ?_
      cases p <;> simp only [hp, PC.weight, upd_same] <;> (try split) <;> omega
    | lookSome v n hp hc =>
      obtain rfl := who v _ rfl
      have := inv.list.headLt n hc
      exact still rfl (by simp [hp, PC.pushes]) (by simp only [hp, PC.weight, upd_same]; omega)
    | moreNext v n m hp hc =>
      obtain rfl := who v _ rfl
      have := inv.list.desc n m hc
      exact still rfl (by simp [hp, PC.pushes]) (by simp only [hp, PC.weight, upd_same]; omega)
    | call v n last hp =>
      obtain rfl := who v _ rfl
      cases last <;> exact still rfl (by simp [hp, PC.pushes]) (by simp [hp, PC.weight])
    | pushFail v e hp hc =>
      obtain rfl := who v _ rfl
      exact still rfl (by simp [hp, PC.pushes]) (by simp [hp, PC.weight, hc])
    | regLoad v hp | lock v _ hp | unlock v _ hp | lookNil v hp | look2 v _ hp | moreNil v _ hp | finish v hp =>
      obtain rfl := who v _ rfl
      exact still rfl (by simp [hp, PC.pushes]) (by simp [hp, PC.weight])
  · intro tr s e s' N h st hN heq
    cases st with
    | pushOk t _ hp => have := congrFun heq t; simp [hp] at this
    | casOk t _ _ _ hp => have := congrFun heq t; simp [hp] at this
    | _ => dsimp only at heq; simp only [pot, most, heq]; exact Nat.le_refl _
  · intro tr s t h ht
    obtain ⟨rt, clk, inv⟩ := inv_exec h
    have holder : ∀ u, (s.pc u).holds = true → ∃ u e s', ¬ s.pc u = .idle ∧ Step s e s' ∧ s'.pc u ≠ s.pc u := by
      intro u hu
      cases hp : s.pc u <;> rw [hp] at hu <;> try cases hu
      case cat ref p =>
        cases hc : s.cell p with
        | none => exact ⟨u, _, _, by simp [hp], .atNil s u ref p hp hc, by simp [hp]⟩
        | some n =>
          by_cases hn : n = ref
          · subst hn
            exact ⟨u, _, _, by simp [hp], .atFound s u n p hp hc, by simp [hp]⟩
          · refine ⟨u, _, _, by simp [hp], .atNext s u ref p n hp hc hn, ?_⟩
            simp only [upd_same, hp, ne_eq, PC.cat.injEq, true_and]
            rintro rfl
            exact absurd (inv.list.desc n n hc) (Nat.lt_irrefl n)
      case cfound ref p => exact ⟨u, _, _, by simp [hp], .found s u ref p hp, by simp [hp]⟩
      case ccas ref p c =>
        by_cases hc : s.cell p = some ref
        · exact ⟨u, _, _, by simp [hp], .casOk s u ref p c hp hc, by simp [hp]⟩
        · exact ⟨u, _, _, by simp [hp], .casFail s u ref p c hp hc, by simp [hp]⟩
      case cdone ref => exact ⟨u, _, _, by simp [hp], .unlock s u ref hp, by simp [hp]⟩
    cases hp : s.pc t with
    | idle => exact absurd hp ht
    | reg => exact ⟨t, _, _, ht, .regLoad s t hp, by simp [hp]⟩
    | push e =>
      by_cases hc : s.head = e
      · exact ⟨t, _, _, ht, .pushOk s t e hp hc, by simp [hp]⟩
      · exact ⟨t, _, _, ht, .pushFail s t e hp hc, by simp [hp]⟩
    | cwait ref =>
      cases hm : s.mtx with
      | none => exact ⟨t, _, _, ht, .lock s t ref hp hm, by simp [hp]⟩
      | some u => exact holder u ((inv.thr.mtx u).1 hm)
    | cat _ _ | cfound _ _ | ccas _ _ _ | cdone _ => exact holder t (by rw [hp]; rfl)
    | look =>
      cases hc : s.head with
      | none => exact ⟨t, _, _, ht, .lookNil s t hp hc, by simp [hp]⟩
      | some n => exact ⟨t, _, _, ht, .lookSome s t n hp hc, by simp [hp]⟩
    | look2 n => exact ⟨t, _, _, ht, .look2 s t n hp, by simp [hp]⟩
    | call n last => exact ⟨t, _, _, ht, .call s t n last hp, by cases last <;> simp [hp]⟩
    | more n =>
      cases hc : s.cdr n with
      | none => exact ⟨t, _, _, ht, .moreNil s t n hp hc, by simp [hp]⟩
      | some m => exact ⟨t, _, _, ht, .moreNext s t n m hp hc, by simp [hp]⟩
    | fin => exact ⟨t, _, _, ht, .finish s t hp, by simp [hp]⟩

/-- Non-vacuity: goroutine 0 has lost the race for the head to goroutine 1; goroutine 2 is cancelling observer 0 and has to start again; goroutine 3 waits for its lock. -/
example : ∃ tr s, Exec Step init tr s ∧ s.pc 0 = .push (some 0) ∧ s.head = some 1 ∧ s.pc 2 = .ccas 0 none none ∧ s.pc 3 = .cwait 0 ∧ s.mtx = some 2 := by
  have e := Exec.start (step := Step) (s₀ := init)
  have e := e.step _ (.regCall _ 1 rfl)
  have e := e.step _ (.regLoad _ 1 rfl)
  have e := e.step _ (.pushOk _ 1 none rfl rfl)
  have e := e.step _ (.regCall _ 0 rfl)
  have e := e.step _ (.regLoad _ 0 rfl)
  have e := e.step _ (.cancel _ 3 0 rfl (by decide))
  have e := e.step _ (.cancel _ 2 0 rfl (by decide))
  have e := e.step _ (.lock _ 2 0 rfl rfl)
  have e := e.step _ (.atFound _ 2 0 none rfl rfl)
  have e := e.step _ (.found _ 2 0 none rfl)
  have e := e.step _ (.regCall _ 1 rfl)
  have e := e.step _ (.regLoad _ 1 rfl)
  have e := e.step _ (.pushOk _ 1 (some 0) rfl rfl)
  exact ⟨_, _, e, rfl, rfl, rfl, rfl, rfl⟩

end Monkit.Observers
