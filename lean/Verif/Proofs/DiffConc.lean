import Verif.Spec.DiffConc
import Verif.Proofs.Meter

/-! # Lemmas on DiffMeters whose meters are in use -/

namespace Monkit.DiffConc
open Go Spec Monkit.Spec

theorem called_append (t i : Nat) (a b : List Event) : called t i (a ++ b) = called t i a ++ called t i b := by
  simp [called]

theorem returned_append (t i : Nat) (a b : List Event) : returned t i (a ++ b) = returned t i a ++ returned t i b := by
  simp [returned]

theorem by_append (t : Nat) (a b : List (Nat × Meter.Op)) : by_ t (a ++ b) = by_ t a ++ by_ t b := by
  simp [by_]

theorem called_mono {t i : Nat} {a b : List Event} (h : a <+: b) : called t i a <+: called t i b := h.filterMap _

theorem returned_mono {t i : Nat} {a b : List Event} (h : a <+: b) : returned t i a <+: returned t i b := h.filterMap _

theorem timeAfter_time (a : List Event) (n : Int) : timeAfter (a ++ [.time n]) = n := by
  simp [timeAfter]

/-- A change called but not yet in effect. -/
def pend : Pc → Nat → List Meter.Op
  | .change i o, j => if i = j then [o] else []
  | _, _ => []

/-- A change in effect that has not returned. -/
def out : Pc → Nat → List Meter.Op
  | .ret (.change i o) _, j => if i = j then [o] else []
  | _, _ => []

structure I (key : Nat → Key) (born : Nat → Int) (tr : List Event) (s : State) : Prop where
  met : ∀ i, Meter.Inv (key i) (logOf (born i) ((s.hist i).map (·.2))) (s.meter i)
  calls : ∀ t i, called t i tr = by_ t (s.hist i) ++ pend (s.pc t) i
  rets : ∀ t i, by_ t (s.hist i) = returned t i tr ++ out (s.pc t) i
  clock : s.clock = timeAfter tr
  ok : ∀ t i o res, s.pc t = .ret (.change i o) res → res = some []

theorem timeAfter_call (tr : List Event) (t op) : timeAfter (tr ++ [.call t op]) = timeAfter tr := by simp [timeAfter]
theorem timeAfter_ret (tr : List Event) (t op r) : timeAfter (tr ++ [.ret t op r]) = timeAfter tr := by simp [timeAfter]

theorem inv {key born tr s} (h : Exec Step (init key born) tr s) : I key born tr s := by
  refine Exec.induct (I key born) ⟨fun i => Meter.inv_init _ _, fun _ _ => rfl, fun _ _ => rfl, rfl, fun _ _ _ _ h => by cases h⟩ ?_ h
  intro tr s e s' hi st
  obtain ⟨h1, h2, h3, h4, h5⟩ := hi
  cases st
  case time n hn =>
    refine ⟨h1, ?_, ?_, (timeAfter_time _ _).symm, h5⟩
    · intro t i; rw [Option.toList, called_append, h2]; simp [called]
    · intro t i; rw [Option.toList, returned_append, h3]; simp [returned]
  case callChange t i o hp =>
    refine ⟨h1, ?_, ?_, by rw [Option.toList, timeAfter_call]; exact h4, ?_⟩
    · intro t' j
      have := h2 t' j
      rw [Option.toList, called_append, this]
      by_cases ht : t' = t
      · subst ht; simp [called, hp, pend]; split <;> simp_all
      · simp [called, upd, ht, Ne.symm ht]
    · intro t' j
      rw [Option.toList, returned_append, h3]
      by_cases ht : t' = t
      · subst ht; simp [returned, hp, out]
      · simp [returned, upd, ht]
    · intro t' j o' res; simp only [upd]; split
      · intro h; cases h
      · exact h5 t' j o' res
  case callStats t k a b hp =>
    refine ⟨h1, ?_, ?_, by rw [Option.toList, timeAfter_call]; exact h4, ?_⟩
    · intro t' j
      rw [Option.toList, called_append, h2]
      by_cases ht : t' = t
      · subst ht; simp [called, hp, pend]
      · simp [called, upd, ht]
    · intro t' j
      rw [Option.toList, returned_append, h3]
      by_cases ht : t' = t
      · subst ht; simp [returned, hp, out]
      · simp [returned, upd, ht]
    · intro t' j o' res; simp only [upd]; split
      · intro h; cases h
      · exact h5 t' j o' res
  case change t i o m hp hm =>
    refine ⟨?_, ?_, ?_, by simpa using h4, ?_⟩
    · intro j
      simp only [upd]
      split
      · rename_i hj; subst hj
        obtain ⟨e', he, hi⟩ := Meter.inv_step (h1 j) o
        rw [hm] at he; cases he
        simpa [logOf] using hi
      · exact h1 j
    · intro t' j
      rw [Option.toList, List.append_nil, h2]
      dsimp only
      by_cases ht : t' = t
      · subst ht
        rw [hp, upd_same]
        by_cases hj : j = i
        · subst hj; rw [upd_same, by_append]; simp [pend, by_]
        · simp [pend, upd, hj, Ne.symm hj]
      · rw [upd_other _ _ ht]
        by_cases hj : j = i
        · subst hj; rw [upd_same, by_append]; simp [by_, Ne.symm ht]
        · simp [upd, hj]
    · intro t' j
      have h := h3 t' j
      rw [Option.toList, List.append_nil]
      dsimp only
      by_cases ht : t' = t
      · subst ht
        rw [hp] at h
        by_cases hj : j = i
        · subst hj; rw [upd_same, upd_same, by_append, h]; simp [out, by_]
        · rw [upd_same, upd_other _ _ hj, h]; simp [out, Ne.symm hj]
      · rw [upd_other _ _ ht]
        by_cases hj : j = i
        · subst hj; rw [upd_same, by_append, h]; simp [by_, Ne.symm ht]
        · rw [upd_other _ _ hj, h]
    · intro t' j o' res; simp only [upd]; split
      · intro h; cases h; rfl
      · exact h5 t' j o' res
  case changePanic t i o hp hm =>
    obtain ⟨e', he, hi⟩ := Meter.inv_step (h1 i) o
    rw [hm] at he; cases he
  case ret t op res hp =>
    refine ⟨h1, ?_, ?_, by rw [Option.toList, timeAfter_ret]; exact h4, ?_⟩
    · intro t' j
      rw [Option.toList, called_append, h2]
      by_cases ht : t' = t
      · subst ht; simp [called, hp, pend]
      · simp [called, upd, ht]
    · intro t' j
      rw [Option.toList, returned_append, h3]
      by_cases ht : t' = t
      · subst ht
        cases op with
        | change i o => simp [returned, hp, out]; split <;> simp_all
        | stats k a b => simp [returned, hp, out]
      · cases op with
        | change i o => simp [returned, upd, ht, Ne.symm ht]
        | stats k a b => simp [returned, upd, ht]
    · intro t' j o' res; simp only [upd]; split
      · intro h; cases h
      · exact h5 t' j o' res
  all_goals
    refine ⟨h1, ?_, ?_, by simpa using h4, ?_⟩
    · intro t' j
      rw [Option.toList, List.append_nil, h2]
      simp only [upd]; split
      · simp_all [pend]
      · rfl
    · intro t' j
      rw [Option.toList, List.append_nil, h3]
      simp only [upd]; split
      · simp_all [out]
      · rfl
    · intro t' j o' res; simp only [upd]; split
      · intro h; cases h
      · exact h5 t' j o' res

theorem I.between {key born tr s} (h : I key born tr s) (i : Nat) : Between (s.hist i) i tr := by
  intro t
  exact ⟨⟨_, (h.rets t i).symm⟩, ⟨_, (h.calls t i).symm⟩⟩

theorem hist_step {s e s'} (st : Step s e s') (i : Nat) : s.hist i <+: s'.hist i := by
  cases st <;> try exact List.prefix_rfl
  case change t j o m hp hm =>
    simp only [upd]; split
    · rename_i h; subst h; exact ⟨_, rfl⟩
    · exact List.prefix_rfl

theorem hist_exec {s tr s'} (h : Exec Step s tr s') (i : Nat) : s.hist i <+: s'.hist i := by
  induction h with
  | start => exact List.prefix_rfl
  | step e _ st ih => exact ih.trans (hist_step st i)

/-- The moments of a report in progress. -/
structure Open (tr : List Event) (t : Nat) (op : Op) (c : List Event) : Prop where
  open_ : ∃ p m, tr = p ++ .call t op :: m ∧ (∀ e ∈ m, NotBy t e) ∧ p ++ [.call t op] <+: c
  le : c <+: tr

theorem Open.mono {tr t op c c'} (h : Open tr t op c) (h1 : c <+: c') (h2 : c' <+: tr) : Open tr t op c' := by
  obtain ⟨⟨p, m, a, b, d⟩, e⟩ := h
  exact ⟨⟨p, m, a, b, d.trans h1⟩, h2⟩

theorem Open.grow {tr t op c} (h : Open tr t op c) (e : Option Event) (he : ∀ x, e = some x → NotBy t x) :
    Open (tr ++ e.toList) t op c := by
  obtain ⟨⟨p, m, a, b, d⟩, f⟩ := h
  refine ⟨⟨p, m ++ e.toList, by rw [a]; simp, ?_, d⟩, f.trans ⟨_, rfl⟩⟩
  intro x hx
  rw [List.mem_append] at hx
  rcases hx with hx | hx
  · exact b x hx
  · exact he x (by simpa using hx)

/-- What is known of a report in progress. -/
def Prog (born : Nat → Int) (tr : List Event) (hist : Nat → List (Nat × Meter.Op)) (t : Nat) : Pc → Prop
  | .stats k a b => Open tr t (.stats k a b) tr
  | .read1 k a b now => ∃ c0, Open tr t (.stats k a b) c0 ∧ now = timeAfter c0
  | .read2 k a b now r n => ∃ c0 c1 ha, Open tr t (.stats k a b) c0 ∧ now = timeAfter c0 ∧ c0 <+: c1 ∧ c1 <+: tr ∧
      ha <+: hist a ∧ Between ha a c1 ∧ r = rate (born a) ha now ∧ n.toInt = total (born a) ha
  | .ret (.stats k a b) res => ∃ c0 c1 c2 ha hb d, Open tr t (.stats k a b) c0 ∧ c0 <+: c1 ∧ c1 <+: c2 ∧ c2 <+: tr ∧
      ha <+: hist a ∧ hb <+: hist b ∧ Between ha a c1 ∧ Between hb b c2 ∧
      d.toInt = wrap64 (total (born a) ha - total (born b) hb) ∧ res = report k born a b ha hb (timeAfter c0) d
  | _ => True

theorem Open.ext {tr t op} (h : Open tr t op tr) (e : Option Event) (he : ∀ x, e = some x → NotBy t x) :
    Open (tr ++ e.toList) t op (tr ++ e.toList) := (h.grow e he).mono ⟨_, rfl⟩ List.prefix_rfl

theorem Prog.grow {born tr hist hist' t p} (h : Prog born tr hist t p) (e : Option Event) (he : ∀ x, e = some x → NotBy t x)
    (hh : ∀ i, hist i <+: hist' i) : Prog born (tr ++ e.toList) hist' t p := by
  have g : tr <+: tr ++ e.toList := ⟨_, rfl⟩
  cases p with
  | stats k a b => exact Open.ext h e he
  | read1 k a b now =>
    obtain ⟨c0, h1, h2⟩ := h
    exact ⟨c0, h1.grow e he, h2⟩
  | read2 k a b now r n =>
    obtain ⟨c0, c1, ha, h1, h2, h3, h4, h5, h6⟩ := h
    exact ⟨c0, c1, ha, h1.grow e he, h2, h3, h4.trans g, h5.trans (hh _), h6⟩
  | ret op res =>
    cases op with
    | change => trivial
    | stats k a b =>
      obtain ⟨c0, c1, c2, ha, hb, d, h1, h2, h3, h4, h5, h6, h7⟩ := h
      exact ⟨c0, c1, c2, ha, hb, d, h1.grow e he, h2, h3, h4.trans g, h5.trans (hh _), h6.trans (hh _), h7⟩
  | _ => trivial

theorem stats_total {key born tr s} (h : I key born tr s) (i : Nat) (now : Int) :
    ∃ n : Int64, (s.meter i).statsAt now = some (rate (born i) (s.hist i) now, n) ∧ n.toInt = total (born i) (s.hist i) := by
  obtain ⟨n, h1, h2⟩ := (h.met i).stats now
  exact ⟨n, h1, h2⟩

theorem prog {key born tr s} (h : Exec Step (init key born) tr s) : ∀ t, Prog born tr s.hist t (s.pc t) := by
  induction h with
  | start => intro t; trivial
  | @step tr s s' e h st ih =>
    intro t'
    have hi := inv h
    have hh := hist_step st
    cases st
    case time n hn => exact (ih t').grow (some _) (by rintro x ⟨⟩; trivial) hh
    case callChange t i o hp =>
      simp only [upd]; split
      · trivial
      · rename_i ht; exact (ih t').grow (some _) (by rintro x ⟨⟩; exact Ne.symm ht) hh
    case callStats t k a b hp =>
      simp only [upd]; split
      · rename_i ht; subst ht
        exact ⟨⟨tr, [], rfl, by simp, List.prefix_rfl⟩, List.prefix_rfl⟩
      · rename_i ht; exact (ih t').grow (some _) (by rintro x ⟨⟩; exact Ne.symm ht) hh
    case change t i o m hp hm =>
      simp only [upd]; split
      · trivial
      · exact (ih t').grow none (by rintro x ⟨⟩) hh
    case changePanic t i o hp hm =>
      obtain ⟨e', he, hi⟩ := Meter.inv_step (hi.met i) o
      rw [hm] at he; cases he
    case clock t k a b hp =>
      have h0 := ih t'
      simp only [upd]; split
      · rename_i ht; subst ht
        rw [hp] at h0
        rw [Option.toList, List.append_nil]
        exact ⟨tr, h0, hi.clock⟩
      · exact h0.grow none (by rintro x ⟨⟩) hh
    case read1 t k a b now r n hp hs =>
      have h0 := ih t'
      simp only [upd]; split
      · rename_i ht; subst ht
        rw [hp] at h0
        obtain ⟨c0, h1, h2⟩ := h0
        obtain ⟨n', g1, g2⟩ := stats_total hi a now
        rw [hs] at g1; cases g1
        rw [Option.toList, List.append_nil]
        exact ⟨c0, tr, s.hist a, h1, h2, h1.le, List.prefix_rfl, List.prefix_rfl, hi.between a, rfl, g2⟩
      · exact h0.grow none (by rintro x ⟨⟩) hh
    case read1Panic t k a b now hp hs =>
      obtain ⟨n', g1, g2⟩ := stats_total hi a now
      rw [hs] at g1; cases g1
    case read2 t k a b now r1 n1 r n hp hs =>
      have h0 := ih t'
      simp only [upd]; split
      · rename_i ht; subst ht
        rw [hp] at h0
        obtain ⟨c0, c1, ha, h1, h2, h3, h4, h5, h6, h7, h8⟩ := h0
        obtain ⟨n', g1, g2⟩ := stats_total hi b now
        rw [hs] at g1; cases g1
        rw [Option.toList, List.append_nil]
        refine ⟨c0, c1, tr, ha, s.hist b, n1 - n, h1, h3, h4, List.prefix_rfl, h5, List.prefix_rfl, h6, hi.between b, ?_, ?_⟩
        · rw [← h8, ← g2]; exact Int64.toInt_sub _ _
        · rw [report, h7, h2]
      · exact h0.grow none (by rintro x ⟨⟩) hh
    case read2Panic t k a b now r1 n1 hp hs =>
      obtain ⟨n', g1, g2⟩ := stats_total hi b now
      rw [hs] at g1; cases g1
    case ret t op res hp =>
      simp only [upd]; split
      · trivial
      · rename_i ht; exact (ih t').grow (some _) (by rintro x ⟨⟩; exact Ne.symm ht) hh

theorem take_of_prefix {α} {a b : List α} (h : a <+: b) : b.take a.length = a := by
  obtain ⟨c, rfl⟩ := h; simp

end Monkit.DiffConc
