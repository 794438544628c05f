import Verif.Proofs.Ticker

/-!
# C81: every meter is moved on, by one goroutine

Executions are arbitrary schedules of any number of goroutines making meters and of the ticker's own goroutine.
-/

namespace Monkit.Ticker
open Go Monkit.Spec.Ticker

/-- **C81.** However many goroutines make their first meters at the same time, the ticker starts one goroutine and no more, and it has been started
when the first `NewMeter` returns; everything the ticker does is done by that goroutine. -/
theorem C81_one_goroutine (tr : List Event) (s : State) (h : Exec Step init tr s) :
    spawns tr ≤ 1 ∧ (∀ m, Made m tr → spawns tr = 1) ∧
    ∀ r, (Event.wake r ∈ tr ∨ Event.sleep r ∈ tr ∨ (∃ now, Event.clock r now ∈ tr) ∨ ∃ m now, Event.tick r m now ∈ tr) → r = 0 := by
  have hi := inv_exec h
  refine ⟨by rw [hi.spawned]; exact hi.le_one, fun m hm => by rw [hi.spawned]; exact hi.some1 m (hi.ret m hm), fun r hr => ?_⟩
  have key : ∀ e ∈ tr, (e = .wake r ∨ e = .sleep r ∨ (∃ now, e = .clock r now) ∨ ∃ m now, e = .tick r m now) → r = 0 := by
    intro e he hk
    obtain ⟨a, b, rfl⟩ := List.append_of_mem he
    obtain ⟨s1, s2, h1, st, _⟩ := h.split a e b rfl
    have hi1 := inv_exec h1
    have hlt : s1.run r ≠ .none → r = 0 := fun hne => by
      have := (hi1.runs r).1 hne
      have := hi1.le_one
      omega
    apply hlt
    rcases hk with rfl | rfl | ⟨now, rfl⟩ | ⟨m, now, rfl⟩
    · cases st with | wake _ hr => simp [hr]
    · cases st with | sleep _ _ _ _ hr => simp [hr]
    · cases st with | clock _ _ _ hr => simp [hr]
    · cases st with | tick _ _ _ _ _ hr => simp [hr]
  rcases hr with hr | hr | ⟨now, hr⟩ | ⟨m, now, hr⟩
  · exact key _ hr (Or.inl rfl)
  · exact key _ hr (Or.inr (Or.inl rfl))
  · exact key _ hr (Or.inr (Or.inr (Or.inl ⟨now, rfl⟩)))
  · exact key _ hr (Or.inr (Or.inr (Or.inr ⟨m, now, rfl⟩)))

/-- **C81.** In every round, from waking up to going to sleep, the ticker reads the clock once and ticks with that time: every meter whose
`NewMeter` had returned when the round began, and no meter more than once, whatever other goroutines add in the meantime. -/
theorem C81_round (p q : List Event) (r r' : Nat) (s : State) (h : Exec Step init (p ++ .wake r :: q ++ [.sleep r']) s)
    (hq : ∀ e ∈ q, edge e = false) :
    (∀ m, Made m p → m ∈ ticked q) ∧ (ticked q).Nodup ∧ ∃ now, clocks q = [now] ∧ ∀ x ∈ times q, x = now := by
  obtain ⟨s1, s2, h1, st, _⟩ := h.split (p ++ .wake r :: q) (.sleep r') [] (by simp)
  have hi := inv_exec h1
  cases st with
  | sleep _ hd i now hrun all =>
    have hr := hi.round r'
    rw [hrun] at hr
    obtain ⟨p', q', hc, g1, g2, g3, _, g4, g5, g6, g7⟩ := hr
    obtain ⟨rfl, rfl⟩ := hc.unique (p' := p) (q' := q) ⟨⟨r, rfl⟩, hq⟩
    have hall : ticked q' = s1.view hd := by
      rw [g1, all]
      exact List.take_of_length_le (by simp only [State.view, List.length_take]; omega)
    rw [hall]
    exact ⟨g6, g5, now, g2, fun x hx => by rw [g3] at hx; exact (List.mem_replicate.1 hx).2⟩

theorem cur_snoc {p q tr : List Event} {e : Event} (h : Cur p q (tr ++ [e])) :
    (∃ r, e = .wake r) ∨ (edge e = false ∧ ∃ q', Cur p q' tr) := by
  obtain ⟨⟨r, he⟩, hq⟩ := h
  rcases List.eq_nil_or_concat q with rfl | ⟨q', x, rfl⟩
  · have := List.append_inj' he rfl
    exact Or.inl ⟨r, by simpa using this.2⟩
  · rw [List.concat_eq_append] at he hq
    have he' : tr ++ [e] = (p ++ .wake r :: q') ++ [x] := by simpa using he
    obtain ⟨h1, h2⟩ := List.append_inj' he' rfl
    cases h2
    exact Or.inr ⟨hq _ (by simp), q', ⟨r, h1⟩, fun y hy => hq y (by simp [hy])⟩

/-- Between waking up and going to sleep some goroutine of `run` is in its round. -/
theorem in_round {tr : List Event} {s : State} (h : Exec Step init tr s) :
    (∃ p q, Cur p q tr) → ∃ r, s.run r ≠ .none ∧ s.run r ≠ .sleeping := by
  induction h with
  | start => rintro ⟨p, q, ⟨r, h⟩, _⟩; simp at h
  | @step tr s s' e h st ih =>
    rintro ⟨p, q, hc⟩
    have hrun : ∀ r c, c ≠ RPC.none → c ≠ .sleeping → ∃ r', upd s.run r c r' ≠ .none ∧ upd s.run r c r' ≠ .sleeping :=
      fun r c h1 h2 => ⟨r, by simpa using h1, by simpa using h2⟩
    have hold : ∀ x, e = some x → (∀ r, x ≠ .wake r) → ∃ r, s.run r ≠ .none ∧ s.run r ≠ .sleeping := by
      rintro x rfl hx
      rcases cur_snoc hc with ⟨r, rfl⟩ | ⟨_, q', hc'⟩
      · exact absurd rfl (hx r)
      · exact ih ⟨p, q', hc'⟩
    have hnone : e = none → ∃ r, s.run r ≠ .none ∧ s.run r ≠ .sleeping := by
      rintro rfl
      exact ih ⟨p, q, by simpa using hc⟩
    cases st with
    | make => exact hold _ rfl (by simp)
    | lock => exact hnone rfl
    | already => exact hnone rfl
    | start => exact hnone rfl
    | spawn t m ht =>
      obtain ⟨r, h1, h2⟩ := hold _ rfl (by simp)
      have hne : r ≠ s.nrun := fun e => by
        have := ((inv_exec h).runs r).1 h1
        omega
      exact ⟨r, by simp only [upd_other _ _ hne]; exact ⟨h1, h2⟩⟩
    | append => exact hnone rfl
    | grow => exact hnone rfl
    | unlock => exact hold _ rfl (by simp)
    | wake r => exact hrun r _ (by simp) (by simp)
    | rlock r => exact hrun r _ (by simp) (by simp)
    | load r => exact hrun r _ (by simp) (by simp)
    | runlock r => exact hrun r _ (by simp) (by simp)
    | clock r => exact hrun r _ (by simp) (by simp)
    | tick r => exact hrun r _ (by simp) (by simp)
    | sleep r =>
      rcases cur_snoc hc with ⟨r, h⟩ | ⟨h, _⟩
      · cases h
      · simp [edge] at h

theorem begun_split {m r : Nat} {p q : List Event} (h : Begun m (p ++ .wake r :: q)) : Begun m (p ++ q) := by
  obtain ⟨t, h⟩ := h
  exact ⟨t, by simpa using h⟩

/-- **C81.** At every moment: no meter has been ticked twice since the last round began, and only meters that someone has begun to make. -/
theorem C81_at_most_once (p q : List Event) (r : Nat) (s : State) (h : Exec Step init (p ++ .wake r :: q) s) (hq : ∀ e ∈ q, edge e = false) :
    (ticked q).Nodup ∧ ∀ m ∈ ticked q, Begun m (p ++ q) := by
  have hi := inv_exec h
  have hcur : Cur p q (p ++ .wake r :: q) := ⟨⟨r, rfl⟩, hq⟩
  obtain ⟨r', h1, h2⟩ := in_round h ⟨p, q, hcur⟩
  have hr := hi.round r'
  have hnil : ticked q = [] → (ticked q).Nodup ∧ ∀ m ∈ ticked q, Begun m (p ++ q) := fun e => by rw [e]; simp
  cases hc : s.run r' with
  | none => exact absurd hc h1
  | sleeping => exact absurd hc h2
  | waiting =>
    rw [hc] at hr
    obtain ⟨p', q', c, g1, _⟩ := hr
    obtain ⟨rfl, rfl⟩ := c.unique hcur
    exact hnil g1
  | loading =>
    rw [hc] at hr
    obtain ⟨p', q', c, g1, _⟩ := hr
    obtain ⟨rfl, rfl⟩ := c.unique hcur
    exact hnil g1
  | loaded hd =>
    rw [hc] at hr
    obtain ⟨p', q', c, g1, _⟩ := hr
    obtain ⟨rfl, rfl⟩ := c.unique hcur
    exact hnil g1
  | clock hd =>
    rw [hc] at hr
    obtain ⟨p', q', c, g1, _⟩ := hr
    obtain ⟨rfl, rfl⟩ := c.unique hcur
    exact hnil g1
  | walking hd i now =>
    rw [hc] at hr
    obtain ⟨p', q', c, g1, g2, g3, _, g4, g5, g6, g7⟩ := hr
    obtain ⟨rfl, rfl⟩ := c.unique hcur
    rw [g1]
    exact ⟨g5.sublist (List.take_sublist _ _), fun m hm => begun_split (hi.begun m (g7 m ((List.take_sublist _ _).subset hm)))⟩

/-- Whether a goroutine that makes a meter can make a step of its call, or the ticker's goroutine one of its round. -/
def Moves (s : State) : Prop :=
  ∃ e s', Step s e s' ∧ (∀ t m, e ≠ some (.make t m)) ∧ ∀ r, e ≠ some (.wake r)

/-- **C81.** `NewMeter` never blocks for good, and the ticker's goroutine never dies: at every moment with a call of `NewMeter` unfinished, one of
the calls, or the ticker in its critical section, can go on; a goroutine of the ticker can always go on, unless it waits for the mutex and its
holder can go on; in particular walking over the slice never runs out of its array. -/
theorem C81_progress (tr : List Event) (s : State) (h : Exec Step init tr s) :
    (∀ t, s.thr t ≠ .idle → Moves s) ∧ ∀ r, s.run r ≠ .none → s.run r ≠ .sleeping → Moves s := by
  have hi := inv_exec h
  have hmaker : ∀ t, (s.thr t).crit = true → Moves s := by
    intro t hc
    cases ht : s.thr t with
    | idle => rw [ht] at hc; cases hc
    | waiting m => rw [ht] at hc; cases hc
    | testing m =>
      cases hs : s.started
      · exact ⟨_, _, .start s t m ht hs, by simp, by simp⟩
      · exact ⟨_, _, .already s t m ht hs, by simp, by simp⟩
    | spawning m => exact ⟨_, _, .spawn s t m ht, by simp, by simp⟩
    | appending m =>
      rcases Nat.lt_or_ge s.meters.len s.meters.cap with hl | hl
      · exact ⟨_, _, .append s t m ht hl, by simp, by simp⟩
      · exact ⟨_, _, .grow s t m [] ht (Nat.le_antisymm hi.len hl), by simp, by simp⟩
    | added m => exact ⟨_, _, .unlock s t m ht, by simp, by simp⟩
  have hrunner : ∀ r, (s.run r).crit = true → Moves s := by
    intro r hc
    cases hr : s.run r with
    | loading => exact ⟨_, _, .load s r hr, by simp, by simp⟩
    | loaded hd => exact ⟨_, _, .runlock s r hd hr, by simp, by simp⟩
    | _ => rw [hr] at hc; cases hc
  have hheld : ∀ w, s.holder = some w → Moves s := by
    intro w hw
    cases w with
    | maker t => exact hmaker t ((hi.hold t).2 hw)
    | runner r => exact hrunner r ((hi.rhold r).2 hw)
  constructor
  · intro t ht
    cases hc : s.thr t with
    | idle => exact absurd hc ht
    | waiting m =>
      cases hh : s.holder with
      | none => exact ⟨_, _, .lock s t m hc hh, by simp, by simp⟩
      | some w => exact hheld w hh
    | _ => exact hmaker t (by rw [hc]; rfl)
  · intro r h1 h2
    cases hc : s.run r with
    | none => exact absurd hc h1
    | sleeping => exact absurd hc h2
    | waiting =>
      cases hh : s.holder with
      | none => exact ⟨_, _, .rlock s r hc hh, by simp, by simp⟩
      | some w => exact hheld w hh
    | loading => exact hrunner r (by rw [hc]; rfl)
    | loaded hd => exact hrunner r (by rw [hc]; rfl)
    | clock hd => exact ⟨_, _, .clock s r hd 0 hc, by simp, by simp⟩
    | walking hd i now =>
      have hr := hi.round r
      rw [hc] at hr
      obtain ⟨p, q, _, _, _, _, hle, hst, _⟩ := hr
      rcases Nat.lt_or_ge i hd.len with hl | hl
      · have hlt := Nat.lt_of_lt_of_le hl hst.long
        exact ⟨_, _, .tick s r hd i _ now hc hl (List.getElem?_eq_getElem hlt), by simp, by simp⟩
      · exact ⟨_, _, .sleep s r hd i now hc (Nat.le_antisymm hle hl), by simp, by simp⟩

/-- The hypotheses are met: two meters are made, the second one while the ticker walks over the array they share. -/
example : ∃ s, Exec Step init ([.make 0 7, .make 1 8, .spawn 0, .made 0 7] ++ .wake 0 :: [.clock 0 10, .made 1 8, .tick 0 7 10] ++ [.sleep 0]) s := by
  have e := Exec.start (step := Step) (s₀ := init)
  have e := Exec.step _ e (.make _ 0 7 rfl rfl)
  have e := Exec.step _ e (.make _ 1 8 rfl rfl)
  have e := Exec.step _ e (.lock _ 0 7 rfl rfl)
  have e := Exec.step _ e (.start _ 0 7 rfl rfl)
  have e := Exec.step _ e (.spawn _ 0 7 rfl)
  have e := Exec.step _ e (.grow _ 0 7 [0] rfl rfl)
  have e := Exec.step _ e (.unlock _ 0 7 rfl)
  have e := Exec.step _ e (.wake _ 0 rfl)
  have e := Exec.step _ e (.rlock _ 0 rfl rfl)
  have e := Exec.step _ e (.load _ 0 rfl)
  have e := Exec.step _ e (.runlock _ 0 _ rfl)
  have e := Exec.step _ e (.clock _ 0 _ 10 rfl)
  have e := Exec.step _ e (.lock _ 1 8 rfl rfl)
  have e := Exec.step _ e (.already _ 1 8 rfl rfl)
  have e := Exec.step _ e (.append _ 1 8 rfl (by decide))
  have e := Exec.step _ e (.unlock _ 1 8 rfl)
  have e := Exec.step _ e (.tick _ 0 _ 0 7 10 rfl (by decide) rfl)
  have e := Exec.step _ e (.sleep _ 0 _ 1 10 rfl rfl)
  exact ⟨_, e⟩

end Monkit.Ticker
