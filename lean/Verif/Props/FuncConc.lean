import Verif.Proofs.FuncConc
import Verif.Proofs.FuncConc2

/-!
# C98: the statistics of a function under concurrent use

`Reach K next name kind s s'`: any interleaving of any number of monitored calls, `Reset`s and `Stats`, as `kind` says, leads from `s` to `s'`.
-/

namespace Monkit.FuncConc
open Go Monkit.Spec
open Monkit.FuncStats (Op run)

variable {G E : Type} {K : DistKind Int64 ℚ} {next : G → UInt64 × G} {name : E → Str} {kind : Nat → Kind E}

theorem stats_with (g : FuncStats G) (c h : Int64) (ord : Map Str Int64) (x y : G) :
    FuncStats.stats K { g with current := c, highwater := h } ord x y =
      (FuncStats.stats K g ord x y).map fun l => (g.key, b!"current", .int c) :: (g.key, b!"highwater", .int h) :: l.drop 2 := by
  unfold FuncStats.stats
  simp only [Option.bind_eq_bind]
  cases (g.success.copy x).stats K with
  | none => rfl
  | some a =>
    cases (g.failure.copy y).stats K with
    | none => rfl
    | some b => rfl

theorem history_length (kind : Nat → Kind E) (log : List Nat) : (history kind log).length ≤ log.length := by
  induction log with
  | nil => simp [history]
  | cons n l ih =>
    have : ((kind n).op).length ≤ 1 := by cases kind n <;> simp [Kind.op]
    simp only [history, List.flatMap_cons, List.length_append, List.length_cons] at ih ⊢
    omega

theorem log_bound {key : Key} {g1 g2 : G} {s : State G} (h : Reach K next name kind (init K key g1 g2) s) {N : Nat} (hN : ∀ n, N ≤ n → s.pc n = .new) :
    s.log.length ≤ N := by
  obtain ⟨i, _⟩ := reach_inv h
  have : s.log ⊆ List.range N := by
    intro n hn
    rw [List.mem_range]
    by_contra hc
    have := ((i.logM n).1 hn).2
    rw [hN n (by omega)] at this
    cases this
  simpa using (i.logN.subperm this).length_le

theorem log_bound' {key : Key} {g1 g2 : G} {s : State G} (h : Reach K next name kind (init K key g1 g2) s) {N : Nat} (hN : ∀ n, N ≤ n → s.pc n = .new)
    {log : List Nat} (hl : log <+: s.log) : (history kind log).length ≤ N :=
  (history_length kind log).trans (hl.length_le.trans (log_bound h hN))

/-- **C98**, order: the `log` of a state, the order in which calls of `end` and `Reset` take effect, holds each of them once: all that have returned, and only such as
have been called; later ones are added at its end. -/
theorem C98_order {key : Key} {g1 g2 : G} {s s' : State G} (h : Reach K next name kind (init K key g1 g2) s) (h' : Reach K next name kind s s') :
    s.log <+: s'.log ∧ s'.log.Nodup ∧
    (∀ n, kind n ≠ .report → Returned (s.pc n) → n ∈ s.log) ∧ (∀ n ∈ s.log, kind n ≠ .report ∧ Called (s.pc n)) := by
  obtain ⟨i, _⟩ := reach_inv h
  obtain ⟨i', _⟩ := reach_inv (h.trans h')
  refine ⟨log_reach h', i'.logN, fun n hk hn => (i.logM n).2 ⟨hk, ?_⟩, fun n hn => ⟨((i.logM n).1 hn).1, ?_⟩⟩
  · revert hn; cases s.pc n <;> simp [Returned, PC.done]
  · have := ((i.logM n).1 hn).2
    revert this; cases s.pc n <;> simp [Called, PC.done]

/-- **C98**, reports: what `Stats` reports is right for the calls of `end` and `Reset` that took effect before it, which include all that returned before it was
called, and only such as were called before it returned.  With `obs` the calls ended since the last `Reset` among them: successes, errors and panics are their
numbers, `total` is the number of all, every name of an error has its own number; the distributions are those of the durations (C17). -/
theorem C98_report {oob fused} (hK : IsIntKind K oob fused) (key : Key) (g1 g2 : G) {s1 s2 : State G}
    (h1 : Reach K next name kind (init K key g1 g2) s1) (m : Nat) (hm : kind m = .report) (hnew : s1.pc m = .new)
    (h2 : Reach K next name kind s1 s2) (rep : Report) (hrep : s2.pc m = .over rep)
    (N : Nat) (hN : ∀ n, N ≤ n → s2.pc n = .new) (hlt : N < 2 ^ 63) :
    ∃ log, s1.log <+: log ∧ log <+: s2.log ∧
      let obs := finishedObs (history kind log)
      ∃ (c h S E P F T : Int64) (ord : Map Str Int64) (r1 r2 : Report),
        S.toInt = obs.countP (·.1.isSuccess) ∧ E.toInt = obs.countP (·.1.isError) ∧ P.toInt = obs.countP (·.1.isPanic) ∧
        F.toInt = E.toInt + P.toInt ∧ T.toInt = S.toInt + F.toInt ∧ T.toInt = obs.length ∧
        (ord.map (·.1)).Nodup ∧ (∀ n, n ∈ ord.map (·.1) ↔ obs.countP (·.1.named name n) ≠ 0) ∧
        (∀ n c, (n, c) ∈ ord → c.toInt = obs.countP (·.1.named name n)) ∧
        (∃ f x y d1 d2, (FuncStats.new K key g1 g2).run K next name (history kind log) = some f ∧
          (f.success.copy x).stats K = some (d1, r1) ∧ (f.failure.copy y).stats K = some (d2, r2)) ∧
        rep = [(key, b!"current", .int c), (key, b!"highwater", .int h), (key, b!"successes", .int S)] ++
          ord.map (fun x => (key.withTag b!"error_name" x.1, b!"count", .int x.2)) ++
          [(key, b!"errors", .int E), (key, b!"panics", .int P), (key, b!"failures", .int F), (key, b!"total", .int T)] ++ r1 ++ r2 := by
  obtain ⟨log, g, c, h, ord, x, y, p1, p2, hg, ho, hr⟩ := report_log h1 m hm hnew h2 rep (.inr hrep)
  have hlen : (history kind log).length < 2 ^ 63 := lt_of_le_of_lt (log_bound' (h1.trans h2) hN p2) hlt
  obtain ⟨S, E, P, F, T, r1, r2, a1, a2, a3, a4, a5, a6, a7, a8, a9, ⟨d1, e1⟩, ⟨d2, e2⟩, e⟩ :=
    FuncStats.C17_report hK next name key g1 g2 (history kind log) hlen g hg ord ho x y
  refine ⟨log, p1, p2, c, h, S, E, P, F, T, ord, r1, r2, a1, a2, a3, a4, a5, a6, a7, a8, a9, ⟨g, x, y, d1, d2, hg, e1, e2⟩, ?_⟩
  rw [stats_with, e] at hr
  have hk : g.key = key := by
    unfold FuncStats.stats at e
    simp only [Option.bind_eq_bind, e1, e2, Option.bind_some, Option.some.injEq, List.cons_append, List.cons.injEq, Prod.mk.injEq] at e
    exact e.1.1
  rw [hk] at hr
  simpa using hr.symm

/-- **C98**, no call panics or waits for ever: whoever has the mutex can go on to release it. -/
theorem C98_progress {oob fused} (hK : IsIntKind K oob fused) (key : Key) (g1 g2 : G) {s : State G}
    (h : Reach K next name kind (init K key g1 g2) s) (N : Nat) (hN : ∀ n, N ≤ n → s.pc n = .new) (hlt : N < 2 ^ 63)
    (n : Nat) (hn : s.lock = some n) : ∃ s' rep, Reach K next name kind s s' ∧ s'.lock = none ∧ s'.pc n = .over rep := by
  obtain ⟨i, g, hg, hs⟩ := reach_inv h
  have hin := i.lockL n hn
  have out : ∀ s1 rep, Reach K next name kind s s1 → s1.pc n = .unlock rep → ∃ s' rep, Reach K next name kind s s' ∧ s'.lock = none ∧ s'.pc n = .over rep := by
    intro s1 rep hr hp
    exact ⟨_, rep, .step hr (.unlock s1 n rep hp), rfl, by simp [upd]⟩
  cases hp : s.pc n with
  | unlock rep => exact out s rep .start hp
  | inside c hw =>
    have hl := log_bound h hN
    cases hk : kind n with
    | call e p d w =>
      have hnl : n ∉ s.log := fun hc => by
        have := ((i.logM n).1 hc).2
        rw [hp] at this; cases this
      have hlen : (history kind (s.log ++ [n])).length < 2 ^ 63 := by
        have h1 : (s.log ++ [n]) ⊆ List.range N := by
          intro x hx
          rw [List.mem_range]
          by_contra hc
          rw [List.mem_append, List.mem_singleton] at hx
          rcases hx with hx | rfl
          · have := ((i.logM x).1 hx).2
            rw [hN x (by omega)] at this; cases this
          · rw [hN x (by omega)] at hp; cases hp
        have h2 : (s.log ++ [n]).length ≤ N := by simpa using ((nodup_snoc i.logN hnl).subperm h1).length_le
        exact lt_of_le_of_lt ((history_length kind _).trans h2) hlt
      obtain ⟨g', hg', _⟩ := FuncStats.C17_accounting hK next name key g1 g2 (history kind (s.log ++ [n])) hlen
      rw [history_snoc, FuncStats.run_append, hg, hk] at hg'
      simp only [Kind.op, run, Option.bind_some, Option.bind_fun_some] at hg'
      obtain ⟨f', hf⟩ := record_some hs hg'
      exact out _ [] (.step .start (.record s n c hw e p d w f' hk hp hf)) (by simp [upd])
    | reset => exact out _ [] (.step .start (.clear s n c hw hk hp)) (by simp [upd])
    | report =>
      have hlen : (history kind s.log).length < 2 ^ 63 := lt_of_le_of_lt ((history_length kind _).trans hl) hlt
      obtain ⟨S, E, P, F, T, r1, r2, _, _, _, _, _, _, _, _, _, _, _, e⟩ :=
        FuncStats.C17_report hK next name key g1 g2 (history kind s.log) hlen g hg g.errors (.refl _) g1 g2
      obtain ⟨l, hr⟩ : ∃ l, FuncStats.stats K { s.f with current := c, highwater := hw } g.errors g1 g2 = some l := by
        rw [hs.with, stats_with, e]; exact ⟨_, rfl⟩
      exact out _ l (.step .start (.copy s n c hw g.errors g1 g2 l hk hp (by rw [hs.errors]) hr)) (by simp [upd])
  | _ => rw [hp] at hin; cases hin

/-- **C98**, `current`: as long as no `Reset` is called, the `current` of a report is at least the number of calls that run during all of it, and at most the
number of calls of which `start` was called before the report returned and `end` had not returned when it was called. -/
theorem C98_current (key : Key) (g1 g2 : G) {s1 s2 : State G}
    (h1 : Reach K next name kind (init K key g1 g2) s1) (m : Nat) (hm : kind m = .report) (hnew : s1.pc m = .new)
    (h2 : Reach K next name kind s1 s2) (rep : Report) (hrep : s2.pc m = .over rep)
    (N : Nat) (hN : ∀ n, N ≤ n → s2.pc n = .new) (hlt : N < 2 ^ 63) (hr : ∀ n, kind n = .reset → s2.pc n = .new)
    (A B : List Nat) (nA : A.Nodup) (hA : ∀ n ∈ A, s1.pc n = .running ∧ s2.pc n = .running)
    (hB : ∀ n e p d w, kind n = .call e p d w → s2.pc n ≠ .new → ¬Returned (s1.pc n) → n ∈ B) :
    ∃ c rest, rep = (key, b!"current", .int c) :: rest ∧ (A.length : Int) ≤ c.toInt ∧ c.toInt ≤ B.length := by
  have hnr : NoReset kind s2 := fun n hk => by rw [hr n hk]; rfl
  have hreads := reads h1 m hm hnew h2
  rw [hrep] at hreads
  obtain ⟨a, b, k, rest, ha, hab, hb, rfl⟩ := hreads
  have hk : k = key := by
    obtain ⟨log, g, c, h, ord, x, y, p1, p2, hg, ho, hs⟩ := report_log h1 m hm hnew h2 _ (.inr hrep)
    obtain ⟨r, e⟩ := stats_head hs
    simp only [List.cons.injEq, Prod.mk.injEq] at e
    rw [e.1.1]
    exact run_key hg
  subst hk
  obtain ⟨q, hc, e⟩ := current_eq (h1.trans ha) (noReset_back (hab.trans hb) hnr) (fun n hn => new_back (hab.trans hb) (hN n hn)) hlt
  refine ⟨_, _, rfl, ?_⟩
  rw [e]
  obtain ⟨L, l1, l2, l3⟩ := hc
  constructor
  · rw [← l3]
    have : A ⊆ L := by
      intro n hn
      obtain ⟨r1, r2⟩ := hA n hn
      have q1 := rank_reach ha n
      have q2 := rank_reach (hab.trans hb) n
      rw [l2]
      rw [r1] at q1
      rw [r2] at q2
      revert q1 q2
      cases a.pc n <;> simp [PC.rank, PC.isIn]
    exact_mod_cast (nA.subperm this).length_le
  · rw [← l3]
    have : L ⊆ B := by
      intro n hn
      have hin := (l2 n).1 hn
      obtain ⟨e, p, d, w, hk⟩ := (reach_inv (h1.trans ha)).1.kCall n (by revert hin; cases a.pc n <;> simp [PC.isIn, PC.ofCall])
      refine hB n e p d w hk (fun hc => ?_) (fun hc => ?_)
      · rw [new_back (hab.trans hb) hc] at hin; cases hin
      · have q1 := rank_reach ha n
        revert hin hc q1
        cases s1.pc n <;> cases a.pc n <;> simp [PC.rank, PC.isIn, Returned]
    exact_mod_cast (l1.subperm this).length_le

/-- **C98**, `highwater`: as long as no `Reset` is called, a report during which no `start` is in progress has `current` at most `highwater`. -/
theorem C98_highwater_partial (key : Key) (g1 g2 : G) {s1 s2 : State G}
    (h1 : Reach K next name kind (init K key g1 g2) s1) (m : Nat) (hm : kind m = .report) (hnew : s1.pc m = .new)
    (h2 : Reach K next name kind s1 s2) (rep : Report) (hrep : s2.pc m = .over rep)
    (N : Nat) (hN : ∀ n, N ≤ n → s2.pc n = .new) (hlt : N < 2 ^ 63) (hr : ∀ n, kind n = .reset → s2.pc n = .new)
    (hs : ∀ n e p d w, kind n = .call e p d w → s2.pc n = .new ∨ s1.pc n = .running ∨ Called (s1.pc n)) :
    ∃ k c h rest, rep = (k, b!"current", .int c) :: (k, b!"highwater", .int h) :: rest ∧ c ≤ h := by
  have hnr : NoReset kind s2 := fun n hk => by rw [hr n hk]; rfl
  have hreads := reads h1 m hm hnew h2
  rw [hrep] at hreads
  obtain ⟨a, b, k, rest, ha, hab, hb, rfl⟩ := hreads
  refine ⟨k, _, _, rest, rfl, ?_⟩
  have i := invH_reach (h1.trans ha) (noReset_back (hab.trans hb) hnr) (fun n hn => new_back (hab.trans hb) (hN n hn)) hlt
  have mono := hw_reach (h1.trans ha) hab (noReset_back hb hnr)
  rcases i.peak with q | ⟨n, c, hp, _⟩
  · exact Int64.le_trans q mono
  · exfalso
    obtain ⟨e, p, d, w, hk⟩ := (reach_inv (h1.trans ha)).1.kCall n (by revert hp; cases a.pc n <;> simp [PC.pending, PC.ofCall])
    have q1 := rank_reach ha n
    rcases hs n e p d w hk with hc | hc | hc
    · rw [new_back (hab.trans hb) hc] at hp; cases hp
    · rw [hc] at q1
      revert hp q1
      cases a.pc n <;> simp [PC.rank, PC.pending]
    · revert hp q1 hc
      cases s1.pc n <;> cases a.pc n <;> simp [PC.rank, PC.pending, Called]

/-! ## Concrete runs -/

/-- Calls 0 and 1 succeed and fail, 2 is a report, 3 a call that panics. -/
def kinds : Nat → Kind Str
  | 0 => .call none false 7 1024
  | 1 => .call (some b!"EOF") false 5 1024
  | 3 => .call none true 9 1024
  | _ => .report

abbrev KD : DistKind Int64 ℚ := durKind (fun _ => 0) false
abbrev nx : Unit → UInt64 × Unit := fun g => (0, g)
abbrev nm : Str → Str := fun e => e
abbrev fkey : Key := ⟨b!"function", []⟩


/-- The next step of process `n`; only to find runs. -/
def move (s : State Unit) (n : Nat) : Option (State Unit) :=
  match s.pc n with
  | .new =>
    match kinds n with
    | .call _ _ _ _ => some { s with pc := upd s.pc n .add }
    | .reset => some { s with pc := upd s.pc n .zeroCur }
    | .report => some { s with pc := upd s.pc n .readCur }
  | .add => some { s with f := { s.f with current := s.f.current + 1 }, pc := upd s.pc n (.load (s.f.current + 1)) }
  | .load cur => some { s with pc := upd s.pc n (.cas cur s.f.highwater) }
  | .cas cur hw =>
    if cur ≤ hw then some { s with pc := upd s.pc n .running }
    else if s.f.highwater = hw then some { s with f := { s.f with highwater := cur }, pc := upd s.pc n .running }
    else none
  | .running => some { s with pc := upd s.pc n .sub }
  | .sub => some { s with f := { s.f with current := s.f.current + (-1) }, pc := upd s.pc n (.wait 0 0) }
  | .readCur => some { s with pc := upd s.pc n (.readHw s.f.current) }
  | .readHw c => some { s with pc := upd s.pc n (.wait c s.f.highwater) }
  | .wait c h => if s.lock = none then some { s with lock := some n, pc := upd s.pc n (.inside c h) } else none
  | .inside c h =>
    match kinds n with
    | .call e p d w => (record KD nx nm s.f e p d w).map fun f' => { s with f := f', log := s.log ++ [n], pc := upd s.pc n (.unlock []) }
    | .reset => none
    | .report => (FuncStats.stats KD { s.f with current := c, highwater := h } s.f.errors () ()).map fun rep => { s with pc := upd s.pc n (.unlock rep) }
  | .unlock rep => some { s with lock := none, pc := upd s.pc n (.over rep) }
  | _ => none

theorem move_step {s s' : State Unit} {n : Nat} (h : move s n = some s') : Step KD nx nm kinds s s' := by
  unfold move at h
  split at h
  · next e =>
    split at h
    · next k => cases h; exact .start s n _ _ _ _ k e
    · next k => cases h; exact .reset s n k e
    · next k => cases h; exact .report s n k e
  · next e => cases h; exact .add s n e
  · next e => cases h; exact .load s n _ e
  · next e =>
    split at h
    · next c => cases h; exact .enough s n _ _ e c
    · next c =>
      split at h
      · next d => cases h; exact .swap s n _ _ e c d
      · cases h
  · next e => cases h; exact .finish s n e
  · next e =>
    simp only [Option.some.injEq] at h
    rw [← h]
    exact .sub s n e
  · next e => cases h; exact .readCur s n e
  · next e => cases h; exact .readHw s n _ e
  · next e =>
    split at h
    · next c => cases h; exact .lock s n _ _ e c
    · cases h
  · next e =>
    split at h
    · next k =>
      rw [Option.map_eq_some_iff] at h
      obtain ⟨f', hf, rfl⟩ := h
      exact .record s n _ _ _ _ _ _ f' k e hf
    · cases h
    · next k =>
      rw [Option.map_eq_some_iff] at h
      obtain ⟨r, hr, rfl⟩ := h
      exact .copy s n _ _ s.f.errors () () r k e (.refl _) hr
  · next e => cases h; exact .unlock s n _ e
  · cases h

/-- The steps of a schedule; only to find runs. -/
def runs : State Unit → List Nat → Option (State Unit)
  | s, [] => some s
  | s, n :: l => (move s n).bind fun s' => runs s' l

theorem runs_reach {l : List Nat} : ∀ {s s' : State Unit}, runs s l = some s' → Reach KD nx nm kinds s s' := by
  induction l with
  | nil => intro s s' h; cases h; exact .start
  | cons n l ih =>
    intro s s' h
    simp only [runs, Option.bind_eq_some_iff] at h
    obtain ⟨x, hx, h⟩ := h
    exact (Reach.step .start (move_step hx)).trans (ih h)

/-- Nothing has happened. -/
def s0 : State Unit := init KD fkey () ()

theorem pc_other (f : FuncStats Unit) (l : Option Nat) (pc : Nat → PC) (lg : List Nat) (n : Nat) (v : PC) {k : Nat} (hk : k ≠ n) :
    (State.mk f l (upd pc n v) lg).pc k = pc k := if_neg hk

theorem move_other {s s' : State Unit} {n k : Nat} (h : move s n = some s') (hk : k ≠ n) : s'.pc k = s.pc k := by
  unfold move at h
  repeat' split at h
  all_goals first
    | exact absurd h (Option.some_ne_none s').symm
    | (rw [Option.some.injEq] at h; rw [← h]; exact pc_other _ _ s.pc _ n _ hk)
    | (rw [Option.map_eq_some_iff] at h; obtain ⟨_, _, rfl⟩ := h; exact pc_other _ _ s.pc _ n _ hk)

theorem runs_other {k : Nat} {l : List Nat} : ∀ {s s' : State Unit}, runs s l = some s' → k ∉ l → s'.pc k = s.pc k := by
  induction l with
  | nil => intro s s' h _; cases h; rfl
  | cons n l ih =>
    intro s s' h hk
    simp only [runs, Option.bind_eq_some_iff] at h
    obtain ⟨x, hx, h⟩ := h
    rw [ih h (by grind), move_other hx (by grind)]

theorem run_two {l l' : List Nat} {α : Type} {f : State Unit → State Unit → α} {a : α} (N : Nat) (hl : ∀ n ∈ l ++ l', n < N)
    (h : (runs s0 l).bind (fun s1 => (runs s1 l').map fun s2 => f s1 s2) = some a) :
    ∃ s1 s2, Reach KD nx nm kinds s0 s1 ∧ Reach KD nx nm kinds s1 s2 ∧ (∀ n, N ≤ n → s2.pc n = .new) ∧ f s1 s2 = a := by
  rw [Option.bind_eq_some_iff] at h
  obtain ⟨s1, h1, h⟩ := h
  rw [Option.map_eq_some_iff] at h
  obtain ⟨s2, h2, h⟩ := h
  refine ⟨s1, s2, runs_reach h1, runs_reach h2, fun n hn => ?_, h⟩
  have := hl n
  rw [runs_other h2 (by grind), runs_other h1 (by grind)]
  rfl

/-- The report of a process that has returned. -/
def PC.rep : PC → Option Report
  | .over r => some r
  | _ => none

theorem PC.rep_eq {p : PC} {r : Report} (h : p.rep = some r) : p = .over r := by
  cases p <;> cases h; rfl

theorem kinds_reset (n : Nat) : kinds n ≠ .reset := by unfold kinds; split <;> simp

/-- Call 0 has added itself; report 2 reads both numbers before call 0 raises `highwater`. -/
theorem C98_highwater_violated : ∃ (s1 s2 : State Unit) (rep : Report),
    Reach KD nx nm kinds s0 s1 ∧ kinds 2 = .report ∧ s1.pc 2 = .new ∧ Reach KD nx nm kinds s1 s2 ∧ s2.pc 2 = .over rep ∧ (∀ n, kinds n ≠ .reset) ∧
    ∃ rest, rep = (fkey, b!"current", .int 1) :: (fkey, b!"highwater", .int 0) :: rest := by
  obtain ⟨s1, s2, h1, h2, _, e⟩ := run_two 3 (l := [0, 0]) (l' := [2, 2, 2, 2, 2, 2])
    (f := fun s1 s2 => (s1.pc 2, (s2.pc 2).rep.map (·.take 2))) (a := (.new, some [(fkey, b!"current", .int 1), (fkey, b!"highwater", .int 0)])) (by decide) (by rfl)
  simp only [Prod.mk.injEq, Option.map_eq_some_iff] at e
  obtain ⟨e1, r, e2, e3⟩ := e
  refine ⟨s1, s2, r, h1, rfl, e1, h2, PC.rep_eq e2, kinds_reset, r.drop 2, ?_⟩
  rw [← List.take_append_drop 2 r, e3]; rfl

/-- The hypotheses of `C98_report`, `C98_current` and `C98_highwater_partial` can be met: call 0 has returned, call 1 ends during the report, and call 3 runs
during all of it. -/
example : ∃ (s1 s2 : State Unit) (rep : Report), Reach KD nx nm kinds s0 s1 ∧ s1.pc 2 = .new ∧ Reach KD nx nm kinds s1 s2 ∧ s2.pc 2 = .over rep ∧
    (∀ n, 4 ≤ n → s2.pc n = .new) ∧ (∀ n, kinds n = .reset → s2.pc n = .new) ∧ s1.pc 3 = .running ∧ s2.pc 3 = .running ∧
    (∀ n e p d w, kinds n = .call e p d w → s2.pc n = .new ∨ s1.pc n = .running ∨ Called (s1.pc n)) ∧
    s1.log = [0] ∧ s2.log = [0, 1] ∧
    rep.take 8 = [(fkey, b!"current", .int 2), (fkey, b!"highwater", .int 2), (fkey, b!"successes", .int 1), (fkey.withTag b!"error_name" b!"EOF", b!"count", .int 1),
      (fkey, b!"errors", .int 1), (fkey, b!"panics", .int 0), (fkey, b!"failures", .int 1), (fkey, b!"total", .int 2)] := by
  obtain ⟨s1, s2, h1, h2, hN, e⟩ := run_two 4 (l := [0, 0, 0, 0, 0, 0, 0, 0, 0, 3, 3, 3, 3, 1, 1, 1, 1]) (l' := [2, 2, 2, 1, 1, 1, 1, 1, 2, 2, 2])
    (f := fun s1 s2 => (s1.pc 2, s1.pc 3, s2.pc 3, s1.pc 1, (s1.pc 0).rep, s1.log, s2.log, (s2.pc 2).rep.map (·.take 8)))
    (a := (.new, .running, .running, .running, some [], [0], [0, 1],
      some [(fkey, b!"current", .int 2), (fkey, b!"highwater", .int 2), (fkey, b!"successes", .int 1), (fkey.withTag b!"error_name" b!"EOF", b!"count", .int 1),
      (fkey, b!"errors", .int 1), (fkey, b!"panics", .int 0), (fkey, b!"failures", .int 1), (fkey, b!"total", .int 2)])) (by decide) (by rfl)
  simp only [Prod.mk.injEq, Option.map_eq_some_iff] at e
  obtain ⟨e1, e2, e3, e4, e5, e6, e7, r, e8, e9⟩ := e
  refine ⟨s1, s2, r, h1, e1, h2, PC.rep_eq e8, hN, fun n h => absurd h (kinds_reset n), e2, e3, ?_, e6, e7, e9⟩
  intro n e p d w hk
  have h0 := PC.rep_eq e5
  by_cases c : 4 ≤ n
  · exact .inl (hN n c)
  · have : n = 0 ∨ n = 1 ∨ n = 2 ∨ n = 3 := by omega
    rcases this with rfl | rfl | rfl | rfl
    · exact .inr (.inr (by rw [h0]; trivial))
    · exact .inr (.inl e4)
    · cases hk
    · exact .inr (.inl e2)

/-- The hypotheses of `C98_progress` can be met: call 0 has the mutex. -/
example : ∃ s : State Unit, Reach KD nx nm kinds s0 s ∧ s.lock = some 0 ∧ (∀ n, 1 ≤ n → s.pc n = .new) := by
  obtain ⟨s1, s2, h1, h2, hN, e⟩ := run_two 1 (l := [0, 0, 0, 0, 0, 0, 0]) (l' := []) (f := fun _ s2 => s2.lock) (a := some 0) (by decide) (by rfl)
  exact ⟨s2, h1.trans h2, e, hN⟩

end Monkit.FuncConc
