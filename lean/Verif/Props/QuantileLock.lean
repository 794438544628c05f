import Verif.Model.QuantileLock
import Verif.Props.Dist
import Verif.Proofs.FloatDist

/-!
# C105: asking for a quantile never blocks a value
-/

namespace Monkit.QuantileLock
open Go Monkit Go.Float

variable {V G : Type}

theorem upd_apply {α : Type} (f : Nat → α) (t : Nat) (v : α) (t' : Nat) : upd f t v t' = if t' = t then v else f t' := rfl

theorem upd2 {α : Type} (f : Nat → α) (u : Nat) (v w : α) : upd (upd f u v) u w = upd f u w := by
  funext x; simp only [upd_apply]; split <;> rfl

/-! ## What fails -/

section
variable {R : Type}

structure Own (s : State V R G) : Prop where
  inside : ∀ t o, s.pc t = .inside o → s.lock = some t
  unlock : ∀ t r, s.pc t = .unlock r → s.lock = some t

theorem own_step {K : DistKind V R} {next : G → UInt64 × G} {m : Machine V} {s s' : State V R G} {e : Option (Ev V R G)} (i : Own s) (st : Step K next m s e s') :
    Own s' := by
  obtain ⟨h1, h2⟩ := i
  cases st
  all_goals constructor
  all_goals simp only [upd_apply]
  all_goals grind

theorem own_exec {K : DistKind V R} {next : G → UInt64 × G} {m : Machine V} {key : Key} {g : G} {tr : List (Ev V R G)} {s : State V R G}
    (h : Exec (Step K next m) (init K key g) tr s) : Own s :=
  Exec.induct (fun _ s => Own s) ⟨by simp [init], by simp [init]⟩ (fun _ _ _ _ i st => own_step i st) h

/-- The mutex is held and nobody is there to give it back. -/
structure Stuck (s : State V R G) : Prop where
  held : s.lock ≠ none
  gone : ∀ t, (∀ o, s.pc t ≠ .inside o) ∧ ∀ r, s.pc t ≠ .unlock r

theorem stuck_stays {K : DistKind V R} {next : G → UInt64 × G} {m : Machine V} {s s' : State V R G} {tr : List (Ev V R G)}
    (h : Exec (Step K next m) s tr s') (hs : Stuck s) : Stuck s' ∧ ∀ t r, Ev.ret t r ∉ tr := by
  refine Exec.induct (fun tr s => Stuck s ∧ ∀ t r, Ev.ret t r ∉ tr) ⟨hs, by simp⟩ ?_ h
  intro tr s e s' ⟨⟨h1, h2⟩, h3⟩ st
  cases st
  all_goals refine ⟨⟨?_, ?_⟩, ?_⟩
  all_goals simp only [upd_apply, Option.toList_some, Option.toList_none, List.append_nil, List.mem_append, List.mem_singleton]
  all_goals grind

/-- **C105**, what fails: once a call on a value has panicked, no call on that value – of another goroutine, or of the same one after recovering – ever returns
again: nothing can be observed any more, and no statistics can be read that include it. -/
theorem C105_panic_violated {K : DistKind V R} {next : G → UInt64 × G} {m : Machine V} {key : Key} {g : G} {a b : List (Ev V R G)} {t : Nat} {s : State V R G}
    (h : Exec (Step K next m) (init K key g) (a ++ .panics t :: b) s) : ∀ u r, Ev.ret u r ∉ b := by
  obtain ⟨s1, s2, h1, st, h2⟩ := h.split a _ b rfl
  obtain ⟨o1, o2⟩ := own_exec h1
  have hs : Stuck s2 := by
    cases st with
    | panics _ o d hp hb =>
      have hl := o1 t o hp
      refine ⟨by simp [hl], fun u => ?_⟩
      simp only [upd_apply]
      grind
  exact (stuck_stays h2 hs).2

end

/-- amd64: the conversion of a NaN gives the smallest integer. -/
def amd64 : Machine Int64 := ⟨-2 ^ 63, Int64.minValue⟩
/-- arm64: the conversion of a NaN gives zero. -/
def arm64 : Machine Int64 := ⟨0, 0⟩

def K0 : DistKind Int64 ℚ := intKind (fun _ => 0) false

/-- … and it happens, on amd64: a value with two observations is asked for the quantile NaN; an observation by another goroutine then never returns. -/
theorem C105_nan_violated : ∃ s, Exec (Step K0 (fun g : Unit => (0, g)) amd64) (init K0 ⟨[], []⟩ ())
      [.call 0 (.observe 10 1024), .ret 0 .unit, .call 0 (.observe 20 1024), .ret 0 .unit, .call 0 (.quantile none), .panics 0, .call 1 (.observe 30 1024)] s ∧
    ∀ tr' s', Exec (Step K0 (fun g : Unit => (0, g)) amd64) s tr' s' → ∀ u r, Ev.ret u r ∉ tr' := by
  have e := Exec.start (step := Step K0 (fun g : Unit => (0, g)) amd64) (s₀ := init K0 ⟨[], []⟩ ())
  have e := e.step _ (.call _ 0 (.observe 10 1024) rfl)
  have e := e.step _ (.lock _ 0 _ rfl rfl)
  have e := e.step _ (.body _ 0 _ _ _ rfl rfl)
  have e := e.step _ (.unlock _ 0 _ rfl)
  have e := e.step _ (.call _ 0 (.observe 20 1024) rfl)
  have e := e.step _ (.lock _ 0 _ rfl rfl)
  have e := e.step _ (.body _ 0 _ _ _ rfl rfl)
  have e := e.step _ (.unlock _ 0 _ rfl)
  have e := e.step _ (.call _ 0 (.quantile none) rfl)
  have e := e.step _ (.lock _ 0 _ rfl rfl)
  have e := e.step _ (.panics _ 0 _ (Dist.new K0 ⟨[], []⟩ ()) rfl (by decide +kernel))
  have e := e.step _ (.call _ 1 (.observe 30 1024) rfl)
  refine ⟨_, e, fun tr' s' h u r hm => ?_⟩
  refine C105_panic_violated (e.append h) (a := [.call 0 (.observe 10 1024), .ret 0 .unit, .call 0 (.observe 20 1024), .ret 0 .unit, .call 0 (.quantile none)])
    (b := .call 1 (.observe 30 1024) :: tr') (t := 0) u r ?_
  simp [hm]

/-! ## What holds -/

variable {R : Type}

/-- The three kinds of values: `int64`, `time.Duration` and `float64`. -/
inductive IsKind : {V R : Type} → DistKind V R → Prop
  | int (oob : ℚ → Int64) (fused : Bool) : IsKind (intKind oob fused)
  | dur (oob : ℚ → Int64) (fused : Bool) : IsKind (durKind oob fused)
  | float (fused : Bool) : IsKind (floatKind fused)

theorem IsKind.ordered {V R : Type} {K : DistKind V R} (h : IsKind K) : Dist.Ordered K := by
  cases h with
  | int oob fused => exact (Dist.int_numeric oob fused).ordered
  | dur oob fused => exact (Dist.dur_numeric oob fused).ordered
  | float fused => exact Dist.float_ordered fused

/-- Quantiles are float64 numbers; NaN only where its conversion gives zero. -/
def Tame (m : Machine V) (tr : List (Ev V R G)) : Prop := ∀ t q, Ev.call t (.quantile q) ∈ tr → match q with | some q => Rep 53 q | none => m.idx = 0

/-- The same of one call. -/
def Fine (m : Machine V) (o : Op V G) : Prop := ∀ q, o = .quantile q → match q with | some q => Rep 53 q | none => m.idx = 0

/-- Not yet inserted. -/
def PC.before : PC V R G → Bool
  | .lock _ => true
  | .inside _ => true
  | _ => false

theorem queryNaN_zero {K : DistKind V R} (hK : Dist.Ordered K) {m : Machine V} (hm : m.idx = 0) {vs : List V} {d : Dist V R G} (h : Dist.Inv K vs d) :
    ∃ d' v, queryNaN K m d = some (d', v) ∧ Dist.Inv K vs d' := by
  have hl : d.rlen = (Dist.used vs : Int) := Dist.rlen_eq h
  have hu : Dist.used vs ≤ 64 := Nat.min_le_right _ _
  unfold queryNaN
  split
  · have : 0 < d.reservoir.length := by rw [h.len]; omega
    rw [List.getElem?_eq_getElem this]
    exact ⟨_, _, rfl, h⟩
  · have hi := (Dist.inv_sort hK h).1
    have hlen : ((d.sortReservoir K).reservoir.take d.rlen.toNat).length = Dist.used vs := by
      rw [List.length_take, hi.len, hl]; simp; omega
    simp only [hm, Int.toNat_zero, Nat.zero_add]
    rw [if_neg (by omega), List.getElem?_eq_getElem (by omega), List.getElem?_eq_getElem (by omega)]
    exact ⟨_, _, rfl, hi⟩

theorem body_some {K : DistKind V R} (hK : Dist.Ordered K) {next : G → UInt64 × G} {m : Machine V} {vs : List V} {d : Dist V R G} (h : Dist.Inv K vs d)
    (hb : vs.length + 1 < 2 ^ 63) (o : Op V G) (ho : Fine m o) :
    ∃ d' r vs', body K next m d o = some (d', r) ∧ Dist.Inv K vs' d' ∧ vs'.length ≤ vs.length + 1 := by
  cases o with
  | observe v W =>
    obtain ⟨d', e, i⟩ := Dist.inv_insert (K := K) (next := next) (W := W) h v hb
    exact ⟨d', .unit, _, by simp only [body, e, Option.map_some], i, by simp⟩
  | quantile q =>
    have := ho q rfl
    cases q with
    | some q =>
      obtain ⟨d', v, e, i, -⟩ := Dist.query_spec hK h q this
      exact ⟨d', .val v, vs, by simp only [body, e, Option.map_some], i, by omega⟩
    | none =>
      obtain ⟨d', v, e, i⟩ := queryNaN_zero hK this h
      exact ⟨d', .val v, vs, by simp only [body, e, Option.map_some], i, by omega⟩
  | stats g => exact ⟨d, _, vs, rfl, h, by omega⟩

structure Tm (K : DistKind V R) (m : Machine V) (N : Nat) (s : State V R G) : Prop where
  own : Own s
  fine : ∀ t o, s.pc t = .lock o ∨ s.pc t = .inside o → Fine m o
  held : ∀ t, s.lock = some t → (∃ o, s.pc t = .inside o) ∨ ∃ r, s.pc t = .unlock r
  dist : ∃ vs n, Dist.Inv K vs s.dist ∧ Census s.pc PC.before n ∧ vs.length + n ≤ N

theorem tm_step {K : DistKind V R} (hK : Dist.Ordered K) {next : G → UInt64 × G} {m : Machine V} {N : Nat} (hN : N + 1 < 2 ^ 63) {s s' : State V R G}
    {e : Option (Ev V R G)} (i : Tm K m N s) (hf : ∀ t o, e = some (.call t o) → Fine m o) (st : Step K next m s e s') :
    Tm K m (N + e.toList.length) s' ∧ ∀ t, e ≠ some (.panics t) := by
  have hi := own_step i.own st
  obtain ⟨⟨o1, o2⟩, h1, h2, vs, n, h3, h4, h5⟩ := i
  cases st with
  | call t o h =>
    refine ⟨⟨hi, ?_, ?_, vs, ?_⟩, by simp⟩
    · intro u o' hu
      simp only [upd_apply] at hu
      split at hu
      · have := hf t o rfl; grind
      · exact h1 u o' hu
    · simp only [upd_apply]; grind
    · obtain ⟨n', c, hn⟩ := h4.upd t (.lock o)
      refine ⟨n', h3, c, ?_⟩
      rw [h] at hn
      simp [PC.before] at hn ⊢
      omega
  | lock t o h free =>
    refine ⟨⟨hi, ?_, ?_, vs, ?_⟩, by simp⟩
    · simp only [upd_apply]; grind
    · simp only [upd_apply]; grind
    · obtain ⟨n', c, hn⟩ := h4.upd t (.inside o)
      refine ⟨n', h3, c, ?_⟩
      rw [h] at hn
      simp [PC.before] at hn ⊢
      omega
  | body t o d r h hb =>
    have hp := h4.pos t (by rw [h]; rfl)
    obtain ⟨d', r', vs', e', i', l'⟩ := body_some hK (next := next) h3 (by omega) o (h1 t o (.inr h))
    rw [hb] at e'
    simp only [Option.some.injEq, Prod.mk.injEq] at e'
    obtain ⟨rfl, rfl⟩ := e'
    refine ⟨⟨hi, ?_, ?_, vs', ?_⟩, by simp⟩
    · simp only [upd_apply]; grind
    · simp only [upd_apply]; grind
    · obtain ⟨n', c, hn⟩ := h4.upd t (.unlock r)
      refine ⟨n', i', c, ?_⟩
      rw [h] at hn
      simp [PC.before] at hn ⊢
      omega
  | panics t o d h hb =>
    exfalso
    obtain ⟨d', r', vs', e', -⟩ := body_some hK (next := next) h3 (by omega) o (h1 t o (.inr h))
    rw [hb] at e'; simp at e'
  | unlock t r h =>
    refine ⟨⟨hi, ?_, ?_, vs, ?_⟩, by simp⟩
    · simp only [upd_apply]; grind
    · simp only [upd_apply]; grind
    · obtain ⟨n', c, hn⟩ := h4.upd t .idle
      refine ⟨n', h3, c, ?_⟩
      rw [h] at hn
      simp [PC.before] at hn ⊢
      omega

theorem tm_exec {K : DistKind V R} (hK : Dist.Ordered K) {next : G → UInt64 × G} {m : Machine V} {key : Key} {g : G} {tr : List (Ev V R G)} {s : State V R G}
    (h : Exec (Step K next m) (init K key g) tr s) : Tame m tr → tr.length + 1 < 2 ^ 63 → Tm K m tr.length s ∧ ∀ t, Ev.panics t ∉ tr := by
  refine Exec.induct (fun tr s => Tame m tr → tr.length + 1 < 2 ^ 63 → Tm K m tr.length s ∧ ∀ t, Ev.panics t ∉ tr) ?_ ?_ h
  · intro _ _
    exact ⟨⟨own_exec (next := next) (m := m) .start, by simp [init], by simp [init], [], 0, Dist.inv_new K key g, census_zero (fun _ => rfl), by simp⟩, by simp⟩
  · intro tr s e s' ih st ht hl
    obtain ⟨i, hp⟩ := ih (fun t q hq => ht t q (List.mem_append_left _ hq)) (by rw [List.length_append] at hl; omega)
    obtain ⟨i', hp'⟩ := tm_step hK (by rw [List.length_append] at hl; omega) i (by
      intro t o he q hq
      subst hq; subst he
      exact ht t q (by simp)) st
    refine ⟨by rw [List.length_append]; exact i', fun t hm => ?_⟩
    rcases List.mem_append.1 hm with hm | hm
    · exact hp t hm
    · cases e with
      | none => simp at hm
      | some e => simp at hm; exact hp' t (by rw [hm])

/-- **C105**, what holds: when every quantile asked for is a float64 number – one outside 0 … 1 included – or NaN converts to zero on the machine, no call on the
value panics. -/
theorem C105_no_panic_partial {K : DistKind V R} (hK : IsKind K) {next : G → UInt64 × G} {m : Machine V} {key : Key} {g : G} {tr : List (Ev V R G)} {s : State V R G}
    (h : Exec (Step K next m) (init K key g) tr s) (ht : Tame m tr) (hl : tr.length + 1 < 2 ^ 63) (t : Nat) : Ev.panics t ∉ tr := by
  exact (tm_exec hK.ordered h ht hl).2 t

/-- **C105**, what holds: … and whatever the schedule so far, every call on the value can return: whoever holds its mutex gives it back by their own steps.
Missing: NaN on machines on which its conversion is not zero, for which it is false. -/
theorem C105_returns_partial {K : DistKind V R} (hK : IsKind K) {next : G → UInt64 × G} {m : Machine V} {key : Key} {g : G} {tr : List (Ev V R G)} {s : State V R G}
    (h : Exec (Step K next m) (init K key g) tr s) (ht : Tame m tr) (hl : tr.length + 1 < 2 ^ 63) {t : Nat} (hp : s.pc t ≠ .idle) :
    ∃ tr' s' r, Exec (Step K next m) s tr' s' ∧ Ev.ret t r ∈ tr' ∧ s'.pc t = .idle := by
  have hK := hK.ordered
  have release : ∀ N, N + 1 < 2 ^ 63 → ∀ s : State V R G, Tm K m N s → ∀ u, s.lock = some u →
      ∃ tr' s' r, Exec (Step K next m) s tr' s' ∧ Ev.ret u r ∈ tr' ∧ s'.lock = none ∧ s'.pc = upd s.pc u .idle ∧ ∃ vs n, Dist.Inv K vs s'.dist ∧ Census s'.pc PC.before n ∧ vs.length + n ≤ N := by
    intro N hN s i u hu
    obtain ⟨vs, n, h3, h4, h5⟩ := i.dist
    rcases i.held u hu with ⟨o, hq⟩ | ⟨r, hq⟩
    · have hpos := h4.pos u (by rw [hq]; rfl)
      obtain ⟨d', r, vs', e', i', l'⟩ := body_some hK (next := next) h3 (by omega) o (i.fine u o (.inr hq))
      obtain ⟨n', c, hn⟩ := h4.upd u .idle
      rw [hq] at hn
      simp [PC.before] at hn
      exact ⟨_, _, r, Exec.step _ (Exec.step _ .start (.body s u o d' r hq e')) (.unlock _ u r (by simp)), by simp, rfl, upd2 _ _ _ _,
        vs', n', i', by rw [upd2]; exact c, by omega⟩
    · obtain ⟨n', c, hn⟩ := h4.upd u .idle
      rw [hq] at hn
      simp [PC.before] at hn
      exact ⟨_, _, r, Exec.step _ .start (.unlock s u r hq), by simp, rfl, rfl, vs, n', h3, c, by omega⟩
  have through : ∀ N, N + 1 < 2 ^ 63 → ∀ s : State V R G, Tm K m N s → s.lock = none → s.pc t ≠ .idle →
      ∃ tr' s' r, Exec (Step K next m) s tr' s' ∧ Ev.ret t r ∈ tr' ∧ s'.pc t = .idle := by
    intro N hN s i hl hp
    obtain ⟨vs, n, h3, h4, h5⟩ := i.dist
    cases hpc : s.pc t with
    | idle => exact absurd hpc hp
    | lock o =>
      have hpos := h4.pos t (by rw [hpc]; rfl)
      obtain ⟨d', r, vs', e', -⟩ := body_some hK (next := next) h3 (by omega) o (i.fine t o (.inl hpc))
      exact ⟨_, _, r, Exec.step _ (Exec.step _ (Exec.step _ .start (.lock s t o hpc hl)) (.body _ t o d' r (by simp) e')) (.unlock _ t r (by simp)), by simp, by simp⟩
    | inside o => have := i.own.inside t o hpc; rw [hl] at this; simp at this
    | unlock r => have := i.own.unlock t r hpc; rw [hl] at this; simp at this
  have i := (tm_exec hK h ht hl).1
  cases hlk : s.lock with
  | none => exact through _ hl s i hlk hp
  | some u =>
    obtain ⟨tr1, s1, r, e1, r1, l1, p1, d1⟩ := release _ hl s i u hlk
    by_cases hut : t = u
    · subst hut; exact ⟨tr1, s1, r, e1, r1, by rw [p1]; simp⟩
    · have i1 : Tm K m tr.length s1 := by
        refine ⟨?_, ?_, ?_, d1⟩
        · exact Exec.induct (fun _ s => Own s) i.own (fun _ _ _ _ i st => own_step i st) e1
        · intro v o hv; rw [p1, upd_apply] at hv; split at hv; simp at hv; exact i.fine v o hv
        · intro v hv; rw [l1] at hv; simp at hv
      obtain ⟨tr2, s2, r', e2, r2, q2⟩ := through _ hl s1 i1 l1 (by rw [p1, upd_apply, if_neg hut]; exact hp)
      exact ⟨tr1 ++ tr2, s2, r', e1.append e2, by simp [r2], q2⟩

/-- One observation, then a quantile far outside 0 … 1 and another call that waits for it; and NaN on arm64. -/
example : ∃ s, Exec (Step K0 (fun g : Unit => (0, g)) arm64) (init K0 ⟨[], []⟩ ())
      [.call 0 (.observe 10 1024), .ret 0 .unit, .call 0 (.quantile (some 7)), .call 1 (.quantile none)] s ∧ s.lock = some 0 ∧
    Tame arm64 ([.call 0 (.observe 10 1024), .ret 0 .unit, .call 0 (.quantile (some 7)), .call 1 (.quantile none)] : List (Ev Int64 ℚ Unit)) := by
  have e := Exec.start (step := Step K0 (fun g : Unit => (0, g)) arm64) (s₀ := init K0 ⟨[], []⟩ ())
  have e := e.step _ (.call _ 0 (.observe 10 1024) rfl)
  have e := e.step _ (.lock _ 0 _ rfl rfl)
  have e := e.step _ (.body _ 0 _ _ _ rfl rfl)
  have e := e.step _ (.unlock _ 0 _ rfl)
  have e := e.step _ (.call _ 0 (.quantile (some 7)) rfl)
  have e := e.step _ (.lock _ 0 _ rfl rfl)
  have e := e.step _ (.call _ 1 (.quantile none) rfl)
  refine ⟨_, e, rfl, ?_⟩
  intro t q hq
  simp at hq
  rcases hq with ⟨-, rfl⟩ | ⟨-, rfl⟩
  · exact ⟨7, 0, by norm_num, by norm_num⟩
  · rfl

end Monkit.QuantileLock
