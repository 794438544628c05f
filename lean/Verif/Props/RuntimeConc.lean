import Verif.Model.RuntimeConc
import Verif.Props.Runtime

/-!
# C106: runtime statistics reported at the same time
-/

namespace Monkit.RuntimeConc
open Go Monkit
variable {G : Type}

/-! ## Statements -/

/-- The readings of the reports asked for. -/
def readings : List Ev → List Runtime.Reading
  | [] => []
  | .call _ r :: tr => r :: readings tr
  | .ret _ _ :: tr => readings tr

/-- Reports that were asked for one after the other, each after the one before had been answered. -/
inductive Quiet : List Ev → Prop where
  | nil : Quiet []
  | pair {a : List Ev} (t : Nat) (r : Runtime.Reading) (out : Option Out) (h : Quiet a) : Quiet (a ++ [.call t r, .ret t out])

/-! ## Proofs -/

theorem readings_append (a b : List Ev) : readings (a ++ b) = readings a ++ readings b := by
  induction a with
  | nil => rfl
  | cons e a ih => cases e <;> simp [readings, ih]

/-- All that is left to be done, without interruption. -/
def finish : List (Micro G) → Dist Int64 ℚ G × Locals → Option (Dist Int64 ℚ G × Locals)
  | [], x => some x
  | op :: ops, x => (op x).bind (finish ops)

theorem insert_eq (reload : Bool) (K : DistKind Int64 ℚ) (next : G → UInt64 × G) (W v : Int64) (d : Dist Int64 ℚ G) :
    (finish (insertProg reload K next W v) (d, .zero)).map (·.1) = d.insert K next W v := by
  unfold insertProg Dist.insert
  simp only [finish, Option.bind_some]
  by_cases hc : d.count = 0
  · cases reload <;> simp [hc, Locals.zero]
  · by_cases h1 : K.lt v d.low <;> by_cases h2 : K.lt d.high v <;> by_cases h3 : d.count < 64 <;> by_cases h4 : 0 ≤ d.count <;>
      by_cases h5 : (Dist.window W (d.count + 1)).toUInt64 = 0 <;> by_cases h6 : (next d.rng).1 % (Dist.window W (d.count + 1)).toUInt64 < 64 <;>
      cases reload <;> simp [hc, h1, h2, h3, h4, h5, h6, Locals.zero]

/-- The distribution after the first half of a report. -/
def inserted (K : DistKind Int64 ℚ) (next : G → UInt64 × G) (d : Dist Int64 ℚ G) (r : Runtime.Reading) : Option (Dist Int64 ℚ G) :=
  match r.pauses with
  | p :: _ => if (0 : Int64) ≠ r.numGC then d.insert K next r.window p else some d
  | [] => some d

theorem prog_eq (reload : Bool) (K : DistKind Int64 ℚ) (next : G → UInt64 × G) (d : Dist Int64 ℚ G) (r : Runtime.Reading) :
    (finish (prog reload K next r) (d, .zero)).map (·.1) = inserted K next d r := by
  unfold prog inserted
  cases r.pauses with
  | nil => rfl
  | cons p ps =>
    dsimp only
    split
    · exact insert_eq reload K next r.window p d
    · rfl

/-- What is said. -/
def said (r : Runtime.Reading) (mem : List (Str × FVal)) (out : Out) : Out :=
  (⟨b!"goroutines", []⟩, b!"count", FVal.int r.goroutines) :: mem.map (fun x => (⟨b!"runtime_memstats", []⟩, x.1, x.2)) ++ out

theorem read_eq (K : DistKind Int64 ℚ) (next : G → UInt64 × G) (d : Dist Int64 ℚ G) (r : Runtime.Reading) (mem : List (Str × FVal)) (hm : Struct.stats r.mem = some mem) :
    Runtime.read K next ⟨d, 0⟩ r = (inserted K next d r).bind fun d => (d.stats K).map fun x => (⟨x.1, 0⟩, said r mem x.2) := by
  unfold Runtime.read inserted
  rw [hm]
  simp only [Option.bind_eq_bind, Option.bind_some]
  have key : ∀ e : Dist Int64 ℚ G, ((e.stats K).bind fun x => some ((⟨x.1, 0⟩ : Runtime.State G), said r mem x.2)) =
      (e.stats K).map fun x => (⟨x.1, 0⟩, said r mem x.2) := fun e => by cases e.stats K <;> rfl
  cases r.pauses with
  | nil => exact key d
  | cons p ps =>
    dsimp only
    split
    · cases d.insert K next r.window p with
      | none => rfl
      | some e => exact key e
    · exact key d

/-- Nobody is making a report; what has been read before is in the distribution. -/
def Rest (K : DistKind Int64 ℚ) (next : G → UInt64 × G) (g : G) (tr : List Ev) (s : State G) : Prop :=
  (∀ t, s.pc t = .idle) ∧ Runtime.run K next (Runtime.new K g) (readings tr) = some ⟨s.dist, 0⟩

/-- Only `t` is making a report, and will give the right one. -/
def Busy (K : DistKind Int64 ℚ) (next : G → UInt64 × G) (g : G) (tr : List Ev) (t : Nat) (r : Runtime.Reading) (s : State G) : Prop :=
  (∀ u, u ≠ t → s.pc u = .idle) ∧ ∃ d d' out, Runtime.run K next (Runtime.new K g) (readings tr) = some ⟨d, 0⟩ ∧ Runtime.read K next ⟨d, 0⟩ r = some (⟨d', 0⟩, out) ∧
    ((∃ mem rest l di, s.pc t = .insert r mem rest l ∧ Struct.stats r.mem = some mem ∧ (finish rest (s.dist, l)).map (·.1) = some di ∧
        (di.stats K).map (fun x => (x.1, said r mem x.2)) = some (d', out)) ∨
      (s.pc t = .ret out ∧ s.dist = d'))

theorem quiet_last_call {a : List Ev} {t : Nat} {r : Runtime.Reading} (h : Quiet (a ++ [.call t r])) : False := by
  generalize hb : a ++ [Ev.call t r] = b at h
  cases h with
  | nil => simp at hb
  | pair u r' out h =>
    have := List.append_inj' (show a ++ [Ev.call t r] = (_ ++ [Ev.call u r']) ++ [Ev.ret u out] by simpa using hb) rfl
    simp at this

theorem quiet_last_ret {a : List Ev} {t : Nat} {out : Option Out} (h : Quiet (a ++ [.ret t out])) : ∃ b r, Quiet b ∧ a = b ++ [.call t r] := by
  generalize hb : a ++ [Ev.ret t out] = b at h
  cases h with
  | nil => simp at hb
  | @pair c u r' out' h =>
    have := List.append_inj' (show a ++ [Ev.ret t out] = (c ++ [Ev.call u r']) ++ [Ev.ret u out'] by simpa using hb) rfl
    obtain ⟨h1, h2⟩ := this
    simp at h2
    exact ⟨c, r', h, by rw [h1, h2.1]⟩

/-- Every report asked for so far could go through. -/
def Goes (K : DistKind Int64 ℚ) (next : G → UInt64 × G) (g : G) (rs : List Runtime.Reading) : Prop :=
  ∃ s, Runtime.run K next (Runtime.new K g) rs = some s

theorem run_append (K : DistKind Int64 ℚ) (next : G → UInt64 × G) (s : Runtime.State G) (a b : List Runtime.Reading) :
    Runtime.run K next s (a ++ b) = (Runtime.run K next s a).bind fun s => Runtime.run K next s b := by
  induction a generalizing s with
  | nil => rfl
  | cons r a ih =>
    simp only [List.cons_append, Runtime.run]
    cases Runtime.read K next s r with
    | none => rfl
    | some x => simp [ih]

theorem upd_apply {α : Type} (f : Nat → α) (t : Nat) (v : α) (t' : Nat) : upd f t v t' = if t' = t then v else f t' := rfl

theorem inv_exec {reload : Bool} {K : DistKind Int64 ℚ} {next : G → UInt64 × G} {g : G} {tr : List Ev} {s : State G}
    (h : Exec (Step reload K next) (init K g) tr s) : Goes K next g (readings tr) →
    (Quiet tr → Rest K next g tr s) ∧ ∀ a t r, Quiet a → tr = a ++ [.call t r] → Busy K next g a t r s := by
  refine Exec.induct (fun tr s => Goes K next g (readings tr) →
    (Quiet tr → Rest K next g tr s) ∧ ∀ a t r, Quiet a → tr = a ++ [.call t r] → Busy K next g a t r s) ?_ ?_ h
  · intro _
    exact ⟨fun _ => ⟨fun _ => rfl, rfl⟩, fun a t r _ h => by simp at h⟩
  · intro tr s e s' ih st hg
    have hg' : Goes K next g (readings tr) := by
      obtain ⟨x, hx⟩ := hg
      rw [readings_append, run_append] at hx
      cases hy : Runtime.run K next (Runtime.new K g) (readings tr) with
      | none => rw [hy] at hx; simp at hx
      | some y => exact ⟨y, hy⟩
    obtain ⟨i1, i2⟩ := ih hg'
    cases st with
    | call t r mem h hm =>
      refine ⟨fun hq => (quiet_last_call hq).elim, fun a t' r' ha he => ?_⟩
      obtain ⟨h1, h2⟩ := List.append_inj' he rfl
      simp at h2
      obtain ⟨rfl, rfl⟩ := h2
      subst h1
      obtain ⟨j1, j2⟩ := i1 ha
      obtain ⟨x, hx⟩ := hg
      rw [readings_append, run_append, j2] at hx
      simp only [Option.toList_some, readings, Option.bind_some, Runtime.run] at hx
      cases hr : Runtime.read K next ⟨s.dist, 0⟩ r with
      | none => rw [hr] at hx; simp at hx
      | some y =>
        have hr' := hr
        rw [read_eq K next _ r mem hm] at hr'
        obtain ⟨di, hd, hr'⟩ := Option.bind_eq_some_iff.1 hr'
        cases hs : di.stats K with
        | none => rw [hs] at hr'; simp at hr'
        | some z =>
          rw [hs] at hr'
          simp at hr'
          subst hr'
          refine ⟨fun u hu => ?_, s.dist, z.1, said r mem z.2, j2, hr, .inl ⟨mem, prog reload K next r, .zero, di, ?_, hm, ?_, by rw [hs]; rfl⟩⟩
          · simp only [upd_apply, if_neg hu]; exact j1 u
          · simp only [upd_apply, if_true]
          · rw [prog_eq]; exact hd
    | micro t r mem op rest l d l' h ho =>
      rw [Option.toList_none, List.append_nil]
      refine ⟨fun hq => ?_, fun a t' r' ha he => ?_⟩
      · rw [(i1 hq).1 t] at h; cases h
      · obtain ⟨b1, d0, d', out, b2, b3, b4⟩ := i2 a t' r' ha he
        by_cases ht : t = t'
        · subst ht
          rcases b4 with ⟨mem', rest', l0, di, c1, c2, c3, c4⟩ | ⟨c1, _⟩
          · rw [h] at c1
            cases c1
            simp only [finish, ho, Option.bind_some] at c3
            refine ⟨fun u hu => ?_, d0, d', out, b2, b3, .inl ⟨mem, rest, l', di, ?_, c2, c3, c4⟩⟩
            · simp only [upd_apply, if_neg hu]; exact b1 u hu
            · simp only [upd_apply, if_true]
          · rw [h] at c1; cases c1
        · rw [b1 t ht] at h; cases h
    | panic t r mem op rest l h ho =>
      refine ⟨fun hq => ?_, fun a t' r' ha he => ?_⟩
      · obtain ⟨a, r', ha, he⟩ := quiet_last_ret hq
        obtain ⟨b1, d0, d', out, b2, b3, b4⟩ := i2 a t r' ha he
        rcases b4 with ⟨mem', rest', l0, di, c1, c2, c3, c4⟩ | ⟨c1, _⟩
        · rw [h] at c1
          cases c1
          simp [finish, ho] at c3
        · rw [h] at c1; cases c1
      · have := (List.append_inj' he rfl).2; simp at this
    | stats t r mem l d out h ho =>
      rw [Option.toList_none, List.append_nil]
      refine ⟨fun hq => ?_, fun a t' r' ha he => ?_⟩
      · rw [(i1 hq).1 t] at h; cases h
      · obtain ⟨b1, d0, d', out', b2, b3, b4⟩ := i2 a t' r' ha he
        by_cases ht : t = t'
        · subst ht
          rcases b4 with ⟨mem', rest', l0, di, c1, c2, c3, c4⟩ | ⟨c1, _⟩
          · rw [h] at c1
            cases c1
            simp [finish] at c3
            subst c3
            rw [ho] at c4
            simp at c4
            obtain ⟨rfl, rfl⟩ := c4
            refine ⟨fun u hu => ?_, d0, _, _, b2, b3, .inr ⟨?_, rfl⟩⟩
            · simp only [upd_apply, if_neg hu]; exact b1 u hu
            · simp only [upd_apply, if_true]; rfl
          · rw [h] at c1; cases c1
        · rw [b1 t ht] at h; cases h
    | statsPanic t r mem l h ho =>
      refine ⟨fun hq => ?_, fun a t' r' ha he => ?_⟩
      · obtain ⟨a, r', ha, he⟩ := quiet_last_ret hq
        obtain ⟨b1, d0, d', out, b2, b3, b4⟩ := i2 a t r' ha he
        rcases b4 with ⟨mem', rest', l0, di, c1, c2, c3, c4⟩ | ⟨c1, _⟩
        · rw [h] at c1
          cases c1
          simp [finish] at c3
          subst c3
          rw [ho] at c4
          simp at c4
        · rw [h] at c1; cases c1
      · have := (List.append_inj' he rfl).2; simp at this
    | ret t out h =>
      refine ⟨fun hq => ?_, fun a t' r' ha he => ?_⟩
      · obtain ⟨a, r', ha, he⟩ := quiet_last_ret hq
        obtain ⟨b1, d0, d', out', b2, b3, b4⟩ := i2 a t r' ha he
        subst he
        rcases b4 with ⟨mem', rest', l0, di, c1, c2, c3, c4⟩ | ⟨c1, c2⟩
        · rw [h] at c1; cases c1
        · refine ⟨fun u => ?_, ?_⟩
          · simp only [upd_apply]
            split
            · rfl
            · next hu => exact b1 u hu
          · rw [readings_append, readings_append, List.append_assoc, run_append, b2]
            simp only [readings, Option.toList_some, List.append_nil, Option.bind_some, Runtime.run, b3]
            rw [← c2]
      · have := (List.append_inj' he rfl).2; simp at this

/-- **C106**, what holds: reports made one after the other – from whatever goroutines – are the reports the source gives a single goroutine: C60 applies to them.
None panics.  Missing: reports that overlap, for which it is false. -/
theorem C106_one_at_a_time_partial {reload : Bool} {K oob fused} (hK : IsIntKind K oob fused) {next : G → UInt64 × G} {g : G} {a b : List Ev} {t : Nat}
    {r : Runtime.Reading} {out : Option Out} {s : State G} (h : Exec (Step reload K next) (init K g) (a ++ .call t r :: .ret t out :: b) s) (ha : Quiet a)
    (hc : ∀ r' ∈ readings a ++ [r], Struct.Spec.Clean r'.mem) (hl : 2 * (readings a).length + 2 < 2 ^ 63) :
    ∃ before after o, Runtime.run K next (Runtime.new K g) (readings a) = some before ∧ Runtime.read K next before r = some (after, o) ∧ out = some o := by
  obtain ⟨s1, s2, h1, st, -⟩ := h.split (a ++ [.call t r]) (.ret t out) b (by simp)
  have hg : Goes K next g (readings (a ++ [.call t r])) := by
    rw [readings_append]
    obtain ⟨x, hx, -⟩ := Runtime.C60_exact hK next g (readings a ++ [r]) hc (by simp; omega)
    exact ⟨x, hx⟩
  obtain ⟨b1, d0, d', out', b2, b3, b4⟩ := (inv_exec h1 hg).2 a t r ha rfl
  refine ⟨_, _, _, b2, b3, ?_⟩
  cases st with
  | panic _ r' mem op rest l h0 ho =>
    rcases b4 with ⟨mem', rest', l0, di, c1, c2, c3, c4⟩ | ⟨c1, _⟩
    · rw [h0] at c1
      cases c1
      simp [finish, ho] at c3
    · rw [h0] at c1; cases c1
  | statsPanic _ r' mem l h0 ho =>
    rcases b4 with ⟨mem', rest', l0, di, c1, c2, c3, c4⟩ | ⟨c1, _⟩
    · rw [h0] at c1
      cases c1
      simp [finish] at c3
      subst c3
      rw [ho] at c4
      simp at c4
    · rw [h0] at c1; cases c1
  | ret _ out h0 =>
    rcases b4 with ⟨mem', rest', l0, di, c1, c2, c3, c4⟩ | ⟨c1, _⟩
    · rw [h0] at c1; cases c1
    · rw [h0] at c1; cases c1; rfl

/-- Several accesses in a row. -/
theorem go {reload : Bool} {K : DistKind Int64 ℚ} {next : G → UInt64 × G} {s₀ : State G} {tr : List Ev} (t : Nat) (r : Runtime.Reading) (mem : List (Str × FVal))
    (ops rest : List (Micro G)) : ∀ {d : Dist Int64 ℚ G} {pc : Nat → PC G} {l d' l'}, Exec (Step reload K next) s₀ tr ⟨d, pc⟩ → pc t = .insert r mem (ops ++ rest) l →
      finish ops (d, l) = some (d', l') → ∃ pc', Exec (Step reload K next) s₀ tr ⟨d', pc'⟩ ∧ pc' t = .insert r mem rest l' ∧ ∀ u, u ≠ t → pc' u = pc u := by
  induction ops with
  | nil =>
    intro d pc l d' l' e h hf
    simp [finish] at hf
    obtain ⟨rfl, rfl⟩ := hf
    exact ⟨pc, e, h, fun _ _ => rfl⟩
  | cons op ops ih =>
    intro d pc l d' l' e h hf
    simp only [finish] at hf
    obtain ⟨⟨d1, l1⟩, h1, h2⟩ := Option.bind_eq_some_iff.1 hf
    have e' := e.step _ (.micro _ t r mem op (ops ++ rest) l d1 l1 h h1)
    rw [Option.toList_none, List.append_nil] at e'
    obtain ⟨pc', e1, e2, e3⟩ := ih e' (by simp only [upd_apply, if_true]) h2
    exact ⟨pc', e1, e2, fun u hu => by rw [e3 u hu]; simp only [upd_apply, if_neg hu]⟩

/-- Durations. -/
def K0 : DistKind Int64 ℚ := durKind (fun _ => 0) false

/-- No randomness is needed. -/
def next0 (g : Unit) : UInt64 × Unit := (0, g)

/-- A reading with one pause of five nanoseconds. -/
def r0 : Runtime.Reading := ⟨7, .struct .nil, 1, [5], 1024⟩

/-- The program in two halves: up to the reading of `d.Count` into `index`, and after it. -/
def half1 (reload : Bool) : List (Micro Unit) := (prog reload K0 next0 r0).take 9
def half2 (reload : Bool) : List (Micro Unit) := (prog reload K0 next0 r0).drop 9

/-- What two goroutines say that have both done the first half and then one after the other the rest. -/
def two (reload : Bool) : Option (Out × Out) :=
  (finish (half1 reload) ((init K0 ()).dist, .zero)).bind fun a =>
  (finish (half1 reload) (a.1, .zero)).bind fun b =>
  (finish (half2 reload) (b.1, a.2)).bind fun c =>
  (c.1.stats K0).bind fun d =>
  (finish (half2 reload) (d.1, b.2)).bind fun e =>
  (e.1.stats K0).bind fun f => some (said r0 [] d.2, said r0 [] f.2)

theorem two_exec {reload : Bool} {o₀ o₁ : Out} (h : two reload = some (o₀, o₁)) :
    ∃ s, Exec (Step reload K0 next0) (init K0 ()) [.call 0 r0, .call 1 r0, .ret 0 (some o₀), .ret 1 (some o₁)] s := by
  unfold two at h
  simp only [Option.bind_eq_some_iff, Option.some.injEq, Prod.mk.injEq] at h
  obtain ⟨a, ha, b, hb, c, hc, d, hd, e, he, f, hf, rfl, rfl⟩ := h
  have x := Exec.start (step := Step reload K0 next0) (s₀ := init K0 ())
  have x := x.step _ (.call _ 0 r0 [] rfl rfl)
  have x := x.step _ (.call _ 1 r0 [] rfl rfl)
  have hp : prog reload K0 next0 r0 = half1 reload ++ half2 reload := (List.take_append_drop 9 _).symm
  obtain ⟨p1, x, q1, n1⟩ := go 0 r0 [] (half1 reload) (half2 reload) x (by rw [← hp]; rfl) ha
  obtain ⟨p2, x, q2, n2⟩ := go 1 r0 [] (half1 reload) (half2 reload) x (by rw [n1 1 (by decide), ← hp]; rfl) hb
  obtain ⟨p3, x, q3, n3⟩ := go 0 r0 [] (half2 reload) [] x (by rw [n2 0 (by decide), q1, List.append_nil]) hc
  have x := x.step _ (.stats _ 0 r0 [] c.2 d.1 d.2 q3 hd)
  have x := x.step _ (.ret _ 0 _ (by simp only [upd_apply, if_true]; rfl))
  obtain ⟨p4, x, q4, n4⟩ := go 1 r0 [] (half2 reload) [] x
    (by simp only [upd_apply, if_neg (show ¬ (1 : Nat) = 0 by decide)]; rw [n3 1 (by decide), q2, List.append_nil]) he
  have x := x.step _ (.stats _ 1 r0 [] e.2 f.1 f.2 q4 hf)
  have x := x.step _ (.ret _ 1 _ (by simp only [upd_apply, if_true]; rfl))
  exact ⟨_, x⟩

/-- **C106 is false of reports that overlap**: two first reports, each with a pause of five nanoseconds, made at the same time.  When both are through, the second says
that one pause was seen, of five nanoseconds, and that the pauses sum to ten – where `d.Count` is read once … -/
theorem C106_count_violated : ∃ o₀ o₁ s, Exec (Step false K0 next0) (init K0 ()) [.call 0 r0, .call 1 r0, .ret 0 (some o₀), .ret 1 (some o₁)] s ∧
    (⟨b!"runtime_gcstats", []⟩, b!"count", FVal.int 1) ∈ o₁ ∧ (⟨b!"runtime_gcstats", []⟩, b!"max", K0.toF 5) ∈ o₁ ∧
    (⟨b!"runtime_gcstats", []⟩, b!"sum", K0.toF 10) ∈ o₁ := by
  have h : (two false).isSome = true ∧ ∀ x ∈ two false, (⟨b!"runtime_gcstats", []⟩, b!"count", FVal.int 1) ∈ x.2 ∧ (⟨b!"runtime_gcstats", []⟩, b!"max", K0.toF 5) ∈ x.2 ∧
    (⟨b!"runtime_gcstats", []⟩, b!"sum", K0.toF 10) ∈ x.2 := by decide +kernel
  obtain ⟨x, hx⟩ := Option.isSome_iff_exists.1 h.1
  obtain ⟨s, hs⟩ := two_exec (o₀ := x.1) (o₁ := x.2) hx
  exact ⟨x.1, x.2, s, hs, h.2 x hx⟩

/-- … and that the least pause remembered was none at all, though each pause took five nanoseconds – where `d.Count` is read again. -/
theorem C106_rmin_violated : ∃ o₀ o₁ s, Exec (Step true K0 next0) (init K0 ()) [.call 0 r0, .call 1 r0, .ret 0 (some o₀), .ret 1 (some o₁)] s ∧
    (⟨b!"runtime_gcstats", []⟩, b!"min", K0.toF 5) ∈ o₁ ∧ (⟨b!"runtime_gcstats", []⟩, b!"rmin", K0.toF 0) ∈ o₁ := by
  have h : (two true).isSome = true ∧ ∀ x ∈ two true, (⟨b!"runtime_gcstats", []⟩, b!"min", K0.toF 5) ∈ x.2 ∧ (⟨b!"runtime_gcstats", []⟩, b!"rmin", K0.toF 0) ∈ x.2 := by
    decide +kernel
  obtain ⟨x, hx⟩ := Option.isSome_iff_exists.1 h.1
  obtain ⟨s, hs⟩ := two_exec (o₀ := x.1) (o₁ := x.2) hx
  exact ⟨x.1, x.2, s, hs, h.2 x hx⟩

/-- The hypotheses of `C106_one_at_a_time_partial` are met by a report of goroutine 1 after one of goroutine 0. -/
example : ∃ o₀ o₁ s, Exec (Step true K0 next0) (init K0 ()) ([.call 0 r0, .ret 0 (some o₀)] ++ .call 1 r0 :: .ret 1 (some o₁) :: []) s ∧
    Quiet [.call 0 r0, .ret 0 (some o₀)] ∧ (∀ r' ∈ readings [.call 0 r0, .ret 0 (some o₀)] ++ [r0], Struct.Spec.Clean r'.mem) := by
  have h : ((finish (prog true K0 next0 r0) ((init K0 ()).dist, .zero)).bind fun a => (a.1.stats K0).bind fun b =>
      (finish (prog true K0 next0 r0) (b.1, .zero)).bind fun c => c.1.stats K0).isSome = true := by decide +kernel
  obtain ⟨y, hy⟩ := Option.isSome_iff_exists.1 h
  simp only [Option.bind_eq_some_iff] at hy
  obtain ⟨a, ha, b, hb, c, hc, hd⟩ := hy
  have x := Exec.start (step := Step true K0 next0) (s₀ := init K0 ())
  have x := x.step _ (.call _ 0 r0 [] rfl rfl)
  obtain ⟨p1, x, q1, n1⟩ := go 0 r0 [] (prog true K0 next0 r0) [] x (by simp only [upd_apply, if_true, List.append_nil]) ha
  have x := x.step _ (.stats _ 0 r0 [] a.2 b.1 b.2 q1 hb)
  have x := x.step _ (.ret _ 0 _ (by simp only [upd_apply, if_true]; rfl))
  have x := x.step _ (.call _ 1 r0 [] (by
    simp only [upd_apply, if_neg (show ¬ (1 : Nat) = 0 by decide)]; rw [n1 1 (by decide)]; rfl) rfl)
  obtain ⟨p2, x, q2, n2⟩ := go 1 r0 [] (prog true K0 next0 r0) [] x (by simp only [upd_apply, if_true, List.append_nil]) hc
  have x := x.step _ (.stats _ 1 r0 [] c.2 y.1 y.2 q2 hd)
  have x := x.step _ (.ret _ 1 _ (by simp only [upd_apply, if_true]; rfl))
  refine ⟨_, _, _, x, .pair (a := []) 0 r0 _ .nil, ?_⟩
  intro r' hr
  simp [readings] at hr
  subst hr
  simp [r0, Struct.Spec.Clean, Struct.Spec.CleanFields]

end Monkit.RuntimeConc
