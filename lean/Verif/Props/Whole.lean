import Verif.Proofs.Whole
import Verif.Proofs.WholeRun
import Verif.Spec.Whole
import Verif.Props.FuncConc
import Verif.Props.Spans
import Verif.Props.Locks

/-!
# C115: spans and statistics of concurrent calls agree

`Reach K next name P (init K P g1 g2) s`: any interleaving of the monitored calls, `Reset`s and `Stats` of program `P`, of any number of functions, leads to `s`.
-/

namespace Monkit.Whole
open Go Monkit.Spec

variable {G E : Type} {K : DistKind Int64 ℚ} {next : G → UInt64 × G} {name : E → Str} {P : Program E}

theorem exiting_iff {s : Spans.State} {n : Nat} : Spans.Exiting s n ↔ sphase (s.pc n) = 5 := by
  unfold Spans.Exiting
  cases s.pc n <;> simp [sphase]

theorem exitCalled_iff {s : State G} {n : Nat} : ExitCalled s n ↔ 4 ≤ sphase (s.sp.pc n) := by
  unfold ExitCalled
  rw [exiting_iff]
  cases s.sp.pc n <;> simp [sphase]

theorem visible_pubd {W : Spans.World} {s : Spans.State} (h : Spans.Reach W Spans.init s) {n : Nat} (hv : Spans.Visible s n) : 3 ≤ sphase (s.pc n) := by
  obtain ⟨a, b⟩ := Spans.reach_inv h
  cases hv with
  | root r _ hm =>
    have := ((a.roots r n).1 hm).2.2
    revert this
    cases s.pc n <;> simp [Spans.PC.live, sphase]
  | orphan r _ hm =>
    have h1 := (b.orph r n).1 hm
    have h2 := (b.orphP n h1.2.1).1
    revert h2
    cases s.pc n <;> simp [Spans.PC.pubd, sphase]
  | child p _ hm hp =>
    have := ((Spans.mem_bag a (.refl _) n).1 hm).2
    revert this
    cases s.pc n <;> simp [Spans.PC.live, sphase]

theorem added_mono {s s' : State G} (h : Reach K next name P s s') {n : Nat} (hn : s.added n = true) : s'.added n = true := by
  induction h with
  | start => exact hn
  | @step m _ _ _ st ih =>
    cases st with
    | span => exact ih
    | parent =>
      by_cases e : n = m
      · subst e; simp
      · dsimp only; rw [upd_other _ _ e]; exact ih
    | func => exact ih

/-- **C115**, listings: a span that can be reached from the roots and orphans of a registry has been counted by its function – `start` has returned – and its
function lists the function of its parent (nil without one) among its parents, then and for ever after. -/
theorem C115_listed {g1 g2 : Nat → G} {s : State G} (h : Reach K next name P (init K P g1 g2) s) (n : Nat) (hv : Spans.Visible s.sp n) :
    (P.act n).isCall = true ∧ ¬(s.fn (P.act n).func).pc n = .new ∧ ¬FuncConc.Starting ((s.fn (P.act n).func).pc n) ∧
    ∀ s', Reach K next name P s s' → (P.W.parent n).map (fun p => (P.act p).func) ∈ s'.parents (P.act n).func := by
  obtain ⟨i, il, _⟩ := reach_inv h
  have h3 := visible_pubd (reach_spans h) hv
  have hc : (P.act n).isCall = true := i.call n (fun e => by rw [e] at h3; simp [sphase] at h3)
  have hp := i.phase n hc
  dsimp only at hp
  have hf : 2 ≤ fphase ((s.fn (P.act n).func).pc n) := by omega
  have ha := i.addedF n hc (by omega)
  refine ⟨hc, fun e => ?_, fun e => ?_, fun s' h' => ?_⟩
  · rw [e] at hf; simp [fphase] at hf
  · revert e hf
    cases (s.fn (P.act n).func).pc n <;> simp [FuncConc.Starting, fphase]
  · exact ((reach_inv (h.trans h')).1.parents _ _).2 ⟨n, added_mono h' ha, rfl, rfl⟩

/-- **C115**, parents: the parents of a function are, each once, the functions of the parents of calls of it that have been started, and include those of all calls that are
running or finished. -/
theorem C115_parents {g1 g2 : Nat → G} {s : State G} (h : Reach K next name P (init K P g1 g2) s) (f : Nat) :
    (s.parents f).Nodup ∧
    (∀ q ∈ s.parents f, ∃ n, CallOf P f n ∧ s.sp.pc n ≠ .new ∧ (P.W.parent n).map (fun p => (P.act p).func) = q) ∧
    ∀ n, CallOf P f n → s.sp.pc n = .running ∨ ExitCalled s n → (P.W.parent n).map (fun p => (P.act p).func) ∈ s.parents f := by
  obtain ⟨i, il, _⟩ := reach_inv h
  refine ⟨i.parentsN f, fun q hq => ?_, fun n hc hn => ?_⟩
  · obtain ⟨n, h1, h2, h3⟩ := (i.parents f q).1 hq
    obtain ⟨h4, h5⟩ := i.addedS n h1
    exact ⟨n, ⟨h4, h2⟩, fun e => by rw [e] at h5; simp [sphase] at h5, h3⟩
  · have h3 : 3 ≤ sphase (s.sp.pc n) := by
      rcases hn with hn | hn
      · rw [hn]; simp [sphase]
      · have := exitCalled_iff.1 hn; omega
    have hp := i.phase n hc.1
    dsimp only at hp
    exact (i.parents f _).2 ⟨n, i.addedF n hc.1 (by omega), hc.2, rfl⟩

/-! ## What is recorded -/

theorem kind_of_call {a : Act E} (h : a.isCall = true) : a.kind.op.map (fun o => (match o with | .finish e p d _ => (classify e p, d) | _ => (.success, 0) : Class E × Int64)) =
    [(a.outcome, a.duration)] := by
  cases a <;> simp_all [Act.isCall, Act.kind, FuncConc.Kind.op, Act.outcome, Act.duration]

theorem finishedObs_calls (l : List Nat) (hl : ∀ n ∈ l, (P.act n).isCall = true) :
    finishedObs (FuncConc.history (fun m => (P.act m).kind) l) = l.map fun n => ((P.act n).outcome, (P.act n).duration) := by
  induction l using List.reverseRecOn with
  | nil => rfl
  | append_singleton l n ih =>
    rw [FuncConc.history_snoc, List.map_append]
    have h1 := ih fun m hm => hl m (by simp [hm])
    obtain ⟨f, e, p, d, w, hk⟩ := kind_call (hl n (by simp))
    rw [← h1]
    simp [hk, Act.kind, FuncConc.Kind.op, finishedObs, List.foldl_append, Act.outcome, Act.duration]

theorem noReset_conc {g1 g2 : Nat → G} {s : State G} (h : Reach K next name P (init K P g1 g2) s) {f : Nat} (hr : NoReset P s f) :
    FuncConc.NoReset (fun m => (P.act m).kind) (s.fn f) := by
  obtain ⟨i, il, _⟩ := reach_inv h
  intro n hk
  by_contra hc
  have hnew : (s.fn f).pc n ≠ .new := fun e => hc (by rw [e]; rfl)
  have hf := i.own n f hnew
  cases ha : P.act n with
  | reset g =>
    rw [ha] at hf
    have : g = f := hf.symm
    subst this
    exact hnew (hr n ha)
  | call => simp [ha, Act.kind] at hk
  | stats => simp [ha, Act.kind] at hk

/-- Without a `Reset`, the calls that have been recorded are calls of the function; those of them whose exit function has been called, and all that have been marked
done. -/
theorem log_calls {g1 g2 : Nat → G} {s : State G} (h : Reach K next name P (init K P g1 g2) s) {f : Nat} (hr : NoReset P s f) :
    (∀ n ∈ (s.fn f).log, CallOf P f n ∧ ExitCalled s n) ∧ ∀ n, CallOf P f n → Spans.Exiting s.sp n → n ∈ (s.fn f).log := by
  obtain ⟨i, il, _⟩ := reach_inv h
  constructor
  · intro n hn
    obtain ⟨h1, h2⟩ := ((il f).logM n).1 hn
    have hnew : (s.fn f).pc n ≠ .new := fun e => by rw [e] at h2; cases h2
    have hf := i.own n f hnew
    have hc : (P.act n).isCall = true := by
      cases ha : P.act n with
      | call => rfl
      | reset g =>
        have := noReset_conc h hr n (by simp [ha, Act.kind])
        revert this h2
        cases (s.fn f).pc n <;> simp [FuncConc.PC.isNew, FuncConc.PC.done]
      | stats => simp [ha, Act.kind] at h1
    refine ⟨⟨hc, hf.symm⟩, exitCalled_iff.2 ?_⟩
    have hp := i.phase n hc
    dsimp only at hp
    rw [← hf] at hp
    have h3 : 3 ≤ fphase ((s.fn f).pc n) := by
      revert h2
      cases (s.fn f).pc n <;> simp [fphase, FuncConc.PC.done]
    have := fphase_le ((s.fn f).pc n)
    omega
  · intro n hc hn
    have h5 := exiting_iff.1 hn
    have hp := i.phase n hc.1
    dsimp only at hp
    rw [hc.2] at hp
    have := fphase_le ((s.fn f).pc n)
    obtain ⟨r, hr⟩ := fphase_four.1 (show fphase ((s.fn f).pc n) = 4 by omega)
    refine ((il f).logM n).2 ⟨?_, by rw [hr]; rfl⟩
    obtain ⟨e, p, d, w, hk⟩ := kind_call' hc.1
    rw [hk]; simp

theorem countP_le_of_sub {l l' : List Nat} (hn : l.Nodup) (h : ∀ x ∈ l, x ∈ l') (q : Nat → Bool) : l.countP q ≤ l'.countP q :=
  (hn.subperm h).countP_le q

theorem reset_back {s s' : State G} (h' : Reach K next name P s s') {f : Nat} (hr : NoReset P s' f) : NoReset P s f :=
  fun n hn => FuncConc.new_back (reach_func h' f) (hr n hn)

/-- **C115**, reports: a `Stats` of function `f`, called in `s1` and returning `rep` in `s2`, no `Reset` having been called.  `A`: calls of `f` that were marked done – which
is before they disappear from any listing, and before their exit function returns – when it was called; `B`: all whose exit function was called before it returned.  The
numbers of successes, errors (by name and together), panics and of all calls in the report are between those of `A` and those of `B`. -/
theorem C115_report {oob fused} (hK : IsIntKind K oob fused) {g1 g2 : Nat → G} {s1 s2 : State G} (h1 : Reach K next name P (init K P g1 g2) s1)
    (h2 : Reach K next name P s1 s2) (f m : Nat) (hm : P.act m = .stats f) (hnew : (s1.fn f).pc m = .new) (rep : FuncConc.Report)
    (hrep : (s2.fn f).pc m = .over rep) (hr : NoReset P s2 f) (hfew : Few s2 f)
    (A B : List Nat) (nA : A.Nodup) (hA : ∀ n ∈ A, CallOf P f n ∧ Spans.Exiting s1.sp n) (hB : ∀ n, CallOf P f n → ExitCalled s2 n → n ∈ B) :
    ∃ (c hw S E Pn F T : Int64) (ord : Map Str Int64) (rest : FuncConc.Report),
      rep = [(P.key f, b!"current", .int c), (P.key f, b!"highwater", .int hw), (P.key f, b!"successes", .int S)] ++
          ord.map (fun x => ((P.key f).withTag b!"error_name" x.1, b!"count", .int x.2)) ++
          [(P.key f, b!"errors", .int E), (P.key f, b!"panics", .int Pn), (P.key f, b!"failures", .int F), (P.key f, b!"total", .int T)] ++ rest ∧
      (A.countP (fun n => (P.act n).outcome.isSuccess) ≤ S.toInt ∧ S.toInt ≤ B.countP fun n => (P.act n).outcome.isSuccess) ∧
      (A.countP (fun n => (P.act n).outcome.isError) ≤ E.toInt ∧ E.toInt ≤ B.countP fun n => (P.act n).outcome.isError) ∧
      (A.countP (fun n => (P.act n).outcome.isPanic) ≤ Pn.toInt ∧ Pn.toInt ≤ B.countP fun n => (P.act n).outcome.isPanic) ∧
      (A.length ≤ T.toInt ∧ T.toInt ≤ B.length) ∧ F.toInt = E.toInt + Pn.toInt ∧ T.toInt = S.toInt + F.toInt ∧
      (ord.map (·.1)).Nodup ∧
      (∀ n, A.countP (fun k => (P.act k).outcome.named name n) ≠ 0 → n ∈ ord.map (·.1)) ∧
      ∀ n k, (n, k) ∈ ord → A.countP (fun k => (P.act k).outcome.named name n) ≤ k.toInt ∧ k.toInt ≤ B.countP fun k => (P.act k).outcome.named name n := by
  obtain ⟨N, hlt, hN⟩ := hfew
  obtain ⟨log, p1, p2, c, hw, S, Er, Pn, F, T, ord, r1, r2, a1, a2, a3, a4, a5, a6, a7, a8, a9, _, e⟩ :=
    FuncConc.C98_report hK (P.key f) (g1 f) (g2 f) (reach_func h1 f) m (by simp [hm, Act.kind]) hnew (reach_func h2 f) rep hrep N hN hlt
  have hr1 := reset_back h2 hr
  have l1 := log_calls h1 hr1
  have l2 := log_calls (h1.trans h2) hr
  have nd : log.Nodup := p2.sublist.nodup ((reach_inv (h1.trans h2)).2.1 f).logN
  have hAl : ∀ x ∈ A, x ∈ log := fun x hx => p1.subset (l1.2 x (hA x hx).1 (hA x hx).2)
  have hlB : ∀ x ∈ log, x ∈ B := fun x hx => hB x (l2.1 x (p2.subset hx)).1 (l2.1 x (p2.subset hx)).2
  have hobs := finishedObs_calls (P := P) log fun n hn => (l2.1 n (p2.subset hn)).1.1
  rw [hobs] at a1 a2 a3 a6
  have hc : ∀ q : Class E → Bool, (log.map fun n => ((P.act n).outcome, (P.act n).duration)).countP (fun x => q x.1) = log.countP fun n => q (P.act n).outcome := by
    intro q; rw [List.countP_map]; rfl
  have both : ∀ q : Class E → Bool, A.countP (fun n => q (P.act n).outcome) ≤ log.countP (fun n => q (P.act n).outcome) ∧
      log.countP (fun n => q (P.act n).outcome) ≤ B.countP (fun n => q (P.act n).outcome) :=
    fun q => ⟨countP_le_of_sub nA hAl _, countP_le_of_sub nd hlB _⟩
  refine ⟨c, hw, S, Er, Pn, F, T, ord, r1 ++ r2, by rw [e]; simp, ?_, ?_, ?_, ?_, a4, a5, a7, ?_, ?_⟩
  · rw [a1, hc Class.isSuccess]; exact_mod_cast both Class.isSuccess
  · rw [a2, hc Class.isError]; exact_mod_cast both Class.isError
  · rw [a3, hc Class.isPanic]; exact_mod_cast both Class.isPanic
  · rw [a6, List.length_map]
    have q1 := (nA.subperm hAl).length_le
    have q2 := (nd.subperm hlB).length_le
    omega
  · intro n hn
    rw [a8, hobs, hc (Class.named name n)]
    have := (both (Class.named name n)).1
    omega
  · intro n k hk
    rw [a9 n k hk, hobs, hc (Class.named name n)]
    exact_mod_cast both (Class.named name n)

/-! ## When nothing is half way through -/

theorem call_running {g1 g2 : Nat → G} {s : State G} (h : Reach K next name P (init K P g1 g2) s) (q : Spans.Quiet s.sp) (f n : Nat) :
    ((s.fn f).pc n).isIn = true ↔ CallOf P f n ∧ s.sp.pc n = .running := by
  obtain ⟨i, il, _⟩ := reach_inv h
  constructor
  · intro hin
    have hnew : (s.fn f).pc n ≠ .new := fun e => by rw [e] at hin; cases hin
    have hf := i.own n f hnew
    obtain ⟨e, p, d, w, hk⟩ := (il f).kCall n (by revert hin; cases (s.fn f).pc n <;> simp [FuncConc.PC.isIn, FuncConc.PC.ofCall])
    have hc : (P.act n).isCall = true := by
      revert hk; cases P.act n <;> simp [Act.kind, Act.isCall]
    refine ⟨⟨hc, hf.symm⟩, ?_⟩
    have hp := i.phase n hc
    dsimp only at hp
    rw [← hf] at hp
    have hph : 1 ≤ fphase ((s.fn f).pc n) ∧ fphase ((s.fn f).pc n) ≤ 3 := by
      revert hin; cases (s.fn f).pc n <;> simp [FuncConc.PC.isIn, fphase]
    rcases q n with e | e | e
    · rw [e] at hp; simp [sphase] at hp; omega
    · exact e
    · rw [e] at hp; simp [sphase] at hp; omega
  · rintro ⟨⟨hc, rfl⟩, hn⟩
    have hp := i.phase n hc
    dsimp only at hp
    rw [hn] at hp
    simp [sphase] at hp
    have := fphase_le ((s.fn (P.act n).func).pc n)
    have h2 := fphase_two.1 (show fphase ((s.fn (P.act n).func).pc n) = 2 by omega)
    rw [h2]; rfl

/-- **C115**, running calls: with no start or exit half way through (`Stats` may be), and no `Reset` of `f` so far, `Current()` is the number of running spans of `f`. -/
theorem C115_current {g1 g2 : Nat → G} {s : State G} (h : Reach K next name P (init K P g1 g2) s) (q : Spans.Quiet s.sp) (f : Nat) (hr : NoReset P s f) (hfew : Few s f)
    (R : List Nat) (nR : R.Nodup) (hR : ∀ n, n ∈ R ↔ CallOf P f n ∧ s.sp.pc n = .running) : (s.fn f).f.current.toInt = R.length := by
  obtain ⟨N, hlt, hN⟩ := hfew
  obtain ⟨k, hk, e⟩ := FuncConc.current_eq (reach_func h f) (noReset_conc h hr) hN hlt
  rw [e]
  have : Census (s.fn f).pc FuncConc.PC.isIn R.length := ⟨R, nR, fun n => by rw [hR, call_running h q], rfl⟩
  rw [hk.unique this]

/-- **C115**, listings and `Current()`: in a process with a single registry, with no start or exit half way through and no `Reset` of `f` so far, `AllSpans` lists `Current()` spans
of `f`. -/
theorem C115_all_spans {g1 g2 : Nat → G} {s : State G} (h : Reach K next name P (init K P g1 g2) s) (q : Spans.Quiet s.sp) (f : Nat) (hr : NoReset P s f) (hfew : Few s f)
    (w : SpanSort) (r : Nat) (hreg : ∀ n, P.W.reg n = r) (o1 o2 : List Nat) (h1 : o1.Perm (s.sp.roots r)) (h2 : o2.Perm (s.sp.orphans r))
    (ords : Nat → Map Nat Int32) (hords : ∀ n, (ords n).Perm (s.sp.bag n).rest) :
    ∃ depth l, (∀ fuel, depth ≤ fuel → Spans.allSpans w s.sp ords o1 o2 fuel = some l) ∧
      (s.fn f).f.current.toInt = l.countP fun n => decide ((P.act n).func = f) := by
  obtain ⟨d, l, e, nd, hm⟩ := Spans.C23_all_spans_single (reach_spans h) q w r hreg o1 o2 h1 h2 ords hords
  refine ⟨d, l, e, ?_⟩
  rw [List.countP_eq_length_filter]
  refine C115_current h q f hr hfew _ (nd.filter _) fun n => ?_
  rw [List.mem_filter, hm, decide_eq_true_eq]
  constructor
  · rintro ⟨h1, h2⟩
    exact ⟨⟨(reach_inv h).1.call n (by rw [h1]; simp), h2⟩, h1⟩
  · rintro ⟨h1, h2⟩; exact ⟨h2, h1.2⟩

/-- **C115**, in the end: when all calls that were started have returned, and no `Reset` of `f` was called: with `A` the calls of `f`, `Current()` is 0; panics,
successes and the errors of every name are as many as calls in `A` ended so; the distributions of the times of successes and failures have their numbers, sums and extremes; the parents are,
each once, the functions of the parents of the calls in `A`; no registry has roots or orphans, and no trace counts a span. -/
theorem C115_accounting {oob fused} (hK : IsIntKind K oob fused) {g1 g2 : Nat → G} {s : State G} (h : Reach K next name P (init K P g1 g2) s)
    (hover : ∀ n, s.sp.pc n = .new ∨ s.sp.pc n = .over) (f : Nat) (hr : NoReset P s f) (hfew : Few s f)
    (A : List Nat) (nA : A.Nodup) (hA : ∀ n, n ∈ A ↔ CallOf P f n ∧ s.sp.pc n = .over) :
    let x := (s.fn f).f
    let succ := (A.filter fun n => (P.act n).outcome.isSuccess).map fun n => (P.act n).duration
    let fail := (A.filter fun n => !(P.act n).outcome.isSuccess).map fun n => (P.act n).duration
    x.current = 0 ∧ x.panics.toInt = A.countP (fun n => (P.act n).outcome.isPanic) ∧
    (∀ e, Map.get x.errors e = none ↔ A.countP (fun n => (P.act n).outcome.named name e) = 0) ∧
    (∀ e k, Map.get x.errors e = some k → k.toInt = A.countP fun n => (P.act n).outcome.named name e) ∧
    (x.success.count.toInt = succ.length ∧ x.success.sum.toInt = wrapSum succ ∧ isMinOrZero succ x.success.low ∧ isMaxOrZero succ x.success.high) ∧
    (x.failure.count.toInt = fail.length ∧ x.failure.sum.toInt = wrapSum fail ∧ isMinOrZero fail x.failure.low ∧ isMaxOrZero fail x.failure.high) ∧
    (s.parents f).Nodup ∧ (∀ p, p ∈ s.parents f ↔ ∃ n ∈ A, (P.W.parent n).map (fun p => (P.act p).func) = p) ∧
    (∀ r, s.sp.roots r = [] ∧ s.sp.orphans r = []) ∧ ∀ t, s.sp.count t = 0 := by
  intro x succ fail
  have q : Spans.Quiet s.sp := fun n => (hover n).elim .inl fun e => .inr (.inr e)
  obtain ⟨i, il, iF⟩ := reach_inv h
  have hcur := C115_current h q f hr hfew [] (by simp) (fun n => by
    constructor
    · intro h; cases h
    · rintro ⟨_, e⟩; rcases hover n with e' | e' <;> rw [e'] at e <;> cases e)
  obtain ⟨N, hlt, hN⟩ := hfew
  have lc := log_calls h hr
  have hperm : ((s.fn f).log).Perm A := by
    refine (List.perm_ext_iff_of_nodup (il f).logN nA).2 fun n => ?_
    rw [hA]
    constructor
    · intro hn
      obtain ⟨h1, h2⟩ := lc.1 n hn
      refine ⟨h1, ?_⟩
      have := exitCalled_iff.1 h2
      rcases hover n with e | e
      · rw [e] at this; simp [sphase] at this
      · exact e
    · rintro ⟨h1, h2⟩
      exact lc.2 n h1 (exiting_iff.2 (by rw [h2]; rfl))
  obtain ⟨g, hg, same⟩ := iF f
  have hlen : (FuncConc.history (fun m => (P.act m).kind) (s.fn f).log).length < 2 ^ 63 :=
    lt_of_le_of_lt (FuncConc.log_bound' (reach_func h f) hN List.prefix_rfl) hlt
  obtain ⟨g', hg', b1, _, b2, b3, b4, b5, _⟩ := FuncStats.C17_accounting hK next name (P.key f) (g1 f) (g2 f) _ hlen
  rw [hg] at hg'
  cases hg'
  have hobs := finishedObs_calls (P := P) (s.fn f).log fun n hn => (lc.1 n hn).1.1
  rw [hobs] at b1 b4 b5
  have hc : ∀ p : Class E → Bool, ((s.fn f).log.map fun n => ((P.act n).outcome, (P.act n).duration)).countP (fun x => p x.1) =
      A.countP fun n => p (P.act n).outcome := by
    intro p; rw [List.countP_map, ← hperm.countP_eq]; rfl
  have hd : ∀ p : Class E → Bool, ((((s.fn f).log.map fun n => ((P.act n).outcome, (P.act n).duration)).filter (fun x => p x.1)).map (·.2)).Perm
      ((A.filter fun n => p (P.act n).outcome).map fun n => (P.act n).duration) := by
    intro p
    rw [List.filter_map, List.map_map]
    exact (hperm.filter _).map _
  have hs := hd Class.isSuccess
  have hf := hd fun c => !c.isSuccess
  have wsum : ∀ {a b : List Int64}, a.Perm b → wrapSum a = wrapSum b := fun p => by unfold wrapSum; rw [(p.map _).sum_eq]
  have wmin : ∀ {a b : List Int64} {v}, a.Perm b → isMinOrZero a v → isMinOrZero b v := by
    rintro a b v p (⟨rfl, e⟩ | ⟨e1, e2⟩)
    · exact .inl ⟨p.symm.eq_nil, e⟩
    · exact .inr ⟨p.mem_iff.1 e1, fun y hy => e2 y (p.mem_iff.2 hy)⟩
  have wmax : ∀ {a b : List Int64} {v}, a.Perm b → isMaxOrZero a v → isMaxOrZero b v := by
    rintro a b v p (⟨rfl, e⟩ | ⟨e1, e2⟩)
    · exact .inl ⟨p.symm.eq_nil, e⟩
    · exact .inr ⟨p.mem_iff.1 e1, fun y hy => e2 y (p.mem_iff.2 hy)⟩
  have same' := same.with 0 0
  have f1 : x.panics = g.panics := congrArg (·.panics) same'
  have f2 : x.errors = g.errors := congrArg (·.errors) same'
  have f3 : x.success = g.success := congrArg (·.success) same'
  have f4 : x.failure = g.failure := congrArg (·.failure) same'
  refine ⟨Int64.toInt_inj.1 (by rw [hcur]; rfl), ?_, ?_, ?_, ?_, ?_, i.parentsN f, ?_, ?_, ?_⟩
  · rw [f1, b1]; exact congrArg _ (hc Class.isPanic)
  · intro e; rw [f2, b2 e, hobs, hc (Class.named name e)]
  · intro e k hk
    rw [b3 e k (f2 ▸ hk), hobs, hc (Class.named name e)]
  · rw [f3]
    exact ⟨by rw [b4.1, hs.length_eq], by rw [b4.2.1, wsum hs], wmin hs b4.2.2.1, wmax hs b4.2.2.2.1⟩
  · rw [f4]
    exact ⟨by rw [b5.1, hf.length_eq], by rw [b5.2.1, wsum hf], wmin hf b5.2.2.1, wmax hf b5.2.2.2.1⟩
  · obtain ⟨_, p1, p2⟩ := C115_parents h f
    intro p
    constructor
    · intro hp
      obtain ⟨n, h1, h2, h3⟩ := p1 p hp
      exact ⟨n, (hA n).2 ⟨h1, (hover n).resolve_left h2⟩, h3⟩
    · rintro ⟨n, hn, rfl⟩
      obtain ⟨h1, h2⟩ := (hA n).1 hn
      exact p2 n h1 (.inr (.inr (exiting_iff.2 (by rw [h2]; rfl))))
  · intro r
    have key := fun n => ((Spans.C22_root_spans (reach_spans h) q ⟨fun _ => [], fun _ => 0⟩ r _ _ (.refl _) (.refl _)).2.1 n)
    have none : ∀ n, n ∉ s.sp.roots r ++ s.sp.orphans r := fun n hn => by
      have := (key n).1 (by unfold Spans.rootSpans; exact (mem_sortBy _).2 hn)
      rcases hover n with e | e <;> rw [e] at this <;> cases this.1
    have := List.eq_nil_iff_forall_not_mem.2 none
    exact List.append_eq_nil_iff.1 this
  · intro t
    obtain ⟨k, ⟨L, n1, n2, n3⟩, e⟩ := Spans.reach_count (reach_spans h) t
    have : L = [] := List.eq_nil_iff_forall_not_mem.2 fun n hn => by
      have := (n2 n).1 hn
      rcases hover n with e | e <;> simp [e, Spans.PC.counted] at this
    subst this
    rw [e, ← n3]; rfl

/-! ## Nobody waits for ever -/

theorem moves_upd {α : Type} (pc : Nat → α) (n : Nat) (v : α) (h : v ≠ pc n) : Moves pc (upd pc n v) n :=
  ⟨by rw [upd_same]; exact h, fun m hm => upd_other _ _ hm⟩

/-- Whoever has the mutex can go on. -/
theorem holder_step {oob fused} (hK : IsIntKind K oob fused) {kind : Nat → FuncConc.Kind E} {key : Key} {g1 g2 : G} {s : FuncConc.State G}
    (h : FuncConc.Reach K next name kind (FuncConc.init K key g1 g2) s) (N : Nat) (hN : ∀ n, N ≤ n → s.pc n = .new) (hlt : N < 2 ^ 63)
    (n : Nat) (hn : s.lock = some n) : ∃ s', FuncConc.Step K next name kind s s' ∧ Moves s.pc s'.pc n := by
  obtain ⟨i, g, hg, hs⟩ := FuncConc.reach_inv h
  have hin := i.lockL n hn
  cases hp : s.pc n with
  | unlock rep => exact ⟨_, .unlock s n rep hp, moves_upd _ _ _ (by rw [hp]; simp)⟩
  | inside c hw =>
    have hl := FuncConc.log_bound h hN
    cases hk : kind n with
    | call e p d w =>
      have hnl : n ∉ s.log := fun hc => by
        have := ((i.logM n).1 hc).2
        rw [hp] at this; cases this
      have hlen : (FuncConc.history kind (s.log ++ [n])).length < 2 ^ 63 := by
        have h1 : (s.log ++ [n]) ⊆ List.range N := by
          intro x hx
          rw [List.mem_range]
          by_contra hc
          rw [List.mem_append, List.mem_singleton] at hx
          rcases hx with hx | rfl
          · have := ((i.logM x).1 hx).2
            rw [hN x (by omega)] at this; cases this
          · rw [hN x (by omega)] at hp; cases hp
        have h2 : (s.log ++ [n]).length ≤ N := by simpa using ((FuncConc.nodup_snoc i.logN hnl).subperm h1).length_le
        exact lt_of_le_of_lt ((FuncConc.history_length kind _).trans h2) hlt
      obtain ⟨g', hg', _⟩ := FuncStats.C17_accounting hK next name key g1 g2 (FuncConc.history kind (s.log ++ [n])) hlen
      rw [FuncConc.history_snoc, FuncStats.run_append, hg, hk] at hg'
      simp only [FuncConc.Kind.op, FuncStats.run, Option.bind_some, Option.bind_fun_some] at hg'
      obtain ⟨f', hf⟩ := FuncConc.record_some hs hg'
      exact ⟨_, .record s n c hw e p d w f' hk hp hf, moves_upd _ _ _ (by rw [hp]; simp)⟩
    | reset => exact ⟨_, .clear s n c hw hk hp, moves_upd _ _ _ (by rw [hp]; simp)⟩
    | report =>
      have hlen : (FuncConc.history kind s.log).length < 2 ^ 63 := lt_of_le_of_lt ((FuncConc.history_length kind _).trans hl) hlt
      obtain ⟨S, E, P, F, T, r1, r2, _, _, _, _, _, _, _, _, _, _, _, e⟩ :=
        FuncStats.C17_report hK next name key g1 g2 (FuncConc.history kind s.log) hlen g hg g.errors (.refl _) g1 g2
      obtain ⟨l, hr⟩ : ∃ l, FuncStats.stats K { s.f with current := c, highwater := hw } g.errors g1 g2 = some l := by
        rw [hs.with, FuncConc.stats_with, e]; exact ⟨_, rfl⟩
      exact ⟨_, .copy s n c hw g.errors g1 g2 l hk hp (by rw [hs.errors]) hr, moves_upd _ _ _ (by rw [hp]; simp)⟩
  | _ => rw [hp] at hin; cases hin

/-- A process half way through a method of the statistics can go on, or whoever has the mutex can. -/
theorem func_progress {oob fused} (hK : IsIntKind K oob fused) {kind : Nat → FuncConc.Kind E} {key : Key} {g1 g2 : G} {s : FuncConc.State G}
    (h : FuncConc.Reach K next name kind (FuncConc.init K key g1 g2) s) (N : Nat) (hN : ∀ n, N ≤ n → s.pc n = .new) (hlt : N < 2 ^ 63)
    (n : Nat) (h0 : s.pc n ≠ .new) (h2 : s.pc n ≠ .running) (h4 : ¬∃ r, s.pc n = .over r) :
    ∃ m s', (m = n ∨ (s.pc m).inLock = true) ∧ FuncConc.Step K next name kind s s' ∧ Moves s.pc s'.pc m := by
  obtain ⟨i, _⟩ := FuncConc.reach_inv h
  have self : (s.pc n).inLock = true → ∃ m s', (m = n ∨ (s.pc m).inLock = true) ∧ FuncConc.Step K next name kind s s' ∧ Moves s.pc s'.pc m := fun hl => by
    obtain ⟨s', st, mv⟩ := holder_step hK h N hN hlt n (i.lockI n hl)
    exact ⟨n, s', .inl rfl, st, mv⟩
  cases hp : s.pc n with
  | new => exact absurd hp h0
  | running => exact absurd hp h2
  | over r => exact absurd ⟨r, hp⟩ h4
  | add => exact ⟨n, _, .inl rfl, .add s n hp, moves_upd _ _ _ (by rw [hp]; simp)⟩
  | load cur => exact ⟨n, _, .inl rfl, .load s n cur hp, moves_upd _ _ _ (by rw [hp]; simp)⟩
  | cas cur hw =>
    by_cases le : cur ≤ hw
    · exact ⟨n, _, .inl rfl, .enough s n cur hw hp le, moves_upd _ _ _ (by rw [hp]; simp)⟩
    · by_cases e : s.f.highwater = hw
      · exact ⟨n, _, .inl rfl, .swap s n cur hw hp le e, moves_upd _ _ _ (by rw [hp]; simp)⟩
      · exact ⟨n, _, .inl rfl, .retry s n cur hw hp le e, moves_upd _ _ _ (by rw [hp]; simp)⟩
  | sub => exact ⟨n, _, .inl rfl, .sub s n hp, moves_upd _ _ _ (by rw [hp]; simp)⟩
  | zeroCur => exact ⟨n, _, .inl rfl, .zeroCur s n hp, moves_upd _ _ _ (by rw [hp]; simp)⟩
  | zeroHw => exact ⟨n, _, .inl rfl, .zeroHw s n hp, moves_upd _ _ _ (by rw [hp]; simp)⟩
  | readCur => exact ⟨n, _, .inl rfl, .readCur s n hp, moves_upd _ _ _ (by rw [hp]; simp)⟩
  | readHw c => exact ⟨n, _, .inl rfl, .readHw s n c hp, moves_upd _ _ _ (by rw [hp]; simp)⟩
  | wait c hw =>
    cases hl : s.lock with
    | none => exact ⟨n, _, .inl rfl, .lock s n c hw hp hl, moves_upd _ _ _ (by rw [hp]; simp)⟩
    | some m =>
      obtain ⟨s', st, mv⟩ := holder_step hK h N hN hlt m hl
      exact ⟨m, s', .inr (i.lockL m hl), st, mv⟩
  | inside c hw => exact self (by rw [hp]; rfl)
  | unlock r => exact self (by rw [hp]; rfl)

/-- **C115**, progress: in every reachable state in which the start or exit of a call, a `Reset` or a `Stats` is half way through, some such process can take a step: no
combination of the locks of spans and of statistics blocks them all. -/
theorem C115_progress {oob fused} (hK : IsIntKind K oob fused) {g1 g2 : Nat → G} {s : State G} (h : Reach K next name P (init K P g1 g2) s)
    (hfew : ∀ f, Few s f) (n : Nat) (hb : Busy P s n) : ∃ m s', Busy P s m ∧ Step K next name P m s s' := by
  obtain ⟨i, il, _⟩ := reach_inv h
  -- a process half way through a method of the statistics
  have inFunc : ∀ m, (s.fn (P.act m).func).pc m ≠ .new → (s.fn (P.act m).func).pc m ≠ .running → (¬∃ r, (s.fn (P.act m).func).pc m = .over r) →
      ∃ m s', Busy P s m ∧ Step K next name P m s s' := by
    intro m h0 h2 h4
    obtain ⟨N, hlt, hN⟩ := hfew (P.act m).func
    obtain ⟨k, fn', hk, st, mv⟩ := func_progress hK (reach_func h (P.act m).func) N hN hlt m h0 h2 h4
    have hk' : (s.fn (P.act m).func).pc k ≠ .new ∧ (s.fn (P.act m).func).pc k ≠ .running ∧ ¬∃ r, (s.fn (P.act m).func).pc k = .over r := by
      rcases hk with rfl | hk
      · exact ⟨h0, h2, h4⟩
      · revert hk
        cases (s.fn (P.act m).func).pc k <;> simp [FuncConc.PC.inLock]
    have hf := i.own k _ hk'.1
    rw [hf] at hk' st mv
    refine ⟨k, _, ?_, .func s k fn' st mv (fun _ e => absurd e hk'.1) (fun _ e => absurd e hk'.2.1)⟩
    unfold Busy
    split
    · next hc =>
      have hp := i.phase k hc
      dsimp only at hp
      have hph : fphase ((s.fn (P.act k).func).pc k) ≠ 0 ∧ fphase ((s.fn (P.act k).func).pc k) ≠ 2 ∧ fphase ((s.fn (P.act k).func).pc k) ≠ 4 :=
        ⟨fun e => hk'.1 (fphase_zero.1 e), fun e => hk'.2.1 (fphase_two.1 e), fun e => hk'.2.2 (fphase_four.1 e)⟩
      have := fphase_le ((s.fn (P.act k).func).pc k)
      have hs : sphase (s.sp.pc k) = 2 ∨ sphase (s.sp.pc k) = 4 := by omega
      rw [sphase_two, sphase_four] at hs
      rcases hs with e | e <;> simp [e]
    · refine ⟨hk'.1, fun hr => hk'.2.2 ?_⟩
      revert hr
      cases (s.fn (P.act k).func).pc k <;> simp [FuncConc.Returned]
  unfold Busy at hb
  split at hb
  · next hc =>
    obtain ⟨sp', st, m, hu, hm⟩ := Spans.C65_span_progress (reach_spans h) n hb
    have mv : Moves s.sp.pc sp'.pc m := by
      obtain ⟨k, v, e, _⟩ := Spans.step_pc st
      have : m = k := by
        by_contra hne
        rw [e, upd_other _ _ hne] at hm
        exact hm rfl
      subst this
      exact ⟨hm, fun x hx => by rw [e, upd_other _ _ hx]⟩
    have hcm := i.call m hu.1
    have bm : Busy P s m := by unfold Busy; rw [if_pos hcm]; exact hu
    have hp := i.phase m hcm
    dsimp only at hp
    have le := fphase_le ((s.fn (P.act m).func).pc m)
    by_cases hpub : s.sp.pc m = .pub
    · have h2 := sphase_two.2 hpub
      by_cases b2 : fphase ((s.fn (P.act m).func).pc m) = 2
      · exact ⟨m, _, bm, .span s m sp' hcm st mv (fun _ => fphase_two.1 b2) (fun e => by rw [hpub] at e; cases e)⟩
      · by_cases b0 : fphase ((s.fn (P.act m).func).pc m) = 0
        · have hnew := fphase_zero.1 b0
          cases ha : s.added m with
          | false => exact ⟨m, _, bm, .parent s m hcm hpub ha⟩
          | true =>
            obtain ⟨e, p, d, w, hk⟩ := kind_call' hcm
            exact ⟨m, _, bm, .func s m _ (.start _ m e p d w hk hnew) (moves_upd _ _ _ (by rw [hnew]; simp)) (fun _ _ => ⟨hpub, ha⟩)
              (fun _ e => by rw [hnew] at e; cases e)⟩
        · exact inFunc m (fun e => b0 (fphase_zero.2 e)) (fun e => b2 (fphase_two.2 e)) (fun e => by have := fphase_four.2 e; omega)
    · by_cases hmark : s.sp.pc m = .mark
      · have h4 := sphase_four.2 hmark
        by_cases b4 : fphase ((s.fn (P.act m).func).pc m) = 4
        · exact ⟨m, _, bm, .span s m sp' hcm st mv (fun e => absurd e hpub) (fun _ => fphase_four.1 b4)⟩
        · by_cases b2 : fphase ((s.fn (P.act m).func).pc m) = 2
          · have hrun := fphase_two.1 b2
            exact ⟨m, _, bm, .func s m _ (.finish _ m hrun) (moves_upd _ _ _ (by rw [hrun]; simp)) (fun _ e => by rw [hrun] at e; cases e)
              (fun _ _ => hmark)⟩
          · exact inFunc m (fun e => by have := fphase_zero.2 e; omega) (fun e => b2 (fphase_two.2 e)) (fun e => b4 (fphase_four.2 e))
      · exact ⟨m, _, bm, .span s m sp' hcm st mv (fun e => absurd e hpub) (fun e => absurd e hmark)⟩
  · refine inFunc n hb.1 (fun e => ?_) (fun ⟨r, e⟩ => hb.2 (by rw [e]; trivial))
    have hc : ¬(P.act n).isCall = true := by assumption
    obtain ⟨_, _, _, _, hk⟩ := (il (P.act n).func).kCall n (by rw [e]; rfl)
    revert hk hc
    cases P.act n <;> simp [Act.kind, Act.isCall]

/-! ## Concrete runs -/

open FuncConc (KD nx nm)

/-- Call 0 of function 0 succeeds; its children are call 1, of function 1, which returns an error, and call 2, also of function 1, which panics; 3 is a `Stats` of function 1. -/
def prog : Program Str where
  W := { parent := fun n => if n = 1 ∨ n = 2 then some 0 else none, reg := fun _ => 0, trace := fun _ => 7, older := fun _ _ h => by split at h <;> grind }
  act := fun n => match n with
    | 0 => .call 0 none false 9 1024
    | 1 => .call 1 (some b!"EOF") false 5 1024
    | 2 => .call 1 none true 7 1024
    | _ => .stats 1
  key := fun f => ⟨if f = 0 then b!"f0" else b!"f1", []⟩

/-- All three are started and call 1 has returned. -/
def schedule : List Nat := List.replicate 8 0 ++ List.replicate 8 1 ++ List.replicate 8 2 ++ List.replicate 10 1

abbrev w0 : State Unit := init KD prog (fun _ => ()) (fun _ => ())

theorem prog_few {l : List Nat} {s : State Unit} (h : runs prog w0 l = some s) (hl : ∀ n ∈ l, n < 4) :
    (∀ f, Few s f) ∧ ∀ n, 4 ≤ n → s.sp.pc n = .new := by
  have key : ∀ n, 4 ≤ n → s.sp.pc n = .new ∧ ∀ f, (s.fn f).pc n = .new := fun n hn => by
    obtain ⟨a, b⟩ := runs_other h (k := n) (fun c => by have := hl n c; omega)
    exact ⟨a, b⟩
  exact ⟨fun f => ⟨4, by norm_num, fun n hn => (key n hn).2 f⟩, fun n hn => (key n hn).1⟩

theorem prog_noReset (s : State Unit) (f : Nat) : NoReset prog s f := by
  intro n hn
  exfalso
  revert hn
  unfold prog
  dsimp only
  split <;> simp

/-- The hypotheses of `C115_listed`, `C115_parents`, `C115_current` and `C115_all_spans` can be met: calls 0 and 2 are running, call 1 has returned. -/
example : ∃ s : State Unit, Reach KD nx nm prog w0 s ∧ Spans.Quiet s.sp ∧ NoReset prog s 1 ∧ (∀ f, Few s f) ∧ s.sp.roots 0 = [0] ∧
    s.sp.pc 0 = .running ∧ s.sp.pc 1 = .over ∧ s.sp.pc 2 = .running ∧
    (s.fn 0).f.current = 1 ∧ (s.fn 1).f.current = 1 ∧ s.parents 0 = [none] ∧ s.parents 1 = [some 0] := by
  have h : (runs prog w0 schedule).map (fun s => (s.sp.pc 0, s.sp.pc 1, s.sp.pc 2, s.sp.pc 3, s.sp.roots 0, (s.fn 0).f.current, (s.fn 1).f.current, s.parents 0, s.parents 1)) =
    some (.running, .over, .running, .new, [0], 1, 1, [none], [some 0]) := by rfl
  rw [Option.map_eq_some_iff] at h
  obtain ⟨s, h1, h2⟩ := h
  simp only [Prod.mk.injEq] at h2
  obtain ⟨a, b, c, d, e, f, g, i, j⟩ := h2
  obtain ⟨k, l⟩ := prog_few h1 (by decide)
  refine ⟨s, runs_reach h1, fun n => ?_, prog_noReset s 1, k, e, a, b, c, f, g, i, j⟩
  by_cases hn : 4 ≤ n
  · exact .inl (l n hn)
  · have : n = 0 ∨ n = 1 ∨ n = 2 ∨ n = 3 := by omega
    rcases this with rfl | rfl | rfl | rfl <;> simp [*]

/-- The hypotheses of `C115_report` can be met: call 1 has returned before `Stats` is called, the exit of call 2 is called while it runs. -/
example : ∃ (s1 s2 : State Unit) (rep : FuncConc.Report), Reach KD nx nm prog w0 s1 ∧ Reach KD nx nm prog s1 s2 ∧ prog.act 3 = .stats 1 ∧ (s1.fn 1).pc 3 = .new ∧
    (s2.fn 1).pc 3 = .over rep ∧ NoReset prog s2 1 ∧ Few s2 1 ∧ (∀ n ∈ [1], CallOf prog 1 n ∧ Spans.Exiting s1.sp n) ∧
    (∀ n, CallOf prog 1 n → ExitCalled s2 n → n ∈ [1, 2]) ∧ ¬Spans.Exiting s1.sp 2 ∧ ExitCalled s2 2 ∧
    rep.take 8 = [(prog.key 1, b!"current", .int 1), (prog.key 1, b!"highwater", .int 2), (prog.key 1, b!"successes", .int 0),
      ((prog.key 1).withTag b!"error_name" b!"EOF", b!"count", .int 1), (prog.key 1, b!"errors", .int 1), (prog.key 1, b!"panics", .int 0),
      (prog.key 1, b!"failures", .int 1), (prog.key 1, b!"total", .int 1)] := by
  have h : (runs prog w0 schedule).bind (fun s1 => (runs prog s1 ([3, 3, 3] ++ [2, 2, 2] ++ [3, 3, 3])).map fun s2 =>
      ((s1.fn 1).pc 3, s1.sp.pc 1, s1.sp.pc 2, s2.sp.pc 2, ((s2.fn 1).pc 3).rep.map (·.take 8))) =
    some (.new, .over, .running, .mark, some [(prog.key 1, b!"current", .int 1), (prog.key 1, b!"highwater", .int 2), (prog.key 1, b!"successes", .int 0),
      ((prog.key 1).withTag b!"error_name" b!"EOF", b!"count", .int 1), (prog.key 1, b!"errors", .int 1), (prog.key 1, b!"panics", .int 0),
      (prog.key 1, b!"failures", .int 1), (prog.key 1, b!"total", .int 1)]) := by rfl
  rw [Option.bind_eq_some_iff] at h
  obtain ⟨s1, h1, h⟩ := h
  rw [Option.map_eq_some_iff] at h
  obtain ⟨s2, h2, h⟩ := h
  simp only [Prod.mk.injEq, Option.map_eq_some_iff] at h
  obtain ⟨a, b, c, d, r, e, f⟩ := h
  have h12 : runs prog w0 (schedule ++ ([3, 3, 3] ++ [2, 2, 2] ++ [3, 3, 3])) = some s2 := by rw [runs_append, h1]; exact h2
  obtain ⟨k, l⟩ := prog_few h12 (by decide)
  refine ⟨s1, s2, r, runs_reach h1, runs_reach h2, rfl, a, FuncConc.PC.rep_eq e, prog_noReset s2 1, k 1, fun n hn => ?_, fun n hc _ => ?_, fun h => ?_, .inl d, f⟩
  · rw [List.mem_singleton] at hn
    subst hn
    exact ⟨⟨rfl, rfl⟩, by simp [Spans.Exiting, b]⟩
  · obtain ⟨p, q⟩ := hc
    match n, p, q with
    | 0, _, q => cases q
    | 1, _, _ => simp
    | 2, _, _ => simp
    | _ + 3, p, _ => cases p
  · simp [Spans.Exiting, c] at h

/-- The hypotheses of `C115_accounting` can be met: all have returned. -/
example : ∃ s : State Unit, Reach KD nx nm prog w0 s ∧ (∀ n, s.sp.pc n = .new ∨ s.sp.pc n = .over) ∧ NoReset prog s 1 ∧ Few s 1 ∧
    (∀ n, n ∈ [1, 2] ↔ CallOf prog 1 n ∧ s.sp.pc n = .over) ∧ (s.fn 1).f.panics = 1 ∧ (s.fn 1).f.errors = [(b!"EOF", 1)] := by
  have h : (runs prog w0 (schedule ++ List.replicate 12 0 ++ List.replicate 11 2)).map
      (fun s => (s.sp.pc 0, s.sp.pc 1, s.sp.pc 2, s.sp.pc 3, (s.fn 1).f.panics, (s.fn 1).f.errors)) =
    some (.over, .over, .over, .new, 1, [(b!"EOF", 1)]) := by rfl
  rw [Option.map_eq_some_iff] at h
  obtain ⟨s, h1, h2⟩ := h
  simp only [Prod.mk.injEq] at h2
  obtain ⟨a, b, c, d, e, f⟩ := h2
  obtain ⟨k, l⟩ := prog_few h1 (by decide)
  refine ⟨s, runs_reach h1, fun n => ?_, prog_noReset s 1, k 1, fun n => ?_, e, f⟩
  · by_cases hn : 4 ≤ n
    · exact .inl (l n hn)
    · have : n = 0 ∨ n = 1 ∨ n = 2 ∨ n = 3 := by omega
      rcases this with rfl | rfl | rfl | rfl <;> simp [*]
  · constructor
    · intro hn
      have : n = 1 ∨ n = 2 := by simpa using hn
      rcases this with rfl | rfl
      · exact ⟨⟨rfl, rfl⟩, b⟩
      · exact ⟨⟨rfl, rfl⟩, c⟩
    · rintro ⟨⟨p, q⟩, _⟩
      match n, p, q with
      | 0, _, q => cases q
      | 1, _, _ => simp
      | 2, _, _ => simp
      | _ + 3, p, _ => cases p

/-- The hypotheses of `C115_progress` can be met: `Stats` waits for the mutex, which the exit of call 2 has. -/
example : ∃ s : State Unit, Reach KD nx nm prog w0 s ∧ (∀ f, Few s f) ∧ Busy prog s 3 ∧ (s.fn 1).lock = some 2 := by
  have h : (runs prog w0 (schedule ++ [2, 2, 2, 2, 3, 3, 3])).map (fun s => ((s.fn 1).pc 3, (s.fn 1).lock)) = some (.wait 0 2, some 2) := by rfl
  rw [Option.map_eq_some_iff] at h
  obtain ⟨s, h1, h2⟩ := h
  simp only [Prod.mk.injEq] at h2
  obtain ⟨a, b⟩ := h2
  have ha : (s.fn (prog.act 3).func).pc 3 = .wait 0 2 := a
  refine ⟨s, runs_reach h1, (prog_few h1 (by decide)).1, ?_, b⟩
  unfold Busy
  rw [if_neg (by decide), ha]
  simp [FuncConc.Returned]

end Monkit.Whole
