import Verif.Proofs.Scope2
import Mathlib.Data.List.Induction

/-!
# C41, C42, C43: the sources of a scope
-/

namespace Monkit.Scope
open Go Spec

/-! ## C41 -/

/-- **C41.** For every number of goroutines, every sequence of calls and every schedule, what the scope does is what one table does:
a constructor runs only for a name that holds nothing, an accessor returns what its name holds, and panics only if that has another
type. -/
theorem C41_history {tr : List Ev} {s : State} (h : Exec Step State.init tr s) : LegalHistory tr := history h

/-- Two calls of one accessor with the same name and the same tags return the same object, whatever happens between them. -/
theorem C41_same_object {tr : List Ev} {s : State} (h : Exec Step State.init tr s) {t t' : Nat} {c : Call} {o o' : Obj}
    (h1 : Ev.ret t c o ∈ tr) (h2 : Ev.ret t' c o' ∈ tr) : o = o' := by
  have hl := history h
  have key : ∀ t o, Ev.ret t c o ∈ tr → table tr c.key = some o := by
    intro t o ho
    obtain ⟨a, b, hab⟩ := List.append_of_mem ho
    have := hl a _ b hab
    rw [hab] at hl ⊢
    exact persist hl this.2.1 this.2.2.2
  exact Option.some.inj ((key t o h1).symm.trans (key t' o' h2))

/-- The constructor runs at most once for each name. -/
theorem C41_constructed_once {tr : List Ev} {s : State} (h : Exec Step State.init tr s) (n : Str) :
    (tr.filter fun | .made _ c _ => c.key = n | _ => false).length ≤ 1 := by
  have hl := history h
  clear h
  induction tr using List.reverseRecOn with
  | nil => simp
  | append_singleton tr e ih =>
    have ih := ih (LegalHistory.pre hl)
    rw [List.filter_append, List.length_append]
    cases e with
    | made t c o =>
      by_cases hn : c.key = n
      · have hlast := hl tr _ [] rfl
        have : (tr.filter fun | .made _ c _ => c.key = n | _ => false) = [] := by
          rw [List.filter_eq_nil_iff]
          intro x hx
          cases x with
          | made t' c' o' =>
            intro hc
            have hc : c'.key = n := by simpa using hc
            obtain ⟨a, b, hab⟩ := List.append_of_mem hx
            have hx' := LegalHistory.pre hl a _ b hab
            have h3 : table (a ++ [.made t' c' o']) c'.key = some o' := by rw [table_snoc]; simp [puts]
            have hh : tr = (a ++ [.made t' c' o']) ++ b := by rw [hab]; simp
            have h4 := persist (b := b) (hh ▸ LegalHistory.pre hl) h3 hx'.2.2.2.1
            rw [← hh, hc, ← hn, hlast.2.1] at h4
            cases h4
          | _ => simp
        rw [this]
        simp [hn]
      · simpa [hn] using ih
    | _ => simpa using ih

/-- A panic of an accessor means that its name holds a source of another type, which stays where it is. -/
theorem C41_panic_keeps_source {tr : List Ev} {s : State} (h : Exec Step State.init tr s) {a b : List Ev} {t : Nat} {c : Call}
    (hab : tr = a ++ .panic t c :: b) :
    ∃ o, table a c.key = some o ∧ o.kind ≠ c.kind ∧ table (a ++ [.panic t c]) c.key = some o ∧
      (o.kind ≠ .gauge → table tr c.key = some o) := by
  have hl := history h
  obtain ⟨_, o, h1, h2⟩ := hl a _ b hab
  refine ⟨o, h1, h2, by rw [table_snoc]; exact h1, fun hk => ?_⟩
  rw [hab] at hl ⊢
  exact persist hl h1 hk

/-- Once a name holds a source that is not a gauge, asking for it as that kind gives it, and asking for it as another kind never
returns. -/
theorem C41_kind_fixed {tr : List Ev} {s : State} (h : Exec Step State.init tr s) {t t' : Nat} {c c' : Call} {o o' : Obj}
    (hk : c.key = c'.key) (h1 : Ev.ret t c o ∈ tr) (h2 : Ev.ret t' c' o' ∈ tr) : c.kind = c'.kind ∧ o = o' := by
  have hl := history h
  have key : ∀ t c o, Ev.ret t c o ∈ tr → table tr c.key = some o ∧ o.kind = c.kind := by
    intro t c o ho
    obtain ⟨a, b, hab⟩ := List.append_of_mem ho
    have := hl a _ b hab
    rw [hab] at hl ⊢
    exact ⟨persist hl this.2.1 this.2.2.2, this.2.2.1⟩
  obtain ⟨e1, k1⟩ := key t c o h1
  obtain ⟨e2, k2⟩ := key t' c' o' h2
  rw [hk, e2] at e1
  have e := Option.some.inj e1
  subst e
  exact ⟨k1.symm.trans k2, rfl⟩

/-- No data race on the map or the slice: while a goroutine is between Lock and Unlock, no other is, and none is between RLock and
RUnlock. -/
theorem C41_exclusive {tr : List Ev} {s : State} (h : Exec Step State.init tr s) {t u : Nat} (ht : (s.pc t).holds = true) :
    ((s.pc u).holds = true → u = t) ∧ (s.pc u).reads = false := by
  have hi := inv h
  refine ⟨fun hu => other hi.lock ht hu, ?_⟩
  by_contra hr
  rw [Bool.not_eq_false] at hr
  have h1 := hi.rd u hr
  have h2 := hi.excl (by rw [hi.lock t ht]; simp)
  rw [h2] at h1
  cases h1

/-- No deadlock: while a goroutine is inside a call, some goroutine that is inside a call can go on. -/
theorem C41_no_deadlock {tr : List Ev} {s : State} (h : Exec Step State.init tr s) {t : Nat} (ht : s.pc t ≠ .idle) :
    ∃ u e s', s.pc u ≠ .idle ∧ Step s e s' ∧ s'.pc u ≠ s.pc u := by
  have hi := inv h
  -- a goroutine in a place where it waits for nobody
  have go : ∀ u, (s.pc u).holds = true ∨ (s.pc u).reads = true → ∃ e s', s.pc u ≠ .idle ∧ Step s e s' ∧ s'.pc u ≠ s.pc u := by
    intro u hu
    cases hp : s.pc u with
    | locked c =>
      refine ⟨none, _, by simp, .again s u c hp, ?_⟩
      simp only [upd_same, hp]
      cases Map.get s.sources c.key <;> simp
    | absent c => exact ⟨_, _, by simp, .make s u c hp, by simp⟩
    | unlock c o => exact ⟨_, _, by simp, .unlock s u c o hp, by simp⟩
    | gLocked n =>
      by_cases hs : solid (Map.get s.sources n) = true
      · obtain ⟨o, ho, hk⟩ := solid_true hs
        exact ⟨_, _, by simp, .gBad s u n o hp ho hk, by simp⟩
      · rw [Bool.not_eq_true] at hs
        exact ⟨_, _, by simp, .gOk s u n hp (fun o ho => solid_false hs o ho), by simp⟩
    | gFree n => exact ⟨_, _, by simp, .gSet s u n hp, by simp⟩
    | gUnlock n b => exact ⟨_, _, by simp, .gUnlock s u n b hp, by simp⟩
    | cLocked c => exact ⟨_, _, by simp, .cAppend s u c hp, by simp⟩
    | cUnlock c => exact ⟨_, _, by simp, .cUnlock s u c hp, by simp⟩
    | sLocked => exact ⟨_, _, by simp, .sCopy s u s.sources hp (List.Perm.refl _), by simp⟩
    | sUnlock => exact ⟨_, _, by simp, .sUnlock s u hp, by simp⟩
    | sLocked2 => exact ⟨_, _, by simp, .sCopy2 s u hp, by simp⟩
    | sUnlock2 => exact ⟨_, _, by simp, .sUnlock2 s u hp, by simp⟩
    | reading c => exact ⟨_, _, by simp, .read s u c hp, by simp⟩
    | read c r =>
      cases r with
      | none => exact ⟨_, _, by simp, .runlockNone s u c hp, by simp⟩
      | some o => exact ⟨_, _, by simp, .runlockSome s u c o hp, by simp⟩
    | _ => rw [hp] at hu; simp [PC.holds, PC.reads] at hu
  -- if somebody holds the lock, they can go on
  by_cases hw : s.writer = none
  · by_cases hr : s.readers = []
    · cases hp : s.pc t with
      | idle => exact absurd hp ht
      | rlock c => exact ⟨t, _, _, ht, .rlock s t c hp hw, by simp [hp]⟩
      | wlock c => exact ⟨t, _, _, ht, .wlock s t c hp hw hr, by simp [hp]⟩
      | got c o =>
        by_cases hk : o.kind = c.kind
        · exact ⟨t, _, _, ht, .ret s t c o hp hk, by simp [hp]⟩
        · exact ⟨t, _, _, ht, .panic s t c o hp hk, by simp [hp]⟩
      | gLock n => exact ⟨t, _, _, ht, .gLock s t n hp hw hr, by simp [hp]⟩
      | cLock c => exact ⟨t, _, _, ht, .cLock s t c hp hw hr, by simp [hp]⟩
      | sLock => exact ⟨t, _, _, ht, .sLock s t hp hw hr, by simp [hp]⟩
      | sLock2 => exact ⟨t, _, _, ht, .sLock2 s t hp hw hr, by simp [hp]⟩
      | _ =>
        obtain ⟨e, s', h1, h2, h3⟩ := go t (by rw [hp]; simp [PC.holds, PC.reads])
        exact ⟨t, e, s', h1, h2, h3⟩
    · obtain ⟨u, hu⟩ := List.exists_mem_of_ne_nil _ hr
      obtain ⟨e, s', h1, h2, h3⟩ := go u (Or.inr (hi.rdr u hu))
      exact ⟨u, e, s', h1, h2, h3⟩
  · obtain ⟨u, hu⟩ := Option.ne_none_iff_exists'.1 hw
    obtain ⟨e, s', h1, h2, h3⟩ := go u (Or.inl (hi.wr u hu))
    exact ⟨u, e, s', h1, h2, h3⟩

/-- Non-vacuity of C41: two goroutines ask for the same counter one after the other. -/
example : ∃ s, Exec Step State.init
    [.call 0 ⟨.counter, b!"hits", [(b!"k", b!"v")]⟩, .made 0 ⟨.counter, b!"hits", [(b!"k", b!"v")]⟩ ⟨0, .counter⟩,
     .ret 0 ⟨.counter, b!"hits", [(b!"k", b!"v")]⟩ ⟨0, .counter⟩,
     .call 0 ⟨.counter, b!"hits", [(b!"k", b!"v")]⟩, .ret 0 ⟨.counter, b!"hits", [(b!"k", b!"v")]⟩ ⟨0, .counter⟩,
     .call 0 ⟨.meter, b!"hits", [(b!"k", b!"v")]⟩, .panic 0 ⟨.meter, b!"hits", [(b!"k", b!"v")]⟩] s := by
  obtain ⟨s1, h1, q1, e1, n1⟩ := run_miss (s := State.init) (t := 0) (c := ⟨.counter, b!"hits", [(b!"k", b!"v")]⟩) ⟨rfl, rfl, rfl⟩
    (by simp) rfl
  obtain ⟨s2, h2, q2, e2⟩ := run_hit (t := 0) (c := ⟨.counter, b!"hits", [(b!"k", b!"v")]⟩) (o := ⟨0, .counter⟩) q1 (by simp)
    (by rw [e1]; rfl)
  obtain ⟨s3, h3, q3, e3⟩ := run_hit (t := 0) (c := ⟨.meter, b!"hits", [(b!"k", b!"v")]⟩) (o := ⟨0, .counter⟩) q2 (by simp)
    (by rw [e2, e1]; rfl)
  exact ⟨s3, (h1.append h2).append h3⟩

/-! ## C42 -/

/-- **C42 (partial).** Two calls of the same accessor with different names or different tag lists never return the same object,
provided the names and tags do not contain the separators ',' (and '=' in keys).  The full statement is the same without `Plain`; it
is false of the code (`C42_distinct_violated`). -/
theorem C42_distinct_partial {tr : List Ev} {s : State} (h : Exec Step State.init tr s) {t t' : Nat} {c c' : Call} {o o' : Obj}
    (h1 : Ev.ret t c o ∈ tr) (h2 : Ev.ret t' c' o' ∈ tr) (hk : c.kind = c'.kind)
    (hp : Plain c.name c.tags) (hp' : Plain c'.name c'.tags) (hne : c.name ≠ c'.name ∨ c.tags ≠ c'.tags) : o ≠ o' := by
  refine distinct_of_key h h1 h2 fun e => ?_
  unfold Call.key at e
  rw [← hk] at e
  have : c.name = c'.name ∧ c.tags = c'.tags := by
    cases hkk : c.kind <;> rw [hkk] at e <;> exact sourceName_inj hp hp' e
  rcases hne with hne | hne
  · exact hne this.1
  · exact hne this.2

/-- Non-vacuity: two different counters. -/
example : ∃ s, Exec Step State.init
    [.call 0 ⟨.counter, b!"a", [(b!"k", b!"v=1")]⟩, .made 0 ⟨.counter, b!"a", [(b!"k", b!"v=1")]⟩ ⟨0, .counter⟩,
     .ret 0 ⟨.counter, b!"a", [(b!"k", b!"v=1")]⟩ ⟨0, .counter⟩,
     .call 0 ⟨.counter, b!"a", [(b!"k", b!"v")]⟩, .made 0 ⟨.counter, b!"a", [(b!"k", b!"v")]⟩ ⟨1, .counter⟩,
     .ret 0 ⟨.counter, b!"a", [(b!"k", b!"v")]⟩ ⟨1, .counter⟩] s ∧ Plain b!"a" [(b!"k", b!"v=1")] ∧ Plain b!"a" [(b!"k", b!"v")] := by
  obtain ⟨s1, h1, q1, e1, n1⟩ := run_miss (s := State.init) (t := 0) (c := ⟨.counter, b!"a", [(b!"k", b!"v=1")]⟩) ⟨rfl, rfl, rfl⟩
    (by simp) rfl
  obtain ⟨s2, h2, q2, e2, n2⟩ := run_miss (t := 0) (c := ⟨.counter, b!"a", [(b!"k", b!"v")]⟩) q1 (by simp)
    (by rw [e1]; rfl)
  rw [n1] at h2
  exact ⟨s2, h1.append h2, by unfold Plain; decide +kernel, by unfold Plain; decide +kernel⟩

/-- C42 is false of the code: `Counter("a,b=c")` and `Counter("a", NewSeriesTag("b", "c"))` are one counter. -/
theorem C42_distinct_violated :
    ∃ (tr : List Ev) (s : State) (c c' : Call) (o : Obj), Exec Step State.init tr s ∧ c.kind = c'.kind ∧ c.name ≠ c'.name ∧
      c.tags ≠ c'.tags ∧ Ev.ret 0 c o ∈ tr ∧ Ev.ret 0 c' o ∈ tr := by
  obtain ⟨s1, h1, q1, e1, n1⟩ := run_miss (s := State.init) (t := 0) (c := ⟨.counter, b!"a,b=c", []⟩) ⟨rfl, rfl, rfl⟩ (by simp) rfl
  obtain ⟨s2, h2, q2, e2⟩ := run_hit (t := 0) (c := ⟨.counter, b!"a", [(b!"b", b!"c")]⟩) (o := ⟨0, .counter⟩) q1 (by simp)
    (by rw [e1]; rfl)
  exact ⟨_, s2, ⟨.counter, b!"a,b=c", []⟩, ⟨.counter, b!"a", [(b!"b", b!"c")]⟩, ⟨0, .counter⟩, h1.append h2, rfl, by decide +kernel,
    by decide +kernel, by simp [State.init], by simp⟩

/-- And names of functions collide with those of other sources: after `Meter("func:x")`, `FuncNamed("x")` panics. -/
theorem C42_func_prefix_violated :
    ∃ (tr : List Ev) (s : State) (c c' : Call), Exec Step State.init tr s ∧ c.kind = .meter ∧ c'.kind = .func ∧ c.name ≠ c'.name ∧
      Ev.ret 0 c ⟨0, .meter⟩ ∈ tr ∧ Ev.panic 0 c' ∈ tr := by
  obtain ⟨s1, h1, q1, e1, n1⟩ := run_miss (s := State.init) (t := 0) (c := ⟨.meter, b!"func:x", []⟩) ⟨rfl, rfl, rfl⟩ (by simp) rfl
  obtain ⟨s2, h2, q2, e2⟩ := run_hit (t := 0) (c := ⟨.func, b!"x", []⟩) (o := ⟨0, .meter⟩) q1 (by simp)
    (by rw [e1]; rfl)
  exact ⟨_, s2, ⟨.meter, b!"func:x", []⟩, ⟨.func, b!"x", []⟩, h1.append h2, rfl, rfl, by decide +kernel, by simp [State.init], by simp⟩

/-- **C42 (partial)**, functions and other sources: `FuncNamed` panics only if a source of another kind was registered under a string (name and tags) that
begins with "func:". -/
theorem C42_func_apart_partial {tr : List Ev} {s : State} (h : Exec Step State.init tr s) {t : Nat} {c : Call} (hk : c.kind = .func) (hp : Ev.panic t c ∈ tr) :
    (∃ t' c' o, Ev.made t' c' o ∈ tr ∧ c'.kind ≠ .func ∧ b!"func:" <+: sourceName [] c'.name c'.tags) ∨
    (∃ t' n o, Ev.gauge t' n o ∈ tr ∧ b!"func:" <+: n) := by
  have hl := history h
  obtain ⟨a, b, hab⟩ := List.append_of_mem hp
  obtain ⟨_, o, ht, ho⟩ := hl a _ b hab
  obtain ⟨x, hx, hpx⟩ := table_mem ht
  have key : c.key = b!"func:" ++ (c.name ++ c.tags.flatMap fun t => [44] ++ t.1 ++ [61] ++ t.2) := by
    unfold Call.key keyOf
    rw [hk]
    simp [sourceName]
  have hx' : x ∈ tr := by rw [hab]; simp [hx]
  cases x with
  | made t' c' o' =>
    simp only [puts, Option.some.injEq, Prod.mk.injEq] at hpx
    obtain ⟨e1, rfl⟩ := hpx
    obtain ⟨a', b', hab'⟩ := List.append_of_mem hx'
    have hm := hl a' _ b' hab'
    have hne : c'.kind ≠ .func := fun e => ho (by rw [hm.2.2.1, e, hk])
    refine .inl ⟨t', c', o', hx', hne, ?_⟩
    have : c'.key = sourceName [] c'.name c'.tags := by
      unfold Call.key keyOf
      split
      · next e => exact absurd e hne
      · rfl
    rw [← this, e1, key]
    exact List.prefix_append _ _
  | gauge t' n o' =>
    simp only [puts, Option.some.injEq, Prod.mk.injEq] at hpx
    obtain ⟨rfl, rfl⟩ := hpx
    exact .inr ⟨t', _, o', hx', by rw [key]; exact List.prefix_append _ _⟩
  | _ => cases hpx

/-! ## C43 -/

/-- **C43**, gauges: registering a gauge changes what its name holds, to the new gauge, and nothing else; before, the name held
nothing or a gauge. -/
theorem C43_gauge_replaces {tr : List Ev} {s : State} (h : Exec Step State.init tr s) {a b : List Ev} {t : Nat} {n : Str} {o : Obj}
    (hab : tr = a ++ .gauge t n o :: b) :
    o.kind = .gauge ∧ table (a ++ [.gauge t n o]) n = some o ∧ (∀ o', table a n = some o' → o'.kind = .gauge ∧ o'.id ≠ o.id) ∧
      ∀ m, m ≠ n → table (a ++ [.gauge t n o]) m = table a m := by
  have hl := history h a _ b hab
  refine ⟨hl.2.1, by rw [table_snoc]; simp [puts], fun o' ho' => ⟨hl.1 o' ho', ?_⟩, fun m hm => ?_⟩
  · obtain ⟨x, hx, hp⟩ := table_mem ho'
    exact hl.2.2 x hx n o' hp
  · rw [table_snoc]
    simp only [puts]
    rw [if_neg (fun e => hm e.symm)]

/-- `Gauge` panics only if another kind of source holds the name, and that source stays for ever. -/
theorem C43_gauge_panics {tr : List Ev} {s : State} (h : Exec Step State.init tr s) {a b : List Ev} {t : Nat} {n : Str}
    (hab : tr = a ++ .gaugePanic t n :: b) : ∃ o, o.kind ≠ .gauge ∧ table a n = some o ∧ table tr n = some o := by
  have hl := history h
  obtain ⟨o, h1, h2⟩ := hl a _ b hab
  refine ⟨o, h2, h1, ?_⟩
  rw [hab] at hl ⊢
  exact persist hl h1 h2

/-- No name that a source of another kind holds ever gets a gauge. -/
theorem C43_gauge_never_steals {tr : List Ev} {s : State} (h : Exec Step State.init tr s) {a b : List Ev} {t t' : Nat} {c : Call}
    {o o' : Obj} {n : Str} (hab : tr = a ++ .gauge t n o :: b) (hr : Ev.ret t' c o' ∈ a) : c.key ≠ n := by
  have hl := history h
  intro e
  obtain ⟨x, y, hxy⟩ := List.append_of_mem hr
  have ha : LegalHistory a := LegalHistory.pre (b := .gauge t n o :: b) (hab ▸ hl)
  have h1 := ha x _ y hxy
  have h2 : table a c.key = some o' := by
    rw [hxy] at ha ⊢
    exact persist ha h1.2.1 h1.2.2.2
  exact h1.2.2.2 ((hl a _ b hab).1 o' (e ▸ h2))

/-- **C43**, `Stats`: one call of `Stats`, which took the sources after `a` and the chains after `b`, reports the values of every
source in the scope exactly once (`names` being any list of the registered names, each once), then those of every chained source as
many times as it was chained and in the order of chaining, each under its own key, measurement and field with tag scope=name added. -/
theorem C43_stats {V : Type} {tr : List Ev} {s : State} (h : Exec Step State.init tr s) (name : Str)
    (src : Str × Obj → List (Key × Str × V)) (chn : Nat → List (Key × Str × V)) {a b d : List Ev} {t : Nat}
    {l : List (Str × Obj)} {cs : List Nat} (hab : tr = a ++ .sources t l :: (b ++ .chains t cs :: d))
    (names : List Str) (hn : names.Nodup) (hmem : ∀ n, n ∈ names ↔ (table a n).isSome = true) :
    ∃ raw : List (Key × Str × V),
      raw.Perm ((names.flatMap fun n => match table a n with | some o => src (n, o) | none => []) ++
        ((chained (a ++ .sources t l :: b)).flatMap chn)) ∧
      report name src chn l cs = raw.map (fun x => (x.1.withTag b!"scope" name, x.2.1, x.2.2)) ∧
      (∀ x ∈ raw, (x.1.withTag b!"scope" name).measurement = x.1.measurement ∧
        Map.get (x.1.withTag b!"scope" name).tags b!"scope" = some name ∧
        ∀ k, k ≠ b!"scope" → Map.get (x.1.withTag b!"scope" name).tags k = Map.get x.1.tags k) := by
  have hl := history h
  obtain ⟨h1, h2⟩ := hl a _ _ hab
  have h3 := hl (a ++ .sources t l :: b) (.chains t cs) d (by rw [hab]; simp)
  refine ⟨l.flatMap src ++ cs.flatMap chn, ?_, ?_, ?_⟩
  · have e : (names.flatMap fun n => match table a n with | some o => src (n, o) | none => []) =
        (names.filterMap fun n => (table a n).map (fun o => (n, o))).flatMap src := by
      clear hn hmem
      induction names with
      | nil => rfl
      | cons n names ih =>
        rw [List.flatMap_cons, ih]
        cases ht : table a n <;> simp [ht]
    rw [e]
    simp only [Legal] at h3
    rw [h3]
    refine List.Perm.append_right _ (List.Perm.flatMap_right _ ?_)
    refine (List.perm_ext_iff_of_nodup (List.Nodup.of_map _ h1) ?_).2 ?_
    · refine List.Nodup.of_map (·.1) ?_
      have : (names.filterMap fun n => (table a n).map (fun o => (n, o))).map (·.1) = names.filter fun n => (table a n).isSome := by
        clear hn hmem e
        induction names with
        | nil => rfl
        | cons n names ih => cases ht : table a n <;> simp [ht, ih]
      rw [this]
      exact hn.filter _
    · intro ⟨n, o⟩
      rw [h2, List.mem_filterMap]
      constructor
      · intro ht
        exact ⟨n, (hmem n).2 (by rw [ht]; rfl), by rw [ht]; rfl⟩
      · rintro ⟨m, hm, hmo⟩
        cases ht : table a m with
        | none => rw [ht] at hmo; cases hmo
        | some o' =>
          rw [ht] at hmo
          simp only [Option.map_some, Option.some.injEq, Prod.mk.injEq] at hmo
          rw [← hmo.1, ht, hmo.2]
  · simp [report, List.map_append, List.map_flatMap]
  · intro x _
    refine ⟨rfl, ?_, fun k hk => ?_⟩
    · simp [Key.withTag, Map.get_set]
    · simp only [Key.withTag, Map.get_set]
      rw [if_neg (fun e => hk e.symm)]

/-- **C43**, every call does its work once: what each goroutine does follows `Phase.next`.  In particular a `Gauge` that returned registered its gauge once between
call and return, one that panicked registered none, a `Chain` that returned added its source once, and a `Stats` took sources and chains once. -/
theorem C43_every_call {tr : List Ev} {s : State} (h : Exec Step State.init tr s) (t : Nat) : (phase tr t).isSome = true := by
  obtain ⟨p, hp, _⟩ := phases h t
  rw [hp]; rfl

/-- A wrong history is not accepted: a `Gauge` that returns without having registered anything. -/
example : phase [.gaugeCall 0 b!"g", .gaugeRet 0 b!"g"] 0 = none ∧ phase [.gaugeCall 0 b!"g", .call 1 ⟨.func, b!"f", []⟩, .gauge 0 b!"g" ⟨0, .gauge⟩, .gaugeRet 0 b!"g"] 0 = some .idle :=
  ⟨rfl, rfl⟩

/-- Every `Chain` adds one entry, at the end. -/
theorem C43_chain_accumulates (a : List Ev) (t c : Nat) : chained (a ++ [.chain t c]) = chained a ++ [c] := chained_snoc a _

/-- Non-vacuity of C43: a gauge replaces a gauge; a source is chained twice; Stats sees one gauge and two chain entries. -/
example : ∃ s, Exec Step State.init
    [.gaugeCall 0 b!"g", .gauge 0 b!"g" ⟨0, .gauge⟩, .gaugeRet 0 b!"g", .gaugeCall 0 b!"g", .gauge 0 b!"g" ⟨1, .gauge⟩, .gaugeRet 0 b!"g",
     .chainCall 0 7, .chain 0 7, .chainRet 0 7, .chainCall 0 7, .chain 0 7, .chainRet 0 7,
     .statsCall 0, .sources 0 [(b!"g", ⟨1, .gauge⟩)], .chains 0 [7, 7], .statsRet 0] s := by
  have h0 : Exec Step State.init [] State.init := .start
  have h1 := Exec.step _ h0 (.gCall State.init 0 b!"g" rfl)
  have h2 := Exec.step _ h1 (.gLock _ 0 _ rfl rfl rfl)
  have h3 := Exec.step _ h2 (.gOk _ 0 _ rfl (fun o ho => by cases ho))
  have h4 := Exec.step _ h3 (.gSet _ 0 _ rfl)
  have h5 := Exec.step _ h4 (.gUnlock _ 0 _ _ rfl)
  have h6 := Exec.step _ h5 (.gCall _ 0 b!"g" rfl)
  have h7 := Exec.step _ h6 (.gLock _ 0 _ rfl rfl rfl)
  have h8 := Exec.step _ h7 (.gOk _ 0 _ rfl (fun o ho => by cases ho; rfl))
  have h9 := Exec.step _ h8 (.gSet _ 0 _ rfl)
  have h10 := Exec.step _ h9 (.gUnlock _ 0 _ _ rfl)
  have k1 := Exec.step _ h10 (.cCall _ 0 7 rfl)
  have k2 := Exec.step _ k1 (.cLock _ 0 _ rfl rfl rfl)
  have k3 := Exec.step _ k2 (.cAppend _ 0 _ rfl)
  have k4 := Exec.step _ k3 (.cUnlock _ 0 _ rfl)
  have k5 := Exec.step _ k4 (.cCall _ 0 7 rfl)
  have k6 := Exec.step _ k5 (.cLock _ 0 _ rfl rfl rfl)
  have k7 := Exec.step _ k6 (.cAppend _ 0 _ rfl)
  have k8 := Exec.step _ k7 (.cUnlock _ 0 _ rfl)
  have m1 := Exec.step _ k8 (.sCall _ 0 rfl)
  have m2 := Exec.step _ m1 (.sLock _ 0 rfl rfl rfl)
  have m3 := Exec.step _ m2 (.sCopy _ 0 _ rfl (List.Perm.refl _))
  have m4 := Exec.step _ m3 (.sUnlock _ 0 rfl)
  have m5 := Exec.step _ m4 (.sLock2 _ 0 rfl rfl rfl)
  have m6 := Exec.step _ m5 (.sCopy2 _ 0 rfl)
  have m7 := Exec.step _ m6 (.sUnlock2 _ 0 rfl)
  exact ⟨_, m7⟩

end Monkit.Scope
