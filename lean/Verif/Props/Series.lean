import Verif.Model.Series
import Verif.Spec.Series
import Verif.Proofs.Tags
import Verif.Props.Traced

/-!
# C130: different sources report different series
-/

namespace Monkit.Series
open Go Monkit.Scope Monkit.Scope.Spec Tags.Spec Spec

theorem get_own_func {c : Call} (h : c.kind = .func) (k : Str) :
    Map.get (own c).2 k = (lastFor c.tags k).or (if k = b!"name" then some c.name else none) := by
  unfold own
  rw [h]
  simp only [Traced.keyTags, Tags.get_setAllFrom]
  congr 1
  by_cases hk : k = b!"name"
  · subst hk; simp [lastFor]
  · have : ¬ b!"name" = k := fun e => hk e.symm
    simp [lastFor, hk, this]

theorem own_other {c : Call} (h : c.kind ≠ .func) : own c = (c.name, Tags.setAllFrom [] c.tags) := by
  unfold own
  cases hc : c.kind <;> first | rfl | exact absurd hc h

theorem get_own_other {c : Call} (h : c.kind ≠ .func) (k : Str) : Map.get (own c).2 k = lastFor c.tags k := by
  rw [own_other h, Tags.get_setAllFrom]
  simp

theorem get_reported (n : Str) (c : Call) (p : Part) (k : Str) : Map.get (reported n c p).2 k =
    if k = b!"scope" then some n else (lastFor p.tags k).or (Map.get (own c).2 k) := by
  unfold reported
  rw [Tags.get_setAllFrom, Tags.get_setAllFrom]
  by_cases hk : k = b!"scope"
  · subst hk; simp [lastFor]
  · have : ¬ b!"scope" = k := fun e => hk e.symm
    simp [lastFor, hk, this]

theorem lastFor_none {l : List (Str × Str)} {k : Str} (h : ∀ t ∈ l, t.1 ≠ k) : lastFor l k = none := by
  unfold lastFor
  rw [Option.map_eq_none_iff, List.find?_eq_none]
  intro t ht
  simpa using h t (List.mem_reverse.1 ht)

theorem perm_of_lastFor {l l' : List (Str × Str)} (h : (l.map (·.1)).Nodup) (h' : (l'.map (·.1)).Nodup) (e : ∀ k, lastFor l k = lastFor l' k) : l.Perm l' := by
  rw [List.perm_ext_iff_of_nodup (List.Nodup.of_map _ h) (List.Nodup.of_map _ h')]
  rintro ⟨k, v⟩
  have a := Map.mem_iff_get (m := l) h k v
  have b := Map.mem_iff_get (m := l') h' k v
  rw [a, b, ← Tags.lastFor_map (m := l) h, ← Tags.lastFor_map (m := l') h', e k]

theorem part_inj {p p' : Part} (ek : lastFor p.tags b!"kind" = lastFor p'.tags b!"kind")
    (ee : lastFor p.tags b!"error_name" = lastFor p'.tags b!"error_name") : p = p' := by
  cases p <;> cases p' <;> simp [Part.tags, lastFor] at ek ee ⊢
  exact ee

theorem func_other {c c' : Call} {p p' : Part} (u' : Usable c') (h1 : c.kind = .func) (h2 : c'.kind ≠ .func) (hp' : p' = .whole)
    (hm : (own c).1 ++ p.suffix = (own c').1 ++ p'.suffix) : False := by
  subst hp'
  have e : (own c).1 = b!"function" := by unfold own; rw [h1]
  have e' : (own c').1 ++ Part.whole.suffix = c'.name := by rw [own_other h2]; exact List.append_nil _
  rw [e, e'] at hm
  cases p
  · exact (u'.other h2).1 hm.symm
  · exact (u'.other h2).2 hm.symm
  · exact (u'.other h2).2 hm.symm
  · exact (u'.other h2).1 hm.symm

/-- **C130**, the keys: if two parts of sources are reported under the same series, they are of the same scope, and the same part of sources that were asked
for with the same name, the same tags in some order, and both functions or both not.

Partial: for sources whose names and tags are `Usable`; without that it is false (`C130_scope_violated`, `C130_name_violated`, `C130_function_violated`). -/
theorem C130_same_partial {n n' : Str} {c c' : Call} {p p' : Part} (u : Usable c) (u' : Usable c') (hp : PartOf c p) (hp' : PartOf c' p')
    (h : Same (reported n c p) (reported n' c' p')) :
    n = n' ∧ c.name = c'.name ∧ c.tags.Perm c'.tags ∧ (c.kind = .func ↔ c'.kind = .func) ∧ p = p' := by
  obtain ⟨hm, hk⟩ := h
  have hs : n = n' := by
    have := hk b!"scope"
    rw [get_reported, get_reported] at this
    simpa using this
  have hm : (own c).1 ++ p.suffix = (own c').1 ++ p'.suffix := hm
  have hf : c.kind = .func ↔ c'.kind = .func := by
    constructor
    · intro h1
      by_contra h2
      exact func_other u' h1 h2 (hp' h2) hm
    · intro h1
      by_contra h2
      exact func_other u h1 h2 (hp h2) hm.symm
  by_cases h1 : c.kind = .func
  · have h2 := hf.1 h1
    have g : ∀ k, k ≠ b!"scope" → (lastFor p.tags k).or ((lastFor c.tags k).or (if k = b!"name" then some c.name else none)) =
        (lastFor p'.tags k).or ((lastFor c'.tags k).or (if k = b!"name" then some c'.name else none)) := by
      intro k hks
      have := hk k
      rw [get_reported, get_reported, if_neg hks, if_neg hks, get_own_func h1, get_own_func h2] at this
      exact this
    have r : ∀ k, k = b!"name" ∨ k = b!"kind" ∨ k = b!"error_name" → lastFor c.tags k = none ∧ lastFor c'.tags k = none := by
      rintro k (rfl | rfl | rfl)
      · exact ⟨lastFor_none fun t ht => (u.func h1 t ht).1, lastFor_none fun t ht => (u'.func h2 t ht).1⟩
      · exact ⟨lastFor_none fun t ht => (u.func h1 t ht).2.1, lastFor_none fun t ht => (u'.func h2 t ht).2.1⟩
      · exact ⟨lastFor_none fun t ht => (u.func h1 t ht).2.2, lastFor_none fun t ht => (u'.func h2 t ht).2.2⟩
    have gk := g b!"kind" (by decide)
    have ge := g b!"error_name" (by decide)
    have gn := g b!"name" (by decide)
    rw [(r _ (by simp)).1, (r _ (by simp)).2] at gk ge gn
    have pn : ∀ p : Part, lastFor p.tags b!"name" = none := by intro p; cases p <;> rfl
    have ek : lastFor p.tags b!"kind" = lastFor p'.tags b!"kind" := by simpa using gk
    have ee : lastFor p.tags b!"error_name" = lastFor p'.tags b!"error_name" := by simpa using ge
    have hpp : p = p' := part_inj ek ee
    refine ⟨hs, by simpa [pn] using gn, perm_of_lastFor u.once u'.once fun k => ?_, hf, hpp⟩
    by_cases hks : k = b!"scope"
    · subst hks; rw [lastFor_none u.scope, lastFor_none u'.scope]
    · by_cases hr : k = b!"name" ∨ k = b!"kind" ∨ k = b!"error_name"
      · rw [(r k hr).1, (r k hr).2]
      · have := g k hks
        have q : ∀ p : Part, lastFor p.tags k = none := by
          intro p
          apply lastFor_none
          intro t ht
          cases p <;> simp [Part.tags] at ht <;> subst ht <;> intro e <;> exact hr (by simp [← e])
        rw [q, q, if_neg (fun e => hr (.inl e)), if_neg (fun e => hr (.inl e))] at this
        simpa using this
  · have h2 : c'.kind ≠ .func := fun e => h1 (hf.2 e)
    have e1 := hp h1
    have e2 := hp' h2
    subst e1 e2
    refine ⟨hs, ?_, perm_of_lastFor u.once u'.once fun k => ?_, hf, rfl⟩
    · rw [own_other h1, own_other h2] at hm
      simpa [Part.suffix] using hm
    · by_cases hks : k = b!"scope"
      · subst hks; rw [lastFor_none u.scope, lastFor_none u'.scope]
      · have := hk k
        rw [get_reported, get_reported, if_neg hks, if_neg hks, get_own_other h1, get_own_other h2] at this
        simpa [Part.tags, lastFor] using this

/-- **C130.** Under every interleaving, two different sources of a scope report under different series.  (`c` and `c'` are the calls that made them; that tags are given in one order is what the documentation of `FuncNamed` asks for.)

Partial: for `Usable` names and tags, given in one order; see `C130_order_violated`, `C130_kind_violated` and the others. -/
theorem C130_distinct_partial {tr : List Ev} {s : State} (h : Exec Step State.init tr s) {t t' : Nat} {c c' : Call} {o o' : Obj} {n : Str}
    (h1 : Ev.made t c o ∈ tr) (h2 : Ev.made t' c' o' ∈ tr) (hne : o ≠ o') {p p' : Part} (u : Usable c) (u' : Usable c') (hp : PartOf c p) (hp' : PartOf c' p')
    (ord : c.tags.Perm c'.tags → c.tags = c'.tags) : ¬ Same (reported n c p) (reported n c' p') := by
  intro e
  obtain ⟨_, e1, e2, e3, _⟩ := C130_same_partial u u' hp hp' e
  refine hne ((Traced.made_once h h1 h2).2 ?_)
  unfold Call.key
  rw [e1, ord e2]
  by_cases hk : c.kind = .func
  · rw [hk, e3.1 hk]
  · have hk' : c'.kind ≠ .func := fun x => hk (e3.2 x)
    unfold keyOf
    cases hc : c.kind <;> cases hc' : c'.kind <;> first | rfl | exact absurd hc hk | exact absurd hc' hk'

/-- And so do the sources of scopes of different names, whatever they are. -/
theorem C130_scopes {n n' : Str} {c c' : Call} {p p' : Part} (hne : n ≠ n') : ¬ Same (reported n c p) (reported n' c' p') := by
  rintro ⟨_, h⟩
  have := h b!"scope"
  rw [get_reported, get_reported] at this
  exact hne (by simpa using this)

theorem table_stays {a b : List Ev} {k : Str} (h : table a k ≠ none) : table (a ++ b) k ≠ none := by
  induction b using List.reverseRecOn with
  | nil => simpa using h
  | append_singleton b e ih =>
    rw [← List.append_assoc, table_snoc]
    cases puts e with
    | none => exact ih
    | some x =>
      by_cases hx : x.1 = k
      · simp [hx]
      · simpa [hx] using ih

theorem made_gauge {tr : List Ev} {s : State} (h : Exec Step State.init tr s) {t t' : Nat} {c : Call} {k : Str} {o o' : Obj}
    (h1 : Ev.made t c o ∈ tr) (h2 : Ev.gauge t' k o' ∈ tr) : c.key ≠ k := by
  rintro rfl
  have hl := history h
  obtain ⟨a, b, hab⟩ := List.append_of_mem h1
  have l1 := hl a _ b hab
  rw [hab, List.mem_append, List.mem_cons] at h2
  rcases h2 with h2 | h2 | h2
  · obtain ⟨a1, a2, ha⟩ := List.append_of_mem h2
    have : a = (a1 ++ [.gauge t' c.key o']) ++ a2 := by rw [ha]; simp
    refine table_stays (a := a1 ++ [.gauge t' c.key o']) (b := a2) ?_ (by rw [← this]; exact l1.2.1)
    rw [table_snoc]
    simp [puts]
  · cases h2
  · obtain ⟨b1, b2, hb⟩ := List.append_of_mem h2
    have e : tr = (a ++ [.made t c o] ++ b1) ++ .gauge t' c.key o' :: b2 := by rw [hab, hb]; simp
    have l2 := hl _ _ _ e
    rw [e] at hl
    have p := persist (a := a ++ [.made t c o]) (b := b1) (LegalHistory.pre hl) (n := c.key) (o := o) (by rw [table_snoc]; simp [puts]) l1.2.2.2.1
    exact l1.2.2.2.1 (l2.1 o p)

/-- **C130**, gauges: one reports under another series than every source of the scope that is not a gauge, and than gauges of other names. -/
theorem C130_gauge_partial {tr : List Ev} {s : State} (h : Exec Step State.init tr s) {t t' : Nat} {c : Call} {o o' : Obj} {n g : Str}
    (h1 : Ev.made t c o ∈ tr) (h2 : Ev.gauge t' g o' ∈ tr) {p : Part} (u : Usable c) (u' : Usable ⟨.gauge, g, []⟩) (hp : PartOf c p) :
    ¬ Same (reported n c p) (reported n ⟨.gauge, g, []⟩ .whole) ∧
    ∀ g', g ≠ g' → Usable ⟨.gauge, g', []⟩ → ¬ Same (reported n ⟨.gauge, g, []⟩ .whole) (reported n ⟨.gauge, g', []⟩ .whole) := by
  constructor
  · intro e
    obtain ⟨_, e1, e2, e3, _⟩ := C130_same_partial u u' hp (fun _ => rfl) e
    have hk : c.kind ≠ .func := fun x => by cases e3.1 x
    refine made_gauge h h1 h2 ?_
    have e2 : c.tags = [] := List.perm_nil.1 e2
    have e1 : c.name = g := e1
    unfold Call.key keyOf
    rw [e1, e2]
    cases hc : c.kind <;> first | exact absurd hc hk | simp [sourceName]
  · intro g' hne u'' e
    exact hne (C130_same_partial u' u'' (fun _ => rfl) (fun _ => rfl) e).2.1

/-- Two calls that make two sources. -/
theorem two_sources {c c' : Call} (hk : c.kind ≠ .gauge) (hk' : c'.kind ≠ .gauge) (hne : c.key ≠ c'.key) :
    ∃ tr s, Exec Step State.init tr s ∧ Ev.made 0 c ⟨0, c.kind⟩ ∈ tr ∧ Ev.made 0 c' ⟨1, c'.kind⟩ ∈ tr := by
  obtain ⟨s1, h1, q1, e1, n1⟩ := run_miss (s := State.init) (t := 0) (c := c) ⟨rfl, rfl, rfl⟩ hk rfl
  obtain ⟨s2, h2, q2, e2, n2⟩ := run_miss (t := 0) (c := c') q1 hk' (by rw [e1, Map.get_set, if_neg hne]; rfl)
  rw [n1] at h2
  exact ⟨_, s2, h1.append h2, by simp [State.init], by simp [State.init]⟩

/-- C130 is false if the same tags are given in two orders: there are two counters that report under one series. -/
theorem C130_order_violated : ∃ (c c' : Call) (tr : List Ev) (s : State) (o o' : Obj), Exec Step State.init tr s ∧ Usable c ∧ Usable c' ∧
    Ev.made 0 c o ∈ tr ∧ Ev.made 0 c' o' ∈ tr ∧ o ≠ o' ∧ ∀ n, Same (reported n c .whole) (reported n c' .whole) := by
  obtain ⟨tr, s, h, h1, h2⟩ := two_sources (c := ⟨.counter, b!"hits", [(b!"a", b!"1"), (b!"b", b!"2")]⟩)
    (c' := ⟨.counter, b!"hits", [(b!"b", b!"2"), (b!"a", b!"1")]⟩) (by simp) (by simp) (by decide +kernel)
  refine ⟨_, _, tr, s, _, _, h, ?_, ?_, h1, h2, by decide, fun n => ⟨rfl, fun k => ?_⟩⟩
  · constructor <;> simp
  · constructor <;> simp
  · rw [get_reported, get_reported, get_own_other (by simp), get_own_other (by simp)]
    by_cases ha : b!"a" = k
    · subst ha; rfl
    · by_cases hb : b!"b" = k
      · subst hb; rfl
      · simp [lastFor, ha, hb]

/-- What follows for `Collect` when two parts are reported under one series: of the two values the first is lost.  `str` is any text made of a series, such as that of
`WithField` (C39). -/
theorem C130_lost_violated {V : Type} (str : Str × Map Str Str → Str) (hs : ∀ a b, Same a b → str a = str b) {a b : Str × Map Str Str} (h : Same a b) (v v' : V) :
    Tags.collect str [(a, v), (b, v')] = [(str a, v')] := by
  unfold Tags.collect
  rw [List.foldl_cons, List.foldl_cons, List.foldl_nil]
  simp [Map.set, hs a b h]

/-- It is false if a tag is called "scope": that tag is overwritten. -/
theorem C130_scope_violated : ∃ (c c' : Call) (tr : List Ev) (s : State) (o o' : Obj), Exec Step State.init tr s ∧ c.tags ≠ c'.tags ∧
    Ev.made 0 c o ∈ tr ∧ Ev.made 0 c' o' ∈ tr ∧ o ≠ o' ∧ ∀ n, Same (reported n c .whole) (reported n c' .whole) := by
  obtain ⟨tr, s, h, h1, h2⟩ := two_sources (c := ⟨.counter, b!"hits", [(b!"scope", b!"1")]⟩)
    (c' := ⟨.counter, b!"hits", [(b!"scope", b!"2")]⟩) (by simp) (by simp) (by decide +kernel)
  refine ⟨_, _, tr, s, _, _, h, by simp, h1, h2, by decide, fun n => ⟨rfl, fun k => ?_⟩⟩
  rw [get_reported, get_reported, get_own_other (by simp), get_own_other (by simp)]
  by_cases ha : k = b!"scope"
  · rw [if_pos ha, if_pos ha]
  · have : ¬ b!"scope" = k := fun e => ha e.symm
    simp [lastFor, this]

/-- It is false if a tag of a function is called "name": `FuncNamed("f", NewSeriesTag("name", "g"))` and `FuncNamed("g")`. -/
theorem C130_name_violated : ∃ (c c' : Call) (tr : List Ev) (s : State) (o o' : Obj), Exec Step State.init tr s ∧ c.name ≠ c'.name ∧
    Ev.made 0 c o ∈ tr ∧ Ev.made 0 c' o' ∈ tr ∧ o ≠ o' ∧ ∀ n p, Same (reported n c p) (reported n c' p) := by
  obtain ⟨tr, s, h, h1, h2⟩ := two_sources (c := ⟨.func, b!"f", [(b!"name", b!"g")]⟩)
    (c' := ⟨.func, b!"g", []⟩) (by simp) (by simp) (by decide +kernel)
  refine ⟨_, _, tr, s, _, _, h, by simp, h1, h2, by decide, fun n p => ⟨rfl, fun k => ?_⟩⟩
  rw [get_reported, get_reported, get_own_func rfl, get_own_func rfl]
  by_cases ha : k = b!"name"
  · subst ha; rfl
  · have : ¬ b!"name" = k := fun e => ha e.symm
    simp [lastFor, this, ha]

/-- It is false if a tag of a function is called "kind": that tag is overwritten in the times, so that functions that differ by it only report their times, of
successes and of failures, under one series. -/
theorem C130_kind_violated : ∃ (c c' : Call) (tr : List Ev) (s : State) (o o' : Obj), Exec Step State.init tr s ∧ c.tags ≠ c'.tags ∧
    Ev.made 0 c o ∈ tr ∧ Ev.made 0 c' o' ∈ tr ∧ o ≠ o' ∧ ∀ n p, p = .success ∨ p = .failure → Same (reported n c p) (reported n c' p) := by
  obtain ⟨tr, s, h, h1, h2⟩ := two_sources (c := ⟨.func, b!"f", [(b!"kind", b!"read")]⟩)
    (c' := ⟨.func, b!"f", [(b!"kind", b!"write")]⟩) (by simp) (by simp) (by decide +kernel)
  refine ⟨_, _, tr, s, _, _, h, by simp, h1, h2, by decide, fun n p hp => ⟨rfl, fun k => ?_⟩⟩
  rw [get_reported, get_reported, get_own_func rfl, get_own_func rfl]
  by_cases ha : b!"kind" = k
  · subst ha
    rcases hp with rfl | rfl <;> rfl
  · simp [lastFor, ha]

/-- And likewise for "error_name", in the counts of errors. -/
theorem C130_error_violated : ∃ (c c' : Call) (tr : List Ev) (s : State) (o o' : Obj), Exec Step State.init tr s ∧ c.tags ≠ c'.tags ∧
    Ev.made 0 c o ∈ tr ∧ Ev.made 0 c' o' ∈ tr ∧ o ≠ o' ∧ ∀ n e, Same (reported n c (.error e)) (reported n c' (.error e)) := by
  obtain ⟨tr, s, h, h1, h2⟩ := two_sources (c := ⟨.func, b!"f", [(b!"error_name", b!"x")]⟩)
    (c' := ⟨.func, b!"f", []⟩) (by simp) (by simp) (by decide +kernel)
  refine ⟨_, _, tr, s, _, _, h, by simp, h1, h2, by decide, fun n e => ⟨rfl, fun k => ?_⟩⟩
  rw [get_reported, get_reported, get_own_func rfl, get_own_func rfl]
  by_cases ha : b!"error_name" = k
  · subst ha; rfl
  · simp [lastFor, Part.tags, ha]

/-- And it is false if something else goes by "function": `Meter("function", NewSeriesTag("name", "f"))` and `FuncNamed("f")`, both of which report a
total. -/
theorem C130_function_violated : ∃ (c c' : Call) (tr : List Ev) (s : State) (o o' : Obj), Exec Step State.init tr s ∧ c.kind = .meter ∧ c'.kind = .func ∧
    Ev.made 0 c o ∈ tr ∧ Ev.made 0 c' o' ∈ tr ∧ o ≠ o' ∧ ∀ n, Same (reported n c .whole) (reported n c' .whole) := by
  obtain ⟨tr, s, h, h1, h2⟩ := two_sources (c := ⟨.meter, b!"function", [(b!"name", b!"f")]⟩)
    (c' := ⟨.func, b!"f", []⟩) (by simp) (by simp) (by decide +kernel)
  refine ⟨_, _, tr, s, _, _, h, by simp, by simp, h1, h2, by decide, fun n => ⟨rfl, fun k => ?_⟩⟩
  rw [get_reported, get_reported, get_own_other (by simp), get_own_func rfl]
  by_cases ha : k = b!"name"
  · subst ha; rfl
  · have : ¬ b!"name" = k := fun e => ha e.symm
    simp [lastFor, this, ha]

/-- Two sources as `C130_distinct_partial` has them: a function with a tag, and a counter of the same name with the same tag. -/
example : ∃ tr s, Exec Step State.init tr s ∧ Ev.made 0 ⟨.func, b!"f", [(b!"k", b!"v")]⟩ ⟨0, .func⟩ ∈ tr ∧
    Ev.made 0 ⟨.counter, b!"f", [(b!"k", b!"v")]⟩ ⟨1, .counter⟩ ∈ tr ∧ Usable ⟨.func, b!"f", [(b!"k", b!"v")]⟩ ∧
    Usable ⟨.counter, b!"f", [(b!"k", b!"v")]⟩ ∧ PartOf ⟨.func, b!"f", [(b!"k", b!"v")]⟩ (.error b!"EOF") := by
  obtain ⟨tr, s, h, h1, h2⟩ := two_sources (c := ⟨.func, b!"f", [(b!"k", b!"v")]⟩) (c' := ⟨.counter, b!"f", [(b!"k", b!"v")]⟩) (by simp) (by simp)
    (by decide +kernel)
  exact ⟨tr, s, h, h1, h2, by constructor <;> simp, by constructor <;> simp, fun x => absurd rfl x⟩

/-- And a counter with a gauge, as `C130_gauge_partial` has them. -/
example : ∃ tr s, Exec Step State.init tr s ∧ Ev.made 0 ⟨.counter, b!"f", [(b!"k", b!"v")]⟩ ⟨0, .counter⟩ ∈ tr ∧ Ev.gauge 0 b!"f" ⟨1, .gauge⟩ ∈ tr ∧
    Usable ⟨.counter, b!"f", [(b!"k", b!"v")]⟩ ∧ Usable ⟨.gauge, b!"f", []⟩ := by
  obtain ⟨s1, h1, ⟨q1, q2, q3⟩, e1, n1⟩ := run_miss (s := State.init) (t := 0) (c := ⟨.counter, b!"f", [(b!"k", b!"v")]⟩) ⟨rfl, rfl, rfl⟩ (by simp) rfl
  have h2 := h1.step _ (.gCall s1 0 b!"f" q3)
  have h3 := h2.step _ (.gLock _ 0 b!"f" (by simp) q1 q2)
  have h4 := h3.step _ (.gOk _ 0 b!"f" (by simp) (by intro o ho; rw [show Map.get s1.sources b!"f" = none by rw [e1]; rfl] at ho; cases ho))
  have h5 := h4.step _ (.gSet _ 0 b!"f" (by simp))
  refine ⟨_, _, h5, by simp [State.init], by simp [n1, State.init], by constructor <;> simp, by constructor <;> simp⟩

end Monkit.Series
