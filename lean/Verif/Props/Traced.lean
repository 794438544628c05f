import Verif.Model.Traced
import Verif.Spec.Traced
import Verif.Proofs.Scope2
import Verif.Props.Scope

/-!
# C129: the function whose call `CollectSpans` makes
-/

namespace Monkit.Traced
open Go Monkit.Scope Monkit.Scope.Spec Spec

theorem get_foldl (tags : List (Str × Str)) (m : Map Str Str) (k : Str) :
    Map.get (Tags.setAllFrom m tags) k = ((tags.reverse.find? (fun t => t.1 = k)).map (·.2)).or (Map.get m k) := by
  induction tags generalizing m with
  | nil => rfl
  | cons x xs ih =>
    have e : Tags.setAllFrom m (x :: xs) = Tags.setAllFrom (Map.set m x.1 x.2) xs := rfl
    rw [e, ih, Map.get_set, List.reverse_cons, List.find?_append]
    cases List.find? (fun t => decide (t.1 = k)) xs.reverse with
    | some y => rfl
    | none => by_cases hk : x.1 = k <;> simp [hk]

theorem shortName_eq (name : Str) (tags : List (Str × Str)) : shortName name tags = goesBy name tags := by
  unfold shortName keyTags goesBy
  rw [get_foldl]
  cases List.find? (fun t => decide (t.1 = b!"name")) tags.reverse <;> rfl

theorem goesBy_plain {name : Str} {tags : List (Str × Str)} (h : NoName tags) : goesBy name tags = name := by
  unfold goesBy
  have : tags.reverse.find? (fun t => decide (t.1 = b!"name")) = none := by
    rw [List.find?_eq_none]
    intro t ht
    simpa using h t (List.mem_reverse.1 ht)
  rw [this]

/-- **C129**, the name: it is that of the function, followed by "-TRACED", and it has no tags. -/
theorem C129_name (c : Call) : tracedCall c = ⟨.func, goesBy c.name c.tags ++ b!"-TRACED", []⟩ ∧
    (NoName c.tags → tracedCall c = ⟨.func, c.name ++ b!"-TRACED", []⟩) := by
  have e : tracedCall c = ⟨.func, goesBy c.name c.tags ++ b!"-TRACED", []⟩ := by rw [tracedCall, shortName_eq]
  exact ⟨e, fun h => by rw [e, goesBy_plain h]⟩

theorem key_traced {c c' : Call} : (tracedCall c).key = (tracedCall c').key ↔ goesBy c.name c.tags = goesBy c'.name c'.tags := by
  constructor
  · intro h
    simpa [tracedCall, Call.key, keyOf, sourceName, shortName_eq] using h
  · intro h
    rw [(C129_name c).1, (C129_name c').1, h]

/-- **C129**, who shares: under every interleaving, two functions of a scope have the same traced function exactly if they go by the same name. -/
theorem C129_shared {tr : List Ev} {s : State} (h : Exec Step State.init tr s) {t t' : Nat} {c c' : Call} {o o' : Obj}
    (h1 : Ev.ret t (tracedCall c) o ∈ tr) (h2 : Ev.ret t' (tracedCall c') o' ∈ tr) : o = o' ↔ goesBy c.name c.tags = goesBy c'.name c'.tags := by
  rw [← key_traced]
  constructor
  · intro e
    by_contra hne
    exact distinct_of_key h h1 h2 hne e
  · intro e
    exact (C41_kind_fixed h e h1 h2).2

theorem made_once {tr : List Ev} {s : State} (h : Exec Step State.init tr s) {t t' : Nat} {c c' : Call} {f f' : Obj}
    (h1 : Ev.made t c f ∈ tr) (h2 : Ev.made t' c' f' ∈ tr) : f = f' ↔ c.key = c'.key := by
  have hl := history h
  constructor
  · rintro rfl
    obtain ⟨a, b, hab⟩ := List.append_of_mem h1
    have l1 := hl a _ b hab
    rw [hab, List.mem_append, List.mem_cons] at h2
    rcases h2 with h2 | h2 | h2
    · exact absurd rfl (l1.2.2.2.2 _ h2 _ _ rfl)
    · cases h2; rfl
    · obtain ⟨b1, b2, hb⟩ := List.append_of_mem h2
      have l2 := hl (a ++ .made t c f :: b1) (.made t' c' f) b2 (by rw [hab, hb]; simp)
      exact absurd rfl (l2.2.2.2.2 (.made t c f) (by simp) _ _ rfl)
  · intro e
    have key : ∀ t c f, Ev.made t c f ∈ tr → table tr c.key = some f := by
      intro t c f hf
      obtain ⟨a, b, hab⟩ := List.append_of_mem hf
      have l := hl a _ b hab
      have : tr = (a ++ [.made t c f]) ++ b := by rw [hab]; simp
      rw [this] at hl ⊢
      exact persist hl (by rw [table_snoc]; simp [puts]) l.2.2.2.1
    have k1 := key _ _ _ h1
    have k2 := key _ _ _ h2
    rw [e, k2] at k1
    exact (Option.some.inj k1).symm

/-- **C129**, one each: under every interleaving, two functions made without tags have the same traced function exactly if they are the same function.

Partial: functions that differ by their tags only share one (`C129_own_violated`). -/
theorem C129_own_partial {tr : List Ev} {s : State} (h : Exec Step State.init tr s) {u u' t t' : Nat} {c c' : Call} {f f' o o' : Obj}
    (hf : Ev.made u c f ∈ tr) (hf' : Ev.made u' c' f' ∈ tr) (hk : c.kind = .func) (hk' : c'.kind = .func) (ht : c.tags = []) (ht' : c'.tags = [])
    (h1 : Ev.ret t (tracedCall c) o ∈ tr) (h2 : Ev.ret t' (tracedCall c') o' ∈ tr) : o = o' ↔ f = f' := by
  rw [C129_shared h h1 h2, made_once h hf hf', ht, ht', goesBy_plain (by simp [NoName]), goesBy_plain (by simp [NoName])]
  unfold Call.key keyOf
  rw [hk, hk', ht, ht']
  simp [sourceName]

/-- However often `CollectSpans` is called for a function, it is the same traced function. -/
theorem C129_one {tr : List Ev} {s : State} (h : Exec Step State.init tr s) {t t' : Nat} {c : Call} {o o' : Obj}
    (h1 : Ev.ret t (tracedCall c) o ∈ tr) (h2 : Ev.ret t' (tracedCall c) o' ∈ tr) : o = o' := C41_same_object h h1 h2

/-- The `n`th function, when `CollectSpans` is called directly in the work of `CollectSpans`. -/
def nested : Nat → Call → Call
  | 0, c => c
  | n + 1, c => tracedCall (nested n c)

theorem nested_name (n : Nat) (c : Call) :
    (nested (n + 1) c).tags = [] ∧ (nested (n + 1) c).kind = .func ∧ (nested (n + 1) c).name.length = (goesBy c.name c.tags).length + 7 * (n + 1) := by
  induction n with
  | zero =>
    refine ⟨rfl, rfl, ?_⟩
    show (shortName c.name c.tags ++ b!"-TRACED").length = _
    rw [shortName_eq, List.length_append]
    rfl
  | succ n ih =>
    refine ⟨rfl, rfl, ?_⟩
    show (shortName (nested (n + 1) c).name (nested (n + 1) c).tags ++ b!"-TRACED").length = _
    rw [shortName_eq, ih.1, goesBy_plain (by simp [NoName]), List.length_append, ih.2.2]
    have : (b!"-TRACED").length = 7 := rfl
    omega

/-- **C129**, nested: each `CollectSpans` called directly in the work of another has a function of its own, however deep. -/
theorem C129_nested {tr : List Ev} {s : State} (h : Exec Step State.init tr s) {t t' n m : Nat} {c : Call} {o o' : Obj}
    (h1 : Ev.ret t (nested (n + 1) c) o ∈ tr) (h2 : Ev.ret t' (nested (m + 1) c) o' ∈ tr) (hne : n ≠ m) : o ≠ o' := by
  refine distinct_of_key h h1 h2 fun e => hne ?_
  have a := nested_name n c
  have b := nested_name m c
  unfold Call.key keyOf at e
  rw [a.1, a.2.1, b.1, b.2.1] at e
  have e : (nested (n + 1) c).name = (nested (m + 1) c).name := by simpa [sourceName] using e
  have := congrArg List.length e
  omega

/-- `FuncNamed("f", NewSeriesTag("k", v))`. -/
def tagged (v : Str) : Call := ⟨.func, b!"f", [(b!"k", v)]⟩

/-- C129 is false of functions that differ by their tags only: they have one traced function. -/
theorem C129_own_violated : ∃ (tr : List Ev) (s : State) (f f' o : Obj), Exec Step State.init tr s ∧ Ev.made 0 (tagged b!"1") f ∈ tr ∧
    Ev.made 0 (tagged b!"2") f' ∈ tr ∧ f ≠ f' ∧ Ev.ret 0 (tracedCall (tagged b!"1")) o ∈ tr ∧ Ev.ret 0 (tracedCall (tagged b!"2")) o ∈ tr := by
  obtain ⟨s1, h1, q1, e1, n1⟩ := run_miss (s := State.init) (t := 0) (c := tagged b!"1") ⟨rfl, rfl, rfl⟩ (by simp [tagged]) rfl
  obtain ⟨s2, h2, q2, e2, n2⟩ := run_miss (t := 0) (c := tagged b!"2") q1 (by simp [tagged]) (by rw [e1]; rfl)
  rw [n1] at h2 e2 n2
  obtain ⟨s3, h3, q3, e3, n3⟩ := run_miss (t := 0) (c := tracedCall (tagged b!"1")) q2 (by simp [tracedCall]) (by rw [e2, e1]; rfl)
  rw [n2] at h3 e3 n3
  obtain ⟨s4, h4, q4, e4⟩ := run_hit (t := 0) (c := tracedCall (tagged b!"2")) (o := ⟨2, .func⟩) q3 (by simp [tracedCall]) (by rw [e3, e2, e1]; rfl)
  exact ⟨_, s4, ⟨0, .func⟩, ⟨1, .func⟩, ⟨2, .func⟩, ((h1.append h2).append h3).append h4, by simp [State.init, tagged], by simp [State.init, tagged],
    by decide, by simp [State.init, tracedCall, tagged], by simp [tracedCall]⟩

/-- And it is false of a program that has a function of that name itself: its calls and those of `CollectSpans` are counted together. -/
theorem C129_apart_violated : ∃ (tr : List Ev) (s : State) (f o : Obj), Exec Step State.init tr s ∧ Ev.made 0 ⟨.func, b!"f", []⟩ f ∈ tr ∧
    Ev.made 0 ⟨.func, b!"f-TRACED", []⟩ o ∈ tr ∧ f ≠ o ∧ Ev.ret 0 (tracedCall ⟨.func, b!"f", []⟩) o ∈ tr := by
  obtain ⟨s1, h1, q1, e1, n1⟩ := run_miss (s := State.init) (t := 0) (c := ⟨.func, b!"f", []⟩) ⟨rfl, rfl, rfl⟩ (by simp) rfl
  obtain ⟨s2, h2, q2, e2, n2⟩ := run_miss (t := 0) (c := ⟨.func, b!"f-TRACED", []⟩) q1 (by simp) (by rw [e1]; rfl)
  rw [n1] at h2 e2 n2
  obtain ⟨s3, h3, q3, e3⟩ := run_hit (t := 0) (c := tracedCall ⟨.func, b!"f", []⟩) (o := ⟨1, .func⟩) q2 (by simp [tracedCall]) (by rw [e2, e1]; rfl)
  exact ⟨_, s3, ⟨0, .func⟩, ⟨1, .func⟩, (h1.append h2).append h3, by simp [State.init], by simp [State.init], by decide, by simp [tracedCall]⟩

/-- Two functions without tags, and their traced functions. -/
example : ∃ (tr : List Ev) (s : State), Exec Step State.init tr s ∧ Ev.made 0 ⟨.func, b!"f", []⟩ ⟨0, .func⟩ ∈ tr ∧
    Ev.made 0 ⟨.func, b!"g", []⟩ ⟨1, .func⟩ ∈ tr ∧ Ev.ret 0 (tracedCall ⟨.func, b!"f", []⟩) ⟨2, .func⟩ ∈ tr ∧
    Ev.ret 0 (tracedCall ⟨.func, b!"g", []⟩) ⟨3, .func⟩ ∈ tr ∧ Ev.ret 0 (nested 2 ⟨.func, b!"f", []⟩) ⟨4, .func⟩ ∈ tr := by
  obtain ⟨s1, h1, q1, e1, n1⟩ := run_miss (s := State.init) (t := 0) (c := ⟨.func, b!"f", []⟩) ⟨rfl, rfl, rfl⟩ (by simp) rfl
  obtain ⟨s2, h2, q2, e2, n2⟩ := run_miss (t := 0) (c := ⟨.func, b!"g", []⟩) q1 (by simp) (by rw [e1]; rfl)
  rw [n1] at h2 e2 n2
  obtain ⟨s3, h3, q3, e3, n3⟩ := run_miss (t := 0) (c := tracedCall ⟨.func, b!"f", []⟩) q2 (by simp [tracedCall]) (by rw [e2, e1]; rfl)
  rw [n2] at h3 e3 n3
  obtain ⟨s4, h4, q4, e4, n4⟩ := run_miss (t := 0) (c := tracedCall ⟨.func, b!"g", []⟩) q3 (by simp [tracedCall]) (by rw [e3, e2, e1]; rfl)
  rw [n3] at h4 e4 n4
  obtain ⟨s5, h5, q5, e5, n5⟩ := run_miss (t := 0) (c := nested 2 ⟨.func, b!"f", []⟩) q4 (by simp [nested, tracedCall]) (by rw [e4, e3, e2, e1]; rfl)
  rw [n4] at h5
  exact ⟨_, s5, (((h1.append h2).append h3).append h4).append h5, by simp [State.init], by simp [State.init], by simp [State.init, tracedCall],
    by simp [State.init, tracedCall], by simp [State.init, nested, tracedCall]⟩

end Monkit.Traced
