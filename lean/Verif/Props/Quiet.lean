import Verif.Model.Quiet
import Verif.Props.FuncStats
import Verif.Props.Dist5
import Verif.Model.StatsText

/-!
# C123: reports of a registry at rest say the same

They do, but not in the same order.
-/

namespace Monkit.Quiet
open Go

variable {G : Type} {K : DistKind Int64 ℚ}

theorem func_perm {f : FuncStats G} {ord ord' : Map Str Int64} {g1 g2 g1' g2' : G} {l l' : List Stat} (p : ord.Perm ord')
    (h : f.stats K ord g1 g2 = some l) (h' : f.stats K ord' g1' g2' = some l') : l.Perm l' := by
  have e : List.foldl (fun c (x : Str × Int64) => c + x.2) (0 : Int64) ord = List.foldl (fun c (x : Str × Int64) => c + x.2) (0 : Int64) ord' := FuncStats.total_perm p
  unfold FuncStats.stats at h h'
  rw [e] at h
  simp only [stats_copy, Option.bind_eq_bind] at h h'
  cases h1 : f.success.stats K with
  | none => simp [h1] at h
  | some x =>
    cases h2 : f.failure.stats K with
    | none => simp [h1, h2] at h
    | some y =>
      simp only [h1, h2, Option.map_some, Option.bind_some, Option.some.injEq] at h h'
      subst h h'
      exact (((List.Perm.append_left _ (p.map _)).append_right _).append_right _).append_right _

theorem reports_perm {x : Source G} {l l' : List Stat} (h : Reports K x l) (h' : Reports K x l') : l.Perm l' := by
  cases h with
  | func f ord g1 g2 _ hp hl =>
    cases h' with
    | func _ ord' g1' g2' _ hp' hl' => exact func_perm (hp.trans hp'.symm) hl hl'
  | dist d g d' _ hl =>
    cases h' with
    | dist _ g' d'' _ hl' =>
      rw [stats_copy] at hl hl'
      cases h : d.stats K with
      | none => simp [h] at hl
      | some y =>
        simp [h] at hl hl'
        rw [← hl.2, ← hl'.2]
  | fixed l => cases h'; exact .refl _

/-- Pairs can be reordered along with one of their sides. -/
theorem forall₂_perm {α β : Type} {R : α → β → Prop} {as as' : List α} {bs : List β} (p : as.Perm as') (h : List.Forall₂ R as bs) :
    ∃ bs', List.Forall₂ R as' bs' ∧ bs.Perm bs' := by
  induction p generalizing bs with
  | nil => cases h; exact ⟨[], .nil, .nil⟩
  | cons x _ ih =>
    cases h with
    | cons h1 h2 =>
      obtain ⟨bs', h3, h4⟩ := ih h2
      exact ⟨_ :: bs', .cons h1 h3, h4.cons _⟩
  | swap x y l =>
    cases h with
    | cons h1 h2 =>
      cases h2 with
      | cons h2 h3 => exact ⟨_, .cons h2 (.cons h1 h3), .swap _ _ _⟩
  | trans _ _ ih1 ih2 =>
    obtain ⟨b1, h1, p1⟩ := ih1 h
    obtain ⟨b2, h2, p2⟩ := ih2 h1
    exact ⟨b2, h2, p1.trans p2⟩

theorem flatten_perm {α β : Type} {R : α → List β → Prop} (hR : ∀ a l l', R a l → R a l' → l.Perm l') {as : List α} {bs bs' : List (List β)}
    (h : List.Forall₂ R as bs) (h' : List.Forall₂ R as bs') : bs.flatten.Perm bs'.flatten := by
  induction h generalizing bs' with
  | nil => cases h'; exact .nil
  | cons h1 _ ih =>
    cases h' with
    | cons h2 h3 =>
      rw [List.flatten_cons, List.flatten_cons]
      exact (hR _ _ _ h1 h2).append (ih h3)

theorem scope_perm {sc : Scope G} {o o' : List Stat} (h : ScopeReports K sc o) (h' : ScopeReports K sc o') : o.Perm o' := by
  obtain ⟨ord, ls, cs, hp, hl, hc, rfl⟩ := h
  obtain ⟨ord', ls', cs', hp', hl', hc', rfl⟩ := h'
  refine List.Perm.map _ (List.Perm.append ?_ (flatten_perm (R := Reports K) (fun _ _ _ => reports_perm) hc hc'))
  obtain ⟨bs, hb, pb⟩ := forall₂_perm (hp.trans hp'.symm) hl
  exact (pb.flatten).trans (flatten_perm (R := fun (x : Str × Source G) l => Reports K x.2 l) (fun _ _ _ => reports_perm) hb hl')

theorem sorted_unique {c c' scopes : List (Scope G)} (hn : (scopes.map (·.name)).Nodup) (h : c.Perm scopes) (h' : c'.Perm scopes)
    (s : c.Pairwise (fun a b => strLe a.name b.name = true)) (s' : c'.Pairwise (fun a b => strLe a.name b.name = true)) : c = c' := by
  refine (h.trans h'.symm).eq_of_pairwise (le := fun a b => strLe a.name b.name = true) ?_ s s'
  intro a b ha hb h1 h2
  have e := strLe_antisymm _ _ h1 h2
  exact List.inj_on_of_nodup_map hn (h.subset ha) (h'.subset hb) e

/-- **C123**: two reports of a registry at rest list the same statistics, with the same values, each as often, and scope by scope in the same order of scopes. -/
theorem C123_same {scopes : List (Scope G)} (hn : (scopes.map (·.name)).Nodup) {o o' : List (List Stat)}
    (h : RegistryReports K scopes o) (h' : RegistryReports K scopes o') : List.Forall₂ List.Perm o o' ∧ o.flatten.Perm o'.flatten := by
  obtain ⟨c, hp, hs, hf⟩ := h
  obtain ⟨c', hp', hs', hf'⟩ := h'
  obtain rfl := sorted_unique hn hp hp' hs hs'
  refine ⟨?_, flatten_perm (R := ScopeReports K) (fun _ _ _ => scope_perm) hf hf'⟩
  clear hp hp' hs hs'
  induction hf generalizing o' with
  | nil => cases hf'; exact .nil
  | cons h1 _ ih =>
    cases hf' with
    | cons h2 h3 => exact .cons (scope_perm h1 h2) (ih h3)

/-- **C123, as text**: their texts consist of the same lines. -/
theorem C123_lines {scopes : List (Scope G)} (hn : (scopes.map (·.name)).Nodup) {o o' : List (List Stat)}
    (h : RegistryReports K scopes o) (h' : RegistryReports K scopes o') : (o.flatten.map StatsText.line).Perm (o'.flatten.map StatsText.line) :=
  (C123_same hn h h').2.map _

/-- **C123, where there is nothing to order**: with at most one source in each scope, besides chained ones, and at most one kind of error for each function, the reports are equal. -/
theorem C123_order_partial {scopes : List (Scope G)} (hn : (scopes.map (·.name)).Nodup)
    (h1 : ∀ sc ∈ scopes, sc.sources.length ≤ 1)
    (h2 : ∀ sc ∈ scopes, ∀ f, (.func f ∈ sc.sources.map (·.2) ∨ .func f ∈ sc.chains) → f.errors.length ≤ 1) {o o' : List (List Stat)}
    (h : RegistryReports K scopes o) (h' : RegistryReports K scopes o') : o = o' := by
  have perm1 : ∀ {α : Type} {a b : List α}, a.Perm b → b.length ≤ 1 → a = b := by
    intro α a b p hb
    match b, hb with
    | [], _ => exact p.eq_nil
    | [x], _ => exact List.perm_singleton.1 p
  have one : ∀ (x : Source G) (l l' : List Stat), (∀ f, x = .func f → f.errors.length ≤ 1) → Reports K x l → Reports K x l' → l = l' := by
    intro x l l' hx r r'
    cases r with
    | func f ord g1 g2 _ hp hl =>
      cases r' with
      | func _ ord' g1' g2' _ hp' hl' =>
        have e1 := perm1 hp (hx f rfl)
        have e2 := perm1 hp' (hx f rfl)
        subst e1 e2
        unfold FuncStats.stats at hl hl'
        simp only [stats_copy, Option.bind_eq_bind] at hl hl'
        cases h1 : f.success.stats K with
        | none => simp [h1] at hl
        | some x =>
          cases h2 : f.failure.stats K with
          | none => simp [h1, h2] at hl
          | some y =>
            simp only [h1, h2, Option.map_some, Option.bind_some, Option.some.injEq] at hl hl'
            rw [← hl, ← hl']
            rfl
    | dist d g d' _ hl =>
      cases r' with
      | dist _ g' d'' _ hl' =>
        rw [stats_copy] at hl hl'
        cases h : d.stats K with
        | none => simp [h] at hl
        | some y =>
          simp [h] at hl hl'
          rw [← hl.2, ← hl'.2]
    | fixed l => cases r'; rfl
  have eq2 : ∀ {α β : Type} {R : α → β → Prop} {as : List α} {bs bs' : List β}, (∀ a ∈ as, ∀ b b', R a b → R a b' → b = b') →
      List.Forall₂ R as bs → List.Forall₂ R as bs' → bs = bs' := by
    intro α β R as bs bs' hR r r'
    induction r generalizing bs' with
    | nil => cases r'; rfl
    | cons r1 _ ih =>
      cases r' with
      | cons r2 r3 => rw [hR _ List.mem_cons_self _ _ r1 r2, ih (fun a ha => hR a (List.mem_cons_of_mem _ ha)) r3]
  obtain ⟨c, hp, hs, hf⟩ := h
  obtain ⟨c', hp', hs', hf'⟩ := h'
  obtain rfl := sorted_unique hn hp hp' hs hs'
  refine eq2 (fun sc hsc b b' r r' => ?_) hf hf'
  have hsc := hp.subset hsc
  obtain ⟨ord, ls, cs, hp, hl, hc, rfl⟩ := r
  obtain ⟨ord', ls', cs', hp', hl', hc', rfl⟩ := r'
  have e1 := perm1 hp (h1 sc hsc)
  have e2 := perm1 hp' (h1 sc hsc)
  subst e1
  subst e2
  have el : ls = ls' := eq2 (R := fun (x : Str × Source G) l => Reports K x.2 l)
    (fun a ha b b' => one _ b b' fun f hf => h2 sc hsc f (.inl (hf ▸ List.mem_map_of_mem (f := (·.2)) ha))) hl hl'
  have ec : cs = cs' := eq2 (R := Reports K) (fun a ha b b' => one _ b b' fun f hf => h2 sc hsc f (.inr (hf ▸ ha))) hc hc'
  rw [el, ec]

/-- A scope with two counters, both 0. -/
def exScope : Scope Nat := ⟨b!"p", [(b!"a", .fixed [(⟨b!"a", []⟩, b!"value", .int 0)]), (b!"b", .fixed [(⟨b!"b", []⟩, b!"value", .int 0)])], []⟩

/-- C123 does not extend to the order: two reports of the same two counters at rest differ, and so do their texts. -/
theorem C123_order_violated : ∃ (scopes : List (Scope Nat)) (o o' : List (List Stat)), (scopes.map (·.name)).Nodup ∧
    RegistryReports K scopes o ∧ RegistryReports K scopes o' ∧ o.flatten.flatMap StatsText.line ≠ o'.flatten.flatMap StatsText.line := by
  have h : ∀ ord, ord.Perm exScope.sources → ∀ ls, List.Forall₂ (fun (x : Str × Source Nat) l => Reports K x.2 l) ord ls →
      RegistryReports K [exScope] [(ls.flatten ++ ([] : List (List Stat)).flatten).map fun x => (x.1.withTag b!"scope" exScope.name, x.2.1, x.2.2)] :=
    fun ord hp ls hl => ⟨[exScope], .refl _, by simp, .cons ⟨ord, ls, [], hp, hl, .nil, rfl⟩ .nil⟩
  refine ⟨[exScope], _, _, by simp, h exScope.sources (.refl _) _ (.cons (.fixed _) (.cons (.fixed _) .nil)),
    h exScope.sources.reverse (List.reverse_perm _) _ (.cons (.fixed _) (.cons (.fixed _) .nil)), ?_⟩
  decide +kernel

/-- The hypotheses of C123 can be met by a function with two kinds of errors, which it may list in either order. -/
example (g : Nat) : ∃ (f : FuncStats Nat) (o o' : List Stat), Reports K (.func f) o ∧ Reports K (.func f) o' ∧ o ≠ o' := by
  refine ⟨{ FuncStats.new K ⟨b!"f", []⟩ g g with errors := [(b!"x", 1), (b!"y", 1)] }, _, _,
    .func _ [(b!"x", 1), (b!"y", 1)] g g _ (.refl _) rfl, .func _ [(b!"y", 1), (b!"x", 1)] g g _ (.swap _ _ _) rfl, ?_⟩
  simp [Key.withTag, FuncStats.new, Map.set]

end Monkit.Quiet
