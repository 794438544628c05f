import Verif.Spec.Svg
import Mathlib.Tactic.Linarith
import Mathlib.Tactic.NormNum

namespace Monkit.Svg
open Go Spec

theorem le_trans' {a b c : Int64} (h : a ≤ b) (h' : b ≤ c) : a ≤ c := Int64.le_trans h h'

theorem raise_spec (i : Info) (t : Int64) : (i.raise t).parent = i.parent ∧ (i.raise t).rows = i.rows ∧ (i.raise t).layout = i.layout ∧
    ∃ m, (i.raise t).largest = some m ∧ t ≤ m ∧ ∀ m', i.largest = some m' → m' ≤ m := by
  unfold Info.raise
  cases hl : i.largest with
  | none => simp [after]
  | some u =>
    by_cases h : t > u
    · simp only [after, h, decide_true, if_true, true_and]
      exact ⟨t, rfl, Int64.le_refl _, fun m' e => by cases e; exact Int64.le_of_lt h⟩
    · simp only [after, h, decide_false, Bool.false_eq_true, if_false, true_and]
      exact ⟨u, hl, Int64.not_lt.1 h, fun m' e => by cases e; exact Int64.le_refl _⟩

structure TreeInv (l : List FSpan) (t : Tree) : Prop where
  ok : Map.Ok t
  fresh : ∀ k i, t.get k = some i → i.rows = [] ∧ i.layout = false
  own : ∀ s ∈ l, ∃ i, t.get s.id = some i ∧ i.parent = s.parent.getD 0 ∧ ∃ m, i.largest = some m ∧ s.finish ≤ m
  keys : ∀ k, (t.get k).isSome = true ↔ ∃ s ∈ l, s.id = k ∨ s.parent = some k
  other : ∀ k i, t.get k = some i → (∀ s ∈ l, s.id ≠ k) → i.parent = 0

theorem addSpan_get (t : Tree) (s : FSpan) (k : Int64) :
    (addSpan t s).get k =
      match s.parent with
      | none => if s.id = k then some (((t.get s.id).getD .new).raise s.finish) else t.get k
      | some p => if p = k then some ((((t.set s.id { ((t.get s.id).getD .new).raise s.finish with parent := p }).get p).getD .new).raise s.finish)
          else if s.id = k then some { ((t.get s.id).getD .new).raise s.finish with parent := p } else t.get k := by
  unfold addSpan
  cases s.parent with
  | none => simp only [Map.get_set]
  | some p => simp only [Map.get_set]

theorem treeInv_set {l t} (h : TreeInv l t) (s : FSpan) (hs : ∀ s' ∈ l, s'.id ≠ s.id) (i : Info) (h1 : i.parent = s.parent.getD 0) (h2 : i.rows = [] ∧ i.layout = false)
    (h3 : ∃ m, i.largest = some m ∧ s.finish ≤ m) (hp : ∀ p, s.parent = some p → p = s.id ∨ (t.get p).isSome = true) : TreeInv (l ++ [s]) (t.set s.id i) := by
  refine ⟨Map.ok_set h.ok _ _, ?_, ?_, ?_, ?_⟩
  · intro k j hk
    rw [Map.get_set] at hk
    split at hk
    · cases hk; exact h2
    · exact h.fresh k j hk
  · intro s' hs'
    rw [Map.get_set]
    rcases List.mem_append.1 hs' with hs' | hs'
    · rw [if_neg (fun e => hs s' hs' e.symm)]
      exact h.own s' hs'
    · rw [List.mem_singleton] at hs'
      subst hs'
      rw [if_pos rfl]
      exact ⟨i, rfl, h1, h3⟩
  · intro k
    rw [Map.get_set]
    by_cases hk : s.id = k
    · rw [if_pos hk]; simp only [Option.isSome_some, true_iff]
      exact ⟨s, by simp, .inl hk⟩
    · rw [if_neg hk, h.keys]
      constructor
      · rintro ⟨s', g1, g2⟩; exact ⟨s', by simp [g1], g2⟩
      · rintro ⟨s', g1, g2⟩
        rcases List.mem_append.1 g1 with g1 | g1
        · exact ⟨s', g1, g2⟩
        · rw [List.mem_singleton] at g1
          subst g1
          rcases g2 with g2 | g2
          · exact absurd g2 hk
          · rcases hp k g2 with g | g
            · exact absurd g.symm hk
            · exact (h.keys k).1 g
  · intro k j hk hn
    rw [Map.get_set] at hk
    split at hk
    · rename_i e; exact absurd e (hn s (by simp))
    · exact h.other k j hk (fun s' hs' => hn s' (by simp [hs']))

/-- Raising the entry of a parent, or making one. -/
theorem treeInv_raise {l t} (h : TreeInv l t) (p : Int64) (f : Int64) (hp : ∃ s ∈ l, s.parent = some p) :
    TreeInv l (t.set p (((t.get p).getD .new).raise f)) := by
  obtain ⟨r1, r2, r3, m, r4, r5, r6⟩ := raise_spec ((t.get p).getD .new) f
  generalize he : ((t.get p).getD .new).raise f = i at *
  refine ⟨Map.ok_set h.ok _ _, ?_, ?_, ?_, ?_⟩
  · intro k j hk
    rw [Map.get_set] at hk
    split at hk
    · cases hk
      rw [r2, r3]
      cases hg : t.get p with
      | none => exact ⟨rfl, rfl⟩
      | some j => exact h.fresh p j hg
    · exact h.fresh k j hk
  · intro s hs
    obtain ⟨j, j1, j2, m', j3, j4⟩ := h.own s hs
    rw [Map.get_set]
    by_cases hk : p = s.id
    · rw [if_pos hk]
      refine ⟨i, rfl, ?_, m, r4, ?_⟩
      · rw [r1, hk, j1]; exact j2
      · rw [hk, j1] at r6
        exact le_trans' j4 (r6 m' j3)
    · rw [if_neg hk]; exact ⟨j, j1, j2, m', j3, j4⟩
  · intro k
    rw [Map.get_set]
    by_cases hk : p = k
    · rw [if_pos hk]; simp only [Option.isSome_some, true_iff]
      obtain ⟨s, h1, h2⟩ := hp
      exact ⟨s, h1, .inr (hk ▸ h2)⟩
    · rw [if_neg hk]; exact h.keys k
  · intro k j hk hn
    rw [Map.get_set] at hk
    split at hk
    · rename_i e; cases hk; subst e
      rw [r1]
      cases hg : t.get p with
      | none => rfl
      | some j => exact h.other p j hg hn
    · exact h.other k j hk hn

/-- A new, empty entry for the parent of a span to come. -/
theorem addSpan_comm (t : Tree) (s : FSpan) (p : Int64) (hp : s.parent = some p) :
    (addSpan t s) = (t.set s.id { ((t.get s.id).getD .new).raise s.finish with parent := p }).set p
      ((((t.set s.id { ((t.get s.id).getD .new).raise s.finish with parent := p }).get p).getD .new).raise s.finish) := by
  unfold addSpan
  rw [hp]

theorem treeInv_step {l t s} (h : TreeInv l t) (hs : ∀ s' ∈ l, s'.id ≠ s.id) : TreeInv (l ++ [s]) (addSpan t s) := by
  have hold : ((t.get s.id).getD .new).parent = 0 ∧ ((t.get s.id).getD .new).rows = [] ∧ ((t.get s.id).getD .new).layout = false := by
    cases hg : t.get s.id with
    | none => exact ⟨rfl, rfl, rfl⟩
    | some i => exact ⟨h.other _ i hg (fun s' hs' => hs s' hs'), (h.fresh _ i hg).1, (h.fresh _ i hg).2⟩
  obtain ⟨r1, r2, r3, m, r4, r5, r6⟩ := raise_spec ((t.get s.id).getD .new) s.finish
  rw [hold.1] at r1; rw [hold.2.1] at r2; rw [hold.2.2] at r3
  cases hp : s.parent with
  | none =>
    unfold addSpan
    rw [hp]
    exact treeInv_set h s hs _ (by rw [r1, hp]; rfl) ⟨r2, r3⟩ ⟨m, r4, r5⟩ (by simp [hp])
  | some p =>
    rw [addSpan_comm t s p hp]
    by_cases hk : p = s.id ∨ (t.get p).isSome = true
    · have h1 := treeInv_set h s hs { ((t.get s.id).getD .new).raise s.finish with parent := p } (by rw [hp]; rfl) ⟨r2, r3⟩ ⟨m, r4, r5⟩
        (by intro p' e; rw [hp] at e; cases e; exact hk)
      exact treeInv_raise h1 p s.finish ⟨s, by simp, hp⟩
    · have hk1 : p ≠ s.id := fun e => hk (.inl e)
      have hk2 : t.get p = none := by
        cases hg : t.get p with
        | none => rfl
        | some j => exact absurd (.inr (by simp [hg])) hk
      -- add the parent's entry by hand
      obtain ⟨q1, q2, q3, m', q4, q5, q6⟩ := raise_spec .new s.finish
      have hget : ((t.set s.id { ((t.get s.id).getD .new).raise s.finish with parent := p }).get p).getD .new = .new := by
        rw [Map.get_set, if_neg (fun e => hk1 e.symm), hk2]; rfl
      rw [hget]
      generalize hi : (Info.raise .new s.finish) = ip at *
      have hix : ∃ ix : Info, ix = { ((t.get s.id).getD .new).raise s.finish with parent := p } := ⟨_, rfl⟩
      obtain ⟨ix, hix⟩ := hix
      rw [← hix]
      have x1 : ix.parent = p := by rw [hix]
      have x2 : ix.rows = [] ∧ ix.layout = false := by rw [hix]; exact ⟨r2, r3⟩
      have x3 : ix.largest = some m := by rw [hix]; exact r4
      refine ⟨Map.ok_set (Map.ok_set h.ok _ _) _ _, ?_, ?_, ?_, ?_⟩
      · intro k j hj
        rw [Map.get_set, Map.get_set] at hj
        split at hj
        · cases hj; exact ⟨q2, q3⟩
        split at hj
        · cases hj; exact x2
        · exact h.fresh k j hj
      · intro s' hs'
        rw [Map.get_set, Map.get_set]
        rcases List.mem_append.1 hs' with hs' | hs'
        · have n1 : p ≠ s'.id := by
            intro e
            obtain ⟨j, j1, _⟩ := h.own s' hs'
            rw [← e, hk2] at j1; cases j1
          rw [if_neg n1, if_neg (fun e => hs s' hs' e.symm)]
          exact h.own s' hs'
        · rw [List.mem_singleton] at hs'
          subst hs'
          rw [if_neg hk1, if_pos rfl]
          exact ⟨ix, rfl, by rw [x1, hp]; rfl, m, x3, r5⟩
      · intro k
        rw [Map.get_set, Map.get_set]
        by_cases e1 : p = k
        · rw [if_pos e1]; simp only [Option.isSome_some, true_iff]; exact ⟨s, by simp, .inr (e1 ▸ hp)⟩
        · rw [if_neg e1]
          by_cases e2 : s.id = k
          · rw [if_pos e2]; simp only [Option.isSome_some, true_iff]; exact ⟨s, by simp, .inl e2⟩
          · rw [if_neg e2, h.keys]
            constructor
            · rintro ⟨s', g1, g2⟩; exact ⟨s', by simp [g1], g2⟩
            · rintro ⟨s', g1, g2⟩
              rcases List.mem_append.1 g1 with g1 | g1
              · exact ⟨s', g1, g2⟩
              · rw [List.mem_singleton] at g1
                subst g1
                rcases g2 with g2 | g2
                · exact absurd g2 e2
                · rw [hp] at g2; cases g2; exact absurd rfl e1
      · intro k j hj hn
        rw [Map.get_set, Map.get_set] at hj
        split at hj
        · cases hj; exact q1
        split at hj
        · rename_i e; exact absurd e (hn s (by simp))
        · exact h.other k j hj (fun s' hs' => hn s' (by simp [hs']))

theorem tree_spec {spans : List FSpan} (hd : (spans.map (·.id)).Nodup) : TreeInv spans (computeSpanTree spans) := by
  unfold computeSpanTree
  have : ∀ (l1 l2 : List FSpan) t, ((l1 ++ l2).map (·.id)).Nodup → TreeInv l1 t → TreeInv (l1 ++ l2) (l2.foldl addSpan t) := by
    intro l1 l2
    induction l2 generalizing l1 with
    | nil => intro t _ h; simpa using h
    | cons s l2 ih =>
      intro t hn h
      rw [List.foldl_cons, show l1 ++ s :: l2 = (l1 ++ [s]) ++ l2 by simp]
      refine ih _ _ (by simpa using hn) (treeInv_step h ?_)
      intro s' hs' e
      rw [List.map_append, List.nodup_append] at hn
      exact hn.2.2 s'.id (List.mem_map.2 ⟨s', hs', rfl⟩) s.id (by simp) e
  have := this [] spans [] (by simpa using hd) ⟨Map.ok_nil, by simp, by simp, by simp, by simp⟩
  simpa using this

/-! ## Rows -/

/-- `a` is over before `b` starts. -/
def Before (all : List FSpan) (a b : Int64) : Prop := ∀ sa ∈ all, ∀ sb ∈ all, sa.id = a → sb.id = b → sa.finish < sb.start

structure IncInv (all l : List FSpan) (t0 t : Tree) : Prop where
  ok : Map.Ok t
  same : ∀ k, (t.get k).map (fun i => (i.parent, i.largest)) = (t0.get k).map (fun i => (i.parent, i.largest))
  layout : ∀ k i, t.get k = some i → i.layout = true → ∃ s ∈ l, s.id = k
  mem : ∀ k i x, t.get k = some i → x ∈ i.rows.flatten → ∃ s ∈ l, s.id = x ∧ s.parent = some k
  comp : ∀ s ∈ l, ∀ p, s.parent = some p → ∃ i, t.get p = some i ∧ s.id ∈ i.rows.flatten
  nodup : ∀ k i, t.get k = some i → i.rows.flatten.Nodup
  chain : ∀ k i r, t.get k = some i → r ∈ i.rows → r.Pairwise (Before all)

theorem addToRows_spec (t : Tree) (id start : Int64) (rows : List (List Int64)) (hk : ∀ c ∈ rows.flatten, (t.get c).isSome = true) :
    ∃ rows', addToRows t id start rows = some rows' ∧
      (rows' = rows ++ [[id]] ∨ ∃ pre r post, rows = pre ++ r :: post ∧ rows' = pre ++ (r ++ [id]) :: post ∧
        ∀ c, r.getLast? = some c → ∃ i, t.get c = some i ∧ after start i.largest = true) := by
  induction rows with
  | nil => exact ⟨_, rfl, .inl rfl⟩
  | cons children rest ih =>
    unfold addToRows
    cases hl : children.getLast? with
    | none => exact ⟨_, rfl, .inr ⟨[], children, rest, rfl, rfl, by simp [hl]⟩⟩
    | some c =>
      have hc : c ∈ children := List.mem_of_getLast? hl
      obtain ⟨i, hi⟩ := Option.isSome_iff_exists.1 (hk c (by simp [hc]))
      simp only [hi]
      split
      · rename_i ha
        refine ⟨_, rfl, .inr ⟨[], children, rest, rfl, rfl, ?_⟩⟩
        intro c' e; rw [hl] at e; cases e; exact ⟨i, hi, ha⟩
      · obtain ⟨rows', h1, h2⟩ := ih (fun c hc => hk c (by simp at hc ⊢; exact .inr hc))
        rw [h1]
        refine ⟨_, rfl, ?_⟩
        rcases h2 with h2 | ⟨pre, r, post, h2, h3, h4⟩
        · left; simp [h2]
        · right; exact ⟨children :: pre, r, post, by simp [h2], by simp [h3], h4⟩

theorem incInv_step {all l t0 t s} (hd : (all.map (·.id)).Nodup) (ht : ∀ s ∈ all, s.start ≤ s.finish) (hl : ∀ s ∈ l, s ∈ all) (hs : s ∈ all)
    (hn : ∀ s' ∈ l, s'.id ≠ s.id) (h0 : TreeInv all t0) (h : IncInv all l t0 t) : ∃ t', includeSpan t s = some t' ∧ IncInv all (l ++ [s]) t0 t' := by
  have keys : ∀ k, (t.get k).isSome = (t0.get k).isSome := by
    intro k
    have := h.same k
    cases h1 : t.get k <;> cases h2 : t0.get k <;> simp_all
  have byId : ∀ s1 ∈ all, ∀ s2 ∈ all, s1.id = s2.id → s1 = s2 := by
    intro s1 h1 s2 h2 e
    exact List.inj_on_of_nodup_map hd h1 h2 e
  obtain ⟨si, hsi⟩ : ∃ si, t.get s.id = some si := by
    obtain ⟨i, hi, _⟩ := h0.own s hs
    exact Option.isSome_iff_exists.1 (by rw [keys, hi]; rfl)
  unfold includeSpan
  rw [hsi]
  simp only
  have hlay : si.layout = false := by
    cases hb : si.layout with
    | false => rfl
    | true => obtain ⟨s', g1, g2⟩ := h.layout _ _ hsi hb; exact absurd g2 (hn s' g1)
  rw [hlay]
  simp only [Bool.false_eq_true, if_false]
  -- the tree after marking
  have h1 : ∀ k, (t.set s.id { si with layout := true }).get k = if s.id = k then some { si with layout := true } else t.get k :=
    fun k => Map.get_set _ _ _ _
  have m1 : ∀ k i, (t.set s.id { si with layout := true }).get k = some i →
      ∃ j, t.get k = some j ∧ i.rows = j.rows ∧ i.parent = j.parent ∧ i.largest = j.largest ∧ (i.layout = true → j.layout = true ∨ k = s.id) := by
    intro k i hk
    rw [h1] at hk
    split at hk
    · rename_i e; cases hk; subst e; exact ⟨si, hsi, rfl, rfl, rfl, fun _ => .inr rfl⟩
    · exact ⟨i, hk, rfl, rfl, rfl, fun h => .inl h⟩
  have m2 : ∀ k j, t.get k = some j → ∃ i, (t.set s.id { si with layout := true }).get k = some i ∧ i.rows = j.rows := by
    intro k j hk
    rw [h1]
    split
    · rename_i e; subst e; rw [hsi] at hk; cases hk; exact ⟨_, rfl, rfl⟩
    · exact ⟨j, hk, rfl⟩
  have same1 : ∀ k, ((t.set s.id { si with layout := true }).get k).map (fun i => (i.parent, i.largest)) = (t0.get k).map (fun i => (i.parent, i.largest)) := by
    intro k
    rw [h1, ← h.same]
    split
    · rename_i e; subst e; rw [hsi]; rfl
    · rfl
  have ok1 : Map.Ok (t.set s.id { si with layout := true }) := Map.ok_set h.ok _ _
  generalize t.set s.id { si with layout := true } = t1 at *
  cases hp : s.parent with
  | none =>
    refine ⟨t1, rfl, ok1, same1, ?_, ?_, ?_, ?_, ?_⟩
    · intro k i hk hb
      obtain ⟨j, j1, _, _, _, j5⟩ := m1 k i hk
      rcases j5 hb with g | g
      · obtain ⟨s', g1, g2⟩ := h.layout k j j1 g; exact ⟨s', by simp [g1], g2⟩
      · exact ⟨s, by simp, g.symm⟩
    · intro k i x hk hx
      obtain ⟨j, j1, j2, _⟩ := m1 k i hk
      rw [j2] at hx
      obtain ⟨s', g1, g2⟩ := h.mem k j x j1 hx
      exact ⟨s', by simp [g1], g2⟩
    · intro s' hs' p e
      rcases List.mem_append.1 hs' with hs' | hs'
      · obtain ⟨j, j1, j2⟩ := h.comp s' hs' p e
        obtain ⟨i, i1, i2⟩ := m2 p j j1
        exact ⟨i, i1, by rw [i2]; exact j2⟩
      · rw [List.mem_singleton] at hs'; subst hs'; rw [hp] at e; cases e
    · intro k i hk
      obtain ⟨j, j1, j2, _⟩ := m1 k i hk
      rw [j2]; exact h.nodup k j j1
    · intro k i r hk hr
      obtain ⟨j, j1, j2, _⟩ := m1 k i hk
      rw [j2] at hr; exact h.chain k j r j1 hr
  | some p =>
    obtain ⟨psi0, hpsi0⟩ : ∃ i, t.get p = some i := by
      refine Option.isSome_iff_exists.1 ?_
      rw [keys]; exact (h0.keys p).2 ⟨s, hs, .inr hp⟩
    obtain ⟨psi, hpsi, hrows⟩ := m2 p psi0 hpsi0
    simp only [hpsi]
    have hk : ∀ c ∈ psi.rows.flatten, (t1.get c).isSome = true := by
      intro c hc
      rw [hrows] at hc
      obtain ⟨s', g1, g2, _⟩ := h.mem p psi0 c hpsi0 hc
      obtain ⟨i, hi, _⟩ := h0.own s' (hl s' g1)
      have := same1 c
      rw [← g2, hi] at this
      rw [← g2]
      cases hc' : t1.get s'.id with
      | none => rw [hc'] at this; cases this
      | some _ => rfl
    obtain ⟨rows', e1, e2⟩ := addToRows_spec t1 s.id s.start psi.rows hk
    rw [e1]
    have flat : ∀ x, x ∈ rows'.flatten ↔ x ∈ psi.rows.flatten ∨ x = s.id := by
      intro x
      rcases e2 with e | ⟨pre, r, post, g1, g2, _⟩
      · rw [e]; simp
      · rw [g1, g2]
        simp only [List.flatten_append, List.flatten_cons, List.mem_append, List.mem_singleton]
        tauto
    have hfresh : s.id ∉ psi.rows.flatten := by
      intro hm
      rw [hrows] at hm
      obtain ⟨s', g1, g2, _⟩ := h.mem p psi0 _ hpsi0 hm
      exact hn s' g1 g2
    have nod : rows'.flatten.Nodup := by
      have h2 := h.nodup p psi0 hpsi0
      rw [← hrows] at h2
      have : rows'.flatten.Perm (s.id :: psi.rows.flatten) := by
        rcases e2 with e | ⟨pre, r, post, g1, g2, _⟩
        · rw [e]; simp
        · rw [g1, g2]
          simp only [List.flatten_append, List.flatten_cons]
          rw [List.append_assoc, ← List.append_assoc]
          refine List.perm_middle.trans ?_
          simp
      rw [this.nodup_iff, List.nodup_cons]
      exact ⟨hfresh, h2⟩
    have chn : ∀ r ∈ rows', r.Pairwise (Before all) := by
      intro r hr
      have old : ∀ r ∈ psi.rows, r.Pairwise (Before all) := by
        intro r hr; rw [hrows] at hr; exact h.chain p psi0 r hpsi0 hr
      rcases e2 with e | ⟨pre, r0, post, g1, g2, g3⟩
      · rw [e] at hr
        rcases List.mem_append.1 hr with hr | hr
        · exact old r hr
        · rw [List.mem_singleton] at hr; subst hr; simp
      · rw [g2] at hr
        have hr0 : r0 ∈ psi.rows := by rw [g1]; simp
        simp only [List.mem_append, List.mem_cons] at hr
        rcases hr with hr | hr | hr
        · exact old r (by rw [g1]; simp [hr])
        · subst hr
          rw [List.pairwise_append]
          refine ⟨old r0 hr0, by simp, ?_⟩
          intro a ha b hb
          rw [List.mem_singleton] at hb; subst hb
          intro sa hsa sb hsb ea eb
          have := byId sb hsb s hs eb
          subst this
          -- the last of the row
          obtain ⟨c, hc⟩ : ∃ c, r0.getLast? = some c := by
            cases hx : r0.getLast? with
            | none => rw [List.getLast?_eq_none_iff] at hx; subst hx; simp at ha
            | some c => exact ⟨c, rfl⟩
          have hcm : c ∈ r0 := List.mem_of_getLast? hc
          obtain ⟨ic, c1, c2⟩ := g3 c hc
          obtain ⟨sc, d1, d2, _⟩ := h.mem p psi0 c hpsi0 (by rw [← hrows]; exact List.mem_flatten.2 ⟨r0, hr0, hcm⟩)
          obtain ⟨i0, i1, _, m, i3, i4⟩ := h0.own sc (hl sc d1)
          have hlarge : ic.largest = some m := by
            have := same1 c
            rw [c1, ← d2, i1] at this
            simp at this
            rw [this.2, i3]
          rw [hlarge] at c2
          have hlt : sc.finish < sb.start := by
            simp [after] at c2
            simp only [Int64.lt_iff_toInt_lt, Int64.le_iff_toInt_le] at c2 i4 ⊢
            omega
          by_cases hac : a = c
          · have := byId sa hsa sc (hl sc d1) (by rw [ea, hac, d2])
            rw [this]; exact hlt
          · have hb : Before all a c := by
              have hp := old r0 hr0
              obtain ⟨r1, hr1⟩ : ∃ r1, r0 = r1 ++ [c] := by
                rw [List.getLast?_eq_some_iff] at hc; exact hc
              rw [hr1, List.pairwise_append] at hp
              rw [hr1] at ha
              rcases List.mem_append.1 ha with ha | ha
              · exact hp.2.2 a ha c (by simp)
              · exact absurd (List.mem_singleton.1 ha) hac
            have h1 := hb sa hsa sc (hl sc d1) ea d2
            have h2 := ht sc (hl sc d1)
            simp only [Int64.lt_iff_toInt_lt, Int64.le_iff_toInt_le] at h1 h2 hlt ⊢
            omega
        · exact old r (by rw [g1]; simp [hr])
    have h2 : ∀ k, (t1.set p { psi with rows := rows' }).get k = if p = k then some { psi with rows := rows' } else t1.get k := fun k => Map.get_set _ _ _ _
    refine ⟨_, rfl, Map.ok_set ok1 _ _, ?_, ?_, ?_, ?_, ?_, ?_⟩
    · intro k
      rw [h2]
      split
      · rename_i e; subst e; rw [← same1, hpsi]; rfl
      · exact same1 k
    · intro k i hk hb
      rw [h2] at hk
      have : ∃ i', t1.get k = some i' ∧ i'.layout = true := by
        split at hk
        · rename_i e; subst e; cases hk; exact ⟨psi, hpsi, hb⟩
        · exact ⟨i, hk, hb⟩
      obtain ⟨i', k1, k2⟩ := this
      obtain ⟨j, j1, _, _, _, j5⟩ := m1 k i' k1
      rcases j5 k2 with g | g
      · obtain ⟨s', g1, g2⟩ := h.layout k j j1 g; exact ⟨s', by simp [g1], g2⟩
      · exact ⟨s, by simp, g.symm⟩
    · intro k i x hk hx
      rw [h2] at hk
      split at hk
      · rename_i e; subst e; cases hk
        rcases (flat x).1 hx with hx | hx
        · rw [hrows] at hx
          obtain ⟨s', g1, g2⟩ := h.mem p psi0 x hpsi0 hx
          exact ⟨s', by simp [g1], g2⟩
        · exact ⟨s, by simp, hx.symm, hp⟩
      · obtain ⟨j, j1, j2, _⟩ := m1 k i hk
        rw [j2] at hx
        obtain ⟨s', g1, g2⟩ := h.mem k j x j1 hx
        exact ⟨s', by simp [g1], g2⟩
    · intro s' hs' p' e
      rw [h2]
      rcases List.mem_append.1 hs' with hs' | hs'
      · obtain ⟨j, j1, j2⟩ := h.comp s' hs' p' e
        split
        · rename_i e'; subst e'
          rw [hpsi0] at j1; cases j1
          exact ⟨_, rfl, (flat _).2 (.inl (by rw [hrows]; exact j2))⟩
        · obtain ⟨i, i1, i2⟩ := m2 p' j j1
          exact ⟨i, i1, by rw [i2]; exact j2⟩
      · rw [List.mem_singleton] at hs'; subst hs'
        rw [hp] at e; cases e
        rw [if_pos rfl]
        exact ⟨_, rfl, (flat _).2 (.inr rfl)⟩
    · intro k i hk
      rw [h2] at hk
      split at hk
      · cases hk; exact nod
      · obtain ⟨j, j1, j2, _⟩ := m1 k i hk
        rw [j2]; exact h.nodup k j j1
    · intro k i r hk hr
      rw [h2] at hk
      split at hk
      · cases hk; exact chn r hr
      · obtain ⟨j, j1, j2, _⟩ := m1 k i hk
        rw [j2] at hr; exact h.chain k j r j1 hr

theorem include_spec {all : List FSpan} (hd : (all.map (·.id)).Nodup) (ht : ∀ s ∈ all, s.start ≤ s.finish) :
    ∃ t, includeAll (computeSpanTree all) all = some t ∧ IncInv all all (computeSpanTree all) t := by
  have h0 := tree_spec hd
  have : ∀ (l1 l2 : List FSpan) t, l1 ++ l2 = all → IncInv all l1 (computeSpanTree all) t →
      ∃ t', includeAll t l2 = some t' ∧ IncInv all all (computeSpanTree all) t' := by
    intro l1 l2
    induction l2 generalizing l1 with
    | nil => intro t e h; simp at e; subst e; exact ⟨t, rfl, h⟩
    | cons s l2 ih =>
      intro t e h
      have hn := hd
      rw [← e, List.map_append, List.nodup_append] at hn
      obtain ⟨t', g1, g2⟩ := incInv_step hd ht (fun s' hs' => by rw [← e]; simp [hs']) (by rw [← e]; simp)
        (fun s' hs' e' => hn.2.2 s'.id (List.mem_map.2 ⟨s', hs', rfl⟩) s.id (by simp) e') h0 h
      simp only [includeAll, g1]
      exact ih (l1 ++ [s]) t' (by simpa using e) g2
  refine this [] all _ rfl ⟨h0.ok, fun _ => rfl, ?_, ?_, by simp, ?_, ?_⟩
  · intro k i hk hb; rw [(h0.fresh k i hk).2] at hb; cases hb
  · intro k i x hk hx; rw [(h0.fresh k i hk).1] at hx; simp at hx
  · intro k i hk; rw [(h0.fresh k i hk).1]; simp
  · intro k i r hk hr; rw [(h0.fresh k i hk).1] at hr; simp at hr

/-! ## Paths to the roots -/

def Child (t : Tree) (p x : Int64) : Prop := ∃ i, t.get p = some i ∧ x ∈ i.rows.flatten

/-- The way up from `x` to its root. -/
inductive Path (t : Tree) : Int64 → List Int64 → Prop where
  | root {x} : (t.get x).isSome = true → (∀ p, ¬ Child t p x) → Path t x [x]
  | child {x p l} : (t.get x).isSome = true → Child t p x → Path t p l → Path t x (x :: l)

theorem Path.head {t x l} (h : Path t x l) : ∃ l', l = x :: l' := by cases h <;> exact ⟨_, rfl⟩

theorem Path.key {t x l} (h : Path t x l) : (t.get x).isSome = true := by cases h <;> assumption

theorem Path.unique {t : Tree} (hu : ∀ p p' x, Child t p x → Child t p' x → p = p') {x l l'} (h : Path t x l) (h' : Path t x l') : l = l' := by
  induction h generalizing l' with
  | root _ hr => cases h' with
    | root => rfl
    | child _ hc _ => exact absurd hc (hr _)
  | child _ hc _ ih => cases h' with
    | root _ hr => exact absurd hc (hr _)
    | child _ hc' h' => rw [hu _ _ _ hc' hc] at h'; rw [ih h']

theorem Path.sub {t x l} (h : Path t x l) {y} (hy : y ∈ l) : ∃ l', Path t y l' ∧ l' <:+ l := by
  induction h with
  | @root x hk hr => simp at hy; subst hy; exact ⟨_, .root hk hr, List.suffix_refl _⟩
  | @child x p l hk hc hp ih =>
    rcases List.mem_cons.1 hy with rfl | hy
    · exact ⟨_, .child hk hc hp, List.suffix_refl _⟩
    · obtain ⟨l', g1, g2⟩ := ih hy
      exact ⟨l', g1, g2.trans (List.suffix_cons _ _)⟩

theorem Path.nodup {t : Tree} (hu : ∀ p p' x, Child t p x → Child t p' x → p = p') {x l} (h : Path t x l) : l.Nodup := by
  induction h with
  | root => simp
  | @child x p l hk hc hp ih =>
    rw [List.nodup_cons]
    refine ⟨fun hx => ?_, ih⟩
    obtain ⟨l', g1, g2⟩ := hp.sub hx
    have := Path.unique hu g1 (.child hk hc hp)
    rw [this] at g2
    have := g2.length_le
    simp at this

theorem Path.length {t : Tree} (hu : ∀ p p' x, Child t p x → Child t p' x → p = p') {x l} (h : Path t x l) : l.length ≤ t.length := by
  have h1 := h.nodup hu
  have : l ⊆ t.map (·.1) := by
    intro y hy
    obtain ⟨l', g1, _⟩ := h.sub hy
    exact (Map.mem_keys_iff t y).2 g1.key
  have := (List.subperm_of_subset h1 this).length_le
  simpa using this

theorem Path.root_of {t x l} (h : Path t x l) : ∃ pre k, l = pre ++ [k] ∧ Path t k [k] := by
  induction h with
  | root hk hr => exact ⟨[], _, rfl, .root hk hr⟩
  | child hk hc hp ih =>
    obtain ⟨pre, k, rfl, h⟩ := ih
    exact ⟨_ :: pre, k, rfl, h⟩

/-- `x` is `c` or below it. -/
def Under (t : Tree) (c x : Int64) : Prop := ∃ lc pre, Path t c lc ∧ Path t x (pre ++ lc)

theorem under_self {t c l} (h : Path t c l) : Under t c c := ⟨l, [], h, h⟩

/-- Siblings, or different roots, have no descendants in common. -/
theorem under_sibling {t : Tree} (hu : ∀ p p' x, Child t p x → Child t p' x → p = p') {c c' l x} (hc : Path t c (c :: l)) (hc' : Path t c' (c' :: l))
    (h : Under t c x) (h' : Under t c' x) : c = c' := by
  obtain ⟨lc, pre, h1, h2⟩ := h
  obtain ⟨lc', pre', h1', h2'⟩ := h'
  cases Path.unique hu h1 hc
  cases Path.unique hu h1' hc'
  have := Path.unique hu h2 h2'
  have e : (pre ++ [c]) ++ l = (pre' ++ [c']) ++ l := by simpa using this
  have e2 := List.append_cancel_right e
  have := (List.append_inj' e2 rfl).2
  simpa using this

/-! ## Assigning rows -/

/-- The two spans do not run at the same time. -/
def Apart (all : List FSpan) (x y : Int64) : Prop :=
  ∀ sx ∈ all, ∀ sy ∈ all, sx.id = x → sy.id = y → sx.finish < sy.start ∨ sy.finish < sx.start

def Sep (all : List FSpan) (a b : Int64 × Nat) : Prop := a.1 ≠ b.1 ∧ (a.2 = b.2 → Apart all a.1 b.1)

variable {all : List FSpan} {t : Tree}

/-- What `computeRow` does for `c`, starting at row `used`. -/
structure Placed (all : List FSpan) (t : Tree) (c : Int64) (used : Nat) (r : Asg × Nat) : Prop where
  pos : 1 ≤ r.2
  range : ∀ x ∈ r.1, used ≤ x.2 ∧ x.2 < used + r.2 ∧ Under t c x.1
  sep : r.1.Pairwise (Sep all)
  complete : ∀ x, Under t c x → ∃ row, (x, row) ∈ r.1

theorem oneRow_spec (rec : Int64 → Option (Asg × Nat)) (used : Nat) (row : List Int64) (hrec : ∀ c ∈ row, ∃ r, rec c = some r ∧ Placed all t c used r)
    (hsib : row.Pairwise fun c c' => ∀ x y, Under t c x → Under t c' y → x ≠ y ∧ Apart all x y) (a : Asg) (m : Nat) :
    ∃ b m', oneRow rec a m row = some (a ++ b, m') ∧ m ≤ m' ∧ (∀ x ∈ b, used ≤ x.2 ∧ x.2 < used + m' ∧ ∃ c ∈ row, Under t c x.1) ∧
      b.Pairwise (Sep all) ∧ ∀ c ∈ row, ∀ x, Under t c x → ∃ r, (x, r) ∈ b := by
  induction row generalizing a m with
  | nil => exact ⟨[], m, by simp [oneRow], Nat.le_refl _, by simp, by simp, by simp⟩
  | cons c row ih =>
    obtain ⟨r, h1, h2⟩ := hrec c (by simp)
    rw [List.pairwise_cons] at hsib
    obtain ⟨b, m', g1, g2, g3, g4, g5⟩ := ih (fun c hc => hrec c (by simp [hc])) hsib.2 (a ++ r.1) (if r.2 > m then r.2 else m)
    have hm : m ≤ m' ∧ r.2 ≤ m' := by split at g2 <;> omega
    refine ⟨r.1 ++ b, m', ?_, hm.1, ?_, ?_, ?_⟩
    · simp only [oneRow, h1]; rw [g1]; simp
    · intro x hx
      rcases List.mem_append.1 hx with hx | hx
      · obtain ⟨k1, k2, k3⟩ := h2.range x hx
        exact ⟨k1, by omega, c, by simp, k3⟩
      · obtain ⟨k1, k2, c', k3, k4⟩ := g3 x hx
        exact ⟨k1, k2, c', by simp [k3], k4⟩
    · rw [List.pairwise_append]
      refine ⟨h2.sep, g4, ?_⟩
      intro x hx y hy
      obtain ⟨_, _, k3⟩ := h2.range x hx
      obtain ⟨_, _, c', k4, k5⟩ := g3 y hy
      have := hsib.1 c' k4 x.1 y.1 k3 k5
      exact ⟨this.1, fun _ => this.2⟩
    · intro c' hc' x hx
      rcases List.mem_cons.1 hc' with rfl | hc'
      · obtain ⟨row, hr⟩ := h2.complete x hx; exact ⟨row, by simp [hr]⟩
      · obtain ⟨row, hr⟩ := g5 c' hc' x hx; exact ⟨row, by simp [hr]⟩

theorem allRows_spec (rec : Int64 → Nat → Option (Asg × Nat)) (rows : List (List Int64))
    (hrec : ∀ c ∈ rows.flatten, ∀ used, ∃ r, rec c used = some r ∧ Placed all t c used r)
    (hrow : ∀ row ∈ rows, row.Pairwise fun c c' => ∀ x y, Under t c x → Under t c' y → x ≠ y ∧ Apart all x y)
    (hsib : rows.flatten.Pairwise fun c c' => ∀ x y, Under t c x → Under t c' y → x ≠ y) (a : Asg) (used : Nat) :
    ∃ b used', allRows rec a used rows = some (a ++ b, used') ∧ used ≤ used' ∧ (∀ x ∈ b, used ≤ x.2 ∧ x.2 < used' ∧ ∃ c ∈ rows.flatten, Under t c x.1) ∧
      b.Pairwise (Sep all) ∧ ∀ c ∈ rows.flatten, ∀ x, Under t c x → ∃ r, (x, r) ∈ b := by
  induction rows generalizing a used with
  | nil => exact ⟨[], used, by simp [allRows], Nat.le_refl _, by simp, by simp, by simp⟩
  | cons row rows ih =>
    rw [List.flatten_cons, List.pairwise_append] at hsib
    obtain ⟨b1, m, h1, h2, h3, h4, h5⟩ := oneRow_spec (fun c => rec c used) used row (fun c hc => hrec c (by simp [hc]) used) (hrow row (by simp)) a 0
    obtain ⟨b2, used', g1, g2, g3, g4, g5⟩ := ih (fun c hc => hrec c (by rw [List.flatten_cons]; exact List.mem_append_right _ hc))
      (fun r hr => hrow r (by simp [hr])) hsib.2.1 (a ++ b1) (used + m)
    refine ⟨b1 ++ b2, used', ?_, by omega, ?_, ?_, ?_⟩
    · simp only [allRows, h1]; rw [g1]; simp
    · intro x hx
      rcases List.mem_append.1 hx with hx | hx
      · obtain ⟨k1, k2, c, k3, k4⟩ := h3 x hx
        exact ⟨k1, by omega, c, by simp [k3], k4⟩
      · obtain ⟨k1, k2, c, k3, k4⟩ := g3 x hx
        exact ⟨by omega, k2, c, by rw [List.flatten_cons]; exact List.mem_append_right _ k3, k4⟩
    · rw [List.pairwise_append]
      refine ⟨h4, g4, ?_⟩
      intro x hx y hy
      obtain ⟨_, k2, c, k3, k4⟩ := h3 x hx
      obtain ⟨l1, _, c', l3, l4⟩ := g3 y hy
      refine ⟨hsib.2.2 c k3 c' l3 x.1 y.1 k4 l4, fun e => ?_⟩
      omega
    · intro c hc x hx
      rw [List.flatten_cons] at hc
      rcases List.mem_append.1 hc with hc | hc
      · obtain ⟨r, hr⟩ := h5 c hc x hx; exact ⟨r, by simp [hr]⟩
      · obtain ⟨r, hr⟩ := g5 c hc x hx; exact ⟨r, by simp [hr]⟩

/-- What is needed of the layout tree. -/
structure Good (all : List FSpan) (t : Tree) : Prop where
  unique : ∀ p p' x, Child t p x → Child t p' x → p = p'
  keys : ∀ p x, Child t p x → (t.get x).isSome = true
  nodup : ∀ k i, t.get k = some i → i.rows.flatten.Nodup
  /-- children of one row and what is below them are apart -/
  apart : ∀ k i r, t.get k = some i → r ∈ i.rows → r.Pairwise fun c c' => ∀ x y, Under t c x → Under t c' y → Apart all x y

theorem computeRow_spec (hg : Good all t) (fuel : Nat) (id : Int64) (start : Nat) (l : List Int64) (hp : Path t id l) (hf : t.length < fuel + l.length) :
    ∃ r, computeRow t fuel id start = some r ∧ Placed all t id start r := by
  induction fuel generalizing id start l with
  | zero => have := hp.length hg.unique; omega
  | succ fuel ih =>
    obtain ⟨si, hsi⟩ := Option.isSome_iff_exists.1 hp.key
    have child : ∀ c ∈ si.rows.flatten, Path t c (c :: l) := fun c hc => .child (hg.keys id c ⟨si, hsi, hc⟩) ⟨si, hsi, hc⟩ hp
    have differ : ∀ c ∈ si.rows.flatten, ∀ c' ∈ si.rows.flatten, c ≠ c' → ∀ x y, Under t c x → Under t c' y → x ≠ y := by
      intro c hc c' hc' hne x y hx hy e
      subst e
      exact hne (under_sibling hg.unique (child c hc) (child c' hc') hx hy)
    obtain ⟨b, used', g1, g2, g3, g4, g5⟩ := allRows_spec (all := all) (t := t) (computeRow t fuel) si.rows
      (fun c hc used => ih c used (c :: l) (child c hc) (by simp; omega))
      (by
        intro row hrow
        have h1 := hg.apart id si row hsi hrow
        have h2 : row.Nodup := (List.nodup_flatten.1 (hg.nodup id si hsi)).1 row hrow
        have h3 : ∀ c ∈ row, c ∈ si.rows.flatten := fun c hc => List.mem_flatten.2 ⟨row, hrow, hc⟩
        refine List.Pairwise.imp_of_mem ?_ (h1.and h2)
        intro c c' hc hc' h x y hx hy
        exact ⟨differ c (h3 c hc) c' (h3 c' hc') h.2 x y hx hy, h.1 x y hx hy⟩)
      (by
        refine List.Pairwise.imp_of_mem ?_ (hg.nodup id si hsi)
        intro c c' hc hc' h x y hx hy
        exact differ c hc c' hc' h x y hx hy)
      [(id, start)] (start + 1)
    have below : ∀ c ∈ si.rows.flatten, ∀ x, Under t c x → Under t id x ∧ x ≠ id := by
      rintro c hc x ⟨lc, pre, k1, k2⟩
      cases Path.unique hg.unique k1 (child c hc)
      refine ⟨⟨l, pre ++ [c], hp, by simpa using k2⟩, ?_⟩
      rintro rfl
      have := congrArg List.length (Path.unique hg.unique k2 hp)
      simp at this
      omega
    refine ⟨([(id, start)] ++ b, used' - start), by simp only [computeRow, hsi, g1]; rfl, ?_, ?_, ?_, ?_⟩
    · simp; omega
    · intro x hx
      simp only [List.cons_append, List.nil_append, List.mem_cons] at hx
      rcases hx with rfl | hx
      · exact ⟨Nat.le_refl _, by simp; omega, under_self hp⟩
      · obtain ⟨k1, k2, c, k3, k4⟩ := g3 x hx
        refine ⟨by omega, by simp; omega, (below c k3 x.1 k4).1⟩
    · simp only [List.cons_append, List.nil_append, List.pairwise_cons]
      refine ⟨?_, g4⟩
      intro x hx
      obtain ⟨k1, k2, c, k3, k4⟩ := g3 x hx
      exact ⟨(below c k3 x.1 k4).2.symm, fun e => by simp at e; omega⟩
    · rintro x ⟨lc, pre, k1, k2⟩
      cases Path.unique hg.unique k1 hp
      rcases List.eq_nil_or_concat pre with rfl | ⟨pre', c, rfl⟩
      · obtain ⟨l', hl'⟩ := hp.head
        obtain ⟨l'', hl''⟩ := k2.head
        simp at hl''
        have : x = id := by rw [hl'] at hl''; cases hl''; rfl
        subst this
        exact ⟨start, by simp⟩
      · rw [List.concat_eq_append, List.append_assoc] at k2
        -- the child on the way
        have hc : c ∈ pre' ++ ([c] ++ l) := by simp
        have hpc : Path t c (c :: l) ∧ c ∈ si.rows.flatten := by
          obtain ⟨lx, m1, m2⟩ : ∃ lx, Path t c lx ∧ lx = c :: l := by
            have : ∀ (pre' : List Int64) x, Path t x (pre' ++ ([c] ++ l)) → Path t c (c :: l) := by
              intro pre'
              induction pre' with
              | nil =>
                intro x hx
                obtain ⟨l', hl'⟩ := hx.head
                have hxc : x = c := by simp at hl'; exact hl'.1.symm
                subst hxc; exact hx
              | cons y pre' ih =>
                intro x hx
                cases hl : (y :: pre') ++ ([c] ++ l) with
                | nil => simp at hl
                | cons z zs =>
                  rw [hl] at hx
                  cases hx with
                  | root => simp at hl
                  | child _ _ h' => simp at hl; rw [← hl.2] at h'; exact ih _ (by simpa using h')
            exact ⟨_, this pre' x k2, rfl⟩
          subst m2
          refine ⟨m1, ?_⟩
          cases m1 with
          | root => obtain ⟨l', hl'⟩ := hp.head; simp at hl'
          | @child _ p _ _ hch hp' =>
            obtain ⟨a1, ha1⟩ := hp'.head
            obtain ⟨a2, ha2⟩ := hp.head
            have : p = id := by rw [ha1] at ha2; cases ha2; rfl
            subst this
            obtain ⟨i, i1, i2⟩ := hch
            rw [hsi] at i1; cases i1; exact i2
        obtain ⟨r, hr⟩ := g5 c hpc.2 x ⟨c :: l, pre', hpc.1, k2⟩
        exact ⟨r, by simp [hr]⟩

theorem rootRows_spec (hg : Good all t) (order : List Int64) (hk : ∀ k ∈ order, (t.get k).isSome = true)
    (hroot : ∀ k ∈ order, ∀ i, t.get k = some i → i.parent = 0 → ∃ l, Path t k l) (a : Asg) (used : Nat) :
    ∃ b used', rootRows t a used order = some (a ++ b, used') ∧ used ≤ used' ∧ (∀ x ∈ b, used ≤ x.2 ∧ x.2 < used') ∧
      b.Pairwise (fun x y => x.2 = y.2 → Apart all x.1 y.1) ∧ ∀ k ∈ order, (∃ i, t.get k = some i ∧ i.parent = 0) → ∀ x, Under t k x → ∃ r, (x, r) ∈ b := by
  induction order generalizing a used with
  | nil => exact ⟨[], used, by simp [rootRows], Nat.le_refl _, by simp, by simp, by simp⟩
  | cons k order ih =>
    obtain ⟨i, hi⟩ := Option.isSome_iff_exists.1 (hk k (by simp))
    have ih' := ih (fun k hk' => hk k (by simp [hk'])) (fun k hk' => hroot k (by simp [hk']))
    by_cases hp : i.parent = 0
    · obtain ⟨l, hpath⟩ := hroot k (by simp) i hi hp
      obtain ⟨r, h1, h2⟩ := computeRow_spec hg (t.length + 1) k used l hpath (by omega)
      obtain ⟨b, used', g1, g2, g3, g4, g5⟩ := ih' (a ++ r.1) (used + r.2)
      refine ⟨r.1 ++ b, used', ?_, by omega, ?_, ?_, ?_⟩
      · simp only [rootRows, hi, hp, if_true, h1]; rw [g1]; simp
      · intro x hx
        rcases List.mem_append.1 hx with hx | hx
        · obtain ⟨k1, k2, k3⟩ := h2.range x hx
          exact ⟨k1, by omega⟩
        · obtain ⟨k1, k2⟩ := g3 x hx
          exact ⟨by omega, k2⟩
      · rw [List.pairwise_append]
        refine ⟨h2.sep.imp fun h => h.2, g4, ?_⟩
        intro x hx y hy
        obtain ⟨_, k2, k3⟩ := h2.range x hx
        obtain ⟨l1, _⟩ := g3 y hy
        intro e
        omega
      · intro k' hk' hroot' x hx
        rcases List.mem_cons.1 hk' with rfl | hk'
        · obtain ⟨r', hr'⟩ := h2.complete x hx; exact ⟨r', by simp [hr']⟩
        · obtain ⟨r', hr'⟩ := g5 k' hk' hroot' x hx; exact ⟨r', by simp [hr']⟩
    · obtain ⟨b, used', g1, g2, g3, g4, g5⟩ := ih' a used
      refine ⟨b, used', ?_, g2, g3, g4, ?_⟩
      · simp only [rootRows, hi, hp, if_false]; exact g1
      · rintro k' hk' ⟨i', i1, i2⟩ x hx
        rcases List.mem_cons.1 hk' with rfl | hk'
        · rw [hi] at i1; cases i1; exact absurd i2 hp
        · exact g5 k' hk' ⟨i', i1, i2⟩ x hx

/-! ## The layout of given spans -/

/-- The trees the code makes. -/
structure Made (all : List FSpan) (t : Tree) : Prop where
  own : ∀ s ∈ all, ∃ i, t.get s.id = some i ∧ i.parent = s.parent.getD 0
  keys : ∀ k, (t.get k).isSome = true ↔ ∃ s ∈ all, s.id = k ∨ s.parent = some k
  other : ∀ k i, t.get k = some i → (∀ s ∈ all, s.id ≠ k) → i.parent = 0
  mem : ∀ p x, Child t p x ↔ ∃ s ∈ all, s.id = x ∧ s.parent = some p
  nodup : ∀ k i, t.get k = some i → i.rows.flatten.Nodup
  chain : ∀ k i r, t.get k = some i → r ∈ i.rows → r.Pairwise (Before all)

theorem made (hp : Proper all) : ∃ t, includeAll (computeSpanTree all) all = some t ∧ Made all t := by
  obtain ⟨t, h1, h2⟩ := include_spec hp.ids hp.times
  have h0 := tree_spec hp.ids
  have same : ∀ k i, t.get k = some i → ∃ j, (computeSpanTree all).get k = some j ∧ i.parent = j.parent := by
    intro k i hk
    have := h2.same k
    rw [hk] at this
    cases hj : (computeSpanTree all).get k with
    | none => rw [hj] at this; simp at this
    | some j => rw [hj] at this; simp at this; exact ⟨j, rfl, this.1⟩
  have some_iff : ∀ k, (t.get k).isSome = ((computeSpanTree all).get k).isSome := by
    intro k
    have := h2.same k
    cases h1 : t.get k <;> cases h2 : (computeSpanTree all).get k <;> simp_all
  refine ⟨t, h1, ?_, ?_, ?_, ?_, h2.nodup, h2.chain⟩
  · intro s hs
    obtain ⟨i, i1, i2, _⟩ := h0.own s hs
    obtain ⟨j, hj⟩ := Option.isSome_iff_exists.1 (show (t.get s.id).isSome = true by rw [some_iff, i1]; rfl)
    obtain ⟨i', k1, k2⟩ := same _ j hj
    rw [i1] at k1; cases k1
    exact ⟨j, hj, by rw [k2, i2]⟩
  · intro k; rw [some_iff]; exact h0.keys k
  · intro k i hk hn
    obtain ⟨j, k1, k2⟩ := same k i hk
    rw [k2]; exact h0.other k j k1 hn
  · intro p x
    constructor
    · rintro ⟨i, i1, i2⟩; exact h2.mem p i x i1 i2
    · rintro ⟨s, g1, rfl, g3⟩
      obtain ⟨i, i1, i2⟩ := h2.comp s g1 p g3
      exact ⟨i, i1, i2⟩

theorem byId (hp : Proper all) {s s'} (h : s ∈ all) (h' : s' ∈ all) (e : s.id = s'.id) : s = s' := List.inj_on_of_nodup_map hp.ids h h' e

theorem Made.unique {t} (hp : Proper all) (h : Made all t) : ∀ p p' x, Child t p x → Child t p' x → p = p' := by
  intro p p' x hc hc'
  obtain ⟨s, g1, g2, g3⟩ := (h.mem p x).1 hc
  obtain ⟨s', g1', g2', g3'⟩ := (h.mem p' x).1 hc'
  have := byId hp g1 g1' (by rw [g2, g2'])
  subst this
  rw [g3] at g3'; cases g3'; rfl

theorem Made.childKey {t} (h : Made all t) : ∀ p x, Child t p x → (t.get x).isSome = true := by
  intro p x hc
  obtain ⟨s, g1, g2, g3⟩ := (h.mem p x).1 hc
  exact (h.keys x).2 ⟨s, g1, .inl g2⟩

/-- Below a span everything runs within it. -/
theorem under_within {t} (hp : Proper all) (hn : Nested all) (h : Made all t) {c x} (hu : Under t c x) {sc} (hc : sc ∈ all) (ec : sc.id = c)
    {sx} (hx : sx ∈ all) (ex : sx.id = x) : sc.start ≤ sx.start ∧ sx.finish ≤ sc.finish := by
  obtain ⟨lc, pre, h1, h2⟩ := hu
  induction pre generalizing x sx with
  | nil =>
    obtain ⟨l1, e1⟩ := h1.head
    obtain ⟨l2, e2⟩ := h2.head
    have : x = c := by simp at e2; rw [e1] at e2; cases e2; rfl
    have := byId hp hx hc (by rw [ex, ec, this])
    subst this
    exact ⟨Int64.le_refl _, Int64.le_refl _⟩
  | cons y pre ih =>
    cases hl : (y :: pre) ++ lc with
    | nil => simp at hl
    | cons z zs =>
      rw [hl] at h2
      cases h2 with
      | root =>
        obtain ⟨l1, e1⟩ := h1.head
        rw [e1] at hl; simp at hl
      | @child _ p _ _ hch hpth =>
        simp at hl
        rw [← hl.2] at hpth
        obtain ⟨s, g1, g2, g3⟩ := (h.mem p x).1 hch
        have := byId hp hx g1 (by rw [ex, g2])
        subst this
        -- the parent is a span: it is below `c`, or `c`
        obtain ⟨sp, q1, q2⟩ : ∃ sp ∈ all, sp.id = p := by
          by_cases hpc : p = c
          · exact ⟨sc, hc, by rw [ec, hpc]⟩
          · have hpth2 := hpth
            generalize hL : pre ++ lc = L at hpth2
            cases hpth2 with
            | root =>
              exfalso
              obtain ⟨l1, e1⟩ := h1.head
              rw [e1] at hL
              cases pre with
              | nil => simp at hL; exact hpc hL.1.symm
              | cons a pre => simp at hL
            | child _ hch' _ =>
              obtain ⟨s', r1, r2, _⟩ := (h.mem _ p).1 hch'
              exact ⟨s', r1, r2⟩
        have i1 := ih q1 q2 hpth
        have i2 := hn _ hx sp q1 (by rw [g3, q2])
        exact ⟨Int64.le_trans i1.1 i2.1, Int64.le_trans i2.2 i1.2⟩

theorem Made.good {t} (hp : Proper all) (hn : Nested all) (h : Made all t) : Good all t := by
  refine ⟨h.unique hp, h.childKey, h.nodup, ?_⟩
  intro k i r hk hr
  refine List.Pairwise.imp_of_mem ?_ (h.chain k i r hk hr)
  intro c c' hc hc' hb x y hx hy sx hsx sy hsy ex ey
  obtain ⟨sc, g1, g2, _⟩ := (h.mem k c).1 ⟨i, hk, List.mem_flatten.2 ⟨r, hr, hc⟩⟩
  obtain ⟨sc', g1', g2', _⟩ := (h.mem k c').1 ⟨i, hk, List.mem_flatten.2 ⟨r, hr, hc'⟩⟩
  have h1 := hb sc g1 sc' g1' g2 g2'
  have h2 := under_within hp hn h hx g1 g2 hsx ex
  have h3 := under_within hp hn h hy g1' g2' hsy ey
  left
  simp only [Int64.lt_iff_toInt_lt, Int64.le_iff_toInt_le] at h1 h2 h3 ⊢
  omega

theorem Made.good_empty {t} (hp : Proper all) (h : Made all t) : Good [] t :=
  ⟨h.unique hp, h.childKey, h.nodup, fun k i r hk hr => List.Pairwise.imp (fun _ => fun x y _ _ sx hsx => by simp at hsx) (h.chain k i r hk hr)⟩

/-- What is laid out on its own is at the top, or below the parent 0, which is no span. -/
theorem Made.root {t} (hp : Proper all) (h : Made all t) {k i} (hk : t.get k = some i) (h0 : i.parent = 0) : ∃ l, Path t k l := by
  by_cases hc : ∃ p, Child t p k
  · obtain ⟨p, hc⟩ := hc
    obtain ⟨s, g1, g2, g3⟩ := (h.mem p k).1 hc
    obtain ⟨j, j1, j2⟩ := h.own s g1
    rw [g2, hk] at j1; cases j1
    rw [g3, h0] at j2
    have e : p = 0 := by simp at j2; exact j2.symm
    subst e
    refine ⟨_, .child (by rw [hk]; rfl) hc (.root ((h.keys 0).2 ⟨s, g1, .inr g3⟩) ?_)⟩
    intro q hq
    obtain ⟨s', q1, q2, _⟩ := (h.mem q 0).1 hq
    exact hp.parents s g1 g3 s' q1 q2
  · exact ⟨_, .root (by rw [hk]; rfl) fun p hq => hc ⟨p, hq⟩⟩

theorem Made.root_parent {t} (h : Made all t) {k} (hk : Path t k [k]) : ∃ i, t.get k = some i ∧ i.parent = 0 := by
  have hnc : ∀ p, ¬ Child t p k := by
    cases hk with
    | root _ h => exact h
    | child _ _ h' => obtain ⟨l, hl⟩ := h'.head; simp at hl
  obtain ⟨i, hi⟩ := Option.isSome_iff_exists.1 hk.key
  refine ⟨i, hi, ?_⟩
  by_cases hs : ∃ s ∈ all, s.id = k
  · obtain ⟨s, g1, g2⟩ := hs
    obtain ⟨j, j1, j2⟩ := h.own s g1
    rw [g2, hi] at j1; cases j1
    cases hpar : s.parent with
    | none => rw [j2, hpar]; rfl
    | some p => exact absurd ((h.mem p k).2 ⟨s, g1, g2, hpar⟩) (hnc p)
  · exact h.other k i hi (fun s g1 g2 => hs ⟨s, g1, g2⟩)

theorem Made.rooted {t} (hp : Proper all) (h : Made all t) {s} (hr : Rooted all s) : ∃ l, Path t s.id l := by
  induction hr with
  | @root s hs hn =>
    obtain ⟨i, hi, _⟩ := h.own s hs
    cases hpar : s.parent with
    | none =>
      refine ⟨_, .root (by rw [hi]; rfl) ?_⟩
      intro p hc
      obtain ⟨s', g1, g2, g3⟩ := (h.mem p s.id).1 hc
      have := byId hp g1 hs g2
      subst this
      rw [hpar] at g3; cases g3
    | some p =>
      refine ⟨_, .child (by rw [hi]; rfl) ((h.mem p _).2 ⟨s, hs, rfl, hpar⟩) (.root ((h.keys p).2 ⟨s, hs, .inr hpar⟩) ?_)⟩
      intro q hc
      obtain ⟨s', g1, g2, g3⟩ := (h.mem q p).1 hc
      exact hn s' g1 (by rw [hpar, g2])
  | child hs _ hpar _ ih =>
    obtain ⟨l, hl⟩ := ih
    obtain ⟨i, hi, _⟩ := h.own _ hs
    exact ⟨_, .child (by rw [hi]; rfl) ((h.mem _ _).2 ⟨_, hs, rfl, hpar⟩) hl⟩

theorem rowOf_mem {a : Asg} {id : Int64} {r : Nat} (h : List.lookup id a.reverse = some r) : (id, r) ∈ a := by
  obtain ⟨l1, l2, e, _⟩ := List.lookup_eq_some_iff.1 h
  rw [← List.mem_reverse, e]; simp

theorem rowOf_of_mem {a : Asg} {id : Int64} {r : Nat} (h : (id, r) ∈ a) : (id, rowOf a id) ∈ a := by
  unfold rowOf
  cases hl : List.lookup id a.reverse with
  | none =>
    have := List.lookup_eq_none_iff.1 hl (id, r) (by simpa using h)
    simp at this
  | some r' => exact rowOf_mem hl

/-- The layout: it succeeds; rows are in range; if spans nest, different spans with a way to a root that have the same row do not overlap. -/
theorem layout_spec (hp : Proper all) {order} (ho : Keys all order) :
    ∃ asg maxRow, computeLayout all order = some (asg, maxRow) ∧ (∀ id, rowOf asg id + 1 < maxRow) ∧
      (Nested all → ∀ s ∈ all, ∀ s' ∈ all, Rooted all s → Rooted all s' → s ≠ s' → rowOf asg s.id = rowOf asg s'.id → Apart all s.id s'.id) := by
  obtain ⟨t, h1, h2⟩ := made hp
  have hk : ∀ k ∈ order, (t.get k).isSome = true := fun k hk => (h2.keys k).2 ((ho.2 k).1 hk)
  have hroot : ∀ k ∈ order, ∀ i, t.get k = some i → i.parent = 0 → ∃ l, Path t k l := fun k _ i hi h0 => h2.root hp hi h0
  obtain ⟨b, used, g1, g2, g3, _, _⟩ := rootRows_spec (h2.good_empty hp) order hk hroot [] 1
  refine ⟨b, used + 1, ?_, ?_, ?_⟩
  · unfold computeLayout; rw [h1]; simp only; rw [g1]; simp
  · intro id
    unfold rowOf
    cases hl : List.lookup id b.reverse with
    | none => simp; omega
    | some r =>
      have := (g3 (id, r) (rowOf_mem hl)).2
      simp at this ⊢; omega
  · intro hn s hs s' hs' hr hr' hne hrow
    obtain ⟨b', used', g1', _, _, g4, g5⟩ := rootRows_spec (h2.good hp hn) order hk hroot [] 1
    have : b' = b := by
      rw [g1] at g1'; simp at g1'; exact g1'.1.symm
    subst this
    have row : ∀ s, Rooted all s → (s.id, rowOf b' s.id) ∈ b' := by
      intro s hr
      obtain ⟨l, hl⟩ := h2.rooted hp hr
      obtain ⟨pre, k, rfl, hpk⟩ := hl.root_of
      have hko : k ∈ order := (ho.2 k).2 ((h2.keys k).1 hpk.key)
      obtain ⟨r, hr⟩ := g5 k hko (h2.root_parent hpk) s.id ⟨[k], pre, hpk, hl⟩
      exact rowOf_of_mem hr
    have symm : ∀ x y : Int64 × Nat, (x.2 = y.2 → Apart all x.1 y.1) → y.2 = x.2 → Apart all y.1 x.1 := by
      intro x y k2 e sx hsx sy hsy ex ey
      exact (k2 e.symm sy hsy sx hsx ey ex).symm
    have hid : s.id ≠ s'.id := fun e => hne (byId hp hs hs' e)
    have := List.Pairwise.forall_of_forall_of_flip (l := b') (R := fun (x y : Int64 × Nat) => x.1 ≠ y.1 → x.2 = y.2 → Apart all x.1 y.1) (by intro x _ h; exact absurd rfl h)
      (g4.imp (S := fun (x y : Int64 × Nat) => x.1 ≠ y.1 → x.2 = y.2 → Apart all x.1 y.1) (fun h _ => h))
      (g4.imp (S := flip fun (x y : Int64 × Nat) => x.1 ≠ y.1 → x.2 = y.2 → Apart all x.1 y.1) (fun h _ => symm _ _ h))
    exact this (row s hr) (row s' hr') hid hrow

/-! ## Times -/

theorem bounds_spec {spans : List FSpan} (hne : spans ≠ []) : ∃ lo hi, bounds spans = some (lo, hi) ∧ (∃ s ∈ spans, s.start = lo) ∧ (∃ s ∈ spans, s.finish = hi) ∧
    ∀ s ∈ spans, lo ≤ s.start ∧ s.finish ≤ hi := by
  have : ∀ (l2 l1 : List FSpan) (lo hi : Int64), (∃ s ∈ l1, s.start = lo) → (∃ s ∈ l1, s.finish = hi) → (∀ s ∈ l1, lo ≤ s.start ∧ s.finish ≤ hi) →
      ∃ lo' hi', l2.foldl widen (some (lo, hi)) = some (lo', hi') ∧
        (∃ s ∈ l1 ++ l2, s.start = lo') ∧ (∃ s ∈ l1 ++ l2, s.finish = hi') ∧ ∀ s ∈ l1 ++ l2, lo' ≤ s.start ∧ s.finish ≤ hi' := by
    intro l2
    induction l2 with
    | nil => intro l1 lo hi h1 h2 h3; exact ⟨lo, hi, rfl, by simpa using h1, by simpa using h2, by simpa using h3⟩
    | cons s l2 ih =>
      intro l1 lo hi h1 h2 h3
      rw [List.foldl_cons, show l1 ++ s :: l2 = (l1 ++ [s]) ++ l2 by simp]
      simp only [widen]
      refine ih (l1 ++ [s]) _ _ ?_ ?_ ?_
      · split
        · exact ⟨s, by simp, rfl⟩
        · obtain ⟨x, x1, x2⟩ := h1; exact ⟨x, by simp [x1], x2⟩
      · split
        · exact ⟨s, by simp, rfl⟩
        · obtain ⟨x, x1, x2⟩ := h2; exact ⟨x, by simp [x1], x2⟩
      · intro x hx
        rcases List.mem_append.1 hx with hx | hx
        · have := h3 x hx
          simp only [GT.gt, Int64.lt_iff_toInt_lt, Int64.le_iff_toInt_le] at this ⊢
          constructor <;> split <;> omega
        · rw [List.mem_singleton] at hx; subst hx
          simp only [GT.gt, Int64.lt_iff_toInt_lt, Int64.le_iff_toInt_le]
          constructor <;> split <;> omega
  cases spans with
  | nil => exact absurd rfl hne
  | cons s l =>
    have := this l [s] s.start s.finish ⟨s, by simp, rfl⟩ ⟨s, by simp, rfl⟩ (by intro x hx; simp at hx; subst hx; exact ⟨Int64.le_refl _, Int64.le_refl _⟩)
    simpa only [bounds, List.foldl_cons, widen, List.cons_append, List.nil_append] using this

theorem timeToX_spec {lo hi x : Int64} (h1 : lo < hi) (h2 : (hi.toInt - lo.toInt) * 1200 < 2 ^ 63) (h3 : lo ≤ x) (h4 : x ≤ hi) :
    ∃ r, timeToX (lo, hi) x = some r ∧ r.toInt = (x.toInt - lo.toInt) * 1200 / (hi.toInt - lo.toInt) := by
  simp only [Int64.lt_iff_toInt_lt, Int64.le_iff_toInt_le] at h1 h3 h4
  have b1 := lo.toInt_lt; have b2 := lo.le_toInt
  have e1 : (hi - lo).toInt = hi.toInt - lo.toInt := by
    rw [Int64.toInt_sub]; exact Int.bmod_eq_of_le (by norm_num; omega) (by norm_num; omega)
  have e2 : (x - lo).toInt = x.toInt - lo.toInt := by
    rw [Int64.toInt_sub]; exact Int.bmod_eq_of_le (by norm_num; omega) (by norm_num; omega)
  have e3 : ((x - lo) * 1200).toInt = (x.toInt - lo.toInt) * 1200 := by
    rw [Int64.toInt_mul, e2, show (1200 : Int64).toInt = 1200 from rfl]; exact Int.bmod_eq_of_le (by norm_num; omega) (by norm_num; omega)
  have hne : ¬ (hi - lo = 0) := by
    intro e
    rw [e] at e1; simp at e1; omega
  refine ⟨(x - lo) * 1200 / (hi - lo), by simp [timeToX, hne], ?_⟩
  rw [Int64.toInt_div, e3, e1, Int.tdiv_eq_ediv_of_nonneg (by omega)]
  have hq : (x.toInt - lo.toInt) * 1200 / (hi.toInt - lo.toInt) ≤ 1200 := by
    apply Int.ediv_le_of_le_mul (by omega)
    nlinarith
  have hq0 : 0 ≤ (x.toInt - lo.toInt) * 1200 / (hi.toInt - lo.toInt) := Int.ediv_nonneg (by omega) (by omega)
  exact Int.bmod_eq_of_le (by norm_num; omega) (by norm_num; omega)

end Monkit.Svg
