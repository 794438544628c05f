import Verif.Model.SpanBag
import Mathlib.Data.List.Induction
import Mathlib.Tactic.ByContra

/-!
# C21: the bag of children is a multiset
-/

namespace Monkit
open Go

namespace SpanBag

/-- How often `s` is in the bag. -/
def count (b : SpanBag) (s : Nat) : Int :=
  (if b.first = some s then 1 else 0) + ((Map.get b.rest s).getD 0).toInt

structure Ok (b : SpanBag) : Prop where
  ok : Map.Ok b.rest
  pos : ∀ s c, Map.get b.rest s = some c → 0 < c.toInt

theorem ok_empty : Ok empty := ⟨Map.ok_nil, by simp [empty]⟩

theorem count_empty (s : Nat) : count empty s = 0 := by simp [count, empty]

theorem count_nonneg {b : SpanBag} (h : Ok b) (s : Nat) : 0 ≤ count b s := by
  unfold count
  cases hg : Map.get b.rest s with
  | none => simp; split <;> simp
  | some c => have := h.pos s c hg; simp; split <;> omega

theorem rest_nonneg {b : SpanBag} (h : Ok b) (s : Nat) : 0 ≤ ((Map.get b.rest s).getD 0).toInt := by
  cases hg : Map.get b.rest s with
  | none => simp
  | some c => have := h.pos s c hg; simp; omega

theorem add_one {c : Int32} (h : 0 ≤ c.toInt) (h2 : c.toInt + 1 < 2 ^ 31) :
    (c + 1).toInt = c.toInt + 1 := by
  rw [Int32.toInt_add]
  have : (1 : Int32).toInt = 1 := rfl
  rw [this]
  apply Int.bmod_eq_of_le <;> omega

theorem sub_one {c : Int32} (h : 1 < c.toInt) : (c - 1).toInt = c.toInt - 1 := by
  rw [Int32.toInt_sub]
  have : (1 : Int32).toInt = 1 := rfl
  rw [this]
  have := Int32.toInt_lt c
  apply Int.bmod_eq_of_le <;> omega

theorem add_spec {b : SpanBag} (h : Ok b) (s : Nat) (hlt : count b s + 1 < 2 ^ 31) :
    Ok (b.add s) ∧ ∀ s', count (b.add s) s' = count b s' + if s' = s then 1 else 0 := by
  unfold add
  split
  · next hf =>
    refine ⟨⟨h.ok, h.pos⟩, fun s' => ?_⟩
    unfold count
    simp only [hf]
    by_cases hs : s' = s
    · subst hs; simp; omega
    · simp [hs, Ne.symm hs]
  · next hf =>
    have hr := rest_nonneg h s
    have hle : ((Map.get b.rest s).getD 0).toInt ≤ count b s := by
      unfold count; split <;> omega
    have ha := add_one hr (by omega)
    refine ⟨⟨Map.ok_set h.ok _ _, fun s' c hc => ?_⟩, fun s' => ?_⟩
    · rw [Map.get_set] at hc
      split at hc
      · obtain rfl := Option.some.inj hc; omega
      · exact h.pos s' c hc
    · unfold count
      simp only [Map.get_set]
      by_cases hs : s' = s
      · subst hs; simp only [if_true, Option.getD_some, ha]; omega
      · simp [hs, Ne.symm hs]

theorem remove_spec {b : SpanBag} (h : Ok b) (s : Nat) (hpos : 0 < count b s) :
    Ok (b.remove s) ∧ ∀ s', count (b.remove s) s' = count b s' - if s' = s then 1 else 0 := by
  unfold remove
  split
  · next hf =>
    refine ⟨⟨h.ok, h.pos⟩, fun s' => ?_⟩
    unfold count
    simp only [hf]
    by_cases hs : s' = s
    · subst hs; simp; omega
    · simp [hs, Ne.symm hs]
  · next hf =>
    have hr := rest_nonneg h s
    have hc : count b s = ((Map.get b.rest s).getD 0).toInt := by unfold count; rw [if_neg hf]; omega
    have h1 : (1 : Int32).toInt = 1 := rfl
    dsimp only
    split
    · next hle =>
      rw [Int32.le_iff_toInt_le] at hle
      refine ⟨⟨Map.ok_del h.ok _, fun s' c hc => ?_⟩, fun s' => ?_⟩
      · rw [Map.get_del] at hc
        split at hc
        · cases hc
        · exact h.pos s' c hc
      · unfold count
        simp only [Map.get_del]
        by_cases hs : s' = s
        · subst hs; simp only [if_true, Option.getD_none, if_neg hf]
          have : (0 : Int32).toInt = 0 := rfl
          omega
        · simp [hs, Ne.symm hs]
    · next hle =>
      have hgt : 1 < ((Map.get b.rest s).getD 0).toInt := by
        rw [Int32.le_iff_toInt_le] at hle; omega
      have hsub := sub_one hgt
      refine ⟨⟨Map.ok_set h.ok _ _, fun s' c hc => ?_⟩, fun s' => ?_⟩
      · rw [Map.get_set] at hc
        split at hc
        · obtain rfl := Option.some.inj hc; omega
        · exact h.pos s' c hc
      · unfold count
        simp only [Map.get_set]
        by_cases hs : s' = s
        · subst hs; simp only [if_true, Option.getD_some, hsub, if_neg hf]; omega
        · simp [hs, Ne.symm hs]

theorem mem_iterate {b : SpanBag} (h : Ok b) {ord : Map Nat Int32} (p : ord.Perm b.rest) (s : Nat) :
    s ∈ b.iterate ord ↔ 0 < count b s := by
  unfold iterate
  have hr := rest_nonneg h s
  rw [List.mem_append, (p.map (·.1)).mem_iff, Map.mem_keys_iff, Option.mem_toList]
  unfold count
  constructor
  · rintro (hh | hh)
    · rw [if_pos hh]; omega
    · cases hg : Map.get b.rest s with
      | none => rw [hg] at hh; cases hh
      | some c => have := h.pos s c hg; simp; split <;> omega
  · intro hh
    by_cases hf : b.first = some s
    · exact .inl hf
    · right
      rw [if_neg hf] at hh
      cases hg : Map.get b.rest s with
      | none => rw [hg] at hh; simp at hh
      | some c => rfl

end SpanBag

namespace Spec

/-- How often `s` has been added minus how often it has been removed. -/
def net (ops : List SpanBag.Op) (s : Nat) : Int :=
  ops.foldl (fun n o => match o with
    | .add x => if x = s then n + 1 else n
    | .remove x => if x = s then n - 1 else n) 0

/-- Nothing is removed that is not there. -/
def Matched (ops : List SpanBag.Op) : Prop :=
  ∀ a b s, ops = a ++ .remove s :: b → 0 < net a s

end Spec

open Spec SpanBag

theorem net_snoc (ops : List SpanBag.Op) (o : SpanBag.Op) (s : Nat) :
    net (ops ++ [o]) s = match o with
      | .add x => if x = s then net ops s + 1 else net ops s
      | .remove x => if x = s then net ops s - 1 else net ops s := by
  cases o <;> simp [net]

theorem net_le (ops : List SpanBag.Op) (s : Nat) : net ops s ≤ ops.length := by
  induction ops using List.reverseRecOn with
  | nil => simp [net]
  | append_singleton ops o ih =>
    rw [net_snoc, List.length_append, List.length_singleton]
    cases o <;> simp only [] <;> split <;> omega

theorem bag_run (ops : List SpanBag.Op) (hm : Matched ops) (hlen : ops.length < 2 ^ 31) :
    SpanBag.Ok (SpanBag.run ops) ∧ ∀ s, count (SpanBag.run ops) s = net ops s := by
  induction ops using List.reverseRecOn with
  | nil => exact ⟨ok_empty, fun s => count_empty s⟩
  | append_singleton ops o ih =>
    rw [List.length_append, List.length_singleton] at hlen
    obtain ⟨hok, hc⟩ := ih (fun a b s hab => hm a (b ++ [o]) s (by rw [hab]; simp)) (by omega)
    have hrun : SpanBag.run (ops ++ [o]) = (SpanBag.run ops).step o := by simp [SpanBag.run]
    rw [hrun]
    cases o with
    | add x =>
      have := net_le ops x
      obtain ⟨h1, h2⟩ := add_spec hok x (by rw [hc]; omega)
      refine ⟨h1, fun s => ?_⟩
      show count ((SpanBag.run ops).add x) s = _
      rw [h2, hc, net_snoc]
      dsimp only
      by_cases hs : s = x
      · simp [hs]
      · simp [hs, Ne.symm hs]
    | remove x =>
      have := hm ops [] x rfl
      obtain ⟨h1, h2⟩ := remove_spec hok x (by rw [hc]; exact this)
      refine ⟨h1, fun s => ?_⟩
      show count ((SpanBag.run ops).remove x) s = _
      rw [h2, hc, net_snoc]
      dsimp only
      by_cases hs : s = x
      · simp [hs]
      · simp [hs, Ne.symm hs]

theorem mem_dedup (found l : List Nat) (s : Nat) : s ∈ dedup found l ↔ s ∈ l ∧ s ∉ found := by
  induction l generalizing found with
  | nil => simp [dedup]
  | cons x xs ih =>
    simp only [dedup]
    split
    · next h =>
      rw [ih]
      constructor
      · rintro ⟨a, b⟩; exact ⟨by simp [a], b⟩
      · rintro ⟨a, b⟩
        rcases List.mem_cons.mp a with rfl | a
        · exact absurd h b
        · exact ⟨a, b⟩
    · next h =>
      rw [List.mem_cons, ih]
      by_cases hs : s = x
      · subst hs; simp [h]
      · simp [hs]

theorem nodup_dedup (found l : List Nat) : (dedup found l).Nodup := by
  induction l generalizing found with
  | nil => simp [dedup]
  | cons x xs ih =>
    simp only [dedup]
    split
    · exact ih found
    · rw [List.nodup_cons, mem_dedup]; exact ⟨by simp, ih _⟩

/-- "By full function name and then id". -/
def Spec.before (w : SpanSort) (i j : Nat) : Prop :=
  strLe (w.name i) (w.name j) = true ∧ (w.name i = w.name j → w.id i ≤ w.id j)

theorem le_iff (w : SpanSort) (i j : Nat) : w.le i j = true ↔ Spec.before w i j := by
  unfold SpanSort.le Spec.before strLt
  have h0 := strLe_total (w.name i) (w.name j)
  have hid : ∀ a b : Int64, ¬ a < b ↔ b ≤ a := fun a b => by
    rw [Int64.lt_iff_toInt_lt, Int64.le_iff_toInt_le]; omega
  by_cases he : w.name j = w.name i
  · simp [he, strLe_refl, hid]
  · have h1 : ¬ w.name i = w.name j := fun h => he h.symm
    have h2 : (w.name j == w.name i) = false := by simpa using he
    simp only [h2, Bool.false_and, Bool.or_false, Bool.not_not, h1, false_imp_iff, and_true]

theorem le_total (w : SpanSort) (i j : Nat) : (w.le i j || w.le j i) = true := by
  rw [Bool.or_eq_true, le_iff, le_iff]
  unfold Spec.before
  have h0 := strLe_total (w.name i) (w.name j)
  rw [Bool.or_eq_true] at h0
  by_cases he : w.name i = w.name j
  · rw [he]
    have : w.id i ≤ w.id j ∨ w.id j ≤ w.id i := by
      rw [Int64.le_iff_toInt_le, Int64.le_iff_toInt_le]; omega
    rcases this with h | h
    · exact .inl ⟨strLe_refl _, fun _ => h⟩
    · exact .inr ⟨strLe_refl _, fun _ => h⟩
  · rcases h0 with h | h
    · exact .inl ⟨h, fun e => absurd e he⟩
    · exact .inr ⟨h, fun e => absurd e.symm he⟩

theorem le_trans' (w : SpanSort) (i j k : Nat) (h : w.le i j = true) (h' : w.le j k = true) :
    w.le i k = true := by
  rw [le_iff] at *
  unfold Spec.before at *
  refine ⟨strLe_trans _ _ _ h.1 h'.1, fun e => ?_⟩
  have e1 : w.name i = w.name j := strLe_antisymm _ _ h.1 (e ▸ h'.1)
  have a := h.2 e1
  have b := h'.2 (e1 ▸ e)
  rw [Int64.le_iff_toInt_le] at *
  omega

/-- **C21 (Iterate).** After any sequence of adds and removes in which nothing is removed that is not
there, iterating visits exactly the spans added more often than removed. -/
theorem C21_bag_iterate (ops : List SpanBag.Op) (hm : Matched ops) (hlen : ops.length < 2 ^ 31)
    (ord : Map Nat Int32) (hord : ord.Perm (SpanBag.run ops).rest) (s : Nat) :
    s ∈ (SpanBag.run ops).iterate ord ↔ 0 < net ops s := by
  obtain ⟨hok, hc⟩ := bag_run ops hm hlen
  rw [mem_iterate hok hord, hc]

/-- **C21 (Children).** … and `Children` reports each of them exactly once, ordered by full function
name and then id. -/
theorem C21_children (w : SpanSort) (ops : List SpanBag.Op) (hm : Matched ops)
    (hlen : ops.length < 2 ^ 31) (ord : Map Nat Int32) (hord : ord.Perm (SpanBag.run ops).rest) :
    (children w (SpanBag.run ops) ord).Nodup ∧
    (∀ s, s ∈ children w (SpanBag.run ops) ord ↔ 0 < net ops s) ∧
    (children w (SpanBag.run ops) ord).Pairwise (Spec.before w) := by
  unfold children
  refine ⟨?_, fun s => ?_, ?_⟩
  · exact (sortBy_perm _ _).nodup_iff.mpr (nodup_dedup _ _)
  · rw [mem_sortBy, mem_dedup, ← C21_bag_iterate ops hm hlen ord hord s]; simp
  · exact (sortBy_sorted (le_trans' w) (le_total w) _).imp fun h => (le_iff w _ _).mp h

/-- A sequence meeting the hypotheses: one span added three times and removed once, another added
and removed; the first occupies both the fast slot and the map. -/
example : let ops := [SpanBag.Op.add 7, .add 8, .add 7, .add 7, .remove 8, .remove 7]
    Matched ops ∧ net ops 7 = 2 ∧ net ops 8 = 0 ∧ (SpanBag.run ops).first = none ∧
    (SpanBag.run ops).rest = [(7, 2)] := by
  refine ⟨?_, rfl, rfl, rfl, by decide⟩
  intro a b s hab
  have hl := congrArg List.length hab
  match a, hab with
  | [], h => simp at h
  | [_], h => simp at h
  | [_, _], h => simp at h
  | [_, _, _], h => simp at h
  | [_, _, _, _], h =>
    simp at h
    obtain ⟨rfl, rfl, rfl, rfl, rfl, -⟩ := h
    decide
  | [_, _, _, _, _], h =>
    simp at h
    obtain ⟨rfl, rfl, rfl, rfl, rfl, rfl, -⟩ := h
    decide
  | _ :: _ :: _ :: _ :: _ :: _ :: _, h => simp at hl

end Monkit
