import Verif.Go.Str

/-!
# Go slices: views of arrays in a heap

A slice is an array, a length and a capacity (no slice here starts inside an array).  `append` writes into the array if it has
room and copies otherwise; the capacity of the copy is the runtime's choice, given by `grow`.
-/

namespace Go

/-- The arrays, by address. -/
abbrev Arrays (α : Type) := List (List α)

structure Slice where
  arr : Nat
  len : Nat
  cap : Nat
  deriving DecidableEq

/-- `[]T(nil)` -/
def Slice.nil : Slice := ⟨0, 0, 0⟩

/-- The array a slice shows. -/
def Arrays.array {α : Type} (h : Arrays α) (a : Nat) : List α := (h[a]?).getD []

/-- The elements of a slice. -/
def Slice.read {α : Type} (h : Arrays α) (s : Slice) : List α := (h.array s.arr).take s.len

/-- Write into an array from index `i` on. -/
def Arrays.write {α : Type} (h : Arrays α) (a i : Nat) (xs : List α) : Arrays α :=
  h.set a ((h.array a).take i ++ xs ++ (h.array a).drop (i + xs.length))

/-- `make` and composite literals: a new array with elements `xs` and `extra` unused places. -/
def Arrays.alloc {α : Type} (zero : α) (h : Arrays α) (xs : List α) (extra : Nat) : Arrays α × Slice :=
  (h ++ [xs ++ List.replicate extra zero], ⟨h.length, xs.length, xs.length + extra⟩)

/-- `append(s, xs...)`. -/
def Arrays.append {α : Type} (zero : α) (h : Arrays α) (s : Slice) (xs : List α) (grow : Nat) : Arrays α × Slice :=
  if s.len + xs.length ≤ s.cap then (h.write s.arr s.len xs, { s with len := s.len + xs.length })
  else h.alloc zero (s.read h ++ xs) grow

/-- A slice shows an array that exists and is as long as the slice's capacity; only a slice without capacity may show none. -/
def Slice.Ok {α : Type} (h : Arrays α) (s : Slice) : Prop :=
  s.len ≤ s.cap ∧ (0 < s.cap → s.arr < h.length ∧ (h.array s.arr).length = s.cap)

variable {α : Type} {zero : α}

theorem Arrays.array_set (h : Arrays α) (a : Nat) (x : List α) (b : Nat) (ha : a < h.length) :
    Arrays.array (h.set a x) b = if a = b then x else h.array b := by
  unfold Arrays.array
  rw [List.getElem?_set]
  by_cases e : a = b
  · subst e; simp [ha]
  · simp [e]

theorem Arrays.array_append (h : Arrays α) (x : List α) (b : Nat) :
    Arrays.array (h ++ [x]) b = if b = h.length then x else h.array b := by
  unfold Arrays.array
  by_cases e : b = h.length
  · subst e; simp
  · rw [if_neg e]
    by_cases hb : b < h.length
    · rw [List.getElem?_append_left hb]
    · rw [List.getElem?_eq_none (by simp; omega), List.getElem?_eq_none (by omega)]

/-- Appending shows the old elements and then the new ones. -/
theorem Arrays.read_append (h : Arrays α) (s : Slice) (hs : s.Ok h) (xs : List α) (grow : Nat) :
    (Arrays.append zero h s xs grow).2.read (Arrays.append zero h s xs grow).1 = s.read h ++ xs ∧
      (Arrays.append zero h s xs grow).2.Ok (Arrays.append zero h s xs grow).1 := by
  unfold Arrays.append
  by_cases hc : s.len + xs.length ≤ s.cap
  · rw [if_pos hc]
    by_cases h0 : 0 < s.cap
    · obtain ⟨h1, h2⟩ := hs.2 h0
      unfold Slice.read Slice.Ok Arrays.write
      simp only [List.length_set]
      rw [Arrays.array_set _ _ _ _ h1, if_pos rfl]
      refine ⟨?_, hc, fun _ => ⟨h1, ?_⟩⟩
      · have : ((h.array s.arr).take s.len ++ xs).length = s.len + xs.length := by
          rw [List.length_append, List.length_take, h2]; omega
        rw [← this, List.take_left]
      · simp only [List.length_append, List.length_take, List.length_drop]
        omega
    · have e1 : s.len = 0 := by omega
      have e2 : xs = [] := List.length_eq_zero_iff.1 (by omega)
      subst e2
      unfold Slice.read Slice.Ok
      simp [e1]
      omega
  · rw [if_neg hc]
    unfold Arrays.alloc Slice.read Slice.Ok
    simp only
    rw [Arrays.array_append, if_pos rfl]
    refine ⟨?_, by omega, fun _ => ⟨by simp, by simp; omega⟩⟩
    rw [List.take_left]

/-- Appending changes no array but the one of the slice, and that only if it has capacity. -/
theorem Arrays.append_array (h : Arrays α) (s : Slice) (xs : List α) (grow : Nat) (b : Nat)
    (hb : b < h.length) (hne : b ≠ s.arr ∨ s.cap = 0) (hs : s.Ok h) :
    (Arrays.append zero h s xs grow).1.array b = h.array b ∧ h.length ≤ (Arrays.append zero h s xs grow).1.length := by
  unfold Arrays.append
  by_cases hc : s.len + xs.length ≤ s.cap
  · rw [if_pos hc]
    unfold Arrays.write
    simp only [List.length_set]
    refine ⟨?_, Nat.le_refl _⟩
    by_cases h0 : 0 < s.cap
    · obtain ⟨h1, h2⟩ := hs.2 h0
      rw [Arrays.array_set _ _ _ _ h1, if_neg]
      rcases hne with e | e
      · exact fun e' => e e'.symm
      · omega
    · have e1 : s.len = 0 := by have := hs.1; omega
      have e2 : xs = [] := List.length_eq_zero_iff.1 (by omega)
      subst e2
      by_cases ha : s.arr < h.length
      · rw [Arrays.array_set _ _ _ _ ha]
        split
        · rename_i e; subst e; simp
        · rfl
      · unfold Arrays.array
        rw [List.getElem?_set_ne (by omega)]
  · rw [if_neg hc]
    unfold Arrays.alloc
    simp only
    rw [Arrays.array_append, if_neg (by omega)]
    simp

theorem Arrays.length_append (h : Arrays α) (s : Slice) (xs : List α) (grow : Nat) :
    h.length ≤ (Arrays.append zero h s xs grow).1.length := by
  unfold Arrays.append
  split
  · simp [Arrays.write]
  · simp [Arrays.alloc]

/-- Where the result of an append lives: in the array of the slice, or in a new one. -/
theorem Arrays.append_arr (h : Arrays α) (s : Slice) (xs : List α) (grow : Nat) :
    (Arrays.append zero h s xs grow).2.arr = s.arr ∧ (Arrays.append zero h s xs grow).2.cap = s.cap ∨
      (Arrays.append zero h s xs grow).2.arr = h.length := by
  unfold Arrays.append
  by_cases hc : s.len + xs.length ≤ s.cap
  · rw [if_pos hc]; exact Or.inl ⟨rfl, rfl⟩
  · rw [if_neg hc]; exact Or.inr rfl

end Go
