/-!
# Sorting

`sort.Sort`, `sort.Slice`, `sort.Strings` are modelled by their contract: the result is a sorted
permutation.  Where the order is antisymmetric that determines the result, so any correct algorithm
serves; this is insertion sort.
-/

namespace Go

variable {α : Type}

/-- Insert into a sorted list. -/
def ins (le : α → α → Bool) (x : α) : List α → List α
  | [] => [x]
  | y :: ys => if le x y then x :: y :: ys else y :: ins le x ys

/-- Insertion sort. -/
def sortBy (le : α → α → Bool) : List α → List α
  | [] => []
  | x :: xs => ins le x (sortBy le xs)

theorem ins_perm (le : α → α → Bool) (x : α) (l : List α) : (ins le x l).Perm (x :: l) := by
  induction l with
  | nil => exact .refl _
  | cons y ys ih =>
    simp only [ins]
    split
    · exact .refl _
    · exact (ih.cons y).trans (.swap x y ys)

theorem sortBy_perm (le : α → α → Bool) (l : List α) : (sortBy le l).Perm l := by
  induction l with
  | nil => exact .refl _
  | cons x xs ih => exact (ins_perm le x _).trans (ih.cons x)

theorem sortBy_length (le : α → α → Bool) (l : List α) : (sortBy le l).length = l.length :=
  (sortBy_perm le l).length_eq

theorem mem_sortBy (le : α → α → Bool) {l : List α} {x : α} : x ∈ sortBy le l ↔ x ∈ l :=
  (sortBy_perm le l).mem_iff

theorem ins_sorted {le : α → α → Bool} (trans : ∀ a b c, le a b → le b c → le a c)
    (total : ∀ a b, le a b || le b a) (x : α) {l : List α} (h : l.Pairwise (fun a b => le a b)) :
    (ins le x l).Pairwise (fun a b => le a b) := by
  induction l with
  | nil => simp [ins]
  | cons y ys ih =>
    simp only [ins]
    have hy := List.pairwise_cons.mp h
    split
    · next hxy =>
      refine List.pairwise_cons.mpr ⟨?_, h⟩
      intro z hz
      rcases List.mem_cons.mp hz with rfl | hz
      · exact hxy
      · exact trans _ _ _ hxy (hy.1 z hz)
    · next hxy =>
      refine List.pairwise_cons.mpr ⟨?_, ih hy.2⟩
      intro z hz
      rcases List.mem_cons.mp ((ins_perm le x ys).mem_iff.mp hz) with rfl | hz
      · have := total z y
        simpa [hxy] using this
      · exact hy.1 z hz

theorem sortBy_sorted {le : α → α → Bool} (trans : ∀ a b c, le a b → le b c → le a c)
    (total : ∀ a b, le a b || le b a) (l : List α) :
    (sortBy le l).Pairwise (fun a b => le a b) := by
  induction l with
  | nil => exact .nil
  | cons x xs ih => exact ins_sorted trans total x ih

/-- Two sorted permutations of each other are equal if the order is antisymmetric. -/
theorem sorted_perm_eq {le : α → α → Bool} (anti : ∀ a b, le a b → le b a → a = b)
    {l l' : List α} (h : l.Pairwise (fun a b => le a b)) (h' : l'.Pairwise (fun a b => le a b))
    (p : l.Perm l') : l = l' :=
  List.Perm.eq_of_pairwise (le := fun a b => le a b) (fun a b _ _ => anti a b) h h' p

/-- Sorting depends only on the multiset of elements. -/
theorem sortBy_eq_of_perm {le : α → α → Bool} (trans : ∀ a b c, le a b → le b c → le a c)
    (total : ∀ a b, le a b || le b a) (anti : ∀ a b, le a b → le b a → a = b)
    {l l' : List α} (p : l.Perm l') : sortBy le l = sortBy le l' :=
  sorted_perm_eq anti (sortBy_sorted trans total l) (sortBy_sorted trans total l')
    ((sortBy_perm le l).trans (p.trans (sortBy_perm le l').symm))

end Go
