import Mathlib.Data.List.Nodup
import Mathlib.Data.List.Perm.Basic

/-!
# Go maps

A map is its list of entries, without duplicate keys.  The order of the list carries no meaning: a
`range` over a map is modelled by an arbitrary permutation of the list, which the code under study
receives as an argument and over which the theorems quantify.
-/

namespace Go

abbrev Map (K V : Type) := List (K × V)

namespace Map
variable {K V : Type} [DecidableEq K]

/-- `m[k]`, `none` if absent. -/
def get (m : Map K V) (k : K) : Option V := List.lookup k m

/-- `m[k] = v` -/
def set : Map K V → K → V → Map K V
  | [], k, v => [(k, v)]
  | (k', v') :: m, k, v => if k' = k then (k, v) :: m else (k', v') :: set m k v

/-- `delete(m, k)` -/
def del (m : Map K V) (k : K) : Map K V := m.filter fun x => x.1 ≠ k

/-- No key occurs twice. -/
def Ok (m : Map K V) : Prop := (m.map (·.1)).Nodup

omit [DecidableEq K] in
theorem ok_nil : Ok ([] : Map K V) := List.nodup_nil

@[simp] theorem get_nil (k : K) : get ([] : Map K V) k = none := rfl

theorem get_cons (k' : K) (v' : V) (m : Map K V) (k : K) :
    get ((k', v') :: m) k = if k' = k then some v' else get m k := by
  unfold get
  rw [List.lookup_cons]
  by_cases h : k' = k
  · simp [h]
  · have : (k == k') = false := by simp; exact fun e => h e.symm
    simp [h, this]

theorem get_set (m : Map K V) (k : K) (v : V) (k' : K) :
    get (set m k v) k' = if k = k' then some v else get m k' := by
  induction m with
  | nil => simp [set, get_cons]
  | cons x xs ih =>
    obtain ⟨a, b⟩ := x
    simp only [set]
    by_cases h : a = k
    · subst h
      rw [if_pos rfl, get_cons, get_cons]
      by_cases h2 : a = k' <;> simp [h2]
    · rw [if_neg h, get_cons, get_cons, ih]
      by_cases h2 : a = k'
      · subst h2
        rw [if_pos rfl, if_pos rfl, if_neg (fun e => h e.symm)]
      · rw [if_neg h2, if_neg h2]

theorem mem_keys_set (m : Map K V) (k : K) (v : V) (a : K) :
    a ∈ (set m k v).map (·.1) ↔ a = k ∨ a ∈ m.map (·.1) := by
  induction m with
  | nil => simp [set]
  | cons x xs ih =>
    obtain ⟨p, q⟩ := x
    simp only [set]
    by_cases h : p = k
    · subst h; simp
    · rw [if_neg h, List.map_cons, List.mem_cons, ih, List.map_cons, List.mem_cons]
      tauto

theorem ok_set {m : Map K V} (h : Ok m) (k : K) (v : V) : Ok (set m k v) := by
  induction m with
  | nil => simp [set, Ok]
  | cons x xs ih =>
    obtain ⟨p, q⟩ := x
    unfold Ok at h ih ⊢
    rw [List.map_cons, List.nodup_cons] at h
    simp only [set]
    by_cases hp : p = k
    · subst hp; rw [if_pos rfl, List.map_cons, List.nodup_cons]; exact h
    · rw [if_neg hp, List.map_cons, List.nodup_cons]
      refine ⟨?_, ih h.2⟩
      intro hm
      rw [mem_keys_set] at hm
      rcases hm with hm | hm
      · exact hp hm
      · exact h.1 hm

theorem mem_iff_get {m : Map K V} (h : Ok m) (k : K) (v : V) : (k, v) ∈ m ↔ get m k = some v := by
  induction m with
  | nil => simp
  | cons x xs ih =>
    obtain ⟨p, q⟩ := x
    unfold Ok at h
    rw [List.map_cons, List.nodup_cons] at h
    rw [get_cons, List.mem_cons, ih h.2]
    by_cases hp : p = k
    · subst hp
      rw [if_pos rfl]
      constructor
      · rintro (e | e)
        · cases e; rfl
        · exact absurd (List.mem_map.mpr ⟨_, (ih h.2).mpr e, rfl⟩) h.1
      · intro e; left; cases e; rfl
    · rw [if_neg hp]
      constructor
      · rintro (e | e)
        · cases e; exact absurd rfl hp
        · exact e
      · exact Or.inr

theorem mem_keys_iff (m : Map K V) (k : K) : k ∈ m.map (·.1) ↔ (get m k).isSome = true := by
  induction m with
  | nil => simp
  | cons x xs ih =>
    obtain ⟨p, q⟩ := x
    rw [List.map_cons, List.mem_cons, get_cons, ih]
    by_cases hp : p = k
    · simp [hp]
    · simp only [hp, if_false]
      constructor
      · rintro (e | e)
        · exact absurd e.symm hp
        · exact e
      · exact Or.inr

omit [DecidableEq K] in
theorem ok_perm {m m' : Map K V} (p : m.Perm m') (h : Ok m) : Ok m' :=
  (p.map _).nodup_iff.mp h

theorem get_perm {m m' : Map K V} (p : m.Perm m') (h : Ok m) (k : K) : get m k = get m' k := by
  have h' := ok_perm p h
  cases e : get m' k with
  | some v => rw [← mem_iff_get h, p.mem_iff, mem_iff_get h']; exact e
  | none =>
    cases e2 : get m k with
    | none => rfl
    | some v =>
      rw [← mem_iff_get h, p.mem_iff, mem_iff_get h', e] at e2
      cases e2

/-- Two maps with the same content are permutations of each other. -/
theorem perm_of_get {m m' : Map K V} (h : Ok m) (h' : Ok m') (e : ∀ k, get m k = get m' k) :
    m.Perm m' := by
  rw [List.perm_ext_iff_of_nodup (List.Nodup.of_map _ h) (List.Nodup.of_map _ h')]
  rintro ⟨k, v⟩
  rw [mem_iff_get h, mem_iff_get h', e]

theorem get_del (m : Map K V) (k k' : K) :
    get (del m k) k' = if k = k' then none else get m k' := by
  induction m with
  | nil => simp [del]
  | cons x xs ih =>
    obtain ⟨p, q⟩ := x
    unfold del at ih ⊢
    by_cases h : p = k
    · subst h
      simp only [ne_eq, not_true_eq_false, decide_false, Bool.false_eq_true, not_false_eq_true,
        List.filter_cons_of_neg]
      rw [ih, get_cons]
      by_cases h2 : p = k' <;> simp [h2]
    · rw [List.filter_cons_of_pos (by simp [h]), get_cons, ih, get_cons]
      by_cases h2 : p = k'
      · subst h2; simp [Ne.symm h]
      · simp [h2]

theorem ok_del {m : Map K V} (h : Ok m) (k : K) : Ok (del m k) :=
  List.Nodup.sublist (List.Sublist.map _ List.filter_sublist) h

theorem length_set (m : Map K V) (k : K) (v : V) :
    (set m k v).length = if (get m k).isSome then m.length else m.length + 1 := by
  induction m with
  | nil => simp [set]
  | cons x xs ih =>
    obtain ⟨p, q⟩ := x
    simp only [set]
    rw [get_cons]
    by_cases h : p = k
    · simp [h]
    · simp only [h, if_false, List.length_cons, ih]
      split <;> rfl

end Map
end Go
