import Verif.Go.Str

/-!
# Comparison of Go strings: bytewise lexicographic
-/

namespace Go

/-- `a <= b` on strings. -/
def strLe : Str → Str → Bool
  | [], _ => true
  | _ :: _, [] => false
  | a :: as, b :: bs => if a < b then true else if b < a then false else strLe as bs

theorem strLe_refl (a : Str) : strLe a a = true := by
  induction a with
  | nil => rfl
  | cons x xs ih => simp [strLe, ih]

theorem strLe_total (a b : Str) : (strLe a b || strLe b a) = true := by
  induction a generalizing b with
  | nil => simp [strLe]
  | cons x xs ih =>
    cases b with
    | nil => simp [strLe]
    | cons y ys =>
      simp only [strLe]
      by_cases h1 : x < y
      · simp [h1]
      · by_cases h2 : y < x
        · simp [h2]
        · simpa [h1, h2] using ih ys

theorem strLe_antisymm (a b : Str) (h : strLe a b = true) (h' : strLe b a = true) : a = b := by
  induction a generalizing b with
  | nil => cases b with
    | nil => rfl
    | cons y ys => simp [strLe] at h'
  | cons x xs ih =>
    cases b with
    | nil => simp [strLe] at h
    | cons y ys =>
      simp only [strLe] at h h'
      by_cases h1 : x < y
      · have h2 : ¬ y < x := by simp only [UInt8.lt_iff_toNat_lt] at *; omega
        simp [h1, h2] at h'
      · by_cases h2 : y < x
        · simp [h1, h2] at h
        · simp [h1, h2] at h h'
          have : x = y := by
            apply UInt8.toNat.inj
            simp only [UInt8.lt_iff_toNat_lt] at *; omega
          rw [this, ih ys h h']

theorem strLe_trans (a b c : Str) (h : strLe a b = true) (h' : strLe b c = true) :
    strLe a c = true := by
  induction a generalizing b c with
  | nil => rfl
  | cons x xs ih =>
    cases b with
    | nil => simp [strLe] at h
    | cons y ys =>
      cases c with
      | nil => simp [strLe] at h'
      | cons z zs =>
        simp only [strLe] at h h' ⊢
        by_cases h1 : x < y
        · by_cases h2 : y < z
          · have : x < z := by simp only [UInt8.lt_iff_toNat_lt] at *; omega
            simp [this]
          · by_cases h3 : z < y
            · simp [h2, h3] at h'
            · have : x < z := by simp only [UInt8.lt_iff_toNat_lt] at *; omega
              simp [this]
        · by_cases h1' : y < x
          · simp [h1, h1'] at h
          · simp [h1, h1'] at h
            by_cases h2 : y < z
            · have : x < z := by simp only [UInt8.lt_iff_toNat_lt] at *; omega
              simp [this]
            · by_cases h3 : z < y
              · simp [h2, h3] at h'
              · simp [h2, h3] at h'
                have e1 : ¬ x < z := by simp only [UInt8.lt_iff_toNat_lt] at *; omega
                have e2 : ¬ z < x := by simp only [UInt8.lt_iff_toNat_lt] at *; omega
                simp [e1, e2, ih ys zs h h']

/-- `a < b` on strings. -/
def strLt (a b : Str) : Bool := !strLe b a

end Go
