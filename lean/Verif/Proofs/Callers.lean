import Verif.Spec.Callers

namespace Monkit.Callers
open Go Spec

theorem hex_ne (n : UInt8) (h : n < 16) : hex n ≠ 47 ∧ hex n ≠ 46 := by
  unfold hex
  rw [UInt8.lt_iff_toNat_lt] at h
  have h' : n.toNat < 16 := h
  constructor
  all_goals
    intro e
    split at e
    all_goals
      rename_i hn
      rw [UInt8.lt_iff_toNat_lt] at hn
      have hn' := hn
      simp only [show (10 : UInt8).toNat = 10 from rfl] at hn'
      have := congrArg UInt8.toNat e
      rw [UInt8.toNat_add] at this
      simp only [show (48 : UInt8).toNat = 48 from rfl, show (87 : UInt8).toNat = 87 from rfl, show (47 : UInt8).toNat = 47 from rfl,
        show (46 : UInt8).toNat = 46 from rfl] at this
      omega

theorem escape_plain (c : UInt8) : (47 : UInt8) ∉ escape c ∧ (46 : UInt8) ∉ escape c := by
  have h1 := hex_ne (c / 16) (by
    rw [UInt8.lt_iff_toNat_lt, UInt8.toNat_div]
    have := c.toNat_lt
    simp; omega)
  have h2 := hex_ne (c % 16) (by
    rw [UInt8.lt_iff_toNat_lt, UInt8.toNat_mod]
    simp; omega)
  simp [escape, h1.1.symm, h1.2.symm, h2.1.symm, h2.2.symm]

theorem prefix_noslash {p : Str} (h : (47 : UInt8) ∉ p) : (47 : UInt8) ∉ pathToPrefix p ∧ (46 : UInt8) ∉ pathToPrefix p := by
  induction p with
  | nil => simp [pathToPrefix]
  | cons c p ih =>
    simp at h
    have ih := ih h.2
    have e := escape_plain c
    unfold pathToPrefix
    have hc : p.contains 47 = false := by simpa using h.2
    split
    · simp [ih, e]
    · rename_i hn
      simp only [hc, Bool.not_false, Bool.and_true, Bool.or_eq_true, not_or] at hn
      have : c ≠ 46 := by simpa using hn.2
      simp [ih, h.1, Ne.symm this]

/-- A path with a slash: everything up to the last slash, which stays there, and the rest. -/
theorem prefix_slash (d b : Str) (hb : (47 : UInt8) ∉ b) :
    ∃ d', pathToPrefix (d ++ 47 :: b) = d' ++ 47 :: pathToPrefix b := by
  induction d with
  | nil => exact ⟨[], by simp [pathToPrefix, special]⟩
  | cons c d ih =>
    obtain ⟨d', e⟩ := ih
    rw [List.cons_append, pathToPrefix, e]
    exact ⟨_ ++ d', by rw [List.append_assoc]⟩

theorem split_ne (sep : UInt8) (cur s : Str) : split sep cur s ≠ [] := by
  induction s generalizing cur with
  | nil => simp [split]
  | cons c s ih => unfold split; split <;> simp [ih]

theorem split_nosep {sep : UInt8} {s : Str} (cur : Str) (h : sep ∉ s) : split sep cur s = [cur.reverse ++ s] := by
  induction s generalizing cur with
  | nil => simp [split]
  | cons c s ih =>
    simp at h
    unfold split
    rw [if_neg (Ne.symm h.1), ih _ h.2]
    simp

/-- Splitting and joining all pieces but the last gives the text before the last separator. -/
theorem split_last {sep : UInt8} (d b cur : Str) (h : sep ∉ b) :
    (split sep cur (d ++ sep :: b)).getLast? = some b ∧ join [sep] (split sep cur (d ++ sep :: b)).dropLast = cur.reverse ++ d := by
  induction d generalizing cur with
  | nil =>
    unfold split
    simp [split_nosep [] h, join]
  | cons c d ih =>
    rw [List.cons_append, split]
    by_cases hc : c = sep
    · rw [if_pos hc]
      obtain ⟨i1, i2⟩ := ih []
      have hne := split_ne sep [] (d ++ sep :: b)
      refine ⟨?_, ?_⟩
      · rw [List.getLast?_cons, i1]; rfl
      · rw [List.dropLast_cons_of_ne_nil hne]
        have hd : (split sep [] (d ++ sep :: b)).dropLast ≠ [] ∨ d = [] ∧ (split sep [] (d ++ sep :: b)).dropLast = [[]] := by
          cases hs : (split sep [] (d ++ sep :: b)).dropLast with
          | cons => simp
          | nil =>
            exfalso
            have hl : ∀ (d cur : Str), 2 ≤ (split sep cur (d ++ sep :: b)).length := by
              intro d
              induction d with
              | nil =>
                intro cur
                simp only [List.nil_append, split, if_true, List.length_cons]
                have := List.length_pos_iff.2 (split_ne sep [] b)
                omega
              | cons x d ihd =>
                intro cur
                rw [List.cons_append, split]
                split
                · rw [List.length_cons]; have := ihd []; omega
                · exact ihd _
            have h2 := hl d []
            have h3 := List.length_dropLast (xs := split sep [] (d ++ sep :: b))
            rw [hs] at h3
            simp only [List.length_nil] at h3
            omega
        rcases hd with hd | ⟨_, hd⟩
        · cases hs : (split sep [] (d ++ sep :: b)).dropLast with
          | nil => exact absurd hs hd
          | cons q ps =>
            rw [join]
            rw [hs] at i2
            rw [i2, hc]
            simp
        · rw [hd] at i2
          simp [hd, join, hc]
          simpa [join] using i2
    · rw [if_neg hc]
      obtain ⟨i1, i2⟩ := ih (c :: cur)
      exact ⟨i1, by rw [i2]; simp⟩

theorem cut_dot {sep : UInt8} (p f : Str) (h : sep ∉ p) : cut sep (p ++ sep :: f) = p := by
  induction p with
  | nil => simp [cut]
  | cons c p ih =>
    simp at h
    rw [List.cons_append, cut, if_neg (Ne.symm h.1), ih h.2]

theorem indexByte_app {c : UInt8} (p f : Str) (h : c ∉ p) : indexByte c (p ++ c :: f) = p.length := by
  induction p with
  | nil => simp [indexByte]
  | cons x p ih =>
    simp at h
    rw [List.cons_append, indexByte, if_neg (Ne.symm h.1), ih h.2, if_neg (by omega)]
    simp

theorem lastIndexByte_none {c : UInt8} (s : Str) (h : c ∉ s) : lastIndexByte c s = -1 := by
  induction s with
  | nil => rfl
  | cons x s ih =>
    simp at h
    rw [lastIndexByte, ih h.2, if_neg (by omega), if_neg (Ne.symm h.1)]

theorem lastIndexByte_app {c : UInt8} (d b : Str) (h : c ∉ b) : lastIndexByte c (d ++ c :: b) = d.length := by
  induction d with
  | nil => rw [List.nil_append, lastIndexByte, lastIndexByte_none b h]; simp
  | cons x d ih =>
    rw [List.cons_append, lastIndexByte, ih, if_pos (by omega)]
    simp

/-- Every path either has no slash or is cut at the last one. -/
theorem path_cases (p : Str) : (47 : UInt8) ∉ p ∨ ∃ d b, p = d ++ 47 :: b ∧ (47 : UInt8) ∉ b := by
  induction p with
  | nil => simp
  | cons c p ih =>
    rcases ih with h | ⟨d, b, rfl, h⟩
    · by_cases hc : c = 47
      · exact .inr ⟨[], p, by rw [hc]; rfl, h⟩
      · exact .inl (by simp [h, Ne.symm hc])
    · exact .inr ⟨c :: d, b, rfl, h⟩

theorem extract_tail {q f : Str} (hq : (46 : UInt8) ∉ q) (hf : f ≠ []) (full : Str)
    (hfull : full = q ++ 46 :: f ∧ (47 : UInt8) ∉ full ∨ ∃ d, full = d ++ 47 :: (q ++ 46 :: f) ∧ (47 : UInt8) ∉ q ++ 46 :: f) :
    extractFuncName full = some f := by
  have fin : ¬ (indexByte 46 (q ++ 46 :: f) < 0 ∨ indexByte 46 (q ++ 46 :: f) + 1 ≥ (q ++ 46 :: f).length) := by
    rw [indexByte_app q f hq]
    have : 0 < f.length := List.length_pos_iff.2 hf
    simp; omega
  have fin2 : (q ++ 46 :: f).drop (indexByte 46 (q ++ 46 :: f) + 1).toNat = f := by
    rw [indexByte_app q f hq]
    have : ((q.length : Int) + 1).toNat = q.length + 1 := by omega
    rw [this, ← List.drop_drop, List.drop_left]; rfl
  rcases hfull with ⟨rfl, hs⟩ | ⟨d, rfl, hs⟩
  · unfold extractFuncName
    simp only [lastIndexByte_none _ hs]
    rw [if_neg (by simp; omega)]
    simp only [show ((-1 : Int) + 1).toNat = 0 from rfl, List.drop_zero]
    rw [if_neg fin, fin2]
  · unfold extractFuncName
    simp only [lastIndexByte_app d _ hs]
    rw [if_neg (by simp; omega)]
    have : ((d.length : Int) + 1).toNat = d.length + 1 := by omega
    simp only [this]
    have hd : (d ++ 47 :: (q ++ 46 :: f)).drop (d.length + 1) = q ++ 46 :: f := by
      rw [← List.drop_drop, List.drop_left]; rfl
    rw [hd, if_neg fin, fin2]

end Monkit.Callers
