import Verif.Model.Dot

/-!
# C54: dot labels
-/

namespace Monkit.Dot
open Go

/-- A byte that stands for itself. -/
def Plain (b : UInt8) : Prop := (65 ≤ b ∧ b ≤ 90) ∨ (97 ≤ b ∧ b ≤ 122) ∨ (48 ≤ b ∧ b ≤ 57) ∨ 128 ≤ b ∨ b = 32

instance (b : UInt8) : Decidable (Plain b) := by unfold Plain; infer_instance

theorem all_bytes (P : UInt8 → Prop) (h : ∀ n, n < 256 → P (UInt8.ofNat n)) (b : UInt8) : P b := by
  have := h b.toNat b.toNat_lt
  rwa [UInt8.ofNat_toNat] at this

/-- The bytes an escape consists of. -/
theorem escapeByte_bytes (b c : UInt8) (hc : c ∈ escapeByte b) : Plain c ∨ c ∈ b!"\\&#;" := by
  have : ∀ n, n < 256 → ∀ c ∈ escapeByte (UInt8.ofNat n), Plain c ∨ c ∈ b!"\\&#;" := by decide +kernel
  exact all_bytes (fun b => ∀ c ∈ escapeByte b, Plain c ∨ c ∈ b!"\\&#;") this b c hc

/-- **C54**, safe: an escaped label has no double quote, no newline and no other byte that means something in a dot label, apart from the
escapes it is made of. -/
theorem C54_alphabet (s : Str) (c : UInt8) (hc : c ∈ escapeDotLabel s) : Plain c ∨ c ∈ b!"\\&#;" := by
  induction s with
  | nil => simp [escapeDotLabel] at hc
  | cons b s ih =>
    rcases List.mem_append.1 hc with hc | hc
    · exact escapeByte_bytes b c hc
    · exact ih hc

theorem C54_no_quote (s : Str) : (34 : UInt8) ∉ escapeDotLabel s ∧ (10 : UInt8) ∉ escapeDotLabel s := by
  have h : ∀ c : UInt8, (Plain c ∨ c ∈ b!"\\&#;") → c ≠ 34 ∧ c ≠ 10 := by
    intro c h
    constructor <;> (rintro rfl; revert h; decide)
  exact ⟨fun hm => (h _ (C54_alphabet s _ hm)).1 rfl, fun hm => (h _ (C54_alphabet s _ hm)).2 rfl⟩

/-- **C54**, safe: every backslash is that of a `\l`; in particular the label does not end with one, so the quote that closes it is not escaped. -/
theorem C54_backslash (s a b : Str) (h : escapeDotLabel s = a ++ b!"\\" ++ b) : ∃ b', b = b!"l" ++ b' := by
  have one : ∀ n, n < 256 → escapeByte (UInt8.ofNat n) = b!"\\l" ∨ (92 : UInt8) ∉ escapeByte (UInt8.ofNat n) := by decide +kernel
  have one : ∀ c, escapeByte c = b!"\\l" ∨ (92 : UInt8) ∉ escapeByte c := all_bytes _ one
  induction s generalizing a with
  | nil => simp [escapeDotLabel] at h
  | cons c s ih =>
    rw [escapeDotLabel] at h
    rcases one c with e | e
    · rw [e] at h
      cases a with
      | nil => simp at h; exact ⟨_, h.symm⟩
      | cons x a =>
        cases a with
        | nil => simp at h
        | cons y a => simp at h; exact ih a (by simpa using h.2.2)
    · rw [List.append_assoc, List.append_eq_append_iff] at h
      rcases h with ⟨l, h1, h2⟩ | ⟨l, h1, h2⟩
      · exact ih l (by simpa using h2)
      · cases l with
        | nil => exact ih [] (by simpa using h2.symm)
        | cons x l => simp at h2; exact absurd (by rw [h1, ← h2.1]; simp) e

/-- Decoding of the first character of a label: a newline for `\l`, the byte for a character reference, the byte itself otherwise. -/
def number : Str → Nat := fun s => s.foldl (fun n c => n * 10 + (c.toNat - 48)) 0

/-- A byte and what it may be written as in a label, independently of how the code does it. -/
inductive Means : Str → UInt8 → Prop where
  | self (b : UInt8) : b ∉ b!"\\&" → Means [b] b
  | newline : Means b!"\\l" 10
  | reference (ds : Str) : (∀ d ∈ ds, 48 ≤ d ∧ d ≤ 57) → number ds < 256 → Means (b!"&#" ++ ds ++ b!";") (UInt8.ofNat (number ds))

theorem means_unique {x y s t : Str} {b c : UInt8} (h : Means x b) (h' : Means y c) (e : x ++ s = y ++ t) : b = c ∧ s = t := by
  cases h with
  | self _ hb => cases h' with
    | self _ hc => simpa using e
    | newline => simp at e; exact absurd e.1 (fun e => hb (by simp [e]))
    | reference => simp at e; exact absurd e.1 (fun e => hb (by simp [e]))
  | newline => cases h' with
    | self _ hc => simp at e; exact absurd e.1 (fun e => hc (by simp [← e]))
    | newline => simpa using e
    | reference => simp at e
  | reference ds hd hn => cases h' with
    | self _ hc => simp at e; exact absurd e.1 (fun e => hc (by simp [← e]))
    | newline => simp at e
    | reference ds' hd' hn' =>
      simp at e
      have : ∀ (ds ds' : Str), (∀ d ∈ ds, 48 ≤ d ∧ d ≤ 57) → (∀ d ∈ ds', 48 ≤ d ∧ d ≤ 57) → ds ++ 59 :: s = ds' ++ 59 :: t → ds = ds' ∧ s = t := by
        intro ds
        induction ds with
        | nil =>
          intro ds' _ h' e
          cases ds' with
          | nil => simpa using e
          | cons d ds' =>
            simp at e
            have := (h' d (by simp)).2
            rw [← e.1] at this
            exact absurd this (by decide)
        | cons d ds ih =>
          intro ds' h h' e
          cases ds' with
          | nil =>
            simp at e
            have := (h d (by simp)).2
            rw [e.1] at this
            exact absurd this (by decide)
          | cons d' ds' =>
            simp at e
            have := ih ds' (fun x hx => h x (by simp [hx])) (fun x hx => h' x (by simp [hx])) e.2
            exact ⟨by rw [e.1, this.1], this.2⟩
      obtain ⟨rfl, e2⟩ := this ds ds' hd hd' e
      exact ⟨rfl, e2⟩

theorem escapeByte_means (b : UInt8) : Means (escapeByte b) b := by
  have plain : ∀ n, n < 256 → Plain (UInt8.ofNat n) → UInt8.ofNat n ∉ b!"\\&" := by decide +kernel
  have plain : ∀ b, Plain b → b ∉ b!"\\&" := all_bytes (fun b => Plain b → b ∉ b!"\\&") plain
  have num : ∀ n, n < 256 → (∀ d ∈ decimal n, 48 ≤ d ∧ d ≤ 57) ∧ number (decimal n) = n := by decide +kernel
  unfold escapeByte
  split
  · rename_i h; exact .self b (plain b h)
  · split
    · rename_i h; subst h; exact .newline
    · obtain ⟨h1, h2⟩ := num b.toNat b.toNat_lt
      have := Means.reference (decimal b.toNat) h1 (by rw [h2]; exact b.toNat_lt)
      rw [h2, UInt8.ofNat_toNat] at this
      exact this

/-- How a label is read, one character after the other. -/
inductive Reads : Str → Str → Prop where
  | nil : Reads [] []
  | cons {x b s t} : Means x b → Reads s t → Reads (x ++ s) (b :: t)

/-- **C54**, lossless: read by the rules of labels, the escaped text is the original, and it can be read in no other way. -/
theorem C54_lossless (s : Str) : Reads (escapeDotLabel s) s ∧ ∀ t, Reads (escapeDotLabel s) t → t = s := by
  have ne : ∀ {x b}, Means x b → x ≠ [] := by intro x b h; cases h <;> simp
  induction s with
  | nil =>
    refine ⟨.nil, ?_⟩
    intro t h
    generalize he : escapeDotLabel [] = l at h
    cases h with
    | nil => rfl
    | cons m _ => simp [escapeDotLabel] at he; exact absurd he.1 (ne m)
  | cons b s ih =>
    refine ⟨.cons (escapeByte_means b) ih.1, ?_⟩
    intro t h
    generalize he : escapeDotLabel (b :: s) = l at h
    cases h with
    | nil =>
      have he : escapeByte b ++ escapeDotLabel s = [] := he
      simp at he
      exact absurd he.1 (ne (escapeByte_means b))
    | cons m r =>
      obtain ⟨e1, e2⟩ := means_unique (escapeByte_means b) m he
      rw [← e2] at r
      rw [e1, ih.2 _ r]

/-- **C54**: so different texts have different labels. -/
theorem C54_injective (s t : Str) (h : escapeDotLabel s = escapeDotLabel t) : s = t :=
  (C54_lossless t).2 s (h ▸ (C54_lossless s).1)

example : escapeDotLabel b!"a\"b\\\nc" = b!"a&#34;b&#92;\\lc" := by decide +kernel

end Monkit.Dot
