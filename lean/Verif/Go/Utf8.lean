import Verif.Go.Str

/-!
# unicode/utf8 of the Go library

`DecodeRune`, with the tables `first` and `acceptRanges` written as conditions.
-/

namespace Go.Utf8
open Go

/-- `RuneError` -/
def runeError : Nat := 0xFFFD

/-- For a first byte of a sequence: the number of bytes and the range of the second byte (`first`, `acceptRanges`); `none` for an invalid byte. -/
def first (b : Nat) : Option (Nat × Nat × Nat) :=
  if b < 0x80 then some (1, 0, 0)
  else if b < 0xC2 then none
  else if b < 0xE0 then some (2, 0x80, 0xBF)
  else if b = 0xE0 then some (3, 0xA0, 0xBF)
  else if b = 0xED then some (3, 0x80, 0x9F)
  else if b < 0xF0 then some (3, 0x80, 0xBF)
  else if b = 0xF0 then some (4, 0x90, 0xBF)
  else if b < 0xF4 then some (4, 0x80, 0xBF)
  else if b = 0xF4 then some (4, 0x80, 0x8F)
  else none

/-- `utf8.DecodeRune(p)` for `p = b :: s`: the rune and its width. -/
def decodeRune (b : UInt8) (s : Str) : Nat × Nat :=
  match first b.toNat with
  | none => (runeError, 1)
  | some (n, lo, hi) =>
    if n = 1 then (b.toNat, 1)
    else match s with
      | [] => (runeError, 1)
      | b1 :: s =>
        if n > s.length + 2 ∨ b1.toNat < lo ∨ hi < b1.toNat then (runeError, 1)
        else if n = 2 then (b.toNat % 32 * 64 + b1.toNat % 64, 2)
        else match s with
          | [] => (runeError, 1)
          | b2 :: s =>
            if b2.toNat < 0x80 ∨ 0xBF < b2.toNat then (runeError, 1)
            else if n = 3 then (b.toNat % 16 * 4096 + b1.toNat % 64 * 64 + b2.toNat % 64, 3)
            else match s with
              | [] => (runeError, 1)
              | b3 :: _ =>
                if b3.toNat < 0x80 ∨ 0xBF < b3.toNat then (runeError, 1)
                else (b.toNat % 8 * 262144 + b1.toNat % 64 * 4096 + b2.toNat % 64 * 64 + b3.toNat % 64, 4)

/-- The encoding of a code point, from the definition of UTF-8. -/
def encode (r : Nat) : Str :=
  if r < 0x80 then [UInt8.ofNat r]
  else if r < 0x800 then [UInt8.ofNat (0xC0 + r / 64), UInt8.ofNat (0x80 + r % 64)]
  else if r < 0x10000 then [UInt8.ofNat (0xE0 + r / 4096), UInt8.ofNat (0x80 + r / 64 % 64), UInt8.ofNat (0x80 + r % 64)]
  else [UInt8.ofNat (0xF0 + r / 262144), UInt8.ofNat (0x80 + r / 4096 % 64), UInt8.ofNat (0x80 + r / 64 % 64), UInt8.ofNat (0x80 + r % 64)]

/-- A Unicode scalar value. -/
def Scalar (r : Nat) : Prop := r < 0xD800 ∨ (0xE000 ≤ r ∧ r < 0x110000)

theorem toNat_ofNat {n : Nat} (h : n < 256) : (UInt8.ofNat n).toNat = n := by simp [UInt8.toNat_ofNat']; omega

/-- Decoding reads what was encoded, whatever follows. -/
theorem decode_encode (r : Nat) (hr : Scalar r) (t : Str) :
    ∃ b s, encode r ++ t = b :: s ∧ decodeRune b s = (r, (encode r).length) := by
  unfold Scalar at hr
  unfold encode
  split
  · rename_i h
    refine ⟨_, _, rfl, ?_⟩
    have e := toNat_ofNat (n := r) (by omega)
    unfold decodeRune
    rw [e]
    have : first r = some (1, 0, 0) := by simp [first, h]
    rw [this]
    simp
  · split
    · rename_i h1 h2
      refine ⟨_, UInt8.ofNat (0x80 + r % 64) :: t, rfl, ?_⟩
      have e0 := toNat_ofNat (n := 0xC0 + r / 64) (by omega)
      have e1 := toNat_ofNat (n := 0x80 + r % 64) (by omega)
      unfold decodeRune
      rw [e0]
      have : first (0xC0 + r / 64) = some (2, 0x80, 0xBF) := by
        unfold first; rw [if_neg (by omega), if_neg (by omega), if_pos (by omega)]
      rw [this]
      dsimp only
      rw [if_neg (by omega), e1, if_neg (by omega), if_pos (by trivial)]
      simp only [List.length_cons, List.length_nil]
      congr 1
      omega
    · split
      · rename_i h1 h2 h3
        refine ⟨_, UInt8.ofNat (0x80 + r / 64 % 64) :: UInt8.ofNat (0x80 + r % 64) :: t, rfl, ?_⟩
        have e0 := toNat_ofNat (n := 0xE0 + r / 4096) (by omega)
        have e1 := toNat_ofNat (n := 0x80 + r / 64 % 64) (by omega)
        have e2 := toNat_ofNat (n := 0x80 + r % 64) (by omega)
        unfold decodeRune
        rw [e0]
        have : ∃ lo hi, first (0xE0 + r / 4096) = some (3, lo, hi) ∧ ¬ (0x80 + r / 64 % 64 < lo ∨ hi < 0x80 + r / 64 % 64) := by
          unfold first
          rw [if_neg (by omega), if_neg (by omega), if_neg (by omega)]
          split
          · exact ⟨_, _, rfl, by omega⟩
          · split
            · exact ⟨_, _, rfl, by omega⟩
            · rw [if_pos (by omega)]
              exact ⟨_, _, rfl, by omega⟩
        obtain ⟨lo, hi, e, hl⟩ := this
        rw [e]
        dsimp only
        rw [if_neg (by omega), e1, if_neg (by simp only [List.length_cons]; omega), if_neg (by omega), e2, if_neg (by omega), if_pos (by trivial)]
        simp only [List.length_cons, List.length_nil]
        congr 1
        omega
      · rename_i h1 h2 h3
        refine ⟨_, UInt8.ofNat (0x80 + r / 4096 % 64) :: UInt8.ofNat (0x80 + r / 64 % 64) :: UInt8.ofNat (0x80 + r % 64) :: t, rfl, ?_⟩
        have e0 := toNat_ofNat (n := 0xF0 + r / 262144) (by omega)
        have e1 := toNat_ofNat (n := 0x80 + r / 4096 % 64) (by omega)
        have e2 := toNat_ofNat (n := 0x80 + r / 64 % 64) (by omega)
        have e3 := toNat_ofNat (n := 0x80 + r % 64) (by omega)
        unfold decodeRune
        rw [e0]
        have : ∃ lo hi, first (0xF0 + r / 262144) = some (4, lo, hi) ∧ ¬ (0x80 + r / 4096 % 64 < lo ∨ hi < 0x80 + r / 4096 % 64) := by
          unfold first
          rw [if_neg (by omega), if_neg (by omega), if_neg (by omega), if_neg (by omega), if_neg (by omega), if_neg (by omega)]
          split
          · exact ⟨_, _, rfl, by omega⟩
          · split
            · exact ⟨_, _, rfl, by omega⟩
            · rw [if_pos (by omega)]
              exact ⟨_, _, rfl, by omega⟩
        obtain ⟨lo, hi, e, hl⟩ := this
        rw [e]
        dsimp only
        rw [if_neg (by omega), e1, if_neg (by simp only [List.length_cons]; omega), if_neg (by omega), e2, if_neg (by omega), if_neg (by omega), e3,
          if_neg (by omega)]
        simp only [List.length_cons, List.length_nil]
        congr 1
        omega

theorem decodeRune_width (b : UInt8) (s : Str) : 1 ≤ (decodeRune b s).2 ∧ (decodeRune b s).2 ≤ s.length + 1 := by
  unfold decodeRune
  repeat' split
  all_goals simp_all

end Go.Utf8
