import Verif.Go.JsonEnc
import Verif.Spec.Json
import Verif.Spec.ListWriter
import Mathlib.Tactic.Ring
import Mathlib.Tactic.FieldSimp
import Mathlib.Tactic.Positivity

/-!
# Reading what `Marshal` writes
-/

namespace Monkit.JsonSpec
open Go Go.Utf8 Go.JsonEnc

/-- What a decoded character is. -/
theorem decode_spec (b : UInt8) (s : Str) : decodeRune b s = (runeError, 1) ∨
    (Scalar (decodeRune b s).1 ∧ (b :: s).take (decodeRune b s).2 = encode (decodeRune b s).1 ∧ (b.toNat < 0x80 → decodeRune b s = (b.toNat, 1)) ∧
      (0x80 ≤ b.toNat → ∀ c ∈ encode (decodeRune b s).1, 0x80 ≤ c.toNat)) := by
  have hb := b.toNat_lt
  have of : ∀ (c : UInt8) n, n = c.toNat → UInt8.ofNat n = c := by rintro c _ rfl; simp
  unfold decodeRune
  split
  · exact Or.inl rfl
  · rename_i n lo hi h
    have hf : (n = 1 ∧ b.toNat < 0x80) ∨ (n = 2 ∧ 0xC2 ≤ b.toNat ∧ b.toNat < 0xE0 ∧ lo = 0x80 ∧ hi = 0xBF) ∨
        (n = 3 ∧ 0xE0 ≤ b.toNat ∧ b.toNat < 0xF0 ∧ 0x80 ≤ lo ∧ hi ≤ 0xBF ∧ (b.toNat = 0xE0 → lo = 0xA0) ∧ (b.toNat = 0xED → hi = 0x9F)) ∨
        (n = 4 ∧ 0xF0 ≤ b.toNat ∧ b.toNat ≤ 0xF4 ∧ 0x80 ≤ lo ∧ hi ≤ 0xBF ∧ (b.toNat = 0xF0 → lo = 0x90) ∧ (b.toNat = 0xF4 → hi = 0x8F)) := by
      unfold first at h
      repeat' split at h
      all_goals simp at h
      all_goals omega
    split
    · rename_i hn
      subst hn
      have h1 : b.toNat < 0x80 := by omega
      refine Or.inr ⟨Or.inl (by show b.toNat < _; omega), ?_, fun _ => rfl, fun h => by omega⟩
      simp [encode, h1]
    · rename_i hn
      split
      · exact Or.inl rfl
      · rename_i b1 s
        have hb1 := b1.toNat_lt
        split
        · exact Or.inl rfl
        · rename_i h2
          split
          · rename_i hn2
            right
            refine ⟨Or.inl (by simp only; omega), ?_, fun _ => by omega, fun _ => ?_⟩
            · simp only [List.take_succ_cons, List.take_zero, encode]
              rw [if_neg (by omega), if_pos (by omega), of b _ (by omega), of b1 _ (by omega)]
            · simp only [encode]
              rw [if_neg (by omega), if_pos (by omega), of b _ (by omega), of b1 _ (by omega)]
              simp; omega
          · rename_i hn2
            split
            · exact Or.inl rfl
            · rename_i b2 s
              have hb2 := b2.toNat_lt
              split
              · exact Or.inl rfl
              · rename_i h3
                split
                · rename_i hn3
                  right
                  refine ⟨?_, ?_, fun _ => by omega, fun _ => ?_⟩
                  · unfold Scalar; simp only; omega
                  · simp only [List.take_succ_cons, List.take_zero, encode]
                    rw [if_neg (by omega), if_neg (by omega), if_pos (by omega), of b _ (by omega), of b1 _ (by omega), of b2 _ (by omega)]
                  · simp only [encode]
                    rw [if_neg (by omega), if_neg (by omega), if_pos (by omega), of b _ (by omega), of b1 _ (by omega), of b2 _ (by omega)]
                    simp; omega
                · split
                  · exact Or.inl rfl
                  · rename_i b3 s
                    have hb3 := b3.toNat_lt
                    split
                    · exact Or.inl rfl
                    · rename_i h4
                      right
                      refine ⟨?_, ?_, fun _ => by omega, fun _ => ?_⟩
                      · unfold Scalar; simp only; omega
                      · simp only [List.take_succ_cons, List.take_zero, encode]
                        rw [if_neg (by omega), if_neg (by omega), if_neg (by omega), of b _ (by omega), of b1 _ (by omega), of b2 _ (by omega), of b3 _ (by omega)]
                      · simp only [encode]
                        rw [if_neg (by omega), if_neg (by omega), if_neg (by omega), of b _ (by omega), of b1 _ (by omega), of b2 _ (by omega), of b3 _ (by omega)]
                        simp; omega

theorem ascii_decode (b : UInt8) (s : Str) (h : b.toNat < 0x80) : decodeRune b s = (b.toNat, 1) := by
  unfold decodeRune first
  rw [if_pos h]
  simp

/-! ## Strings -/

theorem chars_quote (t : Str) : chars (34 :: t) = some ([], t) := by rw [chars.eq_def]; rfl

theorem chars_raw (c : UInt8) (t : Str) (h1 : c ≠ 34) (h2 : c ≠ 92) (h3 : 32 ≤ c.toNat) : chars (c :: t) = (chars t).map fun r => (c :: r.1, r.2) := by
  rw [chars.eq_def]
  simp only
  rw [if_neg h1, if_neg h2, if_neg (by omega)]

theorem chars_unicode (a b c d : UInt8) (x t : Str) (h : unicode a b c d = some x) : chars (92 :: 117 :: a :: b :: c :: d :: t) = (chars t).map fun r => (x ++ r.1, r.2) := by
  rw [chars.eq_def]
  simp only
  rw [if_neg (by decide), if_pos trivial]
  simp only [h]

theorem chars_simple (e x : UInt8) (t : Str) (he : e ≠ 117) (h : simple e = some x) : chars (92 :: e :: t) = (chars t).map fun r => (x :: r.1, r.2) := by
  rw [chars.eq_def]
  simp only
  rw [if_neg (by decide), if_pos trivial]
  split
  · rename_i heq; simp at heq; exact absurd heq.1 he
  · rename_i heq; simp only [List.cons.injEq] at heq; rw [← heq.1, ← heq.2, h]
  · rename_i heq; simp at heq

theorem chars_high (x t : Str) (h : ∀ c ∈ x, 0x80 ≤ c.toNat) : chars (x ++ t) = (chars t).map fun r => (x ++ r.1, r.2) := by
  induction x with
  | nil => simp
  | cons c x ih =>
    have hc := h c (by simp)
    have n1 : c ≠ 34 := by rintro rfl; simp at hc
    have n2 : c ≠ 92 := by rintro rfl; simp at hc
    rw [List.cons_append, chars_raw c _ n1 n2 (by omega), ih fun c hc => h c (by simp [hc])]
    simp [Function.comp_def]

/-- One byte below 0x80. -/
theorem chars_ascii (b : UInt8) (t : Str) (h : b.toNat < 0x80) :
    chars ((if safe b then [b] else escape b) ++ t) = (chars t).map fun r => (b :: r.1, r.2) := by
  by_cases hs : safe b = true
  · simp only [safe, Bool.and_eq_true, bne_iff_ne, decide_eq_true_eq] at hs
    rw [if_pos (by simp [safe, hs]), List.singleton_append, chars_raw b t hs.1.1.1.1.2 hs.1.1.1.2 (by omega)]
  · rw [if_neg hs]
    have key : ∀ n, n < 0x80 → safe (UInt8.ofNat n) = false → (∃ e x, escape (UInt8.ofNat n) = [92, e] ∧ e ≠ 117 ∧ simple e = some x ∧ x = UInt8.ofNat n) ∨
        ∃ a b c d, escape (UInt8.ofNat n) = [92, 117, a, b, c, d] ∧ unicode a b c d = some [UInt8.ofNat n] := by
      have k : ∀ n, n < 0x80 → safe (UInt8.ofNat n) = false → (match escape (UInt8.ofNat n) with
          | [92, e] => e != 117 && simple e == some (UInt8.ofNat n)
          | [92, 117, a, b, c, d] => unicode a b c d == some [UInt8.ofNat n]
          | _ => false) = true := by decide +kernel
      intro n hn hs
      have := k n hn hs
      split at this
      · rename_i e he; simp at this; exact Or.inl ⟨e, _, he, this.1, this.2, rfl⟩
      · rename_i a b c d he; simp at this; exact Or.inr ⟨a, b, c, d, he, this⟩
      · simp at this
    have hb : UInt8.ofNat b.toNat = b := by simp
    rcases key b.toNat h (by rw [hb]; simpa using hs) with ⟨e, x, he, h1, h2, h3⟩ | ⟨a', b', c, d, he, h1⟩
    · rw [hb] at he h3
      rw [he]
      subst h3
      exact chars_simple _ _ _ h1 h2
    · rw [hb] at he h1
      rw [he]
      exact chars_unicode _ _ _ _ [b] _ h1

/-- Reading a written string gives that string with its invalid bytes replaced. -/
theorem chars_body (s t : Str) : chars (body s ++ 34 :: t) = some (fixUtf8 s, t) := by
  have : ∀ n s, s.length = n → chars (body s ++ 34 :: t) = some (fixUtf8 s, t) := by
    intro n
    induction n using Nat.strongRecOn with
    | _ n ih =>
      intro s hs
      cases s with
      | nil => simp [body, fixUtf8, chars_quote]
      | cons b s =>
        have hw := decodeRune_width b s
        rw [body, fixUtf8]
        by_cases hb : b.toNat < 0x80
        · have hd := ascii_decode b s hb
          rw [if_pos hb, List.append_assoc, chars_ascii b _ hb, ih s.length (by simp at hs; omega) s rfl, hd]
          rw [if_neg (by simp [runeError]; omega)]
          simp
        · rw [if_neg hb]
          have i1 := ih s.length (by simp at hs; omega) s rfl
          have i2 := ih (s.drop ((decodeRune b s).2 - 1)).length (by simp at hs ⊢; omega) _ rfl
          split
          · rw [show b!"\\ufffd" ++ body s ++ 34 :: t = 92 :: 117 :: 102 :: 102 :: 102 :: 100 :: (body s ++ 34 :: t) from rfl,
              chars_unicode 102 102 102 100 (encode 0xFFFD) _ (by decide), i1]
            rfl
          · rename_i hne
            obtain ⟨hsc, htk, -, hhi⟩ := (decode_spec b s).resolve_left hne
            split
            · rename_i h28
              rw [htk]
              rcases h28 with h28 | h28
              · rw [h28]
                rw [show b!"\\u202" ++ [hexDigit (0x2028 % 16)] ++ body (s.drop ((decodeRune b s).2 - 1)) ++ 34 :: t =
                  92 :: 117 :: 50 :: 48 :: 50 :: 56 :: (body (s.drop ((decodeRune b s).2 - 1)) ++ 34 :: t) from rfl,
                  chars_unicode 50 48 50 56 (encode 0x2028) _ (by decide), i2]
                rfl
              · rw [h28]
                rw [show b!"\\u202" ++ [hexDigit (0x2029 % 16)] ++ body (s.drop ((decodeRune b s).2 - 1)) ++ 34 :: t =
                  92 :: 117 :: 50 :: 48 :: 50 :: 57 :: (body (s.drop ((decodeRune b s).2 - 1)) ++ 34 :: t) from rfl,
                  chars_unicode 50 48 50 57 (encode 0x2029) _ (by decide), i2]
                rfl
            · rw [List.append_assoc, htk, chars_high _ _ (hhi (by omega)), i2]
              rfl
  exact this _ s rfl

/-! ## Numbers -/

/-- The text after a value cannot be taken as a part of it. -/
def Ends (t : Str) : Prop := ∀ c s, t = c :: s → digit c = false ∧ c ≠ 46 ∧ c ≠ 69 ∧ c ≠ 101

theorem digit_of (k : Nat) (h : k < 10) : digit (UInt8.ofNat (48 + k)) = true ∧ (UInt8.ofNat (48 + k)).toNat - 48 = k := by
  have : (UInt8.ofNat (48 + k)).toNat = 48 + k := toNat_ofNat (by omega)
  constructor
  · simp only [digit, this]; simp; omega
  · omega

theorem natOf_append (a b : Str) : natOf (a ++ b) = natOf a * 10 ^ b.length + natOf b := by
  have key : ∀ (b : Str) n, b.foldl (fun n c => n * 10 + (c.toNat - 48)) n = n * 10 ^ b.length + natOf b := by
    intro b
    induction b with
    | nil => intro n; simp [natOf]
    | cons c b ih =>
      intro n
      unfold natOf
      rw [List.foldl_cons, List.foldl_cons, ih, ih, List.length_cons, pow_succ]
      ring
  unfold natOf
  rw [List.foldl_append, key b]
  rfl

theorem natOf_digit {k : Nat} (h : k < 10) : natOf [UInt8.ofNat (48 + k)] = k := by
  have := (digit_of k h).2
  simpa [natOf] using this

theorem natOf_zeros (k : Nat) : natOf (List.replicate k 48) = 0 := by
  induction k with
  | zero => rfl
  | succ k ih => rw [List.replicate_succ', natOf_append, ih]; rfl

/-- The text does not begin with a digit. -/
def NoDigit (t : Str) : Prop := ∀ c s, t = c :: s → digit c = false

theorem take_digits {a t : Str} (ha : ∀ c ∈ a, digit c = true) (ht : NoDigit t) : (a ++ t).takeWhile digit = a ∧ (a ++ t).dropWhile digit = t := by
  induction a with
  | nil =>
    cases t with
    | nil => simp
    | cons c s => have := ht c s rfl; simp [this]
  | cons c a ih =>
    obtain ⟨h1, h2⟩ := ih fun c hc => ha c (by simp [hc])
    have := ha c (by simp)
    rw [List.cons_append, List.takeWhile_cons, List.dropWhile_cons, if_pos this, if_pos this, h1]
    exact ⟨rfl, h2⟩

/-- Digits without leading zeros. -/
def IsNatural (a : Str) : Prop := a ≠ [] ∧ (∀ c ∈ a, digit c = true) ∧ (a.head? = some 48 → a = [48])

theorem natural_of {a t : Str} (ha : IsNatural a) (ht : NoDigit t) : natural (a ++ t) = some (natOf a, t) := by
  obtain ⟨h1, h2⟩ := take_digits ha.2.1 ht
  unfold natural
  rw [h1, h2, if_neg]
  rintro (h | ⟨h, h'⟩)
  · exact ha.1 h
  · exact h' (ha.2.2 h)

theorem fraction_of {a t : Str} (h0 : a ≠ []) (ha : ∀ c ∈ a, digit c = true) (ht : NoDigit t) :
    fraction (46 :: (a ++ t)) = some ((natOf a : ℚ) / 10 ^ a.length, t) := by
  obtain ⟨h1, h2⟩ := take_digits ha ht
  rw [fraction, h1, h2, if_neg h0]

theorem fraction_none {t : Str} (h : ∀ c s, t = c :: s → c ≠ 46) : fraction t = some (0, t) := by
  unfold fraction
  split
  · exact absurd rfl (h _ _ rfl)
  · rfl

theorem exponent_of {a t : Str} (neg : Bool) (h0 : a ≠ []) (ha : ∀ c ∈ a, digit c = true) (ht : NoDigit t) :
    JsonSpec.exponent (101 :: (if neg then 45 else 43) :: (a ++ t)) = some ((if neg then -(natOf a : ℤ) else natOf a), t) := by
  obtain ⟨h1, h2⟩ := take_digits ha ht
  cases neg <;> simp [JsonSpec.exponent, sign, h1, h2, h0]

theorem exponent_none {t : Str} (h : Ends t) : JsonSpec.exponent t = some (0, t) := by
  cases t with
  | nil => rfl
  | cons c s =>
    obtain ⟨_, _, h2, h3⟩ := h c s rfl
    rw [JsonSpec.exponent, if_neg (by rintro (h | h); exact h2 h; exact h3 h)]

theorem Ends.noDigit {t : Str} (h : Ends t) : NoDigit t := fun c s e => (h c s e).1

theorem magnitude_nat {a t : Str} (ha : IsNatural a) (ht : Ends t) : magnitude (a ++ t) = some ((natOf a : ℚ), t) := by
  simp only [magnitude, natural_of ha ht.noDigit, fraction_none fun c s e => (ht c s e).2.1, exponent_none ht]
  simp

theorem magnitude_fraction {a f t : Str} (ha : IsNatural a) (h0 : f ≠ []) (hf : ∀ c ∈ f, digit c = true) (ht : Ends t) :
    magnitude (a ++ 46 :: (f ++ t)) = some ((natOf a : ℚ) + natOf f / 10 ^ f.length, t) := by
  have h1 : NoDigit (46 :: (f ++ t)) := by intro c s e; cases e; rfl
  simp only [magnitude, natural_of ha h1, fraction_of h0 hf ht.noDigit, exponent_none ht]
  simp

theorem magnitude_exponent {a e t : Str} (neg : Bool) (ha : IsNatural a) (h0 : e ≠ []) (he : ∀ c ∈ e, digit c = true) (ht : Ends t) :
    magnitude (a ++ 101 :: (if neg then 45 else 43) :: (e ++ t)) = some ((natOf a : ℚ) * (10 : ℚ) ^ (if neg then -(natOf e : ℤ) else natOf e), t) := by
  have h1 : NoDigit (101 :: (if neg then 45 else 43) :: (e ++ t)) := by intro c s e; cases e; rfl
  have h2 : fraction (101 :: (if neg then 45 else 43) :: (e ++ t)) = some (0, 101 :: (if neg then 45 else 43) :: (e ++ t)) :=
    fraction_none (by intro c s e; cases e; decide)
  simp only [magnitude, natural_of ha h1, h2, exponent_of neg h0 he ht.noDigit, add_zero]

theorem magnitude_all {a f e t : Str} (neg : Bool) (ha : IsNatural a) (h0 : f ≠ []) (hf : ∀ c ∈ f, digit c = true) (h1 : e ≠ [])
    (he : ∀ c ∈ e, digit c = true) (ht : Ends t) :
    magnitude (a ++ 46 :: (f ++ 101 :: (if neg then 45 else 43) :: (e ++ t))) =
      some (((natOf a : ℚ) + natOf f / 10 ^ f.length) * (10 : ℚ) ^ (if neg then -(natOf e : ℤ) else natOf e), t) := by
  have n1 : NoDigit (46 :: (f ++ 101 :: (if neg then 45 else 43) :: (e ++ t))) := by intro c s e; cases e; rfl
  have n2 : NoDigit (101 :: (if neg then 45 else 43) :: (e ++ t)) := by intro c s e; cases e; rfl
  simp only [magnitude, natural_of ha n1, fraction_of h0 hf n2, exponent_of neg h1 he ht.noDigit]

/-! ### Integers -/

theorem digit_decimal (n : Nat) : ∀ c ∈ decimal n, digit c = true := by
  induction n using Nat.strongRecOn with
  | _ n ih =>
    rw [decimal]
    split
    · rename_i hn; intro c hc; rw [List.mem_singleton] at hc; rw [hc]; exact (digit_of n hn).1
    · intro c hc
      rcases List.mem_append.1 hc with hc | hc
      · exact ih _ (by omega) c hc
      · rw [List.mem_singleton] at hc; rw [hc]; exact (digit_of (n % 10) (by omega)).1

theorem natOf_decimal (n : Nat) : natOf (decimal n) = n := by
  induction n using Nat.strongRecOn with
  | _ n ih =>
    rw [decimal]
    split
    · rename_i hn; exact natOf_digit hn
    · rw [natOf_append, ih _ (by omega), natOf_digit (by omega)]
      simp only [List.length_cons, List.length_nil]
      omega

theorem decimal_head (n : Nat) (hn : n ≠ 0) : ∃ c t, decimal n = c :: t ∧ digit c = true ∧ c ≠ 48 := by
  induction n using Nat.strongRecOn with
  | _ n ih =>
    rw [decimal]
    split
    · rename_i h
      refine ⟨_, _, rfl, (digit_of n h).1, ?_⟩
      intro he
      have := (digit_of n h).2
      rw [he] at this
      simp at this
      omega
    · obtain ⟨c, t, h1, h2, h3⟩ := ih (n / 10) (by omega) (by omega)
      exact ⟨c, _, by rw [h1]; rfl, h2, h3⟩

theorem isNatural_decimal (n : Nat) : IsNatural (decimal n) := by
  by_cases hn : n = 0
  · subst hn
    have : decimal 0 = [48] := by simp [decimal]
    rw [this]
    exact ⟨by simp, by simp [digit], fun _ => rfl⟩
  · obtain ⟨c, u, h1, h2, h3⟩ := decimal_head n hn
    refine ⟨by rw [h1]; simp, digit_decimal n, ?_⟩
    rw [h1]
    intro h
    simp at h
    exact absurd h h3

theorem magnitude_decimal (n : Nat) (t : Str) (h : Ends t) : magnitude (decimal n ++ t) = some ((n : ℚ), t) := by
  rw [magnitude_nat (isNatural_decimal n) h, natOf_decimal]

theorem int_head (i : Int64) : ∃ c t, JsonEnc.int i = c :: t ∧ (c = 45 ∨ digit c = true) := by
  have nz : ∀ n, ∃ c t, decimal n = c :: t ∧ digit c = true := by
    intro n
    by_cases hn : n = 0
    · subst hn; exact ⟨48, [], by simp [decimal], rfl⟩
    · obtain ⟨c, t, h1, h2, _⟩ := decimal_head n hn; exact ⟨c, t, h1, h2⟩
  unfold JsonEnc.int
  split
  · exact ⟨45, _, rfl, Or.inl rfl⟩
  · obtain ⟨c, t, h1, h2⟩ := nz i.toInt.natAbs
    exact ⟨c, t, h1, Or.inr h2⟩

theorem number_pos {a t : Str} {c : UInt8} (h : a = c :: t) (hc : digit c = true) : number a = magnitude a := by
  subst h
  unfold number
  split
  · rename_i heq; simp at heq; rw [heq.1] at hc; simp [digit] at hc
  · rfl

theorem number_int (i : Int64) (t : Str) (h : Ends t) : number (JsonEnc.int i ++ t) = some ((i.toInt : ℚ), t) := by
  have neg : i < 0 ↔ i.toInt < 0 := by rw [Int64.lt_iff_toInt_lt]; simp
  unfold JsonEnc.int
  split
  · rename_i hi
    have := neg.1 hi
    rw [show b!"-" ++ decimal i.toInt.natAbs ++ t = 45 :: (decimal i.toInt.natAbs ++ t) from rfl, number, magnitude_decimal _ _ h]
    simp only [Option.map_some, Option.some.injEq, Prod.mk.injEq, and_true]
    have e : (i.toInt : ℤ) = -(i.toInt.natAbs : ℤ) := by omega
    have e2 : ((i.toInt : ℤ) : ℚ) = ((-(i.toInt.natAbs : ℤ) : ℤ) : ℚ) := congrArg _ e
    rw [e2, Int.cast_neg, Int.cast_natCast]
  · rename_i hi
    have hi' : ¬ i.toInt < 0 := fun h => hi (neg.2 h)
    obtain ⟨h0, hd, -⟩ := isNatural_decimal i.toInt.natAbs
    have hm := magnitude_decimal i.toInt.natAbs t h
    have e : (i.toInt : ℤ) = (i.toInt.natAbs : ℤ) := by omega
    have e2 : ((i.toInt : ℤ) : ℚ) = ((i.toInt.natAbs : ℤ) : ℚ) := congrArg _ e
    rw [e2, Int.cast_natCast, ← hm]
    cases hc : decimal i.toInt.natAbs with
    | nil => exact absurd hc h0
    | cons c u => exact number_pos (List.cons_append) (hd c (by rw [hc]; simp))

/-! ### Floats -/

/-- The number that the digits stand for. -/
def decValue (d : Dec) : ℚ := (natOf d.ds : ℚ) * (10 : ℚ) ^ (d.dp - d.ds.length)

theorem dec_digits (d : Dec) : ∀ c ∈ d.ds, digit c = true := by
  intro c hc
  have := d.digits c hc
  simp only [digit, Bool.and_eq_true, decide_eq_true_eq]
  omega

theorem ten_ne : (10 : ℚ) ≠ 0 := by norm_num

theorem isNatural_zero : IsNatural [48] := ⟨by simp, by simp [digit], fun _ => rfl⟩

theorem digit_zeros (k : Nat) : ∀ c ∈ List.replicate k (48 : UInt8), digit c = true := by
  intro c hc; rw [List.eq_of_mem_replicate hc]; rfl

/-- The digits after the point. -/
theorem fmtF_fraction (d : Dec) (n : Nat) (hn : (n : Int) = d.ds.length - d.dp) :
    ((List.range n).map fun (i : Nat) => if 0 ≤ d.dp + i ∧ d.dp + i < d.ds.length then (d.ds[(d.dp + i).toNat]?).getD 48 else 48) =
      List.replicate (-d.dp).toNat 48 ++ d.ds.drop d.dp.toNat := by
  apply List.ext_getElem?
  intro i
  rw [List.getElem?_map]
  by_cases hi : i < n
  · rw [List.getElem?_range hi, Option.map_some]
    by_cases h : (i : Int) < -d.dp
    · rw [if_neg (by omega), List.getElem?_append_left (by simp; omega), List.getElem?_replicate, if_pos (by omega)]
    · have h1 : (d.dp + i).toNat < d.ds.length := by omega
      rw [if_pos (by omega), List.getElem?_append_right (by simp; omega), List.getElem?_drop, List.length_replicate]
      rw [show d.dp.toNat + (i - (-d.dp).toNat) = (d.dp + i).toNat by omega, List.getElem?_eq_getElem h1]
      rfl
  · rw [List.getElem?_eq_none (by simp; omega), List.getElem?_eq_none (by simp; omega)]
    rfl

theorem magnitude_fmtF (d : Dec) (t : Str) (ht : Ends t) : magnitude (fmtF d ++ t) = some (decValue d, t) := by
  have hd := dec_digits d
  unfold fmtF
  by_cases hp : d.dp > 0
  · rw [if_pos hp]
    have h0 : d.ds ≠ [] := fun h => by have := d.zero h; omega
    by_cases hl : d.ds.length - d.dp > 0
    · -- digits before and after the point
      rw [if_pos hl, fmtF_fraction d _ (by omega)]
      have e1 : d.dp.toNat - d.ds.length = 0 := by omega
      have e2 : (-d.dp).toNat = 0 := by omega
      rw [e1, e2, List.replicate_zero, List.append_nil, List.nil_append]
      have hn : IsNatural (d.ds.take d.dp.toNat) := by
        refine ⟨by simp [h0]; omega, fun c hc => hd c (List.mem_of_mem_take hc), ?_⟩
        intro h
        rw [List.head?_take, if_neg (by omega)] at h
        exact absurd h d.head
      have hf : d.ds.drop d.dp.toNat ≠ [] := by simp; omega
      have := magnitude_fraction (t := t) hn hf (fun c hc => hd c (List.mem_of_mem_drop hc)) ht
      rw [show d.ds.take d.dp.toNat ++ (b!"." ++ d.ds.drop d.dp.toNat) ++ t = d.ds.take d.dp.toNat ++ 46 :: (d.ds.drop d.dp.toNat ++ t) by simp, this]
      have hv : natOf d.ds = natOf (d.ds.take d.dp.toNat) * 10 ^ (d.ds.drop d.dp.toNat).length + natOf (d.ds.drop d.dp.toNat) := by
        rw [← natOf_append, List.take_append_drop]
      rw [decValue, hv, show d.dp - d.ds.length = -((d.ds.drop d.dp.toNat).length : ℤ) by simp; omega, zpow_neg, zpow_natCast]
      have : (10 : ℚ) ^ (d.ds.drop d.dp.toNat).length ≠ 0 := pow_ne_zero _ ten_ne
      push_cast
      field_simp
    · -- an integer
      rw [if_neg hl, List.append_nil, List.take_of_length_le (by omega)]
      have hn : IsNatural (d.ds ++ List.replicate (d.dp.toNat - d.ds.length) 48) := by
        refine ⟨by simp [h0], ?_, ?_⟩
        · intro c hc
          rcases List.mem_append.1 hc with h | h
          · exact hd c h
          · exact digit_zeros _ c h
        · intro h
          cases hs : d.ds with
          | nil => exact absurd hs h0
          | cons c s => rw [hs] at h; simp at h; have := d.head; rw [hs, h] at this; simp at this
      rw [magnitude_nat hn ht, natOf_append, natOf_zeros, List.length_replicate, decValue,
        show d.dp - d.ds.length = ((d.dp.toNat - d.ds.length : ℕ) : ℤ) by omega, zpow_natCast]
      push_cast
      simp
  · -- a fraction
    rw [if_neg hp]
    by_cases h0 : d.ds = []
    · have hz := d.zero h0
      rw [if_neg (by rw [hz, h0]; simp), List.append_nil, magnitude_nat isNatural_zero ht, decValue, h0]
      simp [natOf]
    · have hl : 0 < d.ds.length := by cases hs : d.ds with | nil => exact absurd hs h0 | cons _ _ => simp
      rw [if_pos (by omega), fmtF_fraction d _ (by omega)]
      have e1 : d.dp.toNat = 0 := by omega
      rw [e1, List.drop_zero]
      have hf : ∀ c ∈ List.replicate (-d.dp).toNat 48 ++ d.ds, digit c = true := by
        intro c hc
        rcases List.mem_append.1 hc with h | h
        · exact digit_zeros _ c h
        · exact hd c h
      have := magnitude_fraction (t := t) isNatural_zero (f := List.replicate (-d.dp).toNat 48 ++ d.ds) (by simp [h0]) hf ht
      rw [show b!"0" ++ (b!"." ++ (List.replicate (-d.dp).toNat 48 ++ d.ds)) ++ t = [48] ++ 46 :: ((List.replicate (-d.dp).toNat 48 ++ d.ds) ++ t) by simp, this]
      rw [natOf_append, natOf_zeros, decValue, List.length_append, List.length_replicate,
        show d.dp - d.ds.length = -(((-d.dp).toNat + d.ds.length : ℕ) : ℤ) by push_cast; omega, zpow_neg, zpow_natCast]
      simp [natOf, div_eq_mul_inv]

/-- The exponent: a sign and two or three digits. -/
theorem exponent_text (e : Int) (h : -1000 < e ∧ e < 1000) : ∃ (neg : Bool) (a : Str), JsonEnc.exponent e = (if neg then 45 else 43) :: a ∧ (a.length = 2 ∨ a.length = 3) ∧
    (∀ c ∈ a, digit c = true) ∧ (if neg then -(natOf a : ℤ) else natOf a) = e := by
  have d1 : ∀ k, k < 10 → digit (UInt8.ofNat (48 + k)) = true ∧ (UInt8.ofNat (48 + k)).toNat - 48 = k := digit_of
  have key : ∃ a : Str, (if e.natAbs < 10 then [48, UInt8.ofNat (48 + e.natAbs)]
      else if e.natAbs < 100 then [UInt8.ofNat (48 + e.natAbs / 10), UInt8.ofNat (48 + e.natAbs % 10)]
      else [UInt8.ofNat (48 + e.natAbs / 100), UInt8.ofNat (48 + e.natAbs / 10 % 10), UInt8.ofNat (48 + e.natAbs % 10)]) = a ∧ (a.length = 2 ∨ a.length = 3) ∧
      (∀ c ∈ a, digit c = true) ∧ natOf a = e.natAbs := by
    refine ⟨_, rfl, ?_⟩
    split
    · rename_i h1
      obtain ⟨x, y⟩ := d1 _ h1
      refine ⟨Or.inl rfl, ?_, ?_⟩
      · intro c hc
        simp only [List.mem_cons, List.not_mem_nil, or_false] at hc
        rcases hc with rfl | rfl
        · rfl
        · exact x
      · simp only [natOf, List.foldl_cons, List.foldl_nil, y, show UInt8.toNat 48 = 48 from rfl]
        omega
    · split
      · rename_i h1 h2
        obtain ⟨x, y⟩ := d1 (e.natAbs / 10) (by omega)
        obtain ⟨x', y'⟩ := d1 (e.natAbs % 10) (by omega)
        refine ⟨Or.inl rfl, ?_, ?_⟩
        · intro c hc
          simp only [List.mem_cons, List.not_mem_nil, or_false] at hc
          rcases hc with rfl | rfl
          · exact x
          · exact x'
        simp only [natOf, List.foldl_cons, List.foldl_nil, y, y']
        omega
      · rename_i h1 h2
        obtain ⟨x, y⟩ := d1 (e.natAbs / 100) (by omega)
        obtain ⟨x', y'⟩ := d1 (e.natAbs / 10 % 10) (by omega)
        obtain ⟨x2, y2⟩ := d1 (e.natAbs % 10) (by omega)
        refine ⟨Or.inr rfl, ?_, ?_⟩
        · intro c hc
          simp only [List.mem_cons, List.not_mem_nil, or_false] at hc
          rcases hc with rfl | rfl | rfl
          · exact x
          · exact x'
          · exact x2
        simp only [natOf, List.foldl_cons, List.foldl_nil, y, y', y2]
        omega
  obtain ⟨a, h1, h2, h3, h4⟩ := key
  unfold JsonEnc.exponent
  rw [h1]
  by_cases hneg : e < 0
  · exact ⟨true, a, by rw [if_pos hneg]; rfl, h2, h3, by rw [if_pos rfl, h4]; omega⟩
  · exact ⟨false, a, by rw [if_neg hneg]; rfl, h2, h3, by rw [if_neg (by simp), h4]; omega⟩

/-- Cleaning shortens the exponent at most. -/
theorem clean_text (pre : Str) (neg : Bool) (a : Str) (hl : a.length = 2 ∨ a.length = 3) (ha : ∀ c ∈ a, digit c = true) :
    ∃ a' : Str, clean (pre ++ 101 :: (if neg then 45 else 43) :: a) = pre ++ 101 :: (if neg then 45 else 43) :: a' ∧ a' ≠ [] ∧
      (∀ c ∈ a', digit c = true) ∧ natOf a' = natOf a := by
  have same : clean (pre ++ 101 :: (if neg then 45 else 43) :: a) = pre ++ 101 :: (if neg then 45 else 43) :: a →
      ∃ a' : Str, clean (pre ++ 101 :: (if neg then 45 else 43) :: a) = pre ++ 101 :: (if neg then 45 else 43) :: a' ∧ a' ≠ [] ∧
        (∀ c ∈ a', digit c = true) ∧ natOf a' = natOf a :=
    fun h => ⟨a, h, by rintro rfl; simp at hl, ha, rfl⟩
  rcases hl with hl | hl
  · obtain ⟨x, y, rfl⟩ : ∃ x y, a = [x, y] := by
      match a, hl with
      | [x, y], _ => exact ⟨x, y, rfl⟩
    by_cases hx : x = 48 ∧ neg = true
    · obtain ⟨rfl, rfl⟩ := hx
      refine ⟨[y], ?_, by simp, fun c hc => ha c (by simp at hc; simp [hc]), by simp [natOf]⟩
      have e : (pre ++ 101 :: (if true then 45 else 43) :: [48, y]).reverse = y :: 48 :: 45 :: 101 :: pre.reverse := by simp
      unfold clean
      rw [e]
      simp
    · apply same
      have e : (pre ++ 101 :: (if neg then 45 else 43) :: [x, y]).reverse = y :: x :: (if neg then 45 else 43) :: 101 :: pre.reverse := by simp
      unfold clean
      rw [e]
      split
      · rename_i heq
        simp only [List.cons.injEq] at heq
        exfalso
        apply hx
        refine ⟨heq.2.1, ?_⟩
        cases neg
        · simp at heq
        · rfl
      · rfl
  · obtain ⟨x, y, z, rfl⟩ : ∃ x y z, a = [x, y, z] := by
      match a, hl with
      | [x, y, z], _ => exact ⟨x, y, z, rfl⟩
    apply same
    have e : (pre ++ 101 :: (if neg then 45 else 43) :: [x, y, z]).reverse = z :: y :: x :: (if neg then 45 else 43) :: 101 :: pre.reverse := by simp
    unfold clean
    rw [e]
    split
    · rename_i heq
      simp only [List.cons.injEq] at heq
      exfalso
      have := heq.2.2.2.1
      cases neg <;> simp at this
    · rfl

/-- How a number in scientific notation is written. -/
theorem fmtE_text (d : Dec) : ∃ (c : UInt8) (pre : Str) (neg : Bool) (a : Str), fmtE d = pre ++ 101 :: (if neg then 45 else 43) :: a ∧ (a.length = 2 ∨ a.length = 3) ∧
    (∀ c ∈ a, digit c = true) ∧ pre.head? = some c ∧ digit c = true ∧
    ∀ (a' t : Str), a' ≠ [] → (∀ c ∈ a', digit c = true) → natOf a' = natOf a → Ends t →
      magnitude (pre ++ 101 :: (if neg then 45 else 43) :: (a' ++ t)) = some (decValue d, t) := by
  have hd := dec_digits d
  cases hs : d.ds with
  | nil =>
    obtain ⟨neg, a, h1, h2, h3, h4⟩ := exponent_text 0 (by omega)
    refine ⟨48, [48], neg, a, by simp [fmtE, hs, h1], h2, h3, rfl, rfl, ?_⟩
    intro a' t hn hda he ht
    rw [magnitude_exponent neg isNatural_zero hn hda ht, decValue, hs]
    simp [natOf]
  | cons c u =>
    obtain ⟨neg, a, h1, h2, h3, h4⟩ := exponent_text (d.dp - 1) (by have := d.low; have := d.high; omega)
    have hc : digit c = true := hd c (by rw [hs]; simp)
    have hc48 : c ≠ 48 := by have := d.head; rw [hs] at this; simpa using this
    have hnat : IsNatural [c] := ⟨by simp, by simpa using hc, by intro h; simp at h; exact absurd h hc48⟩
    by_cases hu : u = []
    · subst hu
      refine ⟨c, [c], neg, a, by simp [fmtE, hs, h1], h2, h3, rfl, hc, ?_⟩
      intro a' t hn hda he ht
      rw [magnitude_exponent neg hnat hn hda ht, he, h4, decValue, hs]
      simp
    · have hlen : 0 < u.length := by cases hu' : u with | nil => exact absurd hu' hu | cons _ _ => simp
      refine ⟨c, c :: 46 :: u, neg, a, ?_, h2, h3, rfl, hc, ?_⟩
      · simp only [fmtE, hs]
        rw [if_pos (by simp; omega), if_neg (by simp), h1]
        simp
      · intro a' t hn hda he ht
        have := magnitude_all (t := t) neg hnat hu (fun c hc => hd c (by rw [hs]; simp [hc])) hn hda ht
        rw [show (c :: 46 :: u) ++ 101 :: (if neg then 45 else 43) :: (a' ++ t) = [c] ++ 46 :: (u ++ 101 :: (if neg then 45 else 43) :: (a' ++ t)) by simp, this, he, h4]
        have hv : natOf d.ds = natOf [c] * 10 ^ u.length + natOf u := by rw [hs, ← natOf_append]; rfl
        rw [decValue, hv, hs, List.length_cons, show d.dp - ((u.length + 1 : ℕ) : ℤ) = (d.dp - 1) - (u.length : ℤ) by push_cast; ring, zpow_sub₀ ten_ne (d.dp - 1), zpow_natCast]
        have : (10 : ℚ) ^ u.length ≠ 0 := pow_ne_zero _ ten_ne
        push_cast
        congr 2
        field_simp

/-- The number that is written. -/
def floatValue (neg : Bool) (d : Dec) : ℚ := if neg then -decValue d else decValue d

theorem fmtF_head (d : Dec) : ∃ c t, fmtF d = c :: t ∧ digit c = true := by
  unfold fmtF
  by_cases hp : d.dp > 0
  · rw [if_pos hp]
    cases hs : d.ds with
    | nil => have := d.zero hs; omega
    | cons c u =>
      obtain ⟨n, hn⟩ : ∃ n, d.dp.toNat = n + 1 := ⟨d.dp.toNat - 1, by omega⟩
      rw [hn]
      exact ⟨c, _, rfl, dec_digits d c (by rw [hs]; simp)⟩
  · rw [if_neg hp]
    exact ⟨48, _, rfl, rfl⟩

theorem float_text (neg sci : Bool) (d : Dec) : ∃ (c : UInt8) (u : Str), JsonEnc.float neg sci d = (if neg then b!"-" else []) ++ c :: u ∧ digit c = true ∧
    ∀ t, Ends t → magnitude (c :: u ++ t) = some (decValue d, t) := by
  cases sci with
  | false =>
    obtain ⟨c, u, h1, h2⟩ := fmtF_head d
    refine ⟨c, u, by simp [JsonEnc.float, h1], h2, ?_⟩
    intro t ht
    rw [← h1]
    exact magnitude_fmtF d t ht
  | true =>
    obtain ⟨c, pre, sg, a, h1, h2, h3, h4, h5, h6⟩ := fmtE_text d
    obtain ⟨u, hu⟩ : ∃ u, pre = c :: u := by
      cases pre with
      | nil => simp at h4
      | cons x u => simp at h4; exact ⟨u, by rw [h4]⟩
    obtain ⟨a', g1, g2, g3, g4⟩ := clean_text ((if neg then b!"-" else []) ++ pre) sg a h2 h3
    refine ⟨c, u ++ 101 :: (if sg then 45 else 43) :: a', ?_, h5, ?_⟩
    · rw [JsonEnc.float, if_pos rfl, h1, ← List.append_assoc, g1, hu]
      simp
    · intro t ht
      have := h6 a' t g2 g3 g4 ht
      rw [← this, hu]
      simp

theorem float_head (neg sci : Bool) (d : Dec) : ∃ c t, JsonEnc.float neg sci d = c :: t ∧ (c = 45 ∨ digit c = true) := by
  obtain ⟨c, u, h1, h2, _⟩ := float_text neg sci d
  cases neg
  · exact ⟨c, u, by simp [h1], Or.inr h2⟩
  · exact ⟨45, c :: u, by simp [h1], Or.inl rfl⟩

theorem number_float (neg sci : Bool) (d : Dec) (t : Str) (h : Ends t) : number (JsonEnc.float neg sci d ++ t) = some (floatValue neg d, t) := by
  obtain ⟨c, u, h1, h2, h3⟩ := float_text neg sci d
  have h4 := h3 t h
  rw [h1]
  cases neg
  · rw [if_neg (by simp), List.nil_append]
    exact (number_pos (t := u ++ t) (c := c) rfl h2).trans h4
  · rw [if_pos rfl, show b!"-" ++ c :: u ++ t = 45 :: (c :: u ++ t) by simp, number, h4]
    rfl

/-! ## Values -/

/-- What a value means. -/
def meaning : Value → Json
  | .null => .null
  | .bool b => .bool b
  | .int i => .num (i.toInt : ℚ)
  | .float neg _ d => .num (floatValue neg d)
  | .str s => .str (fixUtf8 s)
  | .arr l => .arr (elems l)
  | .obj l => .obj (mems l)
where
  elems : List Value → List Json
    | [] => []
    | v :: vs => meaning v :: elems vs
  mems : List (Str × Value) → List (Str × Json)
    | [] => []
    | (k, v) :: ms => (fixUtf8 k, meaning v) :: mems ms

theorem elems_eq (l : List Value) : meaning.elems l = l.map meaning := by
  induction l with
  | nil => rfl
  | cons v vs ih => rw [meaning.elems, ih]; rfl

theorem mems_eq (l : List (Str × Value)) : meaning.mems l = l.map fun m => (fixUtf8 m.1, meaning m.2) := by
  induction l with
  | nil => rfl
  | cons v vs ih => obtain ⟨k, v⟩ := v; rw [meaning.mems, ih]; rfl

theorem skip_of (c : UInt8) (t : Str) (h : ¬ (c = 32 ∨ c = 9 ∨ c = 10 ∨ c = 13)) : skip (c :: t) = c :: t := by rw [skip, if_neg h]

/-- How a value begins. -/
theorem marshal_head (v : Value) : ∃ c t, marshal v = c :: t ∧ ¬ (c = 32 ∨ c = 9 ∨ c = 10 ∨ c = 13) ∧ c ≠ 93 := by
  cases v with
  | null => exact ⟨_, _, by rw [marshal], by decide, by decide⟩
  | bool b => cases b <;> exact ⟨_, _, by rw [marshal], by decide, by decide⟩
  | int i =>
    obtain ⟨c, t, h1, h2⟩ := int_head i
    refine ⟨c, t, by rw [marshal, h1], ?_, ?_⟩
    · rcases h2 with rfl | h2
      · decide
      · rintro (rfl | rfl | rfl | rfl) <;> simp [digit] at h2
    · rintro rfl
      rcases h2 with h2 | h2 <;> simp [digit] at h2
  | float neg sci d =>
    obtain ⟨c, t, h1, h2⟩ := float_head neg sci d
    refine ⟨c, t, by rw [marshal, h1], ?_, ?_⟩
    · rcases h2 with rfl | h2
      · decide
      · rintro (rfl | rfl | rfl | rfl) <;> simp [digit] at h2
    · rintro rfl
      rcases h2 with h2 | h2 <;> simp [digit] at h2
  | str s => exact ⟨34, body s ++ b!"\"", by rw [marshal]; rfl, by decide, by decide⟩
  | arr l => exact ⟨91, marshal.elems l ++ b!"]", by rw [marshal]; rfl, by decide, by decide⟩
  | obj l => exact ⟨123, marshal.members l ++ b!"}", by rw [marshal]; rfl, by decide, by decide⟩

theorem value_number {c : UInt8} {t : Str} (n : Nat) (h : c = 45 ∨ digit c = true) : value (n + 1) (c :: t) = (number (c :: t)).map fun r => (.num r.1, r.2) := by
  have hs : skip (c :: t) = c :: t := skip_of _ _ (by
    rcases h with rfl | h
    · decide
    · rintro (rfl | rfl | rfl | rfl) <;> simp [digit] at h)
  rw [value, hs]
  split <;> rename_i heq <;> first
    | (simp only [List.cons.injEq] at heq
       exfalso
       rcases h with h | h
       · rw [heq.1] at h; simp at h
       · rw [heq.1] at h; simp [digit] at h)
    | (rename_i heq'; simp only [List.cons.injEq] at heq'
       exfalso
       rcases h with h | h
       · rw [heq'.1] at h; simp at h
       · rw [heq'.1] at h; simp [digit] at h)
    | rfl

theorem succ_of {v : Value} {n : Nat} (hn : 2 * (marshal v).length ≤ n) : ∃ m, n = m + 1 := by
  obtain ⟨c, u, h, _⟩ := marshal_head v
  rw [h] at hn
  simp only [List.length_cons] at hn
  exact ⟨n - 1, by omega⟩

mutual
theorem value_marshal : ∀ (v : Value) (n : Nat) (t : Str), 2 * (marshal v).length ≤ n → Ends t → value n (marshal v ++ t) = some (meaning v, t)
  | .null, n, t, hn, ht => by obtain ⟨m, rfl⟩ := succ_of hn; rw [marshal, value]; rfl
  | .bool true, n, t, hn, ht => by obtain ⟨m, rfl⟩ := succ_of hn; rw [marshal, value]; rfl
  | .bool false, n, t, hn, ht => by obtain ⟨m, rfl⟩ := succ_of hn; rw [marshal, value]; rfl
  | .int i, n, t, hn, ht => by
    obtain ⟨m, rfl⟩ := succ_of hn
    rw [marshal]
    obtain ⟨c, u, h1, h2⟩ := int_head i
    have h3 := number_int i t ht
    rw [h1, List.cons_append] at h3 ⊢
    rw [value_number m h2, h3]
    rfl
  | .float neg sci d, n, t, hn, ht => by
    obtain ⟨m, rfl⟩ := succ_of hn
    rw [marshal]
    obtain ⟨c, u, h1, h2⟩ := float_head neg sci d
    have h3 := number_float neg sci d t ht
    rw [h1, List.cons_append] at h3 ⊢
    rw [value_number m h2, h3]
    rfl
  | .str s, n, t, hn, ht => by
    obtain ⟨m, rfl⟩ := succ_of hn
    rw [marshal, show string s ++ t = 34 :: (body s ++ 34 :: t) by simp [string], value, skip_of _ _ (by decide)]
    simp only [chars_body]
    rfl
  | .arr [], n, t, hn, ht => by
    obtain ⟨m, rfl⟩ := succ_of hn
    rw [marshal, marshal.elems, value]; rfl
  | .arr (v :: l), n, t, hn, ht => by
    obtain ⟨m, rfl⟩ := succ_of hn
    rw [marshal] at hn ⊢
    rw [show b!"[" ++ marshal.elems (v :: l) ++ b!"]" ++ t = 91 :: (marshal.elems (v :: l) ++ 93 :: t) by simp, value, skip_of _ _ (by decide)]
    simp only [List.length_append, List.length_cons, List.length_nil] at hn
    have ih := elements_marshal (v :: l) m t (by omega) (by simp)
    obtain ⟨c, u, h1, h2, h3⟩ : ∃ c u, marshal.elems (v :: l) = c :: u ∧ ¬ (c = 32 ∨ c = 9 ∨ c = 10 ∨ c = 13) ∧ c ≠ 93 := by
      obtain ⟨c, u, h1, h2, h3⟩ := marshal_head v
      cases l with
      | nil => exact ⟨c, u, by rw [marshal.elems, h1], h2, h3⟩
      | cons w l => exact ⟨c, _, by rw [marshal.elems, h1]; rfl; simp, h2, h3⟩
    have hs : skip (marshal.elems (v :: l) ++ 93 :: t) = marshal.elems (v :: l) ++ 93 :: t := by rw [h1]; exact skip_of _ _ h2
    simp only
    rw [hs]
    split
    · rename_i heq
      rw [h1] at heq
      simp only [List.cons_append, List.cons.injEq] at heq
      exact absurd heq.1 h3
    · rw [ih]; rfl
  | .obj [], n, t, hn, ht => by
    obtain ⟨m, rfl⟩ := succ_of hn
    rw [marshal, marshal.members, value]; rfl
  | .obj ((k, v) :: l), n, t, hn, ht => by
    obtain ⟨m, rfl⟩ := succ_of hn
    rw [marshal] at hn ⊢
    rw [show b!"{" ++ marshal.members ((k, v) :: l) ++ b!"}" ++ t = 123 :: (marshal.members ((k, v) :: l) ++ 125 :: t) by simp, value, skip_of _ _ (by decide)]
    simp only [List.length_append, List.length_cons, List.length_nil] at hn
    have ih := members_marshal ((k, v) :: l) m t (by omega) (by simp)
    obtain ⟨u, h1⟩ : ∃ u, marshal.members ((k, v) :: l) = 34 :: u := by
      cases l with
      | nil => exact ⟨_, by rw [marshal.members, string]; rfl⟩
      | cons w l => exact ⟨_, by rw [marshal.members, string]; rfl; simp⟩
    have hs : skip (marshal.members ((k, v) :: l) ++ 125 :: t) = marshal.members ((k, v) :: l) ++ 125 :: t := by rw [h1]; exact skip_of _ _ (by decide)
    simp only
    rw [hs]
    split
    · rename_i heq
      rw [h1] at heq
      simp at heq
    · rw [ih]; rfl
termination_by v => sizeOf v

theorem elements_marshal : ∀ (l : List Value) (n : Nat) (t : Str), 2 * (marshal.elems l).length + 1 ≤ n → l ≠ [] →
    elements n (marshal.elems l ++ 93 :: t) = some (meaning.elems l, t)
  | [], n, t, hn, hl => absurd rfl hl
  | [v], n, t, hn, hl => by
    obtain ⟨m, rfl⟩ : ∃ m, n = m + 1 := ⟨n - 1, by omega⟩
    rw [marshal.elems] at hn ⊢
    rw [elements, value_marshal v m (93 :: t) (by omega) (by intro c s h; cases h; decide)]
    rfl
  | v :: w :: l, n, t, hn, hl => by
    obtain ⟨m, rfl⟩ : ∃ m, n = m + 1 := ⟨n - 1, by omega⟩
    rw [marshal.elems] at hn ⊢
    · simp only [List.length_append, List.length_cons, List.length_nil] at hn
      have ih := elements_marshal (w :: l) m t (by omega) (by simp)
      rw [List.append_assoc, List.append_assoc, elements, value_marshal v m _ (by omega) (by intro c s h; cases h; decide)]
      simp only [List.cons_append, List.nil_append]
      rw [skip_of _ _ (by decide)]
      simp only [ih]
      rfl
    · simp
    · simp
termination_by l => sizeOf l

theorem members_marshal : ∀ (l : List (Str × Value)) (n : Nat) (t : Str), 2 * (marshal.members l).length + 1 ≤ n → l ≠ [] →
    members n (marshal.members l ++ 125 :: t) = some (meaning.mems l, t)
  | [], n, t, hn, hl => absurd rfl hl
  | [(k, v)], n, t, hn, hl => by
    obtain ⟨m, rfl⟩ : ∃ m, n = m + 1 := ⟨n - 1, by omega⟩
    rw [marshal.members] at hn ⊢
    simp only [List.length_append, List.length_cons, List.length_nil] at hn
    have iv := value_marshal v m (125 :: t) (by omega) (by intro c s h; cases h; decide)
    rw [show string k ++ b!":" ++ marshal v ++ 125 :: t = 34 :: (body k ++ 34 :: 58 :: (marshal v ++ 125 :: t)) by simp [string], members, skip_of _ _ (by decide)]
    simp only [chars_body]
    rw [skip_of _ _ (by decide)]
    simp only [iv]
    rfl
  | (k, v) :: w :: l, n, t, hn, hl => by
    obtain ⟨m, rfl⟩ : ∃ m, n = m + 1 := ⟨n - 1, by omega⟩
    rw [marshal.members] at hn ⊢
    · simp only [List.length_append, List.length_cons, List.length_nil] at hn
      have ih := members_marshal (w :: l) m t (by omega) (by simp)
      have iv := value_marshal v m (44 :: (marshal.members (w :: l) ++ 125 :: t)) (by omega) (by intro c s h; cases h; decide)
      rw [show string k ++ b!":" ++ marshal v ++ b!"," ++ marshal.members (w :: l) ++ 125 :: t =
        34 :: (body k ++ 34 :: 58 :: (marshal v ++ 44 :: (marshal.members (w :: l) ++ 125 :: t))) by simp [string], members, skip_of _ _ (by decide)]
      simp only [chars_body]
      rw [skip_of _ _ (by decide)]
      simp only [iv]
      rw [skip_of _ _ (by decide)]
      simp only [ih]
      rfl
    · simp
    · simp
termination_by l => sizeOf l
end

/-- More fuel does not change the result. -/
theorem value_mono1 (n : Nat) : (∀ s r, value n s = some r → value (n + 1) s = some r) ∧ (∀ s r, elements n s = some r → elements (n + 1) s = some r) ∧
    ∀ s r, members n s = some r → members (n + 1) s = some r := by
  induction n with
  | zero => exact ⟨fun s r h => by simp [value] at h, fun s r h => by simp [elements] at h, fun s r h => by simp [members] at h⟩
  | succ n ih =>
    obtain ⟨i1, i2, i3⟩ := ih
    refine ⟨fun s r h => ?_, fun s r h => ?_, fun s r h => ?_⟩
    · rw [value] at h ⊢
      generalize skip s = u at *
      split at h <;> try exact h
      · rename_i t
        split at h
        · exact h
        · rename_i hne
          obtain ⟨x, hx, rfl⟩ := Option.map_eq_some_iff.1 h
          rw [i2 _ _ hx]
          rfl
      · rename_i t
        split at h
        · exact h
        · rename_i hne
          obtain ⟨x, hx, rfl⟩ := Option.map_eq_some_iff.1 h
          rw [i3 _ _ hx]
          rfl
    · rw [elements] at h ⊢
      split at h
      · simp at h
      · rename_i v t hv
        rw [i1 _ _ hv]
        simp only
        split at h
        · rename_i t' _
          obtain ⟨x, hx, rfl⟩ := Option.map_eq_some_iff.1 h
          rw [i2 _ _ hx]
          rfl
        · exact h
        · simp at h
    · rw [members] at h ⊢
      split at h
      · split at h
        · simp at h
        · rename_i t k t' hc
          try simp only [hc]
          split at h
          · split at h
            · simp at h
            · rename_i v t2 hv
              rw [i1 _ _ hv]
              simp only
              split at h
              · obtain ⟨x, hx, rfl⟩ := Option.map_eq_some_iff.1 h
                rw [i3 _ _ hx]
                rfl
              · exact h
              · simp at h
          · simp at h
      · simp at h

theorem value_mono (n m : Nat) (h : n ≤ m) (s : Str) (r : Json × Str) (hv : value n s = some r) : value m s = some r := by
  induction m with
  | zero => rwa [Nat.le_zero.1 h] at hv
  | succ m ih =>
    by_cases hn : n = m + 1
    · rwa [hn] at hv
    · exact (value_mono1 m).1 _ _ (ih (by omega))

/-! ## UTF-8 -/

theorem utf8_nil : IsUtf8 [] := ⟨[], by simp, rfl⟩

theorem utf8_append {a b : Str} (ha : IsUtf8 a) (hb : IsUtf8 b) : IsUtf8 (a ++ b) := by
  obtain ⟨x, hx, rfl⟩ := ha
  obtain ⟨y, hy, rfl⟩ := hb
  exact ⟨x ++ y, by intro r hr; rcases List.mem_append.1 hr with h | h; exact hx r h; exact hy r h, by simp⟩

theorem utf8_ascii {a : Str} (h : ∀ c ∈ a, c.toNat < 0x80) : IsUtf8 a := by
  refine ⟨a.map UInt8.toNat, ?_, ?_⟩
  · intro r hr
    obtain ⟨c, hc, rfl⟩ := List.mem_map.1 hr
    have := h c hc
    left; omega
  · induction a with
    | nil => rfl
    | cons c a ih =>
      rw [List.map_cons, List.flatMap_cons, ← ih fun c hc => h c (by simp [hc]), encode, if_pos (h c (by simp))]
      simp

theorem utf8_encode {r : Nat} (h : Scalar r) : IsUtf8 (encode r) := ⟨[r], by simpa using h, by simp⟩

theorem utf8_body (s : Str) : IsUtf8 (body s) := by
  have : ∀ n s, s.length = n → IsUtf8 (body s) := by
    intro n
    induction n using Nat.strongRecOn with
    | _ n ih =>
      intro s hs
      cases s with
      | nil => rw [body]; exact utf8_nil
      | cons b s =>
        have hw := decodeRune_width b s
        rw [body]
        have i1 := ih s.length (by simp at hs; omega) s rfl
        have i2 := ih (s.drop ((decodeRune b s).2 - 1)).length (by simp at hs ⊢; omega) _ rfl
        split
        · rename_i hb
          refine utf8_append ?_ i1
          apply utf8_ascii
          have : ∀ n, n < 0x80 → ∀ c ∈ (if safe (UInt8.ofNat n) then [UInt8.ofNat n] else escape (UInt8.ofNat n)), c.toNat < 0x80 := by decide +kernel
          have := this b.toNat hb
          rwa [show UInt8.ofNat b.toNat = b by simp] at this
        · split
          · exact utf8_append (utf8_ascii (by decide)) i1
          · rename_i hne
            obtain ⟨hsc, htk, -, -⟩ := (decode_spec b s).resolve_left hne
            split
            · refine utf8_append (utf8_append (utf8_ascii (by decide)) (utf8_ascii ?_)) i2
              have : ∀ n, n < 16 → (hexDigit n).toNat < 0x80 := by decide
              simpa using this _ (Nat.mod_lt _ (by decide))
            · rw [htk]; exact utf8_append (utf8_encode hsc) i2
  exact this _ s rfl

theorem utf8_string (s : Str) : IsUtf8 (string s) := utf8_append (utf8_append (utf8_ascii (by decide)) (utf8_body s)) (utf8_ascii (by decide))

theorem utf8_decimal (n : Nat) : IsUtf8 (decimal n) := by
  induction n using Nat.strongRecOn with
  | _ n ih =>
    have d : ∀ k, k < 10 → IsUtf8 [UInt8.ofNat (48 + k)] := fun k hk => utf8_ascii (by
      intro c hc
      rw [List.mem_singleton] at hc
      rw [hc, toNat_ofNat (by omega)]
      omega)
    rw [decimal]
    split
    · rename_i h; exact d n h
    · exact utf8_append (ih _ (by omega)) (d _ (by omega))

theorem utf8_int (i : Int64) : IsUtf8 (JsonEnc.int i) := by
  unfold JsonEnc.int
  split
  · exact utf8_append (utf8_ascii (by decide)) (utf8_decimal _)
  · exact utf8_decimal _

theorem ascii_digit {c : UInt8} (h : digit c = true) : c.toNat < 0x80 := by
  simp only [digit, Bool.and_eq_true, decide_eq_true_eq] at h
  omega

theorem utf8_float (neg sci : Bool) (d : Dec) : IsUtf8 (JsonEnc.float neg sci d) := by
  apply utf8_ascii
  have hd := fun c hc => ascii_digit (dec_digits d c hc)
  have hneg : ∀ c ∈ (if neg then b!"-" else []), c.toNat < 0x80 := by cases neg <;> simp
  unfold JsonEnc.float
  cases sci with
  | false =>
    intro c hc
    rw [if_neg (by simp)] at hc
    rcases List.mem_append.1 hc with hc | hc
    · exact hneg c hc
    · unfold fmtF at hc
      rcases List.mem_append.1 hc with hc | hc
      · split at hc
        · rcases List.mem_append.1 hc with hc | hc
          · exact hd c (List.mem_of_mem_take hc)
          · rw [List.eq_of_mem_replicate hc]; decide
        · simp at hc; rw [hc]; decide
      · split at hc
        · rw [fmtF_fraction d _ (by omega)] at hc
          simp only [List.mem_append, List.mem_singleton] at hc
          rcases hc with hc | hc | hc
          · rw [hc]; decide
          · rw [List.eq_of_mem_replicate hc]; decide
          · exact hd c (List.mem_of_mem_drop hc)
        · simp at hc
  | true =>
    rw [if_pos rfl]
    obtain ⟨c0, pre, sg, a, h1, h2, h3, -, -, -⟩ := fmtE_text d
    obtain ⟨a', g1, -, g3, -⟩ := clean_text ((if neg then b!"-" else []) ++ pre) sg a h2 h3
    rw [h1, ← List.append_assoc, g1]
    have hpre : ∀ c ∈ fmtE d, c.toNat < 0x80 := by
      obtain ⟨sg', b, e1, e2, e3, -⟩ := exponent_text (if d.ds = [] then 0 else d.dp - 1) (by have := d.low; have := d.high; split <;> omega)
      intro c hc
      unfold fmtE at hc
      rw [e1] at hc
      simp only [List.mem_append, List.mem_cons, List.not_mem_nil, or_false] at hc
      rcases hc with ((hc | hc) | hc) | hc | hc
      · split at hc
        · simp at hc; rw [hc]; decide
        · rename_i x u hx; simp at hc; rw [hc]; exact hd x (by rw [hx]; simp)
      · split at hc
        · simp only [List.mem_append, List.mem_singleton] at hc
          rcases hc with hc | hc
          · rw [hc]; decide
          · exact hd c (List.mem_of_mem_tail hc)
        · simp at hc
      · rw [hc]; decide
      · rw [hc]; cases sg' <;> decide
      · exact ascii_digit (e3 c hc)
    intro c hc
    simp only [List.mem_append, List.mem_cons] at hc
    rcases hc with (hc | hc) | hc | hc | hc
    · exact hneg c hc
    · exact hpre c (by rw [h1]; simp [hc])
    · rw [hc]; decide
    · rw [hc]; cases sg <;> decide
    · exact ascii_digit (g3 c hc)

mutual
theorem utf8_marshal : ∀ v : Value, IsUtf8 (marshal v)
  | .null => by rw [marshal]; exact utf8_ascii (by decide)
  | .bool true => by rw [marshal]; exact utf8_ascii (by decide)
  | .bool false => by rw [marshal]; exact utf8_ascii (by decide)
  | .int i => by rw [marshal]; exact utf8_int i
  | .float neg sci d => by rw [marshal]; exact utf8_float neg sci d
  | .str s => by rw [marshal]; exact utf8_string s
  | .arr l => by rw [marshal]; exact utf8_append (utf8_append (utf8_ascii (by decide)) (utf8_elems l)) (utf8_ascii (by decide))
  | .obj l => by rw [marshal]; exact utf8_append (utf8_append (utf8_ascii (by decide)) (utf8_members l)) (utf8_ascii (by decide))
termination_by v => sizeOf v
theorem utf8_elems : ∀ l : List Value, IsUtf8 (marshal.elems l)
  | [] => by rw [marshal.elems]; exact utf8_nil
  | [v] => by rw [marshal.elems]; exact utf8_marshal v
  | v :: w :: l => by
    rw [marshal.elems]
    · exact utf8_append (utf8_append (utf8_marshal v) (utf8_ascii (by decide))) (utf8_elems (w :: l))
    · simp
termination_by l => sizeOf l
theorem utf8_members : ∀ l : List (Str × Value), IsUtf8 (marshal.members l)
  | [] => by rw [marshal.members]; exact utf8_nil
  | [(k, v)] => by rw [marshal.members]; exact utf8_append (utf8_append (utf8_string k) (utf8_ascii (by decide))) (utf8_marshal v)
  | (k, v) :: w :: l => by
    rw [marshal.members]
    · exact utf8_append (utf8_append (utf8_append (utf8_append (utf8_string k) (utf8_ascii (by decide))) (utf8_marshal v)) (utf8_ascii (by decide))) (utf8_members (w :: l))
    · simp
termination_by l => sizeOf l
end

/-- Text in UTF-8 is left as it is. -/
theorem fix_utf8 {s : Str} (h : IsUtf8 s) : fixUtf8 s = s := by
  obtain ⟨rs, h, rfl⟩ := h
  induction rs with
  | nil => simp [fixUtf8]
  | cons r rs ih =>
    have hs : Scalar r := h r (by simp)
    obtain ⟨b, s, e, hd⟩ := decode_encode r hs (rs.flatMap encode)
    have hl : 1 ≤ (encode r).length := by
      unfold encode
      repeat' split
      all_goals simp only [List.length_cons]
      all_goals omega
    have hraw : (b :: s).take (decodeRune b s).2 = encode r := by rw [hd, ← e]; simp
    have hrest : s.drop ((decodeRune b s).2 - 1) = rs.flatMap encode := by
      rw [hd]
      have : (b :: s).drop (encode r).length = rs.flatMap encode := by rw [← e]; simp
      have e1 : (encode r).length = ((encode r).length - 1) + 1 := by omega
      rw [e1, List.drop_succ_cons] at this
      exact this
    rw [List.flatMap_cons, e, fixUtf8, if_neg, hraw, hrest, ih fun r hr => h r (by simp [hr]), ← e]
    intro he
    rw [hd] at he
    simp only [Prod.mk.injEq] at he
    rw [he.1] at he
    exact absurd he.2 (by decide)

/-- The result is UTF-8. -/
theorem utf8_fix (s : Str) : IsUtf8 (fixUtf8 s) := by
  have : ∀ n s, s.length = n → IsUtf8 (fixUtf8 s) := by
    intro n
    induction n using Nat.strongRecOn with
    | _ n ih =>
      intro s hs
      cases s with
      | nil => rw [fixUtf8]; exact utf8_nil
      | cons b s =>
        have hw := decodeRune_width b s
        rw [fixUtf8]
        split
        · exact utf8_append (utf8_encode (by unfold Scalar; omega)) (ih s.length (by simp at hs; omega) s rfl)
        · rename_i hne
          obtain ⟨hsc, htk, -, -⟩ := (decode_spec b s).resolve_left hne
          rw [htk]
          exact utf8_append (utf8_encode hsc) (ih (s.drop ((decodeRune b s).2 - 1)).length (by simp at hs ⊢; omega) _ rfl)
  exact this _ s rfl

/-! ## Lists written by `listWriter` -/

open Monkit.ListWriter.Spec

theorem value_space (n : Nat) (s : Str) : value n (10 :: 32 :: s) = value n s := by
  cases n with
  | zero => rfl
  | succ n => rw [value, value]; rfl

theorem elements_list (vs : List Value) (n : Nat) (t : Str) (hv : vs ≠ []) (hn : 2 * (b!",\n ".intercalate (vs.map marshal)).length + 1 ≤ n) :
    elements n (10 :: 32 :: (b!",\n ".intercalate (vs.map marshal) ++ 93 :: t)) = some (vs.map meaning, t) := by
  induction vs generalizing n with
  | nil => exact absurd rfl hv
  | cons v vs ih =>
    obtain ⟨m, rfl⟩ : ∃ m, n = m + 1 := ⟨n - 1, by omega⟩
    cases vs with
    | nil =>
      simp only [List.map_cons, List.map_nil, List.intercalate_singleton] at hn ⊢
      rw [elements, value_space, value_marshal v m (93 :: t) (by omega) (by intro c s h; cases h; decide)]
      rfl
    | cons w vs =>
      simp only [List.map_cons] at hn ih ⊢
      rw [List.intercalate_cons_cons] at hn ⊢
      simp only [List.length_append, List.length_cons, List.length_nil] at hn
      have i := ih m (by simp) (by omega)
      rw [elements, value_space, List.append_assoc, List.append_assoc, value_marshal v m _ (by omega) (by intro c s h; cases h; decide)]
      simp only [List.cons_append, List.nil_append]
      rw [skip_of _ _ (by decide)]
      simp only [i]
      rfl

/-- Reading the text of a list. -/
theorem read_document (vs : List Value) : read (document (vs.map marshal)) = some (.arr (vs.map meaning)) := by
  cases vs with
  | nil => rfl
  | cons v vs =>
    have hd : document ((v :: vs).map marshal) = 91 :: 10 :: 32 :: (b!",\n ".intercalate ((v :: vs).map marshal) ++ 93 :: [10]) := by
      simp [document, opening]
    have hl : (document ((v :: vs).map marshal)).length = (b!",\n ".intercalate ((v :: vs).map marshal)).length + 5 := by rw [hd]; simp
    have key : value (2 * (document ((v :: vs).map marshal)).length + 2) (document ((v :: vs).map marshal)) = some (.arr ((v :: vs).map meaning), [10]) := by
      rw [show 2 * (document ((v :: vs).map marshal)).length + 2 = (2 * (document ((v :: vs).map marshal)).length + 1) + 1 from rfl, value]
      have e := elements_list (v :: vs) (2 * (document ((v :: vs).map marshal)).length + 1) [10] (by simp) (by omega)
      generalize 2 * (document ((v :: vs).map marshal)).length + 1 = n at *
      rw [hd, skip_of _ _ (by decide)]
      simp only
      obtain ⟨c, u, h1, h2, h3⟩ := marshal_head v
      obtain ⟨u', h4⟩ : ∃ u', b!",\n ".intercalate ((v :: vs).map marshal) ++ 93 :: [10] = c :: u' := by
        cases vs with
        | nil => exact ⟨_, by simp [h1]; rfl⟩
        | cons w vs => exact ⟨_, by simp [h1]; rfl⟩
      split
      · rename_i heq
        rw [h4] at heq
        rw [show skip (10 :: 32 :: c :: u') = skip (c :: u') from rfl, skip_of _ _ h2] at heq
        simp only [List.cons.injEq] at heq
        exact absurd heq.1 h3
      · rw [e]; rfl
    rw [read, key]
    rfl

theorem utf8_document (vs : List Value) : IsUtf8 (document (vs.map marshal)) := by
  have hi : ∀ l : List Value, IsUtf8 (b!",\n ".intercalate (l.map marshal)) := by
    intro l
    induction l with
    | nil => simpa using utf8_nil
    | cons v l ih =>
      cases l with
      | nil => simpa using utf8_marshal v
      | cons w l =>
        simp only [List.map_cons] at ih ⊢
        rw [List.intercalate_cons_cons]
        exact utf8_append (utf8_append (utf8_marshal v) (utf8_ascii (by decide))) ih
  unfold document opening
  refine utf8_append (utf8_append (utf8_ascii (by decide)) ?_) (utf8_ascii (by decide))
  split
  · exact utf8_nil
  · exact utf8_append (utf8_ascii (by decide)) (hi vs)

end Monkit.JsonSpec
