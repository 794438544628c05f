import Verif.Spec.Times
import Verif.Proofs.Json
import Mathlib.Tactic.NormNum
import Mathlib.Tactic.Linarith

/-!
# Reading durations
-/

namespace Monkit.Times
open Go Go.DurText
open Monkit.JsonSpec (digit natOf digit_of natOf_append natOf_digit natOf_decimal digit_decimal NoDigit take_digits)
open Spec (unit fraction amounts nanoseconds)

/-- A fraction as it is written. -/
def frac (f : Str) : Str := if f = [] then [] else 46 :: f

theorem fmtFrac_true (acc : Str) (p : Nat) : ∀ (g : Str) (v : Nat), (∀ c ∈ g, digit c = true) →
    ∃ h : Str, (∀ c ∈ h, digit c = true) ∧ fmtFrac (g ++ acc) true v p = (46 :: (h ++ acc), v / 10 ^ p) ∧ h.length = g.length + p ∧
      natOf h = v % 10 ^ p * 10 ^ g.length + natOf g := by
  induction p with
  | zero => intro g v hg; exact ⟨g, hg, by simp [fmtFrac], by simp, by simp [Nat.mod_one]⟩
  | succ p ih =>
    intro g v hg
    have hd := digit_of (v % 10) (by omega)
    obtain ⟨h, h1, h2, h3, h4⟩ := ih (UInt8.ofNat (48 + v % 10) :: g) (v / 10) (by
      intro c hc
      rcases List.mem_cons.1 hc with rfl | hc
      · exact hd.1
      · exact hg c hc)
    refine ⟨h, h1, ?_, ?_, ?_⟩
    · rw [fmtFrac]
      simp only [Bool.true_or, if_true]
      rw [← List.cons_append, h2, Nat.div_div_eq_div_mul, ← Nat.pow_succ']
    · rw [h3, List.length_cons]; omega
    · have e : natOf (UInt8.ofNat (48 + v % 10) :: g) = v % 10 * 10 ^ g.length + natOf g := by
        have := natOf_append [UInt8.ofNat (48 + v % 10)] g
        rwa [natOf_digit (by omega)] at this
      rw [h4, e, List.length_cons, Nat.pow_succ' (n := p), Nat.mod_mul, pow_succ]
      ring

theorem fmtFrac_false (acc : Str) (p : Nat) : ∀ (v : Nat),
    ∃ f : Str, (∀ c ∈ f, digit c = true) ∧ fmtFrac acc false v p = (frac f ++ acc, v / 10 ^ p) ∧
      (natOf f : ℚ) / 10 ^ f.length = ((v % 10 ^ p : ℕ) : ℚ) / 10 ^ p := by
  induction p with
  | zero => intro v; exact ⟨[], by simp, by simp [fmtFrac, frac], by simp [natOf, Nat.mod_one]⟩
  | succ p ih =>
    intro v
    have hm : v % 10 ^ (p + 1) = v % 10 + 10 * (v / 10 % 10 ^ p) := by rw [Nat.pow_succ' (n := p), Nat.mod_mul]
    by_cases h0 : v % 10 = 0
    · obtain ⟨f, h1, h2, h3⟩ := ih (v / 10)
      refine ⟨f, h1, ?_, ?_⟩
      · rw [fmtFrac]
        simp only [h0]
        rw [show (false || (0 != 0) : Bool) = false from rfl]
        simp only [Bool.false_eq_true, if_false]
        rw [h2, Nat.div_div_eq_div_mul, ← Nat.pow_succ']
      · rw [h3, hm, h0, pow_succ]
        push_cast
        field_simp
        ring
    · have hd := digit_of (v % 10) (by omega)
      obtain ⟨h, h1, h2, h3, h4⟩ := fmtFrac_true acc p [UInt8.ofNat (48 + v % 10)] (v / 10) (by
        intro c hc; rw [List.mem_singleton.1 hc]; exact hd.1)
      refine ⟨h, h1, ?_, ?_⟩
      · rw [fmtFrac]
        have : (false || v % 10 != 0 : Bool) = true := by simpa using h0
        simp only [this, if_true]
        have hn : h ≠ [] := by intro e; rw [e] at h3; simp at h3; omega
        rw [show UInt8.ofNat (48 + v % 10) :: acc = [UInt8.ofNat (48 + v % 10)] ++ acc from rfl, h2, frac, if_neg hn, Nat.div_div_eq_div_mul,
          ← Nat.pow_succ']
        rfl
      · rw [h3, h4, hm, natOf_digit (by omega)]
        simp only [List.length_cons, List.length_nil]
        push_cast
        rw [show 0 + 1 + p = p + 1 by omega]
        ring

theorem decimal_ne (n : Nat) : JsonEnc.decimal n ≠ [] := by
  rw [JsonEnc.decimal]
  split <;> simp

/-- One amount is read. -/
theorem amounts_step (n v : Nat) (f t r : Str) (u : ℚ) (hf : ∀ c ∈ f, digit c = true) (ht : NoDigit t) (h46 : ∀ s, t ≠ 46 :: s)
    (hu : unit t = some (u, r)) :
    amounts (n + 1) (JsonEnc.decimal v ++ (frac f ++ t)) = (amounts n r).map fun x => ((v : ℚ) + natOf f / 10 ^ f.length) * u + x := by
  have hne := decimal_ne v
  have hnd : NoDigit (frac f ++ t) := by
    unfold frac
    split
    · exact ht
    · intro c s e; cases e; rfl
  obtain ⟨e1, e2⟩ := take_digits (digit_decimal v) hnd
  have hfr : fraction (frac f ++ t) = (f, t) := by
    unfold frac
    split
    · rename_i h
      rw [h, List.nil_append]
      unfold fraction
      split
      · exact absurd rfl (h46 _)
      · rfl
    · obtain ⟨e1, e2⟩ := take_digits hf ht
      rw [List.cons_append, fraction, e1, e2]
  cases hs : JsonEnc.decimal v ++ (frac f ++ t) with
  | nil => exact absurd (List.append_eq_nil_iff.1 hs).1 hne
  | cons c s =>
    rw [amounts, ← hs, e1, e2, hfr, if_neg hne, natOf_decimal]
    simp only [hu]
    intro h; cases h

theorem amounts_nil (n : Nat) : amounts n [] = some 0 := by cases n <;> rfl

theorem noDigit_cons {c : UInt8} {s : Str} (h : digit c = false) : NoDigit (c :: s) := by intro a b e; cases e; exact h

theorem divmod (u k : Nat) (hk : 0 < k) : ((u / k : ℕ) : ℚ) * k + ((u % k : ℕ) : ℚ) = u := by
  have := Nat.div_add_mod u k
  have h : ((k * (u / k) + u % k : ℕ) : ℚ) = u := by rw [this]
  push_cast at h
  linarith

/-- A digit followed by anything, after the `m` of minutes. -/
theorem unit_m (v : Nat) (t : Str) : unit (109 :: (JsonEnc.decimal v ++ t)) = some (60 * 1000000000, JsonEnc.decimal v ++ t) := by
  cases h : JsonEnc.decimal v with
  | nil => exact absurd h (decimal_ne v)
  | cons c s =>
    have hc : digit c = true := digit_decimal v c (by rw [h]; simp)
    rw [List.cons_append]
    unfold unit
    split
    · simp_all
    · simp_all
    · rename_i e; cases e; simp [digit] at hc
    · simp_all
    · rename_i e; cases e; rfl
    · simp_all
    · simp_all

theorem magnitude_read (u n : Nat) (hn : (magnitude u).length ≤ n) : amounts n (magnitude u) = some (u : ℚ) := by
  have len : ∀ v, 1 ≤ (JsonEnc.decimal v).length := fun v => by
    have := decimal_ne v
    cases h : JsonEnc.decimal v with
    | nil => exact absurd h this
    | cons => simp
  have one : ∀ (v p : Nat) (t : Str) (q : ℚ) (m : Nat), unit t = some (q, []) → NoDigit t → (∀ s, t ≠ 46 :: s) → q = 10 ^ p →
      amounts (m + 1) (fmtInt (fmtFrac t false v p).1 (fmtFrac t false v p).2) = some (v : ℚ) := by
    intro v p t q m hu hd h46 hq
    obtain ⟨f, h1, h2, h3⟩ := fmtFrac_false t p v
    rw [h2, fmtInt, amounts_step m _ f t [] q h1 hd h46 hu, amounts_nil, h3, hq]
    have := divmod v (10 ^ p) (by positivity)
    push_cast at this
    have hp : (10 : ℚ) ^ p ≠ 0 := by positivity
    simp only [Option.map_some, Option.some.injEq, add_zero]
    rw [add_mul, div_mul_cancel₀ _ hp]
    exact this
  unfold magnitude at hn ⊢
  by_cases hs : u < 1000000000
  · rw [if_pos hs] at hn ⊢
    by_cases h0 : u = 0
    · subst h0
      rw [if_pos rfl] at hn ⊢
      obtain ⟨m, rfl⟩ : ∃ m, n = m + 1 := ⟨n - 1, by simp at hn; omega⟩
      have := amounts_step m 0 [] b!"s" [] 1000000000 (by simp) (noDigit_cons rfl) (by intro s h; cases h) rfl
      rw [amounts_nil] at this
      have e : JsonEnc.decimal 0 ++ (frac [] ++ b!"s") = b!"0s" := by decide +kernel
      rw [e] at this
      rw [this]
      simp [natOf]
    · rw [if_neg h0] at hn ⊢
      obtain ⟨m, rfl⟩ : ∃ m, n = m + 1 := by
        refine ⟨n - 1, ?_⟩
        simp only [fmtInt, List.length_append] at hn
        have := len (fmtFrac (if u < 1000 then (b!"ns", 0) else if u < 1000000 then ([0xC2, 0xB5, 115], 3) else (b!"ms", 6)).1 false u
          (if u < 1000 then (b!"ns", 0) else if u < 1000000 then (([0xC2, 0xB5, 115] : Str), 3) else (b!"ms", 6)).2).2
        omega
      by_cases h1 : u < 1000
      · simp only [h1, if_true]
        exact one u 0 b!"ns" 1 m rfl (noDigit_cons rfl) (by intro s h; cases h) (by norm_num)
      · by_cases h2 : u < 1000000
        · simp only [h1, h2, if_true, if_false]
          exact one u 3 [0xC2, 0xB5, 115] 1000 m rfl (noDigit_cons rfl) (by intro s h; cases h) (by norm_num)
        · simp only [h1, h2, if_false]
          exact one u 6 b!"ms" 1000000 m rfl (noDigit_cons rfl) (by intro s h; cases h) (by norm_num)
  · rw [if_neg hs] at hn ⊢
    obtain ⟨f, h1, h2, h3⟩ := fmtFrac_false b!"s" 9 u
    simp only [h2] at hn ⊢
    have e9 : u / 10 ^ 9 = u / 1000000000 := by norm_num
    have m9 : u % 10 ^ 9 = u % 1000000000 := by norm_num
    rw [m9] at h3
    simp only [e9] at hn ⊢
    have d := divmod u 1000000000 (by norm_num)
    have d1 := divmod (u / 1000000000) 60 (by norm_num)
    have d2 := divmod (u / 1000000000 / 60) 60 (by norm_num)
    have secs : ∀ m, amounts (m + 1) (fmtInt (frac f ++ b!"s") (u / 1000000000 % 60)) =
        some (((u / 1000000000 % 60 : ℕ) : ℚ) * 1000000000 + ((u % 1000000000 : ℕ) : ℚ)) := by
      intro m
      rw [fmtInt, amounts_step m _ f b!"s" [] 1000000000 h1 (noDigit_cons rfl) (by intro s h; cases h) rfl, amounts_nil, h3]
      simp only [Option.map_some, Option.some.injEq, add_zero]
      ring
    have mins : ∀ v m, amounts (m + 2) (fmtInt (109 :: fmtInt (frac f ++ b!"s") (u / 1000000000 % 60)) v) =
        some ((v : ℚ) * (60 * 1000000000) + (((u / 1000000000 % 60 : ℕ) : ℚ) * 1000000000 + ((u % 1000000000 : ℕ) : ℚ))) := by
      intro v m
      rw [fmtInt]
      have := amounts_step (m + 1) v [] (109 :: fmtInt (frac f ++ b!"s") (u / 1000000000 % 60)) _ _ (by simp) (noDigit_cons rfl)
        (by intro s h; cases h) (unit_m _ _)
      rw [show (frac [] : Str) = [] from rfl, List.nil_append] at this
      rw [this, ← fmtInt, secs m]
      simp [natOf]
    push_cast at d d1 d2
    by_cases h4 : u / 1000000000 / 60 > 0
    · simp only [h4, if_true] at hn ⊢
      by_cases h5 : u / 1000000000 / 60 / 60 > 0
      · simp only [h5, if_true] at hn ⊢
        obtain ⟨m, rfl⟩ : ∃ m, n = m + 3 := by
          refine ⟨n - 3, ?_⟩
          simp only [fmtInt, List.length_append, List.length_cons] at hn
          have := len (u / 1000000000 / 60 / 60)
          omega
        rw [fmtInt]
        have := amounts_step (m + 2) (u / 1000000000 / 60 / 60) [] (104 :: fmtInt (109 :: fmtInt (frac f ++ b!"s") (u / 1000000000 % 60))
          (u / 1000000000 / 60 % 60)) _ _ (by simp) (noDigit_cons rfl) (by intro s h; cases h) rfl
        rw [show (frac [] : Str) = [] from rfl, List.nil_append] at this
        rw [this, mins]
        simp only [Option.map_some, Option.some.injEq, natOf, List.foldl_nil, Nat.cast_zero, List.length_nil, pow_zero, div_one, add_zero]
        linarith
      · simp only [h5, if_false] at hn ⊢
        obtain ⟨m, rfl⟩ : ∃ m, n = m + 2 := by
          refine ⟨n - 2, ?_⟩
          simp only [fmtInt, List.length_append, List.length_cons] at hn
          have := len (u / 1000000000 / 60 % 60)
          omega
        rw [mins]
        have z : u / 1000000000 / 60 / 60 = 0 := by omega
        rw [z] at d2
        simp only [Option.some.injEq]
        push_cast at d2
        linarith
    · simp only [h4, if_false] at hn ⊢
      obtain ⟨m, rfl⟩ : ∃ m, n = m + 1 := by
        refine ⟨n - 1, ?_⟩
        simp only [fmtInt, List.length_append, List.length_cons] at hn
        have := len (u / 1000000000 % 60)
        omega
      rw [secs]
      have z : u / 1000000000 / 60 = 0 := by omega
      rw [z] at d1
      simp only [Option.some.injEq]
      push_cast at d1
      linarith

/-- The bytes a duration can have. -/
def Fine (c : UInt8) : Prop := digit c = true ∨ c ∈ ([45, 46, 110, 115, 0xC2, 0xB5, 109, 104] : Str)

theorem fine_frac {f : Str} (h : ∀ c ∈ f, digit c = true) : ∀ c ∈ frac f, Fine c := by
  intro c hc
  unfold frac at hc
  split at hc
  · cases hc
  · rcases List.mem_cons.1 hc with rfl | hc
    · exact .inr (by decide)
    · exact .inl (h c hc)

theorem fine_int {t : Str} (v : Nat) (h : ∀ c ∈ t, Fine c) : ∀ c ∈ fmtInt t v, Fine c := by
  intro c hc
  rcases List.mem_append.1 hc with hc | hc
  · exact .inl (digit_decimal v c hc)
  · exact h c hc

theorem fine_cons {t : Str} (b : UInt8) (hb : b ∈ ([45, 46, 110, 115, 0xC2, 0xB5, 109, 104] : Str)) (h : ∀ c ∈ t, Fine c) : ∀ c ∈ b :: t, Fine c := by
  intro c hc
  rcases List.mem_cons.1 hc with rfl | hc
  · exact .inr hb
  · exact h c hc

theorem fine_fmtFrac {t : Str} (v p : Nat) (h : ∀ c ∈ t, Fine c) : ∀ c ∈ (fmtFrac t false v p).1, Fine c := by
  obtain ⟨f, h1, h2, -⟩ := fmtFrac_false t p v
  rw [h2]
  intro c hc
  rcases List.mem_append.1 hc with hc | hc
  · exact fine_frac h1 c hc
  · exact h c hc

theorem fine_nil : ∀ c ∈ ([] : Str), Fine c := by intro c hc; cases hc

theorem magnitude_fine (u : Nat) : ∀ c ∈ magnitude u, Fine c := by
  have hs := fine_cons 115 (by decide) fine_nil
  unfold magnitude
  split
  · split
    · intro c hc
      revert c
      unfold Fine
      decide +kernel
    · by_cases h1 : u < 1000
      · simp only [h1, if_true]
        exact fine_int _ (fine_fmtFrac _ _ (fine_cons 110 (by decide) hs))
      · by_cases h2 : u < 1000000
        · simp only [h1, h2, if_true, if_false]
          exact fine_int _ (fine_fmtFrac _ _ (fine_cons 0xC2 (by decide) (fine_cons 0xB5 (by decide) hs)))
        · simp only [h1, h2, if_false]
          exact fine_int _ (fine_fmtFrac _ _ (fine_cons 109 (by decide) hs))
  · have h1 := fine_int ((fmtFrac b!"s" false u 9).2 % 60) (fine_fmtFrac u 9 hs)
    dsimp only
    split
    · have h2 := fine_int ((fmtFrac b!"s" false u 9).2 / 60 % 60) (fine_cons 109 (by decide) h1)
      split
      · exact fine_int _ (fine_cons 104 (by decide) h2)
      · exact h2
    · exact h1

theorem head_int (t : Str) (v : Nat) : ∃ c s, fmtInt t v = c :: s ∧ digit c = true := by
  cases h : JsonEnc.decimal v with
  | nil => exact absurd h (decimal_ne v)
  | cons c s => exact ⟨c, s ++ t, by rw [fmtInt, h]; rfl, digit_decimal v c (by rw [h]; simp)⟩

theorem magnitude_head (u : Nat) : ∃ c s, magnitude u = c :: s ∧ digit c = true := by
  unfold magnitude
  split
  · split
    · exact ⟨48, [115], rfl, rfl⟩
    · exact head_int _ _
  · dsimp only
    split
    · split
      · exact head_int _ _
      · exact head_int _ _
    · exact head_int _ _

theorem nanoseconds_duration (d : Int64) : nanoseconds (duration d) = some (d.toInt : ℚ) := by
  unfold duration
  split
  · rename_i h
    have hz : d.toInt < 0 := by simpa using Int64.lt_iff_toInt_lt.1 h
    rw [nanoseconds, magnitude_read _ _ (le_refl _)]
    have : ((d.toInt.natAbs : ℤ) : ℚ) = ((-d.toInt : ℤ) : ℚ) := by congr 1; omega
    simp only [Option.map_some, Option.some.injEq]
    rw [show ((d.toInt.natAbs : ℕ) : ℚ) = ((d.toInt.natAbs : ℤ) : ℚ) by push_cast; simp, this]
    push_cast
    ring
  · rename_i h
    have hz : 0 ≤ d.toInt := by
      have := fun x => h (Int64.lt_iff_toInt_lt.2 x)
      simpa using this
    have hr := magnitude_read d.toInt.natAbs _ (le_refl _)
    obtain ⟨c, s, hc, hd⟩ := magnitude_head d.toInt.natAbs
    have : nanoseconds (magnitude d.toInt.natAbs) = amounts (magnitude d.toInt.natAbs).length (magnitude d.toInt.natAbs) := by
      rw [hc]
      unfold nanoseconds
      split
      · rename_i e; cases e; cases hd
      · rfl
    rw [this, hr]
    have : ((d.toInt.natAbs : ℤ) : ℚ) = ((d.toInt : ℤ) : ℚ) := by congr 1; omega
    rw [← this]; simp

theorem duration_inj {d e : Int64} (h : duration d = duration e) : d = e := by
  have := nanoseconds_duration d
  rw [h, nanoseconds_duration e] at this
  simp only [Option.some.injEq] at this
  exact Int64.toInt_inj.1 (by exact_mod_cast this.symm)

theorem duration_fine (d : Int64) : ∀ c ∈ duration d, Fine c := by
  unfold duration
  split
  · exact fine_cons 45 (by decide) (magnitude_fine _)
  · exact magnitude_fine _

theorem fine_ne {c : UInt8} (h : Fine c) : c ≠ 10 ∧ c ≠ 40 ∧ c ≠ 41 ∧ c ≠ 44 := by
  rcases h with h | h
  · refine ⟨?_, ?_, ?_, ?_⟩ <;> (rintro rfl; cases h)
  · refine ⟨?_, ?_, ?_, ?_⟩ <;> (rintro rfl; revert h; decide)

/-- One line is read. -/
theorem line_split {i l : Str} {d e : Int64} {t t' : Str} (h : line i l d ++ t = line i l e ++ t') : d = e ∧ t = t' := by
  unfold line at h
  simp only [List.append_assoc, List.append_cancel_left_eq] at h
  have key : ∀ (a b : Str), 10 ∉ a → 10 ∉ b → a ++ 10 :: t = b ++ 10 :: t' → a = b ∧ t = t' := by
    intro a
    induction a with
    | nil =>
      intro b _ hb h
      cases b with
      | nil => exact ⟨rfl, (List.cons.inj h).2⟩
      | cons c b => exact absurd (List.cons.inj h).1 (fun e => hb (by rw [e]; simp))
    | cons a as ih =>
      intro b ha hb h
      cases b with
      | nil => exact absurd (List.cons.inj h).1 (fun e => ha (by rw [e]; simp))
      | cons c b =>
        obtain ⟨h1, h2⟩ := List.cons.inj h
        obtain ⟨h3, h4⟩ := ih b (fun h => ha (List.mem_cons_of_mem _ h)) (fun h => hb (List.mem_cons_of_mem _ h)) h2
        exact ⟨by rw [h1, h3], h4⟩
  have no : ∀ d, 10 ∉ duration d := fun d h => (fine_ne (duration_fine d _ h)).1 rfl
  obtain ⟨h1, h2⟩ := key _ _ (no d) (no e) h
  exact ⟨duration_inj h1, h2⟩

/-- The text of the times, with the values in a list. -/
theorem formatDist_eq (t : TimesView) (indent : Str) :
    formatDist t indent = (Spec.labels.zip ((Spec.shown t).map duration)).flatMap fun x => indent ++ x.1 ++ b!": " ++ x.2 ++ b!"\n" := by
  have hq : JsonDocs.observedQuantiles.map JsonDocs.quantileName =
      [b!"0.00", b!"0.10", b!"0.25", b!"0.50", b!"0.75", b!"0.90", b!"0.95", b!"1.00"] := by decide +kernel
  simp only [JsonDocs.observedQuantiles, List.map_cons, List.map_nil, List.cons.injEq, and_true] at hq
  obtain ⟨h1, h2, h3, h4, h5, h6, h7, h8⟩ := hq
  simp only [formatDist, JsonDocs.observedQuantiles, List.flatMap_cons, List.flatMap_nil, h1, h2, h3, h4, h5, h6, h7, h8, Spec.shown, Spec.labels,
    List.map_cons, List.map_nil, List.zip_cons_cons, List.zip_nil_left, line, List.append_nil, List.append_assoc]

theorem indented (t : TimesView) : TextRead.Spec.Indented (formatDist t b!"    ") := by
  refine ⟨(Spec.labels.zip ((Spec.shown t).map duration)).map fun x => x.1 ++ b!": " ++ x.2, ?_, ?_⟩
  · intro l hl
    obtain ⟨x, hx, rfl⟩ := List.mem_map.1 hl
    have h1 : x.1 ∈ Spec.labels := (List.of_mem_zip (a := x.1) (b := x.2) hx).1
    have h2 : x.2 ∈ (Spec.shown t).map duration := (List.of_mem_zip (a := x.1) (b := x.2) hx).2
    obtain ⟨d, -, hd⟩ := List.mem_map.1 h2
    have e1 : 10 ∉ x.1 := by
      have : ∀ l ∈ Spec.labels, (10 : UInt8) ∉ l := by decide +kernel
      exact this _ h1
    have e2 : 10 ∉ x.2 := by rw [← hd]; exact fun h => (fine_ne (duration_fine d _ h)).1 rfl
    simp [e1, e2]
  · rw [formatDist_eq, List.flatMap_map]
    simp only [List.append_assoc]

end Monkit.Times
