import Verif.Spec.Args
import Verif.Proofs.Json

/-!
# Lemmas for C110: what `Quote` and `hex` write can be read
-/

namespace Monkit.ArgSpec
open Go Go.Utf8 Go.Quote Monkit.Args
open Monkit.JsonSpec (hex decode_spec)
open Go.JsonEnc (hexDigit)

theorem hex_digit (n : Nat) (h : n < 16) : hex (hexDigit n) = some n := by
  have : ∀ n, n < 16 → hex (hexDigit n) = some n := by decide +kernel
  exact this n h

theorem hexDigits_length (k r : Nat) : (hexDigits k r).length = k := by
  induction k generalizing r with
  | zero => rfl
  | succ k ih => simp [hexDigits, ih]

theorem value_append (m : Nat) (a b : Str) : value m (a ++ b) = (value m a).bind fun n => value n b := by
  induction a generalizing m with
  | nil => rfl
  | cons c a ih =>
    rw [List.cons_append, value, value]
    cases hex c with
    | none => rfl
    | some d => exact ih _

theorem value_hexDigits (k r m : Nat) (h : r < 16 ^ k) : value m (hexDigits k r) = some (m * 16 ^ k + r) := by
  induction k generalizing r m with
  | zero => rw [hexDigits, value]; congr 1; omega
  | succ k ih =>
    have hr : r / 16 < 16 ^ k := by rw [Nat.div_lt_iff_lt_mul (by decide)]; rw [Nat.pow_succ] at h; omega
    rw [hexDigits, value_append, ih _ _ hr, Option.bind_some, value, hex_digit _ (Nat.mod_lt _ (by decide))]
    simp only [value]
    congr 1
    rw [Nat.pow_succ, ← Nat.mul_assoc, Nat.add_mul]
    omega

theorem hexDigits_two (n : Nat) (h : n < 256) : ∃ a b, hexDigits 2 n = [a, b] ∧ byte a b = some [UInt8.ofNat n] := by
  refine ⟨_, _, rfl, ?_⟩
  have := value_hexDigits 2 n 0 (by omega)
  unfold byte
  change value 0 [hexDigit (n / 16 % 16), hexDigit (n % 16)] = _ at this
  rw [this]
  simp

theorem rune_hexDigits (k r : Nat) (h : r < 16 ^ k) (hs : Scalar r) : rune (hexDigits k r) = some (encode r) := by
  unfold rune
  rw [value_hexDigits k r 0 h]
  simp only [Option.bind_some, Nat.zero_mul, Nat.zero_add]
  exact if_pos hs

theorem chars_quote (t : Str) : chars (34 :: t) = some ([], t) := by rw [chars.eq_def]; rfl

theorem chars_raw (c : UInt8) (t : Str) (h1 : c ≠ 34) (h2 : c ≠ 92) (h3 : c ≠ 10) : chars (c :: t) = (chars t).map fun r => (c :: r.1, r.2) := by
  rw [chars.eq_def]
  simp only
  rw [if_neg h1, if_neg h2, if_neg h3]

theorem chars_x (a b : UInt8) (x t : Str) (h : byte a b = some x) : chars (92 :: 120 :: a :: b :: t) = (chars t).map fun r => (x ++ r.1, r.2) := by
  rw [chars.eq_def]
  simp only
  rw [if_neg (by decide), if_pos trivial]
  simp only [h]

theorem chars_u (a b c d : UInt8) (x t : Str) (h : rune [a, b, c, d] = some x) : chars (92 :: 117 :: a :: b :: c :: d :: t) = (chars t).map fun r => (x ++ r.1, r.2) := by
  rw [chars.eq_def]
  simp only
  rw [if_neg (by decide), if_pos trivial]
  simp only [h]

theorem chars_U (a b c d e f g i : UInt8) (x t : Str) (h : rune [a, b, c, d, e, f, g, i] = some x) :
    chars (92 :: 85 :: a :: b :: c :: d :: e :: f :: g :: i :: t) = (chars t).map fun r => (x ++ r.1, r.2) := by
  rw [chars.eq_def]
  simp only
  rw [if_neg (by decide), if_pos trivial]
  simp only [h]

theorem chars_simple (e x : UInt8) (t : Str) (h0 : e ≠ 120) (h1 : e ≠ 117) (h2 : e ≠ 85) (h : simple e = some x) :
    chars (92 :: e :: t) = (chars t).map fun r => (x :: r.1, r.2) := by
  rw [chars.eq_def]
  simp only
  rw [if_neg (by decide), if_pos trivial]
  split
  · rename_i heq; simp at heq; exact absurd heq.1 h0
  · rename_i heq; simp at heq; exact absurd heq.1 h1
  · rename_i heq; simp at heq; exact absurd heq.1 h2
  · rename_i heq; simp only [List.cons.injEq] at heq; rw [← heq.1, ← heq.2, h]
  · rename_i heq; simp at heq

theorem chars_high (x t : Str) (h : ∀ c ∈ x, 0x80 ≤ c.toNat) : chars (x ++ t) = (chars t).map fun r => (x ++ r.1, r.2) := by
  induction x with
  | nil => simp
  | cons c x ih =>
    have hc := h c (by simp)
    have n1 : c ≠ 34 := by rintro rfl; simp at hc
    have n2 : c ≠ 92 := by rintro rfl; simp at hc
    have n3 : c ≠ 10 := by rintro rfl; simp at hc
    rw [List.cons_append, chars_raw c _ n1 n2 n3, ih fun c hc => h c (by simp [hc])]
    simp [Function.comp_def]

/-- The bytes of a character outside ASCII. -/
theorem encode_high (r : Nat) (hr : Scalar r) (h : 0x80 ≤ r) : ∀ c ∈ encode r, 0x80 ≤ c.toNat := by
  obtain ⟨b, s, e, hd⟩ := decode_encode r hr []
  rw [List.append_nil] at e
  have hne : decodeRune b s ≠ (runeError, 1) := by
    rw [hd]; intro hc
    rw [Prod.mk.injEq] at hc
    rw [hc.1] at hc
    exact absurd hc.2 (by decide)
  obtain ⟨-, -, h3, h4⟩ := (decode_spec b s).resolve_left hne
  rw [hd] at h3 h4
  by_cases hb : b.toNat < 0x80
  · have := h3 hb
    simp only [Prod.mk.injEq] at this
    omega
  · exact h4 (by omega)

theorem chars_escape (wide : Nat → Bool) (r : Nat) (hr : Scalar r) (t : Str) :
    chars (escapeRune wide r ++ t) = (chars t).map fun x => (encode r ++ x.1, x.2) := by
  have e1 : ∀ n : Nat, n < 0x80 → encode n = [UInt8.ofNat n] := by
    intro n hn; unfold encode; rw [if_pos hn]
  unfold escapeRune
  split
  · rename_i h
    rcases h with rfl | rfl <;> exact chars_simple _ _ t (by decide) (by decide) (by decide) (by decide)
  · rename_i hq
    split
    · rename_i hp
      by_cases hlt : r < 0x80
      · rw [e1 r hlt]
        have hn : r ≠ 10 := by rintro rfl; simp [isPrint] at hp
        have inj : ∀ k, k < 256 → UInt8.ofNat r = UInt8.ofNat k → r = k := by
          intro k hk he
          have := congrArg UInt8.toNat he
          rw [toNat_ofNat (by omega), toNat_ofNat hk] at this
          exact this
        refine chars_raw _ t ?_ ?_ ?_
        · intro h; exact hq (.inl (inj 34 (by decide) h))
        · intro h; exact hq (.inr (inj 92 (by decide) h))
        · intro h; exact hn (inj 10 (by decide) h)
      · exact chars_high _ t (encode_high r hr (by omega))
    · split
      · subst r; exact chars_simple _ _ t (by decide) (by decide) (by decide) (by decide)
      split
      · subst r; exact chars_simple _ _ t (by decide) (by decide) (by decide) (by decide)
      split
      · subst r; exact chars_simple _ _ t (by decide) (by decide) (by decide) (by decide)
      split
      · subst r; exact chars_simple _ _ t (by decide) (by decide) (by decide) (by decide)
      split
      · subst r; exact chars_simple _ _ t (by decide) (by decide) (by decide) (by decide)
      split
      · subst r; exact chars_simple _ _ t (by decide) (by decide) (by decide) (by decide)
      split
      · subst r; exact chars_simple _ _ t (by decide) (by decide) (by decide) (by decide)
      split
      · obtain ⟨a, b, he, hb⟩ := hexDigits_two r (by omega)
        rw [he, e1 r (by omega)]
        exact chars_x a b _ t hb
      split
      · have h := rune_hexDigits 4 r (by omega) hr
        exact chars_u _ _ _ _ _ t h
      · have h := rune_hexDigits 8 r (by unfold Scalar at hr; omega) hr
        exact chars_U _ _ _ _ _ _ _ _ _ t h

/-- What `Quote` writes is read as the string it was given. -/
theorem chars_body (wide : Nat → Bool) (s t : Str) : chars (body wide s ++ 34 :: t) = some (s, t) := by
  have : ∀ n s, s.length = n → chars (body wide s ++ 34 :: t) = some (s, t) := by
    intro n
    induction n using Nat.strongRecOn with
    | _ n ih =>
      intro s hs
      cases s with
      | nil => simp [body, chars_quote]
      | cons b s =>
        have hw := decodeRune_width b s
        rw [body]
        split
        · obtain ⟨x, y, he, hb⟩ := hexDigits_two b.toNat b.toNat_lt
          rw [he]
          have : UInt8.ofNat b.toNat = b := by simp
          rw [this] at hb
          rw [show b!"\\x" ++ [x, y] ++ body wide s ++ 34 :: t = 92 :: 120 :: x :: y :: (body wide s ++ 34 :: t) from rfl, chars_x x y _ _ hb,
            ih s.length (by simp at hs; omega) s rfl]
          rfl
        · rename_i hne
          obtain ⟨hsc, htk, -, -⟩ := (decode_spec b s).resolve_left hne
          rw [List.append_assoc, chars_escape wide _ hsc, ih (s.drop ((decodeRune b s).2 - 1)).length (by simp at hs ⊢; omega) _ rfl]
          simp only [Option.map_some, ← htk]
          congr 2
          have : (b :: s).drop (decodeRune b s).2 = s.drop ((decodeRune b s).2 - 1) := by
            obtain ⟨k, hk⟩ : ∃ k, (decodeRune b s).2 = k + 1 := ⟨(decodeRune b s).2 - 1, by omega⟩
            rw [hk]; rfl
          rw [← this, List.take_append_drop]
  exact this _ s rfl

theorem hexDigit_ne (n : Nat) (h : n < 16) : hexDigit n ≠ 41 := by
  have : ∀ n, n < 16 → hexDigit n ≠ 41 := by decide +kernel
  exact this n h

theorem pairs_hex (b t : Str) : pairs (hexString b ++ 41 :: t) = some (b, t) := by
  induction b with
  | nil => rw [hexString, List.nil_append, pairs]
  | cons c b ih =>
    obtain ⟨x, y, he, hb⟩ := hexDigits_two c.toNat c.toNat_lt
    have hx : x ≠ 41 := by
      have : x = hexDigit (c.toNat / 16 % 16) := by
        have : hexDigits 2 c.toNat = [hexDigit (c.toNat / 16 % 16), hexDigit (c.toNat % 16)] := rfl
        rw [this] at he
        simp only [List.cons.injEq] at he
        exact he.1.symm
      rw [this]
      exact hexDigit_ne _ (Nat.mod_lt _ (by decide))
    rw [hexString, he]
    show pairs (x :: y :: (hexString b ++ 41 :: t)) = _
    rw [pairs.eq_def]
    split
    · rename_i heq; simp at heq; exact absurd heq.1 hx
    · rename_i heq
      simp only [List.cons.injEq] at heq
      obtain ⟨rfl, rfl, rfl⟩ := heq
      rw [hb]
      simp only
      rw [ih]
      simp
    · rename_i h1 h2; exact absurd rfl (h2 _ _ _)

theorem elem_str (wide : Nat → Bool) (s t : Str) : elem (quote wide s ++ t) = some (.str s, t) := by
  show elem (34 :: (body wide s ++ [34] ++ t)) = _
  rw [elem, List.append_assoc]
  show (chars (body wide s ++ 34 :: t)).map _ = _
  rw [chars_body]; rfl

theorem elem_bytes (b t : Str) : elem (bytesText b ++ t) = some (.bytes b, t) := by
  show elem (91 :: 93 :: 117 :: 105 :: 110 :: 116 :: 56 :: 40 :: 48 :: 120 :: (hexString b ++ [41] ++ t)) = _
  rw [elem, List.append_assoc]
  show (pairs (hexString b ++ 41 :: t)).map _ = _
  rw [pairs_hex]; rfl

theorem elem_text (wide : Nat → Bool) (e : Elem) (he : (∃ s, e = .str s) ∨ ∃ b, e = .bytes b) (t : Str) : elem (elemText wide e ++ t) = some (e, t) := by
  rcases he with ⟨s, rfl⟩ | ⟨b, rfl⟩
  · exact elem_str wide s t
  · exact elem_bytes b t

theorem elems_text (wide : Nat → Bool) (l : List Elem) (hl : ∀ e ∈ l, (∃ s, e = .str s) ∨ ∃ b, e = .bytes b) (e : Elem) (he : (∃ s, e = .str s) ∨ ∃ b, e = .bytes b)
    (t : Str) (n : Nat) (hn : l.length < n) (i : Nat) : elems n (elemText wide e ++ elemsText wide (i + 1) l ++ b!"}" ++ t) = some (e :: l, t) := by
  induction l generalizing e n i with
  | nil =>
    obtain ⟨n, rfl⟩ : ∃ k, n = k + 1 := ⟨n - 1, by omega⟩
    rw [elemsText, List.append_nil, List.append_assoc, elems, elem_text wide e he]
    rfl
  | cons f l ih =>
    obtain ⟨n, rfl⟩ : ∃ k, n = k + 1 := ⟨n - 1, by omega⟩
    rw [elemsText, if_pos (by omega), List.append_assoc, List.append_assoc, elems, elem_text wide e he]
    show (elems n _).map _ = _
    have := ih (fun e h => hl e (by simp [h])) f (hl f (by simp)) n (by simp at hn; omega) (i + 1)
    change (elems n (([] ++ elemText wide f ++ elemsText wide (i + 1 + 1) l) ++ (b!"}" ++ t))).map _ = _
    simp only [List.append_assoc, List.nil_append] at this ⊢
    rw [this]; rfl

theorem elemText_ne (wide : Nat → Bool) (e : Elem) (he : (∃ s, e = .str s) ∨ ∃ b, e = .bytes b) (t : Str) : ∃ c s, elemText wide e ++ t = c :: s ∧ (c = 34 ∨ c = 91) := by
  rcases he with ⟨s, rfl⟩ | ⟨b, rfl⟩
  · exact ⟨_, _, rfl, .inl rfl⟩
  · exact ⟨_, _, rfl, .inr rfl⟩

theorem elemsText_length (wide : Nat → Bool) (l : List Elem) (i : Nat) : l.length ≤ (elemsText wide (i + 1) l).length := by
  induction l generalizing i with
  | nil => simp
  | cons e l ih =>
    rw [elemsText, if_pos (by omega)]
    have := ih (i + 1)
    simp only [List.length_append, List.length_cons, List.length_nil]
    omega

theorem arg_elem (c : UInt8) (t : Str) (hc : c ≠ 123) : arg (c :: t) = match elem (c :: t) with
    | some (.str x, t) => some (.str x, t)
    | some (.bytes x, t) => some (.bytes x, t)
    | _ => none := by
  unfold arg
  split
  · rename_i heq; simp at heq; exact absurd heq.1 hc
  · rename_i heq; simp at heq; exact absurd heq.1 hc
  · rfl

theorem arg_text (wide : Nat → Bool) (a : Arg) (h : Plain a) (t : Str) : arg (argText wide a ++ t) = some (a, t) := by
  cases a with
  | str s =>
    rw [show argText wide (.str s) ++ t = 34 :: (body wide s ++ [34] ++ t) from rfl, arg_elem _ _ (by decide)]
    have := elem_str wide s t
    change elem (34 :: (body wide s ++ [34] ++ t)) = _ at this
    rw [this]
  | bytes b =>
    rw [show argText wide (.bytes b) ++ t = 91 :: (b!"]uint8(0x" ++ hexString b ++ b!")" ++ t) from rfl, arg_elem _ _ (by decide)]
    have := elem_bytes b t
    change elem (91 :: (b!"]uint8(0x" ++ hexString b ++ b!")" ++ t)) = _ at this
    rw [this]
  | list l =>
    cases l with
    | nil => rfl
    | cons e l =>
      have he := h e (by simp)
      have hl : ∀ e ∈ l, (∃ s, e = .str s) ∨ ∃ b, e = .bytes b := fun e h' => h e (by simp [h'])
      obtain ⟨c, s, hc, hc'⟩ := elemText_ne wide e he (elemsText wide (0 + 1) l ++ b!"}" ++ t)
      have e1 : argText wide (.list (e :: l)) ++ t = 123 :: c :: s := by
        rw [← hc]
        simp only [argText, elemsText, Nat.lt_irrefl, if_false, gt_iff_lt, List.nil_append, List.append_assoc]
        rfl
      rw [e1]
      unfold arg
      split
      · rename_i heq; simp at heq; rcases hc' with rfl | rfl <;> simp at heq
      · rename_i heq
        simp only [List.cons.injEq, true_and] at heq
        rw [← heq, ← hc]
        have := elems_text wide l hl e he t (123 :: (elemText wide e ++ (elemsText wide (0 + 1) l ++ b!"}" ++ t))).length (by
          have := elemsText_length wide l 0
          simp only [List.length_cons, List.length_append]
          omega) 0
        simp only [List.append_assoc] at this ⊢
        rw [this]; rfl
      · rename_i h1; exact absurd rfl (h1 _)
  | time t => exact absurd h id
  | other t => exact absurd h id

theorem argText_ne (wide : Nat → Bool) (a : Arg) (h : Plain a) : argText wide a ≠ [] := by
  cases a with
  | str s => simp [argText, quote]
  | bytes b => simp [argText, bytesText]
  | list l => simp [argText]
  | time t => exact absurd h id
  | other t => exact absurd h id

/-! ## One line -/

theorem oneLine_append {a b : Str} (ha : OneLine a) (hb : OneLine b) : OneLine (a ++ b) := by
  intro c hc
  rcases List.mem_append.1 hc with h | h
  · exact ha c h
  · exact hb c h

theorem oneLine_hexDigits (k r : Nat) : OneLine (hexDigits k r) := by
  induction k generalizing r with
  | zero => intro c hc; simp [hexDigits] at hc
  | succ k ih =>
    refine oneLine_append (ih _) ?_
    intro c hc
    rw [List.mem_singleton] at hc
    have : ∀ n, n < 16 → 0x20 ≤ (hexDigit n).toNat ∧ (hexDigit n).toNat ≠ 0x7F := by decide +kernel
    rw [hc]; exact this _ (Nat.mod_lt _ (by decide))

theorem oneLine_escape (wide : Nat → Bool) (r : Nat) (hr : Scalar r) : OneLine (escapeRune wide r) := by
  unfold escapeRune
  split
  · rename_i h; rcases h with rfl | rfl <;> (unfold OneLine; decide)
  split
  · rename_i hp
    by_cases hlt : r < 0x80
    · intro c hc
      unfold encode at hc
      rw [if_pos hlt, List.mem_singleton] at hc
      rw [hc, toNat_ofNat (by omega)]
      unfold isPrint at hp
      rw [if_pos (by omega)] at hp
      simp at hp
      omega
    · intro c hc
      have h := encode_high r hr (by omega) c hc
      omega
  repeat (split; · (unfold OneLine; decide))
  split
  · exact oneLine_append (by unfold OneLine; decide) (oneLine_hexDigits _ _)
  split
  · exact oneLine_append (by unfold OneLine; decide) (oneLine_hexDigits _ _)
  · exact oneLine_append (by unfold OneLine; decide) (oneLine_hexDigits _ _)

theorem oneLine_body (wide : Nat → Bool) (s : Str) : OneLine (body wide s) := by
  have : ∀ n s, s.length = n → OneLine (body wide s) := by
    intro n
    induction n using Nat.strongRecOn with
    | _ n ih =>
      intro s hs
      cases s with
      | nil => intro c hc; simp [body] at hc
      | cons b s =>
        have hw := decodeRune_width b s
        rw [body]
        split
        · exact oneLine_append (oneLine_append (by unfold OneLine; decide) (oneLine_hexDigits _ _)) (ih s.length (by simp at hs; omega) s rfl)
        · rename_i hne
          obtain ⟨hsc, -, -, -⟩ := (decode_spec b s).resolve_left hne
          exact oneLine_append (oneLine_escape wide _ hsc) (ih (s.drop ((decodeRune b s).2 - 1)).length (by simp at hs ⊢; omega) _ rfl)
  exact this _ s rfl

theorem oneLine_quote (wide : Nat → Bool) (s : Str) : OneLine (quote wide s) :=
  oneLine_append (oneLine_append (by unfold OneLine; decide) (oneLine_body wide s)) (by unfold OneLine; decide)

theorem oneLine_bytes (b : Str) : OneLine (bytesText b) := by
  refine oneLine_append (oneLine_append (by unfold OneLine; decide) ?_) (by unfold OneLine; decide)
  induction b with
  | nil => intro c hc; simp [hexString] at hc
  | cons c b ih => exact oneLine_append (oneLine_hexDigits _ _) ih

theorem oneLine_elem (wide : Nat → Bool) (e : Elem) (he : (∃ s, e = .str s) ∨ ∃ b, e = .bytes b) : OneLine (elemText wide e) := by
  rcases he with ⟨s, rfl⟩ | ⟨b, rfl⟩
  · exact oneLine_quote wide s
  · exact oneLine_bytes b

theorem oneLine_elems (wide : Nat → Bool) (l : List Elem) (hl : ∀ e ∈ l, (∃ s, e = .str s) ∨ ∃ b, e = .bytes b) (i : Nat) : OneLine (elemsText wide i l) := by
  induction l generalizing i with
  | nil => intro c hc; simp [elemsText] at hc
  | cons e l ih =>
    refine oneLine_append (oneLine_append ?_ (oneLine_elem wide e (hl e (by simp)))) (ih (fun e h => hl e (by simp [h])) _)
    split <;> (unfold OneLine; decide)

/-! ## UTF-8 -/

open Monkit.JsonSpec (utf8_append utf8_ascii utf8_encode)

theorem utf8_hexDigits (k r : Nat) : Monkit.JsonSpec.IsUtf8 (hexDigits k r) := by
  apply utf8_ascii
  induction k generalizing r with
  | zero => simp [hexDigits]
  | succ k ih =>
    intro c hc
    rw [hexDigits, List.mem_append, List.mem_singleton] at hc
    have : ∀ n, n < 16 → (hexDigit n).toNat < 0x80 := by decide +kernel
    rcases hc with h | rfl
    · exact ih _ c h
    · exact this _ (Nat.mod_lt _ (by decide))

theorem utf8_escape (wide : Nat → Bool) (r : Nat) (hr : Scalar r) : Monkit.JsonSpec.IsUtf8 (escapeRune wide r) := by
  unfold escapeRune
  split
  · rename_i h; rcases h with rfl | rfl <;> exact utf8_ascii (by decide)
  split
  · exact utf8_encode hr
  repeat (split; · exact utf8_ascii (by decide))
  split
  · exact utf8_append (utf8_ascii (by decide)) (utf8_hexDigits _ _)
  split
  · exact utf8_append (utf8_ascii (by decide)) (utf8_hexDigits _ _)
  · exact utf8_append (utf8_ascii (by decide)) (utf8_hexDigits _ _)

/-- Whatever it is given, `Quote` writes UTF-8. -/
theorem utf8_quote (wide : Nat → Bool) (s : Str) : Monkit.JsonSpec.IsUtf8 (quote wide s) := by
  have : ∀ n s, s.length = n → Monkit.JsonSpec.IsUtf8 (body wide s) := by
    intro n
    induction n using Nat.strongRecOn with
    | _ n ih =>
      intro s hs
      cases s with
      | nil => rw [body]; exact utf8_ascii (by simp)
      | cons b s =>
        have hw := decodeRune_width b s
        rw [body]
        split
        · exact utf8_append (utf8_append (utf8_ascii (by decide)) (utf8_hexDigits _ _)) (ih s.length (by simp at hs; omega) s rfl)
        · rename_i hne
          obtain ⟨hsc, -, -, -⟩ := (decode_spec b s).resolve_left hne
          exact utf8_append (utf8_escape wide _ hsc) (ih (s.drop ((decodeRune b s).2 - 1)).length (by simp at hs ⊢; omega) _ rfl)
  exact utf8_append (utf8_append (utf8_ascii (by decide)) (this _ s rfl)) (utf8_ascii (by decide))

end Monkit.ArgSpec
