import Verif.Spec.Headers
import Verif.Proofs.Callers

namespace Monkit.Headers
open Go Spec

theorem digit_of {c d} (h : Digit c d) : digit c = some d ∧ d < 16 := by
  have h1 : ∀ k, k < 10 → digit (UInt8.ofNat (48 + k)) = some k := by decide
  have h2 : ∀ k, k < 6 → digit (UInt8.ofNat (97 + k)) = some (10 + k) := by decide
  have h3 : ∀ k, k < 6 → digit (UInt8.ofNat (65 + k)) = some (10 + k) := by decide
  cases h with
  | dec _ hk => exact ⟨h1 _ hk, by omega⟩
  | lower _ hk => exact ⟨h2 _ hk, by omega⟩
  | upper _ hk => exact ⟨h3 _ hk, by omega⟩

theorem of_digit {c d} (h : digit c = some d) : Digit c d := by
  unfold digit at h
  simp only [UInt8.le_iff_toNat_le] at h
  simp only [show (48 : UInt8).toNat = 48 from rfl, show (57 : UInt8).toNat = 57 from rfl, show (97 : UInt8).toNat = 97 from rfl,
    show (102 : UInt8).toNat = 102 from rfl, show (65 : UInt8).toNat = 65 from rfl, show (70 : UInt8).toNat = 70 from rfl] at h
  have hc : ∀ n, c.toNat = n → c = UInt8.ofNat n := fun n e => by rw [← e]; exact UInt8.ofNat_toNat.symm
  split at h
  · rename_i hh
    have e := hc (48 + (c.toNat - 48)) (by omega)
    have hd : c.toNat - 48 = d := by simpa using h
    rw [e]; rw [hd]
    exact .dec d (by omega)
  · split at h
    · rename_i hh
      have e := hc (97 + (c.toNat - 97)) (by omega)
      have hd : d = 10 + (c.toNat - 97) := by simp at h; omega
      rw [e, hd]
      exact .lower _ (by omega)
    · split at h
      · rename_i hh
        have e := hc (65 + (c.toNat - 65)) (by omega)
        have hd : d = 10 + (c.toNat - 65) := by simp at h; omega
        rw [e, hd]
        exact .upper _ (by omega)
      · cases h

theorem digits_unique {s n m} (h : Digits s n) (h' : Digits s m) : n = m := by
  induction h generalizing m with
  | nil => cases h'; rfl
  | cons d _ ih => cases h' with
    | cons d' h' =>
      have e := (digit_of d).1
      rw [(digit_of d').1] at e
      rw [ih h', Option.some.inj e]

theorem parse_of {s n} (h : Digits s n) (acc : Nat) (hb : acc * 16 ^ s.length + n < 2 ^ 64) :
    parseLoop acc s = some (acc * 16 ^ s.length + n) := by
  induction h generalizing acc with
  | nil => simp [parseLoop]
  | @cons c s d n hd _ ih =>
    obtain ⟨e, hlt⟩ := digit_of hd
    unfold parseLoop
    rw [e]
    simp only [List.length_cons, Nat.pow_succ] at hb ⊢
    have hpos : 0 < 16 ^ s.length := Nat.pos_of_ne_zero (by simp)
    have e2 : acc * (16 ^ s.length * 16) = acc * 16 * 16 ^ s.length := by
      rw [Nat.mul_comm (16 ^ s.length), Nat.mul_assoc]
    have e3 : (acc * 16 + d) * 16 ^ s.length = acc * 16 * 16 ^ s.length + d * 16 ^ s.length := Nat.add_mul ..
    have hacc : acc < 2 ^ 60 := by
      have h1 : acc * 16 * 1 ≤ acc * 16 * 16 ^ s.length := Nat.mul_le_mul_left _ hpos
      omega
    rw [if_neg (by omega), ih (acc * 16 + d) (by omega), e3, e2]
    simp only [Nat.add_assoc]

theorem of_parse {s acc m} (h : parseLoop acc s = some m) (ha : acc < 2 ^ 64) : ∃ n, Digits s n ∧ m = acc * 16 ^ s.length + n ∧ m < 2 ^ 64 := by
  induction s generalizing acc with
  | nil => simp [parseLoop] at h; exact ⟨0, .nil, by simp [h], by omega⟩
  | cons c s ih =>
    unfold parseLoop at h
    cases hd : digit c with
    | none => rw [hd] at h; cases h
    | some d =>
      rw [hd] at h
      simp only at h
      have hD := of_digit hd
      have hlt := (digit_of hD).2
      split at h
      · cases h
      · obtain ⟨n, h1, h2, h3⟩ := ih h (by omega)
        refine ⟨d * 16 ^ s.length + n, .cons hD h1, ?_, h3⟩
        rw [h2, List.length_cons, Nat.pow_succ, Nat.add_mul, Nat.mul_comm (16 ^ s.length), Nat.mul_assoc, Nat.add_assoc]

theorem hex_some {s v} : hexToUint64 s = some v ↔ ∃ n, HexNum s n ∧ v = asInt64 n := by
  unfold hexToUint64
  constructor
  · intro h
    split at h
    · cases h
    · rename_i hs
      cases hp : parseLoop 0 s with
      | none => rw [hp] at h; cases h
      | some m =>
        rw [hp] at h
        obtain ⟨n, h1, h2, h3⟩ := of_parse hp (by omega)
        simp at h2
        subst h2
        exact ⟨m, ⟨hs, h1, h3⟩, by simpa [asInt64] using h.symm⟩
  · rintro ⟨n, ⟨h1, h2, h3⟩, rfl⟩
    rw [if_neg h1, parse_of h2 0 (by omega)]
    simp [asInt64]

theorem hexNum_unique {s n m} (h : HexNum s n) (h' : HexNum s m) : n = m := digits_unique h.2.1 h'.2.1

theorem asInt64_inj {n m} (hn : n < 2 ^ 64) (hm : m < 2 ^ 64) (h : asInt64 n = asInt64 m) : n = m := by
  unfold asInt64 at h
  have := congrArg (fun x : Int64 => x.toUInt64.toNat) h
  simp at this
  omega

/-! ## Pieces -/

theorem pieces_split (sep : UInt8) (cur s : Str) (hc : sep ∉ cur) : Pieces sep (cur.reverse ++ s) (Callers.split sep cur s) := by
  induction s generalizing cur with
  | nil => simp [Callers.split, Pieces, hc, List.intercalate, List.intersperse]
  | cons c s ih =>
    unfold Callers.split
    split
    · rename_i e
      obtain ⟨h1, h2, h3⟩ := ih [] (by simp)
      refine ⟨by simp, ?_, ?_⟩
      · intro p hp
        rcases List.mem_cons.1 hp with rfl | hp
        · simpa using hc
        · exact h2 p hp
      · cases hs : Callers.split sep [] s with
        | nil => exact absurd hs h1
        | cons q qs =>
          rw [hs] at h3
          simp at h3
          rw [h3, e]
          simp [List.intercalate, List.intersperse]
    · rename_i e
      have := ih (c :: cur) (by simp [hc, Ne.symm e])
      simpa using this

theorem first_sep {sep : UInt8} {x y s t : Str} (hx : sep ∉ x) (hy : sep ∉ y) (h : x ++ sep :: s = y ++ sep :: t) : x = y ∧ s = t := by
  induction x generalizing y with
  | nil => cases y with
    | nil => simpa using h
    | cons c y => simp at h hy; exact absurd h.1 hy.1
  | cons c x ih => cases y with
    | nil => simp at h hx; exact absurd h.1.symm hx.1
    | cons d y =>
      simp at h hx hy
      have := ih hx.2 hy.2 h.2
      exact ⟨by rw [h.1, this.1], this.2⟩

theorem intercalate_cons₂ (sep p q : Str) (ps : List Str) : sep.intercalate (p :: q :: ps) = p ++ sep ++ sep.intercalate (q :: ps) := by
  simp [List.intercalate, List.intersperse]

theorem intercalate_one (sep p : Str) : sep.intercalate [p] = p := by
  simp [List.intercalate, List.intersperse]

theorem pieces_unique {sep s ps qs} (h : Pieces sep s ps) (h' : Pieces sep s qs) : ps = qs := by
  induction ps generalizing s qs with
  | nil => exact absurd rfl h.1
  | cons p ps ih =>
    obtain ⟨_, g2, g3⟩ := h
    obtain ⟨k1, k2, k3⟩ := h'
    have hp := g2 p (by simp)
    cases qs with
    | nil => exact absurd rfl k1
    | cons q qs =>
      have hq := k2 q (by simp)
      cases ps with
      | nil =>
        cases qs with
        | nil => rw [intercalate_one] at g3 k3; rw [← g3, k3]
        | cons q' qs =>
          rw [intercalate_one] at g3
          rw [intercalate_cons₂] at k3
          exact absurd (by rw [← g3, k3]; simp) hp
      | cons p' ps =>
        cases qs with
        | nil =>
          rw [intercalate_one] at k3
          rw [intercalate_cons₂] at g3
          exact absurd (by rw [← k3, g3]; simp) hq
        | cons q' qs =>
          rw [intercalate_cons₂] at g3 k3
          rw [g3] at k3
          simp only [List.append_assoc, List.singleton_append] at k3
          obtain ⟨e1, e2⟩ := first_sep hp hq k3
          rw [e1, ih ⟨by simp, fun x hx => g2 x (by simp [hx]), rfl⟩ ⟨by simp, fun x hx => k2 x (by simp [hx]), e2⟩]

theorem split_iff {sep s ps} : Callers.split sep [] s = ps ↔ Pieces sep s ps := by
  have h := pieces_split sep [] s (by simp)
  simp at h
  exact ⟨fun e => e ▸ h, fun h' => pieces_unique h h'⟩

theorem join_intercalate (sep : Str) (ps : List Str) : Callers.join sep ps = sep.intercalate ps := by
  induction ps with
  | nil => rfl
  | cons p ps ih =>
    cases ps with
    | nil => rw [intercalate_one]; rfl
    | cons q ps => rw [intercalate_cons₂, ← ih]; rfl

/-! ## contains, cut -/

theorem contains_iff {sub s : Str} : contains sub s = true ↔ ∃ a b, s = a ++ sub ++ b := by
  induction s with
  | nil =>
    simp only [contains, List.isPrefixOf_iff_prefix]
    constructor
    · rintro ⟨b, h⟩; exact ⟨[], b, by simpa using h.symm⟩
    · rintro ⟨a, b, h⟩
      have : sub = [] := by
        have := congrArg List.length h
        simp at this
        exact List.length_eq_zero_iff.1 (by omega)
      rw [this]
      exact List.nil_prefix
  | cons c s ih =>
    simp only [contains, Bool.or_eq_true, List.isPrefixOf_iff_prefix, ih]
    constructor
    · rintro (⟨b, h⟩ | ⟨a, b, h⟩)
      · exact ⟨[], b, by simpa using h.symm⟩
      · exact ⟨c :: a, b, by rw [h]; simp⟩
    · rintro ⟨a, b, h⟩
      cases a with
      | nil => exact .inl ⟨b, by simpa using h.symm⟩
      | cons x a => simp at h; exact .inr ⟨a, b, by rw [h.2]; simp⟩

theorem cut_iff {kv k v : Str} : cut 61 kv = some (k, v) ↔ KeyVal kv k v := by
  induction kv generalizing k with
  | nil => simp [cut, KeyVal]
  | cons c s ih =>
    unfold cut
    split
    · rename_i e
      subst e
      constructor
      · intro h; simp at h; obtain ⟨rfl, rfl⟩ := h; exact ⟨rfl, by simp⟩
      · rintro ⟨h1, h2⟩
        cases k with
        | nil => simp at h1; simp [h1]
        | cons x k => simp at h1 h2; exact absurd h1.1 h2.1
    · rename_i e
      constructor
      · intro h
        cases hc : cut 61 s with
        | none => rw [hc] at h; cases h
        | some x =>
          rw [hc] at h
          obtain ⟨k', v'⟩ := x
          simp at h
          obtain ⟨rfl, rfl⟩ := h
          have := ih.1 hc
          exact ⟨by rw [this.1]; rfl, by simp [this.2, Ne.symm e]⟩
      · rintro ⟨h1, h2⟩
        cases k with
        | nil => simp at h1; exact absurd h1.1 e
        | cons x k =>
          simp at h1 h2
          have := (ih (k := k)).2 ⟨by rw [h1.2]; simp, h2.2⟩
          rw [this]
          simp [h1.1]

theorem keyVal_unique {kv k v k' v'} (h : KeyVal kv k v) (h' : KeyVal kv k' v') : k = k' ∧ v = v' := by
  have := cut_iff.2 h
  rw [cut_iff.2 h'] at this
  simp at this
  exact ⟨this.1.symm, this.2.symm⟩

theorem import_get (allowed : List Str) (bm : Map Str Str) (ps : List Str) (k v : Str) :
    Map.get (importBaggage allowed bm ps) k = some v ↔
      (k ∈ allowed ∧ LastValue ps k v) ∨ (Map.get bm k = some v ∧ (k ∈ allowed → ∀ q ∈ ps, ∀ v', ¬ KeyVal q k v')) := by
  induction ps generalizing bm with
  | nil => simp [importBaggage, LastValue]
  | cons p ps ih =>
    have lastCons : LastValue (p :: ps) k v ↔ LastValue ps k v ∨ (KeyVal p k v ∧ ∀ q ∈ ps, ∀ v', ¬ KeyVal q k v') := by
      constructor
      · rintro ⟨b, x, a, h1, h2, h3⟩
        cases b with
        | nil => simp at h1; obtain ⟨rfl, rfl⟩ := h1; exact .inr ⟨h2, h3⟩
        | cons y b => simp at h1; exact .inl ⟨b, x, a, h1.2, h2, h3⟩
      · rintro (⟨b, x, a, h1, h2, h3⟩ | ⟨h1, h2⟩)
        · exact ⟨p :: b, x, a, by rw [h1]; rfl, h2, h3⟩
        · exact ⟨[], p, ps, rfl, h1, h2⟩
    unfold importBaggage
    cases hc : cut 61 p with
    | none =>
      have hno : ∀ k v, ¬ KeyVal p k v := fun k v h => by rw [cut_iff.2 h] at hc; cases hc
      simp only
      rw [ih, lastCons]
      simp [hno]
    | some x =>
      obtain ⟨k', v'⟩ := x
      have hkv := cut_iff.1 hc
      simp only
      rw [ih, lastCons]
      by_cases hk : k' = k
      · subst hk
        by_cases ha : k' ∈ allowed
        · have : allowed.contains k' = true := by simpa using ha
          rw [if_pos this, Map.get_set]
          simp only [if_true]
          constructor
          · rintro (⟨_, h⟩ | ⟨h1, h2⟩)
            · exact .inl ⟨ha, .inl h⟩
            · cases h1; exact .inl ⟨ha, .inr ⟨hkv, h2 ha⟩⟩
          · rintro (⟨_, h | ⟨h1, h2⟩⟩ | ⟨h1, h2⟩)
            · exact .inl ⟨ha, h⟩
            · exact .inr ⟨by rw [(keyVal_unique hkv h1).2], fun _ => h2⟩
            · exact absurd hkv (h2 ha p (by simp) _)
        · have : allowed.contains k' = false := by simpa using ha
          rw [this]
          simp [ha]
      · have hno : ∀ v, ¬ KeyVal p k v := fun v h => hk (keyVal_unique hkv h).1
        have hg : Map.get (if allowed.contains k' then Map.set bm k' v' else bm) k = Map.get bm k := by
          split
          · rw [Map.get_set, if_neg (by first | exact hk | exact Ne.symm hk)]
          · rfl
        rw [hg]
        simp [hno]

/-! ## Formatting -/

theorem digits_append {a b n m} (h : Digits a n) (h' : Digits b m) : Digits (a ++ b) (n * 16 ^ b.length + m) := by
  induction h with
  | nil => simpa using h'
  | @cons c s d n hd _ ih =>
    have := Digits.cons hd ih
    rw [List.cons_append]
    have e : d * 16 ^ (s ++ b).length + (n * 16 ^ b.length + m) = (d * 16 ^ s.length + n) * 16 ^ b.length + m := by
      rw [List.length_append, Nat.pow_add, Nat.add_mul, Nat.mul_assoc, Nat.add_assoc]
    rw [← e]; exact this

theorem hexDigit_digit (n : Nat) (h : n < 16) : Digit (hexDigit n) n := by
  unfold hexDigit
  split
  · exact .dec n (by omega)
  · have := Digit.lower (n - 10) (by omega)
    have e1 : 97 + (n - 10) = 87 + n := by omega
    have e2 : 10 + (n - 10) = n := by omega
    rwa [e1, e2] at this

theorem hexNat_digits (n : Nat) : Digits (hexNat n) n := by
  induction n using Nat.strongRecOn with
  | _ n ih =>
    unfold hexNat
    split
    · rename_i h
      have := Digits.cons (hexDigit_digit n h) .nil
      simpa using this
    · have h1 := ih (n / 16) (by omega)
      have h2 := Digits.cons (hexDigit_digit (n % 16) (by omega)) .nil
      have := digits_append h1 h2
      simp at this
      have e : n / 16 * 16 + n % 16 = n := by omega
      rwa [e] at this

theorem hexNat_ne (n : Nat) : hexNat n ≠ [] := by
  unfold hexNat; split <;> simp

theorem digit_ne_dash {c d} (h : Digit c d) : c ≠ 45 := by
  intro e
  subst e
  have := (digit_of h).1
  have hn : digit 45 = none := by decide
  rw [hn] at this
  cases this

theorem digits_nodash {s n} (h : Digits s n) : (45 : UInt8) ∉ s := by
  induction h with
  | nil => simp
  | cons hd _ ih => simp [ih, Ne.symm (digit_ne_dash hd)]

theorem pad_digits {s n} (w : Nat) (h : Digits s n) : Digits (pad w s) n := by
  have z : ∀ k, Digits (List.replicate k 48) 0 := by
    intro k
    induction k with
    | zero => exact .nil
    | succ k ih =>
      have := Digits.cons (Digit.dec 0 (by omega)) ih
      rw [List.replicate_succ]
      simpa using this
  have := digits_append (z (w - s.length)) h
  simpa [pad] using this

theorem pad_ne (w : Nat) {s : Str} (h : s ≠ []) : pad w s ≠ [] := by simp [pad, h]

theorem fmtX_num (w : Nat) (v : Int64) (h : 0 ≤ v) : HexNum (fmtX w v) v.toInt.toNat ∧ asInt64 v.toInt.toNat = v := by
  have h0 : 0 ≤ v.toInt := by simpa using Int64.le_iff_toInt_le.1 h
  have hlt := Int64.toInt_lt v
  have hn : ¬ v < 0 := by simpa using h
  refine ⟨⟨?_, ?_, by omega⟩, ?_⟩
  · rw [fmtX, if_neg hn]; exact pad_ne _ (hexNat_ne _)
  · rw [fmtX, if_neg hn]; exact pad_digits _ (hexNat_digits _)
  · apply Int64.toInt_inj.1
    unfold asInt64
    have h63 : v.toInt.toNat < 2 ^ 63 := by omega
    rw [UInt64.toInt64_ofNat', Int64.toInt_ofNat_of_lt h63]
    omega

theorem fmtX_neg (w : Nat) (v : Int64) (h : v < 0) : ∃ s n, fmtX w v = 45 :: s ∧ Digits s n ∧ s ≠ [] := by
  rw [fmtX, if_pos h]
  exact ⟨_, _, rfl, pad_digits _ (hexNat_digits _), pad_ne _ (hexNat_ne _)⟩

end Monkit.Headers
