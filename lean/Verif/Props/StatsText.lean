import Verif.Spec.StatsText
import Verif.Proofs.Present
import Verif.Proofs.Tags
import Verif.Proofs.Float
import Mathlib.Tactic.Linarith
import Mathlib.Tactic.FieldSimp
import Mathlib.Tactic.Ring
import Mathlib.Tactic.NormNum
import Mathlib.Tactic.Positivity

/-!
# C91: statistics as text
-/

namespace Monkit.StatsText
open Go Go.Float
open Monkit.ListWriter (Writer)
open Monkit.Present (Out fprint each send)
open Spec

/-! ## Numbers -/

theorem nat_append (a b : Str) : nat (a ++ b) = nat a * 10 ^ b.length + nat b := by
  have key : ∀ (b : Str) n, b.foldl (fun n c => n * 10 + (c.toNat - 48)) n = n * 10 ^ b.length + nat b := by
    intro b
    induction b with
    | nil => intro n; simp [nat]
    | cons c b ih =>
      intro n
      unfold nat
      rw [List.foldl_cons, List.foldl_cons, ih, ih, List.length_cons, pow_succ]
      ring
  unfold nat
  rw [List.foldl_append, key b]
  rfl

theorem digit_of {k : Nat} (h : k < 10) : nat [UInt8.ofNat (48 + k)] = k ∧ Digits [UInt8.ofNat (48 + k)] := by
  have : (UInt8.ofNat (48 + k)).toNat = 48 + k := by simp [UInt8.toNat_ofNat']; omega
  refine ⟨by simp only [nat, List.foldl_cons, List.foldl_nil, this]; omega, by simp, ?_⟩
  intro c hc
  rw [List.mem_singleton] at hc
  rw [hc, this]
  omega

theorem digits_append {a b : Str} (ha : Digits a) (hb : Digits b) : Digits (a ++ b) :=
  ⟨by simp [ha.1], by intro c hc; rcases List.mem_append.1 hc with h | h; exact ha.2 c h; exact hb.2 c h⟩

theorem decimal_spec (n : Nat) : nat (Dot.decimal n) = n ∧ Digits (Dot.decimal n) := by
  induction n using Nat.strongRecOn with
  | _ n ih =>
    rw [Dot.decimal]
    split
    · rename_i h; exact digit_of h
    · obtain ⟨h1, h2⟩ := ih (n / 10) (by omega)
      obtain ⟨h3, h4⟩ := digit_of (k := n % 10) (by omega)
      refine ⟨?_, digits_append h2 h4⟩
      rw [nat_append, h1, h3]
      simp only [List.length_cons, List.length_nil]
      omega

theorem pad_length (w n : Nat) : (pad w n).length = w := by
  induction w generalizing n with
  | zero => rfl
  | succ w ih => simp [pad, ih]

theorem pad_spec (w n : Nat) (h : n < 10 ^ w) : nat (pad w n) = n ∧ ∀ c ∈ pad w n, 48 ≤ c.toNat ∧ c.toNat ≤ 57 := by
  induction w generalizing n with
  | zero => simp at h; subst h; exact ⟨rfl, by simp [pad]⟩
  | succ w ih =>
    obtain ⟨h1, h2⟩ := ih (n / 10) (by rw [pow_succ] at h; omega)
    obtain ⟨h3, h4⟩ := digit_of (k := n % 10) (by omega)
    rw [pad]
    refine ⟨?_, ?_⟩
    · rw [nat_append, h1, h3]
      simp only [List.length_cons, List.length_nil]
      omega
    · intro c hc
      rcases List.mem_append.1 hc with h | h
      · exact h2 c h
      · exact h4.2 c h

theorem fixed_spec {q : ℚ} (hq : 0 ≤ q) : ∃ a b : Str, ∃ r : ℚ, fixed q = a ++ b!"." ++ b ∧ Digits a ∧ Digits b ∧ b.length = 6 ∧ r = nat a + nat b / 10 ^ 6 ∧
    |r - q| ≤ 1 / 2 / 10 ^ 6 := by
  have hr := rhe_half (q * 10 ^ 6)
  have h0 : 0 ≤ rhe (q * 10 ^ 6) := by
    by_contra hneg
    have h1 : rhe (q * 10 ^ 6) ≤ -1 := by omega
    have h2 : (rhe (q * 10 ^ 6) : ℚ) ≤ -1 := by exact_mod_cast h1
    have h3 : 0 ≤ q * 10 ^ 6 := by positivity
    have h4 := (abs_le.1 hr).1
    have h5 : (1 : ℚ) / 2 < 1 := by norm_num
    generalize q * 10 ^ 6 = z at *
    generalize ((rhe z : ℤ) : ℚ) = y at *
    linarith
  obtain ⟨k, hk⟩ : ∃ k : Nat, rhe (q * 10 ^ 6) = k := ⟨_, (Int.toNat_of_nonneg h0).symm⟩
  unfold fixed
  rw [hk] at hr ⊢
  rw [Int.toNat_natCast]
  obtain ⟨d1, d2⟩ := decimal_spec (k / 10 ^ 6)
  obtain ⟨p1, p2⟩ := pad_spec 6 (k % 10 ^ 6) (Nat.mod_lt _ (by norm_num))
  refine ⟨_, _, _, rfl, d2, ⟨?_, p2⟩, pad_length _ _, rfl, ?_⟩
  · intro h; have := pad_length 6 (k % 10 ^ 6); rw [h] at this; simp at this
  · rw [d1, p1]
    have e : ((k / 10 ^ 6 : ℕ) : ℚ) + ((k % 10 ^ 6 : ℕ) : ℚ) / 10 ^ 6 = k / 10 ^ 6 := by
      have := Nat.div_add_mod k (10 ^ 6)
      have : ((10 ^ 6 * (k / 10 ^ 6) + k % 10 ^ 6 : ℕ) : ℚ) = k := by exact_mod_cast this
      rw [← this, Nat.cast_add, Nat.cast_mul]
      norm_num
      ring
    rw [e]
    have h2 := abs_le.1 hr
    push_cast at h2
    rw [abs_le]
    constructor
    · linarith [h2.1]
    · linarith [h2.2]

theorem format_shows (v : F) : Shows v (format v) := by
  cases v with
  | nan => exact .nan
  | inf b => cases b; exacts [.pinf, .ninf]
  | fin q =>
    unfold format
    simp only
    split
    · rename_i h
      obtain ⟨a, b, r, e, ha, hb, hl, hr, hd⟩ := fixed_spec (q := -q) (by linarith)
      refine .num q (-r) _ ?_ ?_ (by simp [h])
      · rw [e, hr]
        have := Reads.neg a b ha hb hl
        simpa using this
      · rw [show -r - q = -(r - -q) by ring, abs_neg]; exact hd
    · rename_i h
      obtain ⟨a, b, r, e, ha, hb, hl, hr, hd⟩ := fixed_spec (q := q) (by linarith)
      refine .num q r _ ?_ hd ?_
      · rw [e, hr]; exact .pos a b ha hb hl
      · rw [e]
        obtain ⟨hne, hall⟩ := ha
        cases a with
        | nil => exact absurd rfl hne
        | cons c a =>
          have := hall c (by simp)
          simp only [List.cons_append, List.head?_cons, Option.some.injEq]
          constructor
          · rintro rfl; simp at this
          · intro h'; exact absurd h' h

theorem shows_clean {v : F} {t : Str} (h : Shows v t) : 61 ∉ t ∧ 10 ∉ t := by
  have dig : ∀ {ds : Str}, Digits ds → 61 ∉ ds ∧ 10 ∉ ds := fun h =>
    ⟨fun h' => by have := h.2 _ h'; simp at this, fun h' => by have := h.2 _ h'; simp at this⟩
  cases h with
  | nan | pinf | ninf => decide
  | num q r t hr => cases hr with
    | pos a b ha hb => have := dig ha; have := dig hb; simp_all
    | neg a b ha hb => have := dig ha; have := dig hb; simp_all

/-! ## Lines -/

theorem no_newline_tag {s : Str} (h : 10 ∉ s) : 10 ∉ Tags.writeTag s := by
  unfold Tags.writeTag
  split
  · exact h
  · intro hm
    obtain ⟨c, hc, hm⟩ := List.mem_flatMap.1 hm
    split at hm
    · rename_i h3
      simp only [List.mem_cons, List.not_mem_nil, or_false] at hm
      rcases hm with hm | hm
      · simp at hm
      · rw [← hm] at h3; simp at h3
    · rw [List.mem_singleton] at hm; rw [← hm] at hc; exact h hc

theorem no_newline_measurement {s : Str} (h : 10 ∉ s) : 10 ∉ Tags.writeMeasurement s := by
  unfold Tags.writeMeasurement
  split
  · exact h
  · intro hm
    obtain ⟨c, hc, hm⟩ := List.mem_flatMap.1 hm
    split at hm
    · rename_i h3
      simp only [List.mem_cons, List.not_mem_nil, or_false] at hm
      rcases hm with hm | hm
      · simp at hm
      · rw [← hm] at h3; simp at h3
    · rw [List.mem_singleton] at hm; rw [← hm] at hc; exact h hc

theorem no_newline_kvs {l : List (Str × Str)} (h : ∀ kv ∈ l, 10 ∉ kv.1 ∧ 10 ∉ kv.2) (i : Nat) : 10 ∉ Tags.writeKvs i l := by
  induction l generalizing i with
  | nil => simp [Tags.writeKvs]
  | cons x l ih =>
    rw [Tags.writeKvs]
    have h1 := no_newline_tag (h x (by simp)).1
    have h2 := no_newline_tag (h x (by simp)).2
    have h3 := ih (fun kv hkv => h kv (by simp [hkv])) (i + 1)
    have h4 : (10 : UInt8) ∉ (if i > 0 then ([44] : Str) else []) := by split <;> decide
    simp only [List.mem_append, h1, h2, h3, h4, List.mem_singleton]
    decide

theorem no_newline_name {x : Key × Str × FVal} (h : OneLine x) : 10 ∉ name x.1 x.2.1 := by
  obtain ⟨h1, h2, h3⟩ := h
  have k1 := no_newline_measurement h1
  have k2 := no_newline_tag h3
  have k3 : 10 ∉ Tags.writeTags x.1.tags := no_newline_kvs (fun kv hkv => h2 kv ((mem_sortBy _).1 hkv)) 0
  unfold name
  split <;> simp only [List.mem_append, k1, k2, k3, List.mem_singleton] <;> decide

theorem statsText_send (w : Writer) (stats : List (Key × Str × FVal)) : statsText w stats = send w .start (stats.map line) := by
  unfold statsText
  rw [Present.each_send w _ (fun x => [line x]) stats (fun x _ s hs => Present.fprint_send w hs _), ← List.map_eq_flatMap]

theorem takesAll_out (stats : List (Key × Str × FVal)) :
    (statsText (fun _ => .ok) stats).err = none ∧ (statsText (fun _ => .ok) stats).out = stats.flatMap line := by
  have h := Present.wrote (fun _ => .ok) (stats.map line)
  rw [← statsText_send] at h
  generalize statsText (fun _ => .ok) stats = o at h
  cases h with
  | all => exact ⟨rfl, by rw [List.flatMap]⟩
  | failed k m e hk h0 h1 => cases h1

theorem name_isName (x : Key × Str × FVal) : IsName x (name x.1 x.2.1) := by
  refine ⟨sortBy (fun a b => strLe a.1 b.1) x.1.tags, sortBy_perm _ _, ?_, ?_⟩
  · exact sortBy_sorted (le := fun a b : Str × Str => strLe a.1 b.1) (fun a b c => strLe_trans _ _ _) (fun a b => strLe_total _ _) _
  · unfold name Tags.Spec.fieldText Tags.Spec.seriesText Tags.writeTags
    rw [Tags.writeKvs_eq, Tags.writeMeasurement_eq, Tags.writeTag_eq]
    by_cases h : x.1.tags = []
    · simp [h, sortBy]
    · have : sortBy (fun a b => strLe a.1 b.1) x.1.tags ≠ [] := fun e => h (List.Perm.nil_eq (e ▸ sortBy_perm _ _)).symm
      simp [h, this]

/-- **C91**, write errors: whatever the writer does, `StatsText` hands it one line after another, stops at the first failed write and returns its error. -/
theorem C91_write_errors (stats : List (Key × Str × FVal)) : ∃ pieces : List Str, pieces.flatten = (statsText (fun _ => .ok) stats).out ∧
    ∀ w, Present.Spec.Wrote w pieces (statsText w stats) := by
  refine ⟨stats.map line, ?_, fun w => ?_⟩
  · rw [(takesAll_out stats).2, List.flatMap]
  · rw [statsText_send]; exact Present.wrote w _

/-- **C91**.  If no name has a newline in it, the text written to a writer that does not fail has exactly one line for each statistic, in order: its name,
an equals sign and its value, to the nearest millionth, with no equals sign in the value.

Partial: the full statement has no condition on the names; see `C91_newline_violated`. -/
theorem C91_lines_partial (stats : List (Key × Str × FVal)) (h : ∀ x ∈ stats, OneLine x) :
    (statsText (fun _ => .ok) stats).err = none ∧ ∃ ls, IsLines (statsText (fun _ => .ok) stats).out ls ∧ ls.length = stats.length ∧
      ∀ (i : Nat) x l, stats[i]? = some x → ls[i]? = some l → ∃ n t, IsName x n ∧ IsEntry l n t ∧ Shows x.2.2.float t := by
  obtain ⟨h1, h2⟩ := takesAll_out stats
  refine ⟨h1, stats.map fun x => name x.1 x.2.1 ++ b!"=" ++ format x.2.2.float, ⟨?_, ?_⟩, by simp, ?_⟩
  · rw [h2, List.flatMap_map]; rfl
  · intro l hl
    obtain ⟨x, hx, rfl⟩ := List.mem_map.1 hl
    have a := no_newline_name (h x hx)
    have b := (shows_clean (format_shows x.2.2.float)).2
    simp [a, b]
  · intro i x l hx hl
    rw [List.getElem?_map, hx] at hl
    cases hl
    exact ⟨_, _, name_isName x, ⟨rfl, (shows_clean (format_shows _)).1⟩, format_shows _⟩

/-! ## Reading it back -/

theorem split_unique {α : Type} {c : α} : ∀ {a a' b b' : List α}, c ∉ a → c ∉ a' → a ++ c :: b = a' ++ c :: b' → a = a' ∧ b = b'
  | [], [], _, _, _, _, h => by simpa using h
  | [], x :: _, _, _, _, h', h => by simp at h; simp [h.1] at h'
  | x :: _, [], _, _, h', _, h => by simp at h; simp [h.1] at h'
  | x :: a, y :: a', b, b', h1, h2, h => by
    simp only [List.cons_append, List.cons.injEq] at h
    obtain ⟨e1, e2⟩ := split_unique (a := a) (a' := a') (by simp_all) (by simp_all) h.2
    exact ⟨by rw [h.1, e1], e2⟩

theorem split_last {α : Type} {c : α} {a a' b b' : List α} (h1 : c ∉ b) (h2 : c ∉ b') (h : a ++ c :: b = a' ++ c :: b') : a = a' ∧ b = b' := by
  have := split_unique (c := c) (a := b.reverse) (a' := b'.reverse) (b := a.reverse) (b' := a'.reverse) (by simpa) (by simpa) (by
    have := congrArg List.reverse h
    simpa using this)
  exact ⟨List.reverse_inj.1 this.2, List.reverse_inj.1 this.1⟩

theorem lines_unique : ∀ {a b : List Str}, (∀ l ∈ a, 10 ∉ l) → (∀ l ∈ b, 10 ∉ l) → a.flatMap (fun l => l ++ [10]) = b.flatMap (fun l => l ++ [10]) → a = b
  | [], [], _, _, _ => rfl
  | [], x :: _, _, _, h => by simp at h
  | x :: _, [], _, _, h => by simp at h
  | x :: a, y :: b, h1, h2, h => by
    simp only [List.flatMap_cons, List.append_assoc, List.singleton_append] at h
    obtain ⟨e1, e2⟩ := split_unique (h1 x (by simp)) (h2 y (by simp)) h
    rw [e1, lines_unique (fun l hl => h1 l (by simp [hl])) (fun l hl => h2 l (by simp [hl])) e2]

theorem digits_no {ds : Str} (h : Digits ds) : 46 ∉ ds ∧ 45 ∉ ds ∧ 78 ∉ ds :=
  ⟨fun h' => by have := h.2 _ h'; simp at this, fun h' => by have := h.2 _ h'; simp at this, fun h' => by have := h.2 _ h'; simp at this⟩

theorem reads_unique {t : Str} {r r' : ℚ} (h : Reads t r) (h' : Reads t r') : r = r' := by
  have pn : ∀ {a b a' b' : Str}, Digits a → a ++ b!"." ++ b ≠ b!"-" ++ a' ++ b!"." ++ b' := by
    intro a b a' b' ha e
    cases a with
    | nil => exact ha.1 rfl
    | cons c a =>
      have h1 := ha.2 c (by simp)
      simp only [List.cons_append, List.nil_append, List.cons.injEq] at e
      rw [e.1] at h1
      simp at h1
  generalize ht : t = t' at h'
  cases h with
  | pos a b ha hb hl => cases h' with
    | pos a' b' ha' hb' hl' =>
      obtain ⟨e1, e2⟩ := split_unique (c := 46) (digits_no ha).1 (digits_no ha').1 (by simpa using ht)
      rw [e1, e2]
    | neg a' b' ha' hb' hl' => exact absurd ht (pn ha)
  | neg a b ha hb hl => cases h' with
    | pos a' b' ha' hb' hl' => exact absurd ht.symm (pn ha')
    | neg a' b' ha' hb' hl' =>
      obtain ⟨e1, e2⟩ := split_unique (c := 46) (digits_no ha).1 (digits_no ha').1 (by simpa using ht)
      rw [e1, e2]

theorem reads_point {t : Str} {r : ℚ} (h : Reads t r) : (46 : UInt8) ∈ t := by
  cases h <;> simp

theorem shows_close {v v' : F} {t : Str} (h : Shows v t) (h' : Shows v' t) : Close v v' := by
  generalize ht : t = t' at h'
  cases h with
  | num q r t hr hd => cases h' with
    | num q' r' t' hr' hd' =>
      rw [← ht] at hr'
      rw [← reads_unique hr hr'] at hd'
      have := abs_le.1 hd
      have := abs_le.1 hd'
      simp only [Close]
      rw [abs_le]
      constructor <;> linarith
    | _ => have := reads_point hr; rw [ht] at this; exact absurd this (by decide)
  | nan => cases h' with
    | nan => trivial
    | num q r t hr => have := reads_point hr; rw [← ht] at this; exact absurd this (by decide)
    | _ => exact absurd ht (by decide)
  | pinf => cases h' with
    | pinf => rfl
    | num q r t hr => have := reads_point hr; rw [← ht] at this; exact absurd this (by decide)
    | _ => exact absurd ht (by decide)
  | ninf => cases h' with
    | ninf => rfl
    | num q r t hr => have := reads_point hr; rw [← ht] at this; exact absurd this (by decide)
    | _ => exact absurd ht (by decide)

/-- **C91**, reading it back: two reports with the same text have the same series names in the same order, and their values are the same up to a millionth.

Partial: for names without newlines; see `C91_newline_violated`. -/
theorem C91_recover_partial (stats stats' : List (Key × Str × FVal)) (h : ∀ x ∈ stats, OneLine x) (h' : ∀ x ∈ stats', OneLine x)
    (e : (statsText (fun _ => .ok) stats).out = (statsText (fun _ => .ok) stats').out) :
    stats.length = stats'.length ∧ ∀ (i : Nat) x x', stats[i]? = some x → stats'[i]? = some x' →
      (∃ n, IsName x n ∧ IsName x' n) ∧ Close x.2.2.float x'.2.2.float := by
  obtain ⟨_, ls, hl, hn, hx⟩ := C91_lines_partial stats h
  obtain ⟨_, ls', hl', hn', hx'⟩ := C91_lines_partial stats' h'
  rw [hl.1, hl'.1] at e
  have := lines_unique hl.2 hl'.2 e
  subst this
  refine ⟨hn.symm.trans hn', fun i x x' h1 h2 => ?_⟩
  have hi : i < ls.length := by
    rw [hn]; exact (List.getElem?_eq_some_iff.1 h1).1
  obtain ⟨n, t, a1, a2, a3⟩ := hx i x _ h1 (List.getElem?_eq_getElem hi)
  obtain ⟨n', t', b1, b2, b3⟩ := hx' i x' _ h2 (List.getElem?_eq_getElem hi)
  have := a2.1.symm.trans b2.1
  obtain ⟨e1, e2⟩ := split_last (c := 61) a2.2 b2.2 (by simpa using this)
  subst e1 e2
  exact ⟨⟨n, a1, b1⟩, shows_close a3 b3⟩

/-! ## Examples -/

def sample : List (Key × Str × FVal) :=
  [(⟨b!"a b", [(b!"k=", b!"v")]⟩, b!"min", .int 3), (⟨b!"a", []⟩, b!"x y", .flt (-5 / 2)), (⟨b!"a", []⟩, b!"r", .nan), (⟨b!"a", []⟩, b!"s", .inf true)]

theorem sample_oneLine : ∀ x ∈ sample, OneLine x := by
  intro x hx
  simp only [sample, List.mem_cons, List.not_mem_nil, or_false] at hx
  rcases hx with rfl | rfl | rfl | rfl <;> (refine ⟨?_, ?_, ?_⟩ <;> simp)

/-- The hypotheses hold of reports with tags, special characters, fractions, NaN and an infinity. -/
example : (∀ x ∈ sample, OneLine x) ∧
    (statsText (fun _ => .ok) sample).out = b!"a\\ b,k\\==v min=3.000000\na x\\ y=-2.500000\na r=NaN\na s=-Inf\n" := by
  refine ⟨sample_oneLine, ?_⟩
  rw [(takesAll_out sample).2]
  decide +kernel

/-- **C91** fails for names with newlines: one statistic can be presented on two lines, and so as two other statistics. -/
theorem C91_newline_violated : ∃ x a b : Key × Str × FVal,
    (¬∃ l, IsLines (statsText (fun _ => .ok) [x]).out [l]) ∧ OneLine a ∧ OneLine b ∧
    (statsText (fun _ => .ok) [x]).out = (statsText (fun _ => .ok) [a, b]).out := by
  refine ⟨(⟨b!"a f=1.000000\nb", []⟩, b!"g", .int 2), (⟨b!"a\\", []⟩, b!"f", .int 1), (⟨b!"b", []⟩, b!"g", .int 2), ?_, ?_, ?_, ?_⟩
  · rintro ⟨l, h1, h2⟩
    rw [(takesAll_out _).2] at h1
    have h3 : 10 ∉ l := h2 l (by simp)
    have e : [((⟨b!"a f=1.000000\nb", []⟩ : Key), b!"g", FVal.int 2)].flatMap line = b!"a\\ f=1.000000" ++ 10 :: b!"b g=2.000000\n" := by decide +kernel
    rw [e] at h1
    have := split_unique (c := (10 : UInt8)) (a := b!"a\\ f=1.000000") (b := b!"b g=2.000000\n") (b' := []) (a' := l) (by decide) h3 (by simpa using h1)
    exact absurd this.2 (by decide)
  · refine ⟨?_, ?_, ?_⟩ <;> simp
  · refine ⟨?_, ?_, ?_⟩ <;> simp
  · rw [(takesAll_out _).2, (takesAll_out _).2]
    decide +kernel

end Monkit.StatsText
