import Verif.Model.ProcFs
import Verif.Spec.ProcFs

/-!
# Lemmas about the scan of /proc
-/

namespace Monkit.ProcFs
open Go Spec

theorem isSpace_iff (r : Nat) : isSpace r = true ↔ Space r := by
  simp only [isSpace, Space, Bool.or_eq_true, Bool.and_eq_true, decide_eq_true_eq, List.mem_cons, List.not_mem_nil, or_false]
  omega

theorem value_snoc (ds : List Nat) (d : Nat) : value (ds ++ [48 + d]) = value ds * 10 + d := by
  simp [value, List.foldl_append]

theorem digits_spec {ds n} (h : Digits ds n) : (∀ d ∈ ds, isDigit d = true) ∧ ds ≠ [] ∧ value ds = n := by
  induction h with
  | one h => simp [isDigit, value]; omega
  | more _ h ih =>
    refine ⟨?_, by simp, ?_⟩
    · intro d hd
      simp only [List.mem_append, List.mem_singleton] at hd
      rcases hd with hd | rfl
      · exact ih.1 d hd
      · simp [isDigit]; omega
    · rw [value_snoc, ih.2.2]; omega

/-- The next character is no digit. -/
def Stops (s : List Nat) : Prop := ∀ r t, s = r :: t → isDigit r = false

theorem stops_takeWhile {s : List Nat} (h : Stops s) : s.takeWhile isDigit = [] := by
  cases s with
  | nil => rfl
  | cons r t => simp [h r t rfl]

theorem stops_dropWhile {s : List Nat} (h : Stops s) : s.dropWhile isDigit = s := by
  cases s with
  | nil => rfl
  | cons r t => simp [h r t rfl]

theorem takeWhile_all {p : Nat → Bool} {a b : List Nat} (h : ∀ x ∈ a, p x = true) : (a ++ b).takeWhile p = a ++ b.takeWhile p := by
  induction a with
  | nil => rfl
  | cons x a ih => simp [h x (by simp), ih fun y hy => h y (by simp [hy])]

theorem dropWhile_all {p : Nat → Bool} {a b : List Nat} (h : ∀ x ∈ a, p x = true) : (a ++ b).dropWhile p = b.dropWhile p := by
  induction a with
  | nil => rfl
  | cons x a ih => simp [h x (by simp), ih fun y hy => h y (by simp [hy])]

theorem digits_run {ds n s} (h : Digits ds n) (hs : Stops s) : digits (ds ++ s) = some (n, s) := by
  obtain ⟨h1, h2, h3⟩ := digits_spec h
  rw [digits, takeWhile_all h1, stops_takeWhile hs, dropWhile_all h1, stops_dropWhile hs, List.append_nil, if_neg h2, h3]

theorem digits_head {ds n} (h : Digits ds n) : ∃ d t, ds = d :: t ∧ isDigit d = true := by
  obtain ⟨h1, h2, _⟩ := digits_spec h
  cases ds with
  | nil => exact absurd rfl h2
  | cons d t => exact ⟨d, t, rfl, h1 d (by simp)⟩

theorem isDigit_bounds {d : Nat} (h : isDigit d = true) : 48 ≤ d ∧ d ≤ 57 := by simpa [isDigit] using h

theorem scanInt_pos {d : Nat} {t : List Nat} (h : isDigit d = true) :
    scanInt (d :: t) = (digits (d :: t)).bind fun x => if 2 ^ 63 ≤ x.1 then none else some ((x.1 : Int), x.2) := by
  have := isDigit_bounds h
  rw [scanInt.eq_def]
  split
  · rename_i e; injection e; omega
  · rename_i e; injection e; omega
  · rfl

/-- The variable of a field. -/
def kind (signed : Bool) : Kind := if signed then .int64 else .uint64

theorem notSpace_of_digit {d : Nat} (h : isDigit d = true) : isSpace d = false := by
  have := isDigit_bounds h
  rw [Bool.eq_false_iff, Ne, isSpace_iff]
  simp only [Space, List.mem_cons, List.not_mem_nil, or_false]
  omega

theorem text_head {t v} (h : Text t v) : ∃ r u, t = r :: u ∧ isSpace r = false := by
  cases h with
  | pos h => obtain ⟨d, u, rfl, hd⟩ := digits_head h; exact ⟨d, u, rfl, notSpace_of_digit hd⟩
  | neg h _ => exact ⟨45, _, rfl, by decide⟩

theorem skipSpace_stop {r : Nat} {u : List Nat} (h : isSpace r = false) : skipSpace (r :: u) = some (r :: u) := by
  have : r ≠ 10 := by rintro rfl; exact absurd h (by decide)
  simp [skipSpace, this, h]

theorem scanOne_text {t v s sg} (h : Text t v) (hf : Fits sg v) (hs : Stops s) : scanOne .d (kind sg) (t ++ s) = some (.num v, s) := by
  obtain ⟨r, u, e, hr⟩ := text_head h
  have hskip : skipSpace (t ++ s) = some (t ++ s) := by rw [e]; exact skipSpace_stop hr
  cases sg with
  | true =>
    simp only [kind, if_pos, scanOne, hskip, Option.bind_some, Option.map_eq_some_iff, Prod.mk.injEq]
    simp only [Fits, if_pos] at hf
    cases h with
    | pos h =>
      obtain ⟨d, u', e', hd⟩ := digits_head h
      refine ⟨(_, s), ?_, rfl, rfl⟩
      have : t ++ s = d :: (u' ++ s) := by rw [e']; rfl
      rw [this, scanInt_pos hd, ← this, digits_run h hs, Option.bind_some, if_neg (by simp; omega)]
    | neg h _ =>
      refine ⟨(_, s), ?_, rfl, rfl⟩
      rw [List.cons_append, scanInt, digits_run h hs, Option.bind_some, if_neg (by simp; omega)]
  | false =>
    simp only [kind, Bool.false_eq_true, if_false, scanOne, hskip, Option.bind_some, Option.map_eq_some_iff, Prod.mk.injEq]
    simp only [Fits, Bool.false_eq_true, if_false] at hf
    cases h with
    | pos h =>
      refine ⟨(_, s), ?_, rfl, rfl⟩
      rw [scanUint, digits_run h hs, Option.bind_some, if_neg (by simp; omega)]
    | neg h h0 => omega

/-- What comes after a number. -/
def Ends (s : List Nat) : Prop := ∀ r t, s = r :: t → isSpace r = true

theorem Ends.stops {s} (h : Ends s) : Stops s := by
  intro r t e
  have h := h r t e
  cases hd : isDigit r with
  | false => rfl
  | true => rw [notSpace_of_digit hd] at h; cases h

theorem sep_text {t v} (s : List Nat) (h : Text t v) : sep (32 :: (t ++ s)) = some (t ++ s) := by
  obtain ⟨r, u, rfl, hr⟩ := text_head h
  simp [sep, show isSpace 32 = true from rfl, hr]

theorem ends_flatMap {ts : List (List Nat)} {rest : List Nat} (h : Ends rest) : Ends (ts.flatMap (32 :: ·) ++ rest) := by
  cases ts with
  | nil => exact h
  | cons t ts => intro r u e; simp only [List.flatMap_cons, List.cons_append, List.append_assoc] at e; injection e with e _; subst e; rfl

/-- Numbers with one space between. -/
theorem scanf_nums : ∀ {sgs : List Bool} {ts : List (List Nat)} {vals : List Int} {names : List Str} {rest : List Nat} {sg t v x}, Ends rest →
    Text t v → Fits sg v → Written sgs ts vals → names.length = sgs.length →
    scanf (List.replicate (sgs.length + 1) .d) ((x :: names).zip ((sg :: sgs).map kind)) (t ++ (ts.flatMap (32 :: ·) ++ rest)) =
      some ((x :: names).zip ((v :: vals).map Got.num)) := by
  intro sgs
  induction sgs with
  | nil =>
    intro ts vals names rest sg t v x hr ht hf hw hl
    cases hw
    obtain rfl : names = [] := List.length_eq_zero_iff.1 hl
    simp [scanf, scanOne_text ht hf hr.stops]
  | cons sg' sgs ih =>
    intro ts vals names rest sg t v x hr ht hf hw hl
    cases hw with
    | cons ht' hf' hw =>
      rename_i t' ts v' vals
      cases names with
      | nil => cases hl
      | cons x' names =>
        have e := ih (names := names) (x := x') hr ht' hf' hw (by simpa using hl)
        rw [List.length_cons, List.replicate_succ, List.map_cons, List.zip_cons_cons, scanf, scanOne_text ht hf (ends_flatMap hr).stops]
        simp only [List.replicate_succ, reduceCtorEq, if_false, List.flatMap_cons, List.cons_append, List.append_assoc]
        rw [sep_text _ ht']
        simp only
        rw [List.replicate_succ] at e
        rw [e]
        rfl

theorem dropWhile_paren {p : Nat → Bool} (hp : p 41 = false) (u w : List Nat) : (u ++ 41 :: w).dropWhile p = u.dropWhile p ++ 41 :: w := by
  induction u with
  | nil => simp [hp]
  | cons x u ih => simp only [List.cons_append, List.dropWhile_cons]; split <;> simp_all

theorem takeWhile_paren {p : Nat → Bool} (hp : p 41 = false) (u w : List Nat) : (u ++ 41 :: w).takeWhile p = u.takeWhile p := by
  induction u with
  | nil => simp [hp]
  | cons x u ih => simp only [List.cons_append, List.takeWhile_cons]; split <;> simp_all

theorem dropWhile_length (p : Nat → Bool) (u : List Nat) : (u.dropWhile p).length ≤ u.length := (List.dropWhile_suffix p).length_le

theorem dropWhile_lt {p : Nat → Bool} {u : List Nat} (h : u.takeWhile p ≠ []) : (u.dropWhile p).length < u.length := by
  cases u with
  | nil => exact absurd rfl h
  | cons x u =>
    simp only [List.takeWhile_cons, List.dropWhile_cons, List.length_cons] at h ⊢
    split at h
    · rename_i hx; simp only [hx, if_true]; have := dropWhile_length p u; omega
    · exact absurd rfl h

theorem skipSpace_paren {u w s : List Nat} (h : skipSpace (u ++ 41 :: w) = some s) : ∃ u', s = u' ++ 41 :: w ∧ u'.length ≤ u.length := by
  induction u with
  | nil =>
    rw [List.nil_append, skipSpace_stop (by decide)] at h
    injection h with h
    exact ⟨[], h.symm, Nat.le_refl _⟩
  | cons x u ih =>
    rw [List.cons_append, skipSpace] at h
    split at h
    · cases h
    · split at h
      · obtain ⟨u', e, hl⟩ := ih h
        exact ⟨u', e, Nat.le_succ_of_le hl⟩
      · injection h with h
        exact ⟨x :: u, h.symm, Nat.le_refl _⟩

theorem sep_paren {u w s : List Nat} (h : sep (u ++ 41 :: w) = some s) : ∃ u', s = u' ++ 41 :: w ∧ u'.length < u.length := by
  cases u with
  | nil => exact absurd h (by simp [sep, show isSpace 41 = false from rfl])
  | cons x u =>
    rw [List.cons_append, sep] at h
    split at h
    · cases h
    · injection h with h
      rw [dropWhile_paren (by decide)] at h
      exact ⟨_, h.symm, Nat.lt_succ_of_le (dropWhile_length _ u)⟩

theorem digits_paren {u w : List Nat} {x} (h : digits (u ++ 41 :: w) = some x) : ∃ u', x.2 = u' ++ 41 :: w ∧ u'.length < u.length := by
  rw [digits, takeWhile_paren (by decide), dropWhile_paren (by decide)] at h
  split at h
  · cases h
  · rename_i hn
    injection h with h
    subst h
    exact ⟨_, rfl, dropWhile_lt hn⟩

theorem scanInt_paren {u w : List Nat} {x} (h : scanInt (u ++ 41 :: w) = some x) : ∃ u', x.2 = u' ++ 41 :: w ∧ u'.length < u.length := by
  rw [scanInt.eq_def] at h
  split at h
  · rename_i s e
    cases u with
    | nil => simp at e
    | cons y u =>
      injection e with _ e
      subst e
      obtain ⟨y, hy, h⟩ := Option.bind_eq_some_iff.1 h
      obtain ⟨u', e', hl⟩ := digits_paren hy
      split at h
      · cases h
      · injection h with h; subst h; exact ⟨u', e', Nat.lt_succ_of_lt hl⟩
  · rename_i s e
    cases u with
    | nil => simp at e
    | cons y u =>
      injection e with _ e
      subst e
      obtain ⟨y, hy, h⟩ := Option.bind_eq_some_iff.1 h
      obtain ⟨u', e', hl⟩ := digits_paren hy
      split at h
      · cases h
      · injection h with h; subst h; exact ⟨u', e', Nat.lt_succ_of_lt hl⟩
  · obtain ⟨y, hy, h⟩ := Option.bind_eq_some_iff.1 h
    obtain ⟨u', e', hl⟩ := digits_paren hy
    split at h
    · cases h
    · injection h with h; subst h; exact ⟨u', e', hl⟩

theorem scanUint_paren {u w : List Nat} {x} (h : scanUint (u ++ 41 :: w) = some x) : ∃ u', x.2 = u' ++ 41 :: w ∧ u'.length < u.length := by
  obtain ⟨y, hy, h⟩ := Option.bind_eq_some_iff.1 h
  obtain ⟨u', e', hl⟩ := digits_paren hy
  split at h
  · cases h
  · injection h with h; subst h; exact ⟨u', e', hl⟩

theorem scanOne_paren {u w : List Nat} {sg x} (h : scanOne .d (kind sg) (u ++ 41 :: w) = some x) : ∃ u', x.2 = u' ++ 41 :: w ∧ u'.length < u.length := by
  cases sg with
  | true =>
    obtain ⟨s, hs, h⟩ := Option.bind_eq_some_iff.1 h
    obtain ⟨u1, rfl, l1⟩ := skipSpace_paren hs
    obtain ⟨y, hy, rfl⟩ := Option.map_eq_some_iff.1 h
    obtain ⟨u2, e, l2⟩ := scanInt_paren hy
    exact ⟨u2, e, by omega⟩
  | false =>
    obtain ⟨s, hs, h⟩ := Option.bind_eq_some_iff.1 h
    obtain ⟨u1, rfl, l1⟩ := skipSpace_paren hs
    obtain ⟨y, hy, rfl⟩ := Option.map_eq_some_iff.1 h
    obtain ⟨u2, e, l2⟩ := scanUint_paren hy
    exact ⟨u2, e, by omega⟩

/-- A parenthesis among numbers is never passed. -/
theorem nums_fail : ∀ (sgs : List Bool) (names : List Str) (u w : List Nat), names.length = sgs.length → u.length + 1 < 2 * sgs.length →
    scanf (List.replicate sgs.length .d) (names.zip (sgs.map kind)) (u ++ 41 :: w) = none := by
  intro sgs
  induction sgs with
  | nil => intro _ _ _ _ h; simp at h
  | cons sg sgs ih =>
    intro names u w hn hl
    cases names with
    | nil => cases hn
    | cons x names =>
      rw [List.length_cons, List.replicate_succ, List.map_cons, List.zip_cons_cons, scanf]
      split
      · rfl
      · rename_i g s he
        obtain ⟨u1, e1, l1⟩ := scanOne_paren he
        simp only at e1
        subst e1
        rw [List.length_cons] at hl
        cases sgs with
        | nil => simp at hl; omega
        | cons sg' sgs =>
          rw [if_neg (by simp)]
          split
          · rfl
          · rename_i s' hs
            obtain ⟨u2, rfl, l2⟩ := sep_paren hs
            rw [ih names u2 w (by simpa using hn) (by omega)]
            rfl

theorem stat_verbs : verbs statFormat = .d :: .s :: .c :: List.replicate (fields.map (·.2)).length .d := by decide +kernel

theorem stat_args : (statArgs.map fun x => (x, kindOf statDecl x)) =
    (b!"Pid", .int64) :: (b!"Comm", .string) :: (b!"State", .byte) :: (fields.map (·.1)).zip ((fields.map (·.2)).map kind) := by decide +kernel

theorem scanOne_comm {s : List Nat} : scanOne .s .string (40 :: s) = some (.str ((40 :: s).takeWhile (!isSpace ·)), (40 :: s).dropWhile (!isSpace ·)) := by
  simp only [scanOne, skipSpace_stop (r := 40) (by decide), Option.bind_some]
  rfl

theorem stateNotSpace {r : Nat} (h : (65 ≤ r ∧ r ≤ 90) ∨ (97 ≤ r ∧ r ≤ 122)) : isSpace r = false := by
  rw [Bool.eq_false_iff, Ne, isSpace_iff]
  simp only [Space, List.mem_cons, List.not_mem_nil, or_false]
  omega

/-- After the process id. -/
theorem scan_pid {p : Proc} (h : p.Ok) :
    readFile statDecl statArgs statFormat (some p.file) =
      (scanf (.s :: .c :: List.replicate (fields.map (·.2)).length .d)
        ((b!"Comm", .string) :: (b!"State", .byte) :: (fields.map (·.1)).zip ((fields.map (·.2)).map kind))
        (40 :: (p.comm ++ 41 :: 32 :: p.state :: (p.texts.flatMap (32 :: ·) ++ p.rest)))).map ((b!"Pid", .num p.pidV) :: ·) := by
  rw [readFile, Option.bind_some, stat_verbs, stat_args, scanf]
  have e : p.file = p.pid ++ 32 :: 40 :: (p.comm ++ 41 :: 32 :: p.state :: (p.texts.flatMap (32 :: ·) ++ p.rest)) := by
    simp [Proc.file]
  obtain ⟨ht, hf⟩ : Text p.pid p.pidV ∧ Fits true p.pidV := by cases h.pid; exact ⟨‹_›, ‹_›⟩
  have := scanOne_text (s := 32 :: 40 :: (p.comm ++ 41 :: 32 :: p.state :: (p.texts.flatMap (32 :: ·) ++ p.rest))) ht hf
    (by intro r t e; injection e with e _; subst e; rfl)
  rw [e, show Kind.int64 = kind true from rfl, this]
  simp only [reduceCtorEq, if_false]
  rw [sep, if_neg (by decide)]
  rfl

/-- After the name, for a name without a space. -/
theorem scan_comm {p : Proc} (h : p.Ok) (hc : ∀ r ∈ p.comm, ¬ Space r) :
    readFile statDecl statArgs statFormat (some p.file) =
      some ((b!"Pid", .num p.pidV) :: (b!"Comm", .str (40 :: p.comm ++ [41])) :: (b!"State", .num p.state) :: (fields.map (·.1)).zip (p.vals.map Got.num)) := by
  have hns : ∀ r ∈ 40 :: p.comm ++ [41], (!isSpace r) = true := by
    intro r hr
    simp only [List.cons_append, List.mem_cons, List.mem_append, List.not_mem_nil, or_false] at hr
    rcases hr with rfl | hr | rfl
    · rfl
    · have := hc r hr; rw [← isSpace_iff] at this; simpa using this
    · rfl
  have hst := h.state
  have hw := h.nums
  have e1 : (40 :: (p.comm ++ 41 :: 32 :: p.state :: (p.texts.flatMap (32 :: ·) ++ p.rest))) =
      (40 :: p.comm ++ [41]) ++ 32 :: p.state :: (p.texts.flatMap (32 :: ·) ++ p.rest) := by simp
  rw [scan_pid h, scanf, scanOne_comm, e1, takeWhile_all hns, dropWhile_all hns]
  simp only [List.takeWhile_cons, List.dropWhile_cons, show (!isSpace 32) = false from rfl, Bool.false_eq_true, if_false, reduceCtorEq,
    List.append_nil]
  rw [sep, if_neg (by decide)]
  simp only [List.dropWhile_cons, stateNotSpace hst, Bool.false_and, Bool.false_eq_true, if_false]
  rw [scanf, scanOne, if_neg (by omega)]
  simp only
  generalize p.texts = texts at hw ⊢
  generalize p.vals = vals at hw ⊢
  cases texts with
  | nil => cases hw
  | cons t ts =>
    generalize hsg : fields.map (·.2) = sgs at hw ⊢
    cases hw with
    | cons htx hfx hw =>
      rename_i sg sgs v vs
      have hlen : (fields.map (·.1)).length = sgs.length + 1 := by
        have := congrArg List.length hsg
        simp only [List.length_map, List.length_cons] at this ⊢
        exact this
      generalize fields.map (·.1) = names at hlen ⊢
      cases names with
      | nil => cases hlen
      | cons x names =>
        have hends : Ends p.rest := fun r t e => (isSpace_iff r).2 (h.rest r t e)
        have := scanf_nums (x := x) hends htx hfx hw (by simpa using hlen)
        simp only [List.flatMap_cons, List.cons_append, List.append_assoc]
        rw [sep_text _ htx]
        simp only [List.length_cons]
        rw [this, if_neg (by simp [List.replicate_succ])]
        rfl

/-- With a space in the name the scan fails. -/
theorem scan_fails {p : Proc} (h : p.Ok) (hc : ∃ r ∈ p.comm, Space r) (hl : p.comm.length ≤ 64) :
    readFile statDecl statArgs statFormat (some p.file) = none := by
  rw [scan_pid h, Option.map_eq_none_iff, scanf, scanOne_comm]
  simp only [reduceCtorEq, if_false]
  generalize hw : (32 :: p.state :: (p.texts.flatMap (32 :: ·) ++ p.rest)) = w
  have hd : ∃ sp c2, (40 :: (p.comm ++ 41 :: w)).dropWhile (!isSpace ·) = sp :: (c2 ++ 41 :: w) ∧ c2.length < p.comm.length := by
    rw [List.dropWhile_cons, if_pos (by decide)]
    clear hl
    generalize p.comm = comm at hc
    induction comm with
    | nil => obtain ⟨_, hr, _⟩ := hc; cases hr
    | cons x c ih =>
      rw [List.cons_append, List.dropWhile_cons]
      split
      · rename_i hx
        have hc' : ∃ r ∈ c, Space r := by
          obtain ⟨r, hr, hs⟩ := hc
          rcases List.mem_cons.1 hr with rfl | hr
          · rw [(isSpace_iff _).2 hs] at hx; cases hx
          · exact ⟨r, hr, hs⟩
        obtain ⟨sp, c2, e, l⟩ := ih hc'
        exact ⟨sp, c2, e, Nat.lt_succ_of_lt l⟩
      · exact ⟨x, c, rfl, Nat.lt_succ_self _⟩
  obtain ⟨sp, c2, e, l2⟩ := hd
  rw [e]
  split
  · rfl
  · rename_i s hs
    rw [Option.map_eq_none_iff]
    obtain ⟨c3, rfl, l3⟩ := sep_paren (u := sp :: c2) hs
    rw [scanf]
    split
    · rfl
    · rename_i g s he
      rw [if_neg (by decide)]
      split
      · rfl
      · rename_i s' hs'
        rw [Option.map_eq_none_iff]
        cases c3 with
        | nil =>
          simp only [scanOne, List.nil_append] at he
          injection he with he
          injection he with _ he
          subst he
          rw [← hw, sep, if_neg (by decide)] at hs'
          injection hs' with hs'
          rw [List.dropWhile_cons, if_neg (by simp [stateNotSpace h.state])] at hs'
          subst hs'
          have hst := h.state
          have : ∀ t, scanOne .d .int64 (p.state :: t) = none := by
            intro t
            simp only [scanOne, skipSpace_stop (stateNotSpace hst), Option.bind_some, Option.map_eq_none_iff]
            rw [scanInt.eq_def]
            have hdg : isDigit p.state = false := by simp [isDigit]; omega
            split
            · rename_i e; injection e; omega
            · rename_i e; injection e; omega
            · simp [digits, hdg]
          show scanf (.d :: _) ((_, .int64) :: _) _ = none
          rw [scanf, this]
        | cons x c4 =>
          have he' : s = c4 ++ 41 :: w := by
            simp only [scanOne, List.cons_append] at he
            split at he
            · cases he
            · injection he with he; injection he with _ he; exact he.symm
          subst he'
          obtain ⟨u, rfl, lu⟩ := sep_paren hs'
          refine nums_fail _ _ _ _ rfl ?_
          have : (fields.map (·.2)).length = 41 := rfl
          simp only [List.length_cons] at l3
          omega

/-- What `StatSourceFromStruct` makes of the struct. -/
def reported (got : List (Str × Got)) (x : Str × Kind) : Option (Str × FVal) :=
  match x.2 with
  | .string => none
  | _ => match got.lookup x.1 with
    | some (.num i) => some (x.1, .flt (Float.rn 53 i))
    | _ => some (x.1, .flt 0)

theorem toStruct_stats (got : List (Str × Got)) (decl : List (Str × Kind)) :
    Struct.fieldsStats (toStruct got decl) = some (decl.filterMap (reported got)) := by
  induction decl with
  | nil => rfl
  | cons x xs ih =>
    rw [toStruct, Struct.fieldsStats]
    have hi : Struct.ignored [] = false := by decide
    obtain ⟨n, k⟩ := x
    cases k
    case string => simp [fieldVal, Struct.deref, hi, Struct.fieldStats, ih, reported, List.filterMap_cons]
    all_goals
      simp only [fieldVal, reported, List.filterMap_cons]
      cases hg : got.lookup n with
      | none => simp [Struct.deref, hi, Struct.fieldStats, ih]
      | some g => cases g <;> simp [Struct.deref, hi, Struct.fieldStats, ih]

theorem written_length {sgs ts vals} (h : Written sgs ts vals) : vals.length = sgs.length := by
  induction h with
  | nil => rfl
  | cons _ _ _ ih => simp [ih]

/-- Statistics of variables that were all scanned, in the order of their declaration. -/
theorem reported_zip (names : List Str) (vals : List Int) (kinds : List Bool) (hl : vals.length = names.length) (hk : kinds.length = names.length)
    (hn : names.Nodup) (before : List (Str × Got)) (hb : ∀ x ∈ before, x.1 ∉ names) :
    (names.zip (kinds.map kind)).filterMap (reported (before ++ names.zip (vals.map Got.num))) =
      (names.zip vals).map fun x => (x.1, FVal.flt (Float.rn 53 x.2)) := by
  induction names generalizing vals kinds before with
  | nil => rfl
  | cons x names ih =>
    cases vals with
    | nil => cases hl
    | cons v vals =>
      cases kinds with
      | nil => cases hk
      | cons k kinds =>
        have hnx := List.nodup_cons.1 hn
        have e := ih vals kinds (by simpa using hl) (by simpa using hk) hnx.2 (before ++ [(x, .num v)]) (by
          intro y hy
          rcases List.mem_append.1 hy with hy | hy
          · exact fun hh => hb y hy (List.mem_cons_of_mem _ hh)
          · simp only [List.mem_singleton] at hy; subst hy; exact hnx.1)
        simp only [List.append_assoc, List.singleton_append] at e
        simp only [List.map_cons, List.zip_cons_cons, List.filterMap_cons, e]
        have hlk : (before ++ (x, Got.num v) :: names.zip (vals.map Got.num)).lookup x = some (.num v) := by
          clear e ih
          induction before with
          | nil => simp [List.lookup]
          | cons y ys ihb =>
            have : x ≠ y.1 := fun hh => hb y (by simp) (by rw [hh]; simp)
            rw [List.cons_append, List.lookup_cons]
            rw [show (x == y.1) = false from by simpa using this]
            exact ihb fun z hz => hb z (by simp [hz])
        cases k <;> simp [reported, kind, hlk]

end Monkit.ProcFs
