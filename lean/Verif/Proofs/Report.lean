import Verif.Spec.Report
import Mathlib.Data.List.Nodup

namespace Monkit.Report
open Go Spec

theorem upd_apply {α : Type} (f : Nat → α) (t : Nat) (v : α) (t' : Nat) : upd f t v t' = if t' = t then v else f t' := rfl

/-- Nothing is ever lost. -/
structure Grows (s s' : State) : Prop where
  scopes : ∀ n x, Map.get s.scopes n = some x → Map.get s'.scopes n = some x
  srcs : ∀ x k o, Map.get (s.srcs x) k = some o → Map.get (s'.srcs x) k = some o
  hist : ∀ o r, r ∈ s.hist o → r ∈ s'.hist o
  gotScopes : ∀ x, x ∈ s.gotScopes → x ∈ s'.gotScopes
  gotSrcs : ∀ o, o ∈ s.gotSrcs → o ∈ s'.gotSrcs

theorem Grows.refl (s : State) : Grows s s := ⟨fun _ _ h => h, fun _ _ _ h => h, fun _ _ h => h, fun _ h => h, fun _ h => h⟩

theorem Grows.trans {a b c : State} (h : Grows a b) (h' : Grows b c) : Grows a c :=
  ⟨fun n x e => h'.1 n x (h.1 n x e), fun x k o e => h'.2 x k o (h.2 x k o e), fun o r e => h'.3 o r (h.3 o r e),
    fun x e => h'.4 x (h.4 x e), fun o e => h'.5 o (h.5 o e)⟩

theorem grows_step {s s' : State} {e : Option Event} (st : Step s e s') : Grows s s' := by
  cases st
  case scopeNew t n h1 h2 =>
    refine ⟨fun m x h => ?_, fun _ _ _ h => h, fun _ _ h => h, fun _ h => h, fun _ h => h⟩
    simp only [Map.get_set]
    split
    · next e => subst e; rw [h2] at h; cases h
    · exact h
  case makeNew t x k h1 h2 =>
    refine ⟨fun _ _ h => h, fun y l o h => ?_, fun _ _ h => h, fun _ h => h, fun _ h => h⟩
    simp only [upd_apply]
    split
    · next e =>
      subst e
      rw [Map.get_set]
      split
      · next e => subst e; rw [h2] at h; cases h
      · exact h
    · exact h
  case record t o r h1 =>
    refine ⟨fun _ _ h => h, fun _ _ _ h => h, fun p q h => ?_, fun _ h => h, fun _ h => h⟩
    simp only [upd_apply]
    split
    · next e => subst e; exact List.mem_append_left _ h
    · exact h
  case ret t op res h1 =>
    exact ⟨fun _ _ h => h, fun _ _ _ h => h, fun _ _ h => h, fun _ h => List.mem_append_right _ h,
      fun _ h => List.mem_append_right _ h⟩
  all_goals exact ⟨fun _ _ h => h, fun _ _ _ h => h, fun _ _ h => h, fun _ h => h, fun _ h => h⟩

theorem grows_exec {s s' : State} {tr : List Event} (h : Exec Step s tr s') : Grows s s' := by
  induction h with
  | start => exact Grows.refl _
  | step e _ st ih => exact ih.trans (grows_step st)

/-- The tables. -/
structure Tab (s : State) : Prop where
  okS : Map.Ok s.scopes
  okX : ∀ x, Map.Ok (s.srcs x)
  scLt : ∀ n x, Map.get s.scopes n = some x → x < s.nextScope
  scInj : ∀ n n' x, Map.get s.scopes n = some x → Map.get s.scopes n' = some x → n = n'
  srcLt : ∀ x k o, Map.get (s.srcs x) k = some o → o < s.nextSrc
  srcInj : ∀ x k x' k' o, Map.get (s.srcs x) k = some o → Map.get (s.srcs x') k' = some o → x = x' ∧ k = k'

theorem tab_step {s s' : State} {e : Option Event} (i : Tab s) (st : Step s e s') : Tab s' := by
  obtain ⟨i1, i2, i3, i4, i5, i6⟩ := i
  cases st
  case scopeNew t n h1 h2 =>
    refine ⟨Map.ok_set i1 _ _, i2, ?_, ?_, i5, i6⟩ <;> simp only [Map.get_set] <;> grind
  case makeNew t x k h1 h2 =>
    refine ⟨i1, ?_, i3, i4, ?_, ?_⟩
    · intro y
      simp only [upd_apply]
      split
      · exact Map.ok_set (i2 x) _ _
      · exact i2 y
    · intro y l o
      simp only [upd_apply]
      split
      · rw [Map.get_set]; grind
      · grind
    · intro y l y' l' o
      simp only [upd_apply]
      split <;> split <;> (try simp only [Map.get_set]) <;> grind
  all_goals exact ⟨i1, i2, i3, i4, i5, i6⟩

/-- The numbers of records. -/
structure Nums (s : State) : Prop where
  lt : ∀ o r, r ∈ s.hist o → r.num < s.nums
  pcLt : ∀ t o r, s.pc t = .record o r → r.num < s.nums
  fresh : ∀ t o r, s.pc t = .record o r → ∀ o' r', r' ∈ s.hist o' → r'.num ≠ r.num
  apart : ∀ t t' o o' r r', s.pc t = .record o r → s.pc t' = .record o' r' → t ≠ t' → r.num ≠ r'.num
  nodup : ∀ o, (s.hist o).Nodup

theorem nums_step {s s' : State} {e : Option Event} (i : Nums s) (st : Step s e s') : Nums s' := by
  obtain ⟨i1, i2, i3, i4, i5⟩ := i
  cases st
  case record t o r h =>
    refine ⟨?_, ?_, ?_, ?_, ?_⟩ <;> simp only [upd_apply]
    · grind
    · grind
    · grind
    · grind
    · intro o'
      split
      · next e =>
        subst e
        refine List.Nodup.append (i5 o') (by simp) ?_
        intro a ha hb
        simp only [List.mem_singleton] at hb
        subst hb
        exact i3 t o' a h o' a ha rfl
      · exact i5 o'
  case callRecord t o v h1 h2 =>
    refine ⟨?_, ?_, ?_, ?_, ?_⟩ <;> simp only [upd_apply] <;> grind
  all_goals
    refine ⟨?_, ?_, ?_, ?_, ?_⟩ <;> simp only [upd_apply]
    · exact i1
    · grind
    · grind
    · grind
    · exact i5

/-- What a value to be returned says. -/
def Says (s : State) : Op → Res → Prop
  | .scopeNamed n, r => ∃ x, r = .scope x ∧ Map.get s.scopes n = some x
  | .source x k, r => ∃ o, r = .source o ∧ Map.get (s.srcs x) k = some o
  | .record o r, a => a = .done ∧ r ∈ s.hist o
  | .stats, r => ∃ l, r = .lines l

theorem Says.mono {s s' : State} (g : Grows s s') {op : Op} {r : Res} (h : Says s op r) : Says s' op r := by
  cases op with
  | scopeNamed n => obtain ⟨x, h1, h2⟩ := h; exact ⟨x, h1, g.1 _ _ h2⟩
  | source x k => obtain ⟨o, h1, h2⟩ := h; exact ⟨o, h1, g.2 _ _ _ h2⟩
  | record o r => exact ⟨h.1, g.3 _ _ h.2⟩
  | stats => exact h

/-- What has been returned is so. -/
structure Rets (tr : List Event) (s : State) : Prop where
  pc : ∀ t op r, s.pc t = .ret op r → Says s op r
  tr : ∀ t op r, .ret t op r ∈ tr → Says s op r

theorem rets_step {tr : List Event} {s s' : State} {e : Option Event} (i : Rets tr s) (st : Step s e s') :
    Rets (tr ++ e.toList) s' := by
  have g := grows_step st
  obtain ⟨i1, i2⟩ := i
  have i1' : ∀ t op r, s.pc t = .ret op r → Says s' op r := fun t op r h => (i1 t op r h).mono g
  have i2' : ∀ t op r, .ret t op r ∈ tr → Says s' op r := fun t op r h => (i2 t op r h).mono g
  constructor
  · cases st
    case scopeFound t n x h1 h2 =>
      intro u op r; simp only [upd_apply]; split
      · intro h; cases h; exact ⟨x, rfl, h2⟩
      · exact i1' u op r
    case scopeNew t n h1 h2 =>
      intro u op r; simp only [upd_apply]; split
      · intro h; cases h; exact ⟨_, rfl, by simp [Map.get_set]⟩
      · exact i1' u op r
    case lookFound t x k o h1 h2 =>
      intro u op r; simp only [upd_apply]; split
      · intro h; cases h; exact ⟨o, rfl, h2⟩
      · exact i1' u op r
    case makeFound t x k o h1 h2 =>
      intro u op r; simp only [upd_apply]; split
      · intro h; cases h; exact ⟨o, rfl, h2⟩
      · exact i1' u op r
    case makeNew t x k h1 h2 =>
      intro u op r; simp only [upd_apply]; split
      · intro h; cases h; exact ⟨_, rfl, by simp [upd_apply, Map.get_set]⟩
      · exact i1' u op r
    case record t o r h1 =>
      intro u op r'; simp only [upd_apply]; split
      · intro h; cases h; exact ⟨rfl, by simp [upd_apply]⟩
      · exact i1' u op r'
    case finish t out h1 =>
      intro u op r; simp only [upd_apply]; split
      · intro h; cases h; exact ⟨_, rfl⟩
      · exact i1' u op r
    all_goals
      intro u op r
      simp only [upd_apply]
      split
      · intro h; cases h
      · exact i1' u op r
  · intro t op r h
    rcases List.mem_append.mp h with h | h
    · exact i2' t op r h
    · cases e with
      | none => simp at h
      | some e =>
        simp only [Option.toList_some, List.mem_singleton] at h
        subst h
        cases st with
        | ret _ _ _ h1 => exact i1' t op r h1

/-- What somebody is doing or has was asked for. -/
structure Calls (tr : List Event) (s : State) : Prop where
  look : ∀ t x k, s.pc t = .look x k → .call t (.source x k) ∈ tr ∧ x ∈ s.gotScopes
  make : ∀ t x k, s.pc t = .make x k → .call t (.source x k) ∈ tr ∧ x ∈ s.gotScopes
  srcs : ∀ x k o, Map.get (s.srcs x) k = some o → x ∈ s.gotScopes ∧ ∃ t, .call t (.source x k) ∈ tr
  record : ∀ t o r, s.pc t = .record o r → .call t (.record o r) ∈ tr ∧ o ∈ s.gotSrcs
  hist : ∀ o r, r ∈ s.hist o → o ∈ s.gotSrcs ∧ ∃ t, .call t (.record o r) ∈ tr
  gotScopes : ∀ x, x ∈ s.gotScopes → ∃ t n, .ret t (.scopeNamed n) (.scope x) ∈ tr
  gotSrcs : ∀ o, o ∈ s.gotSrcs → ∃ t x k, .ret t (.source x k) (.source o) ∈ tr

theorem calls_step {tr : List Event} {s s' : State} {e : Option Event} (ir : Rets tr s) (i : Calls tr s) (st : Step s e s') :
    Calls (tr ++ e.toList) s' := by
  obtain ⟨i1, i2, i3, i4, i5, i6, i7⟩ := i
  have hm : ∀ x, x ∈ tr → x ∈ tr ++ e.toList := fun x h => List.mem_append_left _ h
  cases st
  case ret t op res h =>
    have hs := ir.pc t op res h
    refine ⟨?_, ?_, ?_, ?_, ?_, ?_, ?_⟩ <;> simp only [upd_apply]
    · intro u x k; split
      · intro h; cases h
      · intro h; exact ⟨hm _ (i1 u x k h).1, List.mem_append_right _ (i1 u x k h).2⟩
    · intro u x k; split
      · intro h; cases h
      · intro h; exact ⟨hm _ (i2 u x k h).1, List.mem_append_right _ (i2 u x k h).2⟩
    · intro x k o h
      obtain ⟨a, u, b⟩ := i3 x k o h
      exact ⟨List.mem_append_right _ a, u, hm _ b⟩
    · intro u o r; split
      · intro h; cases h
      · intro h; exact ⟨hm _ (i4 u o r h).1, List.mem_append_right _ (i4 u o r h).2⟩
    · intro o r h
      obtain ⟨a, u, b⟩ := i5 o r h
      exact ⟨List.mem_append_right _ a, u, hm _ b⟩
    · intro x hx
      rcases List.mem_append.mp hx with hx | hx
      · cases res <;> simp [givenScope] at hx
        subst hx
        cases op with
        | scopeNamed n => exact ⟨t, n, by simp⟩
        | source x k => obtain ⟨o, h1, _⟩ := hs; cases h1
        | record o r => obtain ⟨h1, _⟩ := hs; cases h1
        | stats => obtain ⟨o, h1⟩ := hs; cases h1
      · obtain ⟨u, n, h⟩ := i6 x hx; exact ⟨u, n, hm _ h⟩
    · intro o ho
      rcases List.mem_append.mp ho with ho | ho
      · cases res <;> simp [givenSrc] at ho
        subst ho
        cases op with
        | scopeNamed n => obtain ⟨x, h1, _⟩ := hs; cases h1
        | source x k => exact ⟨t, x, k, by simp⟩
        | record o r => obtain ⟨h1, _⟩ := hs; cases h1
        | stats => obtain ⟨o, h1⟩ := hs; cases h1
      · obtain ⟨u, x, k, h⟩ := i7 o ho; exact ⟨u, x, k, hm _ h⟩
  case makeNew t x k h1 h2 =>
    simp only [Option.toList_none, List.append_nil]
    refine ⟨?_, ?_, ?_, ?_, i5, i6, i7⟩ <;> simp only [upd_apply]
    · grind
    · grind
    · intro y l o
      split
      · next e =>
        subst e
        rw [Map.get_set]
        split
        · next e => subst e; intro _; exact ⟨(i2 t _ _ h1).2, t, (i2 t _ _ h1).1⟩
        · exact i3 _ l o
      · exact i3 y l o
    · grind
  case record t o r h =>
    simp only [Option.toList_none, List.append_nil]
    refine ⟨?_, ?_, i3, ?_, ?_, i6, i7⟩ <;> simp only [upd_apply]
    · grind
    · grind
    · grind
    · intro p q
      split
      · next e =>
        subst e
        intro hq
        rcases List.mem_append.mp hq with hq | hq
        · exact i5 _ q hq
        · simp only [List.mem_singleton] at hq; subst hq; exact ⟨(i4 t _ _ h).2, t, (i4 t _ _ h).1⟩
      · exact i5 p q
  all_goals
    refine ⟨?_, ?_, ?_, ?_, ?_, ?_, ?_⟩ <;> simp only [upd_apply] <;> grind

structure Inv (tr : List Event) (s : State) : Prop where
  tab : Tab s
  nums : Nums s
  rets : Rets tr s
  calls : Calls tr s

theorem inv {tr : List Event} {s : State} (h : Exec Step init tr s) : Inv tr s := by
  refine h.induct Inv ?_ ?_
  · refine ⟨⟨Map.ok_nil, fun _ => Map.ok_nil, ?_, ?_, ?_, ?_⟩, ⟨?_, ?_, ?_, ?_, ?_⟩, ⟨?_, ?_⟩, ⟨?_, ?_, ?_, ?_, ?_, ?_, ?_⟩⟩ <;>
      simp [init]
  · intro tr s e s' i st
    exact ⟨tab_step i.1 st, nums_step i.2 st, rets_step i.3 st, calls_step i.3 i.4 st⟩

/-- Every source of the scope `x`, called `n`, has its entry. -/
def Cov (s1 : State) (n : Str) (x : Nat) (out : List Line) : Prop :=
  ∀ k o, Map.get (s1.srcs x) k = some o → ∃ e ∈ out, e.scope = n ∧ e.key = k ∧ ∀ r, r ∈ s1.hist o → r ∈ e.hist

/-- An entry is of a source there is. -/
def LineOk (s : State) (e : Line) : Prop :=
  ∃ x o, Map.get s.scopes e.scope = some x ∧ Map.get (s.srcs x) e.key = some o ∧ e.hist.Nodup ∧ ∀ r, r ∈ e.hist → r ∈ s.hist o

theorem Cov.mono {s1 : State} {n : Str} {x : Nat} {out out' : List Line} (h : Cov s1 n x out) (hs : ∀ e ∈ out, e ∈ out') :
    Cov s1 n x out' := fun k o ho => by
  obtain ⟨e, h1, h2⟩ := h k o ho
  exact ⟨e, hs e h1, h2⟩

theorem LineOk.mono {s s' : State} (g : Grows s s') {e : Line} (h : LineOk s e) : LineOk s' e := by
  obtain ⟨x, o, h1, h2, h3, h4⟩ := h
  exact ⟨x, o, g.1 _ _ h1, g.2 _ _ _ h2, h3, fun r hr => g.3 _ _ (h4 r hr)⟩

/-- What holds of the entries so far. -/
structure OutOk (s : State) (out : List Line) : Prop where
  lines : ∀ e ∈ out, LineOk s e
  once : (out.map fun e => (e.scope, e.key)).Nodup
  sorted : out.Pairwise fun e f => strLt f.scope e.scope = false

theorem OutOk.mono {s s' : State} (g : Grows s s') {out : List Line} (h : OutOk s out) : OutOk s' out :=
  ⟨fun e he => (h.1 e he).mono g, h.2, h.3⟩

/-- What holds of the scopes still to be visited. -/
structure TodoOk (s : State) (todo : List (Str × Nat)) (out : List Line) : Prop where
  sorted : todo.Pairwise fun a b => strLt a.1 b.1 = true
  there : ∀ a ∈ todo, Map.get s.scopes a.1 = some a.2
  after : ∀ e ∈ out, ∀ a ∈ todo, strLt e.scope a.1 = true

theorem TodoOk.mono {s s' : State} (g : Grows s s') {todo : List (Str × Nat)} {out : List Line} (h : TodoOk s todo out) :
    TodoOk s' todo out := ⟨h.1, fun a ha => g.1 _ _ (h.2 a ha), h.3⟩

/-- In the scope `x` called `n`. -/
structure CurOk (s1 s : State) (n : Str) (x : Nat) (cur todo : List (Str × Nat)) (out : List Line) : Prop where
  scope : Map.get s.scopes n = some x
  before : ∀ a ∈ todo, strLt n a.1 = true
  keys : (cur.map (·.1)).Nodup
  there : ∀ a ∈ cur, Map.get (s.srcs x) a.1 = some a.2
  cov : ∀ k o, Map.get (s1.srcs x) k = some o →
    (k, o) ∈ cur ∨ ∃ e ∈ out, e.scope = n ∧ e.key = k ∧ ∀ r, r ∈ s1.hist o → r ∈ e.hist
  new : ∀ e ∈ out, e.scope = n → e.key ∉ cur.map (·.1)
  below : ∀ e ∈ out, strLt n e.scope = false

/-- Where the report called in `s1` is in `s`. -/
def At (s1 s : State) : Pc → Prop
  | .copy => True
  | .scopes todo out => OutOk s out ∧ TodoOk s todo out ∧
      ∀ n x, Map.get s1.scopes n = some x → (n, x) ∈ todo ∨ Cov s1 n x out
  | .sources n cur todo out => ∃ x, OutOk s out ∧ TodoOk s todo out ∧ CurOk s1 s n x cur todo out ∧
      ∀ m y, Map.get s1.scopes m = some y → (m, y) ∈ todo ∨ (m = n ∧ y = x) ∨ Cov s1 m y out
  | .ret op res => op = .stats ∧ ∃ out, res = .lines out ∧ OutOk s out ∧ ∀ n x, Map.get s1.scopes n = some x → Cov s1 n x out
  | _ => False

theorem At.mono {s1 s s' : State} (g : Grows s s') {p : Pc} (h : At s1 s p) : At s1 s' p := by
  cases p with
  | copy => trivial
  | scopes todo out => exact ⟨h.1.mono g, h.2.1.mono g, h.2.2⟩
  | sources n cur todo out =>
    obtain ⟨x, h1, h2, h3, h4⟩ := h
    exact ⟨x, h1.mono g, h2.mono g, ⟨g.1 _ _ h3.1, h3.2, h3.3, fun a ha => g.2 _ _ _ (h3.4 a ha), h3.5, h3.6, h3.7⟩, h4⟩
  | ret op res =>
    obtain ⟨h1, out, h2, h3, h4⟩ := h
    exact ⟨h1, out, h2, h3.mono g, h4⟩
  | _ => exact h

theorem strLt_of {a b : Str} (h : strLt b a = false) (hne : a ≠ b) : strLt a b = true := by
  unfold strLt at *
  cases hb : strLe b a with
  | false => rfl
  | true => exact absurd (strLe_antisymm a b (by simpa using h) hb) hne

theorem strLt_irrefl (a : Str) : strLt a a = false := by simp [strLt, strLe_refl]

theorem strLt_asymm {a b : Str} (h : strLt a b = true) : strLt b a = false := by
  unfold strLt at *
  have := strLe_total a b
  simp_all

theorem sorted_strict {d : List (Str × Nat)} (hn : (d.map (·.1)).Nodup) (hs : d.Pairwise fun a b => strLt b.1 a.1 = false) :
    d.Pairwise fun a b => strLt a.1 b.1 = true := by
  induction d with
  | nil => exact .nil
  | cons a d ih =>
    rw [List.pairwise_cons] at hs ⊢
    simp only [List.map_cons, List.nodup_cons] at hn
    refine ⟨fun b hb => strLt_of (hs.1 b hb) ?_, ih hn.2 hs.2⟩
    intro e
    exact hn.1 (e ▸ List.mem_map_of_mem hb)

/-- One step, with no return of `t`. -/
theorem at_step {s1 s s' : State} {e : Option Event} {t : Nat} (it : Tab s) (inu : Nums s) (g1 : Grows s1 s)
    (h : At s1 s (s.pc t)) (st : Step s e s') (hr : ∀ op r, e ≠ some (.ret t op r)) : At s1 s' (s'.pc t) := by
  have g := grows_step st
  have hm : At s1 s' (s.pc t) := h.mono g
  have keep : ∀ u p, u ≠ t → At s1 s' (upd s.pc u p t) := by
    intro u p hu
    rw [upd_other _ _ (Ne.symm hu)]
    exact hm
  cases st
  case copy u d h1 h2 h3 =>
    by_cases hu : u = t
    · subst hu
      simp only [upd_same]
      have ok := Map.ok_perm h2.symm it.okS
      refine ⟨⟨by simp, by simp, by simp⟩, ⟨sorted_strict ok h3, ?_, by simp⟩, ?_⟩
      · intro a ha
        exact (Map.mem_iff_get it.okS a.1 a.2).mp (h2.mem_iff.mp ha)
      · intro n x hn
        left
        exact h2.mem_iff.mpr ((Map.mem_iff_get it.okS n x).mpr (g1.1 _ _ hn))
    · exact keep u _ hu
  case enter u n x todo out cur h1 h2 =>
    by_cases hu : u = t
    · subst hu
      simp only [upd_same]
      rw [h1] at h
      obtain ⟨o1, o2, o3⟩ := h
      have hs := List.pairwise_cons.mp o2.sorted
      refine ⟨x, o1.mono g, ⟨hs.2, fun a ha => o2.there a (List.mem_cons_of_mem _ ha),
        fun e he a ha => o2.after e he a (List.mem_cons_of_mem _ ha)⟩, ⟨o2.there (n, x) List.mem_cons_self, hs.1, 
          Map.ok_perm h2.symm (it.okX x), ?_, ?_, ?_, ?_⟩, ?_⟩
      · intro a ha
        exact (Map.mem_iff_get (it.okX x) a.1 a.2).mp (h2.mem_iff.mp ha)
      · intro k o ho
        left
        exact h2.mem_iff.mpr ((Map.mem_iff_get (it.okX x) k o).mpr (g1.2 _ _ _ ho))
      · intro e he hn
        have := o2.after e he (n, x) List.mem_cons_self
        rw [hn, strLt_irrefl] at this; cases this
      · intro e he
        exact strLt_asymm (o2.after e he (n, x) List.mem_cons_self)
      · intro m y hy
        rcases o3 m y hy with h | h
        · rcases List.mem_cons.mp h with h | h
          · cases h; exact .inr (.inl ⟨rfl, rfl⟩)
          · exact .inl h
        · exact .inr (.inr h)
    · exact keep u _ hu
  case ask u n k o cur todo out h1 =>
    by_cases hu : u = t
    · subst hu
      simp only [upd_same]
      rw [h1] at h
      obtain ⟨x, o1, o2, o3, o4⟩ := h
      have hk := List.nodup_cons.mp o3.keys
      have ho := o3.there (k, o) List.mem_cons_self
      refine ⟨x, ⟨?_, ?_, ?_⟩, ⟨o2.sorted, o2.there, ?_⟩, ⟨o3.scope, o3.before, hk.2,
        fun a ha => o3.there a (List.mem_cons_of_mem _ ha), ?_, ?_, ?_⟩, ?_⟩
      · intro e he
        rcases List.mem_append.mp he with he | he
        · exact o1.lines e he
        · simp only [List.mem_singleton] at he
          subst he
          exact ⟨x, o, o3.scope, ho, inu.nodup o, fun r hr => hr⟩
      · rw [List.map_append]
        refine List.Nodup.append o1.once (by simp) ?_
        intro p hp hq
        simp only [List.map_cons, List.map_nil, List.mem_singleton] at hq
        subst hq
        obtain ⟨e, he, hp⟩ := List.mem_map.mp hp
        simp only [Prod.mk.injEq] at hp
        exact o3.new e he hp.1 (by rw [hp.2]; simp)
      · rw [List.pairwise_append]
        refine ⟨o1.sorted, by simp, ?_⟩
        intro e he f hf
        simp only [List.mem_singleton] at hf
        subst hf
        exact o3.below e he
      · intro e he a ha
        rcases List.mem_append.mp he with he | he
        · exact o2.after e he a ha
        · simp only [List.mem_singleton] at he
          subst he
          exact o3.before a ha
      · intro k' o' ho'
        rcases o3.cov k' o' ho' with h | ⟨e, h2, h3⟩
        · rcases List.mem_cons.mp h with h | h
          · cases h
            exact .inr ⟨_, List.mem_append_right _ (List.mem_singleton.mpr rfl), rfl, rfl, fun r hr => g1.3 _ _ hr⟩
          · exact .inl h
        · exact .inr ⟨e, List.mem_append_left _ h2, h3⟩
      · intro e he hn
        rcases List.mem_append.mp he with he | he
        · intro hh; exact o3.new e he hn (List.mem_cons_of_mem _ hh)
        · simp only [List.mem_singleton] at he
          subst he
          exact hk.1
      · intro e he
        rcases List.mem_append.mp he with he | he
        · exact o3.below e he
        · simp only [List.mem_singleton] at he
          subst he
          exact strLt_irrefl _
      · intro m y hy
        rcases o4 m y hy with h | h | h
        · exact .inl h
        · exact .inr (.inl h)
        · exact .inr (.inr (h.mono fun e he => List.mem_append_left _ he))
    · exact keep u _ hu
  case leave u n todo out h1 =>
    by_cases hu : u = t
    · subst hu
      simp only [upd_same]
      rw [h1] at h
      obtain ⟨x, o1, o2, o3, o4⟩ := h
      refine ⟨o1.mono g, o2.mono g, ?_⟩
      intro m y hy
      rcases o4 m y hy with h | ⟨rfl, rfl⟩ | h
      · exact .inl h
      · refine .inr fun k o ho => ?_
        rcases o3.cov k o ho with h | h
        · cases h
        · exact h
      · exact .inr h
    · exact keep u _ hu
  case finish u out h1 =>
    by_cases hu : u = t
    · subst hu
      simp only [upd_same]
      rw [h1] at h
      obtain ⟨o1, o2, o3⟩ := h
      refine ⟨rfl, out, rfl, o1.mono g, ?_⟩
      intro n x hn
      rcases o3 n x hn with h | h
      · cases h
      · exact h
    · exact keep u _ hu
  case ret u op res h1 =>
    by_cases hu : u = t
    · subst hu; exact absurd rfl (hr op res)
    · exact keep u _ hu
  case callScope u n h1 =>
    by_cases hu : u = t
    · subst hu; rw [h1] at h; exact h.elim
    · exact keep u _ hu
  case callSource u x k h1 h2 =>
    by_cases hu : u = t
    · subst hu; rw [h1] at h; exact h.elim
    · exact keep u _ hu
  case callRecord u o v h1 h2 =>
    by_cases hu : u = t
    · subst hu; rw [h1] at h; exact h.elim
    · exact keep u _ hu
  case callStats u h1 =>
    by_cases hu : u = t
    · subst hu; rw [h1] at h; exact h.elim
    · exact keep u _ hu
  case scopeFound u n x h1 h2 =>
    by_cases hu : u = t
    · subst hu; rw [h1] at h; exact h.elim
    · exact keep u _ hu
  case scopeNew u n h1 h2 =>
    by_cases hu : u = t
    · subst hu; rw [h1] at h; exact h.elim
    · exact keep u _ hu
  case lookFound u x k o h1 h2 =>
    by_cases hu : u = t
    · subst hu; rw [h1] at h; exact h.elim
    · exact keep u _ hu
  case lookNone u x k h1 h2 =>
    by_cases hu : u = t
    · subst hu; rw [h1] at h; exact h.elim
    · exact keep u _ hu
  case makeFound u x k o h1 h2 =>
    by_cases hu : u = t
    · subst hu; rw [h1] at h; exact h.elim
    · exact keep u _ hu
  case makeNew u x k h1 h2 =>
    by_cases hu : u = t
    · subst hu; rw [h1] at h; exact h.elim
    · exact keep u _ hu
  case record u o r h1 =>
    by_cases hu : u = t
    · subst hu; rw [h1] at h; exact h.elim
    · exact keep u _ hu

end Monkit.Report
