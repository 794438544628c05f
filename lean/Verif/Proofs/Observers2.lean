import Verif.Proofs.Observers

namespace Monkit.Observers
open Go

theorem callsOf_append (t : Nat) (a b : List Ev) : callsOf t (a ++ b) = callsOf t a ++ callsOf t b := by
  induction a with
  | nil => rfl
  | cons e es ih =>
    cases e with
    | called u n => simp only [List.cons_append, callsOf]; split <;> simp [ih]
    | _ => simp only [List.cons_append, callsOf, ih]

/-- The event is not one of goroutine `t`'s walk. -/
def foreign (t : Nat) (e : Option Ev) : Prop := ∀ x, e = some x → x ≠ .began t ∧ ∀ n, x ≠ .called t n

theorem callsOf_foreign {t : Nat} {e : Option Ev} (h : foreign t e) (b : List Ev) :
    callsOf t (b ++ e.toList) = callsOf t b := by
  rw [callsOf_append]
  cases e with
  | none => simp [callsOf]
  | some x =>
    have := h x rfl
    cases x with
    | called u n =>
      have hu : u ≠ t := fun e => this.2 n (by rw [e])
      simp [callsOf, hu]
    | _ => simp [callsOf]

/-- Not taken out before time `T0`. -/
def Fresh (rt : Nat → Option Nat) (T0 n : Nat) : Prop := ∀ k, rt n = some k → T0 ≤ k

/-- What is known at each position of a walk: `A` the observers registered when it began, `cs` the calls made so
far. -/
def wok (rt : Nat → Option Nat) (next T0 : Nat) (A : Nat → Prop) (cs : List Nat) : PC → Prop
  | .look => cs = []
  | .look2 n => cs = [] ∧ Fresh rt T0 n ∧ n < next ∧ ∀ x, A x → rt x = none → x ≤ n
  | .call n last => Fresh rt T0 n ∧ n < next ∧ (∀ y ∈ cs, n < y) ∧
      (∀ x, A x → rt x = none → x ∈ cs ∨ x ≤ n) ∧ (last = true → ∀ x, A x → rt x = none → x ∈ cs ∨ x = n)
  | .more n => Fresh rt T0 n ∧ n < next ∧ (∀ y ∈ cs, n ≤ y) ∧ ∀ x, A x → rt x = none → x ∈ cs ∨ x < n
  | .fin => ∀ x, A x → rt x = none → x ∈ cs
  | _ => False

def PC.walking : PC → Bool
  | .look | .look2 _ | .call _ _ | .more _ | .fin => true
  | _ => false

/-- The walk of goroutine `t`. -/
def Walk (t : Nat) (rt : Nat → Option Nat) (next clk : Nat) (tr : List Ev) (pc : PC) : Prop :=
  ∃ a b T0, tr = a ++ .began t :: b ∧ .began t ∉ b ∧ T0 ≤ clk ∧
    (∀ n, Cancelled n a → ∃ k, rt n = some k ∧ k < T0) ∧
    (callsOf t b).Pairwise (· > ·) ∧ (∀ y ∈ callsOf t b, Fresh rt T0 y ∧ y < next) ∧
    wok rt next T0 (fun n => Registered n a) (callsOf t b) pc

/-- `rt` and `clk` only grow. -/
def grow (rt : Nat → Option Nat) (clk : Nat) (rt' : Nat → Option Nat) (clk' : Nat) : Prop :=
  (∀ n k, rt n = some k → rt' n = some k) ∧ (∀ n k, rt' n = some k → rt n = some k ∨ clk ≤ k) ∧ clk ≤ clk'

theorem ghost_grow {s : State} {rt rt' : Nat → Option Nat} {clk clk' : Nat}
    (h : ghost s rt clk rt' clk') : grow rt clk rt' clk' := by
  rcases h with ⟨rfl, rfl⟩ | ⟨t, ref, p, c, _, h2, rfl, rfl⟩
  · exact ⟨fun _ _ h => h, fun _ _ h => .inl h, Nat.le_refl _⟩
  · refine ⟨fun n k h => ?_, fun n k h => ?_, Nat.le_succ _⟩
    · by_cases e : n = ref
      · subst e; rw [h2] at h; cases h
      · rw [upd_other _ _ e]; exact h
    · by_cases e : n = ref
      · subst e; simp at h; exact .inr (by omega)
      · rw [upd_other _ _ e] at h; exact .inl h

theorem grow_none {rt rt' : Nat → Option Nat} {clk clk' : Nat} (g : grow rt clk rt' clk') {n : Nat}
    (h : rt' n = none) : rt n = none := by
  cases e : rt n with
  | none => rfl
  | some k => rw [g.1 n k e] at h; cases h

theorem grow_fresh {rt rt' : Nat → Option Nat} {clk clk' T0 : Nat} (g : grow rt clk rt' clk')
    (hT : T0 ≤ clk) {n : Nat} (h : Fresh rt T0 n) : Fresh rt' T0 n := by
  intro k hk
  rcases g.2.1 n k hk with h1 | h1
  · exact h k h1
  · omega

theorem Walk.grow {t : Nat} {rt rt' : Nat → Option Nat} {next next' clk clk' : Nat} {tr : List Ev} {pc : PC}
    (w : Walk t rt next clk tr pc) (g : grow rt clk rt' clk') (hn : next ≤ next') {e : Option Ev}
    (hf : foreign t e) : Walk t rt' next' clk' (tr ++ e.toList) pc := by
  obtain ⟨a, b, T0, h1, h2, h3, h4, h5, h6, h7⟩ := w
  have hc := callsOf_foreign hf b
  have hN : ∀ {n}, rt' n = none → rt n = none := fun h => grow_none g h
  have hF : ∀ {n}, Fresh rt T0 n → Fresh rt' T0 n := fun h => grow_fresh g h3 h
  refine ⟨a, b ++ e.toList, T0, by simp [h1], ?_, Nat.le_trans h3 g.2.2, ?_, by rw [hc]; exact h5, ?_, ?_⟩
  · rw [List.mem_append]
    rintro (h | h)
    · exact h2 h
    · cases e with
      | none => simp at h
      | some x => simp at h; exact (hf x rfl).1 h.symm
  · intro n hn
    obtain ⟨k, hk, hlt⟩ := h4 n hn
    exact ⟨k, g.1 n k hk, hlt⟩
  · rw [hc]; intro y hy; exact ⟨hF (h6 y hy).1, Nat.lt_of_lt_of_le (h6 y hy).2 hn⟩
  · rw [hc]
    cases pc with
    | look => exact h7
    | look2 n =>
      obtain ⟨k1, k2, k3, k4⟩ := h7
      exact ⟨k1, hF k2, Nat.lt_of_lt_of_le k3 hn, fun x hx hl => k4 x hx (hN hl)⟩
    | call n last =>
      obtain ⟨k1, k2, k3, k4, k5⟩ := h7
      exact ⟨hF k1, Nat.lt_of_lt_of_le k2 hn, k3, fun x hx hl => k4 x hx (hN hl),
        fun hl' x hx hl => k5 hl' x hx (hN hl)⟩
    | more n =>
      obtain ⟨k1, k2, k3, k4⟩ := h7
      exact ⟨hF k1, Nat.lt_of_lt_of_le k2 hn, k3, fun x hx hl => k4 x hx (hN hl)⟩
    | fin => exact fun x hx hl => h7 x hx (hN hl)
    | _ => exact h7

def PC.ref? : PC → Option Nat
  | .cwait r | .cat r _ | .cfound r _ | .ccas r _ _ | .cdone r => some r
  | _ => none

structure Inv (tr : List Ev) (s : State) (rt : Nat → Option Nat) (clk : Nat) : Prop where
  list : InvL s.head s.cdr s.next rt clk
  thr : InvT s rt
  reg : ∀ n, Registered n tr ↔ n < s.next
  canc : ∀ n, Cancelled n tr → rt n ≠ none
  cst : ∀ n, rt n ≠ none → CancelCalled n tr
  ref : ∀ t r, (s.pc t).ref? = some r → CancelCalled r tr
  walk : ∀ t, (s.pc t).walking = true → Walk t rt s.next clk tr (s.pc t)

theorem inv_init' : Inv [] init (fun _ => none) 0 := by
  refine ⟨inv_init.1, inv_init.2, ?_, ?_, ?_, ?_, ?_⟩
  · intro n; simp [Registered, init]
  · intro n h; simp [Cancelled] at h
  · intro n h; simp at h
  · intro t r h; simp [init, PC.ref?] at h
  · intro t h; simp [init, PC.walking] at h

theorem foreign_none (t : Nat) : foreign t none := fun x h => by cases h

/-- A step that is none of: registering, cancel called, cancel returned. -/
theorem inv_plain {tr : List Ev} {s s' : State} {rt rt' : Nat → Option Nat} {clk clk' : Nat} {e : Option Ev}
    (i : Inv tr s rt clk) (hg : ghost s rt clk rt' clk')
    (hl : InvL s'.head s'.cdr s'.next rt' clk') (ht : InvT s' rt')
    {t : Nat} {v : PC} (hpc : s'.pc = upd s.pc t v)
    (hreg : ∀ n, Registered n (tr ++ e.toList) ↔ n < s'.next)
    (hnext : s.next ≤ s'.next)
    (hcanc : ∀ n u, e = some (.cancelled u n) → rt n ≠ none)
    (href : ∀ r, v.ref? = some r → CancelCalled r (tr ++ e.toList))
    (hfor : ∀ u, u ≠ t → foreign u e)
    (hw : v.walking = true → Walk t rt' s'.next clk' (tr ++ e.toList) v) :
    Inv (tr ++ e.toList) s' rt' clk' := by
  have g := ghost_grow hg
  have up : ∀ {r}, CancelCalled r tr → CancelCalled r (tr ++ e.toList) := fun ⟨u, h⟩ =>
    ⟨u, List.mem_append_left _ h⟩
  refine ⟨hl, ht, hreg, ?_, ?_, ?_, ?_⟩
  · rintro n ⟨u, h⟩ hn
    have hn' := grow_none g hn
    rw [List.mem_append] at h
    rcases h with h | h
    · exact i.canc n ⟨u, h⟩ hn'
    · exact hcanc n u (by cases e <;> simp_all) hn'
  · intro n hn
    rcases hg with ⟨rfl, _⟩ | ⟨u, ref, p, c, h1, h2, rfl, _⟩
    · exact up (i.cst n hn)
    · by_cases e : n = ref
      · subst e; exact up (i.ref u n (by rw [h1]; rfl))
      · rw [upd_other _ _ e] at hn; exact up (i.cst n hn)
  · intro u r hr
    rw [hpc] at hr
    by_cases e : u = t
    · subst e; rw [upd_same] at hr; exact href r hr
    · rw [upd_other _ _ e] at hr; exact up (i.ref u r hr)
  · intro u hu
    rw [hpc] at hu ⊢
    by_cases e : u = t
    · subst e; rw [upd_same] at hu ⊢; exact hw hu
    · rw [upd_other _ _ e] at hu ⊢
      exact (i.walk u hu).grow g hnext (hfor u e)

theorem reg_same {tr : List Ev} {next : Nat} (h : ∀ n, Registered n tr ↔ n < next) {e : Option Ev}
    (he : ∀ u n, e ≠ some (.registered u n)) : ∀ n, Registered n (tr ++ e.toList) ↔ n < next := by
  intro n
  rw [← h n]
  constructor
  · rintro ⟨u, hu⟩
    rw [List.mem_append] at hu
    rcases hu with hu | hu
    · exact ⟨u, hu⟩
    · cases e with
      | none => simp at hu
      | some x => simp at hu; exact absurd (by rw [hu]) (he u n)
  · rintro ⟨u, hu⟩; exact ⟨u, List.mem_append_left _ hu⟩

theorem inv_step' {tr : List Ev} {s s' : State} {rt : Nat → Option Nat} {clk : Nat} {e : Option Ev}
    (i : Inv tr s rt clk) (st : Step s e s') :
    ∃ rt' clk', Inv (tr ++ e.toList) s' rt' clk' := by
  obtain ⟨rt', clk', hg, hl, ht⟩ := inv_step i.list i.thr st
  have g := ghost_grow hg
  refine ⟨rt', clk', ?_⟩
  have refs : ∀ t r, (s.pc t).ref? = some r → CancelCalled r (tr ++ e.toList) := fun t r h => by
    obtain ⟨u, hu⟩ := i.ref t r h
    exact ⟨u, List.mem_append_left _ hu⟩
  cases st with
  | regCall t h =>
    exact inv_plain i hg hl ht rfl (reg_same i.reg (by simp)) (Nat.le_refl _) (by simp) (by simp [PC.ref?])
      (fun u _ => foreign_none u) (by simp [PC.walking])
  | regLoad t h =>
    exact inv_plain i hg hl ht rfl (reg_same i.reg (by simp)) (Nat.le_refl _) (by simp) (by simp [PC.ref?])
      (fun u _ => foreign_none u) (by simp [PC.walking])
  | pushFail t ex h hc =>
    exact inv_plain i hg hl ht rfl (reg_same i.reg (by simp)) (Nat.le_refl _) (by simp) (by simp [PC.ref?])
      (fun u _ => foreign_none u) (by simp [PC.walking])
  | pushOk t ex h hc =>
    refine inv_plain i hg hl ht rfl ?_ (Nat.le_succ _) (by simp) (by simp [PC.ref?])
      (fun u hu x e => by cases e; simp) (by simp [PC.walking])
    intro n
    show _ ↔ n < s.next + 1
    constructor
    · rintro ⟨u, hu⟩
      rw [List.mem_append] at hu
      rcases hu with hu | hu
      · have := (i.reg n).mp ⟨u, hu⟩; omega
      · simp at hu; omega
    · intro hn
      by_cases e : n = s.next
      · subst e; exact ⟨t, by simp⟩
      · obtain ⟨u, hu⟩ := (i.reg n).mpr (by omega)
        exact ⟨u, List.mem_append_left _ hu⟩
  | cancel t ref h hr =>
    refine inv_plain i hg hl ht rfl (reg_same i.reg (by simp)) (Nat.le_refl _) (by simp) ?_
      (fun u _ x e => by cases e; simp) (by simp [PC.walking])
    intro r hr; simp [PC.ref?] at hr; subst hr
    exact ⟨t, by simp⟩
  | lock t ref h free =>
    exact inv_plain i hg hl ht rfl (reg_same i.reg (by simp)) (Nat.le_refl _) (by simp)
      (fun r hr => refs t r (by rw [h]; exact hr)) (fun u _ => foreign_none u) (by simp [PC.walking])
  | atNil t ref p h hc =>
    exact inv_plain i hg hl ht rfl (reg_same i.reg (by simp)) (Nat.le_refl _) (by simp)
      (fun r hr => refs t r (by rw [h]; exact hr)) (fun u _ => foreign_none u) (by simp [PC.walking])
  | atNext t ref p n h hc hn =>
    exact inv_plain i hg hl ht rfl (reg_same i.reg (by simp)) (Nat.le_refl _) (by simp)
      (fun r hr => refs t r (by rw [h]; exact hr)) (fun u _ => foreign_none u) (by simp [PC.walking])
  | atFound t ref p h hc =>
    exact inv_plain i hg hl ht rfl (reg_same i.reg (by simp)) (Nat.le_refl _) (by simp)
      (fun r hr => refs t r (by rw [h]; exact hr)) (fun u _ => foreign_none u) (by simp [PC.walking])
  | found t ref p h =>
    exact inv_plain i hg hl ht rfl (reg_same i.reg (by simp)) (Nat.le_refl _) (by simp)
      (fun r hr => refs t r (by rw [h]; exact hr)) (fun u _ => foreign_none u) (by simp [PC.walking])
  | casOk t ref p c h hc =>
    have hn : (s.setCell c p).next = s.next := by cases p <;> rfl
    refine inv_plain (t := t) (v := .cdone ref) i hg hl ht rfl ?_ ?_ (by simp)
      (fun r hr => refs t r (by rw [h]; exact hr)) (fun u _ => foreign_none u) (by simp [PC.walking])
    · show ∀ n, _ ↔ n < (s.setCell c p).next
      rw [hn]; exact reg_same i.reg (by simp)
    · show s.next ≤ (s.setCell c p).next
      rw [hn]; exact Nat.le_refl _
  | casFail t ref p c h hc =>
    exact inv_plain i hg hl ht rfl (reg_same i.reg (by simp)) (Nat.le_refl _) (by simp)
      (fun r hr => refs t r (by rw [h]; exact hr)) (fun u _ => foreign_none u) (by simp [PC.walking])
  | unlock t ref h =>
    refine inv_plain i hg hl ht rfl (reg_same i.reg (by simp)) (Nat.le_refl _) ?_ (by simp [PC.ref?])
      (fun u _ x e => by cases e; simp) (by simp [PC.walking])
    intro n u he
    simp at he
    have := i.thr.ok t
    rw [h] at this
    rw [← he.2]; exact this.2
  | begin t h =>
    refine inv_plain i hg hl ht rfl (reg_same i.reg (by simp)) (Nat.le_refl _) (by simp) (by simp [PC.ref?])
      (fun u hu x e => by cases e; simp [Ne.symm hu]) (fun _ => ?_)
    refine ⟨tr, [], clk', by simp, by simp, Nat.le_refl _, fun n hn => ?_, by simp [callsOf],
      by simp [callsOf], rfl⟩
    cases hk : rt n with
    | none => exact absurd hk (i.canc n hn)
    | some k => exact ⟨k, g.1 n k hk, Nat.lt_of_lt_of_le (i.list.rtLt n k hk).2 g.2.2⟩
  | lookNil t h hc =>
    refine inv_plain i hg hl ht rfl (reg_same i.reg (by simp)) (Nat.le_refl _) (by simp) (by simp [PC.ref?])
      (fun u _ => foreign_none u) (fun _ => ?_)
    obtain ⟨a, b, T0, h1, h2, h3, h4, h5, h6, h7⟩ :=
      (i.walk t (by rw [h]; rfl)).grow g (Nat.le_refl _) (foreign_none t)
    refine ⟨a, b, T0, h1, h2, h3, h4, h5, h6, fun x hx hl' => ?_⟩
    obtain ⟨u, hu⟩ := hx
    have hlt := (i.reg x).mp ⟨u, by
      have : Ev.registered u x ∈ tr ++ [] := by
        have h1' : tr ++ [] = a ++ Ev.began t :: b := h1
        rw [h1']; simp [hu]
      simpa using this⟩
    obtain ⟨m, hm, _⟩ := i.list.fromHead x hlt (grow_none g hl')
    rw [hc] at hm; cases hm
  | lookSome t n h hc =>
    refine inv_plain i hg hl ht rfl (reg_same i.reg (by simp)) (Nat.le_refl _) (by simp) (by simp [PC.ref?])
      (fun u _ => foreign_none u) (fun _ => ?_)
    obtain ⟨a, b, T0, h1, h2, h3, h4, h5, h6, h7⟩ :=
      (i.walk t (by rw [h]; rfl)).grow g (Nat.le_refl _) (foreign_none t)
    rw [h] at h7
    refine ⟨a, b, T0, h1, h2, h3, h4, h5, h6, h7, ?_, i.list.headLt n hc, fun x hx hl' => ?_⟩
    · intro k hk
      rw [hl.headLive n hc] at hk; cases hk
    · obtain ⟨u, hu⟩ := hx
      have hlt := (i.reg x).mp ⟨u, by
        have : Ev.registered u x ∈ tr ++ [] := by
          have h1' : tr ++ [] = a ++ Ev.began t :: b := h1
          rw [h1']; simp [hu]
        simpa using this⟩
      obtain ⟨m, hm, hle⟩ := i.list.fromHead x hlt (grow_none g hl')
      rw [hc] at hm; cases hm; exact hle
  | look2 t n h =>
    refine inv_plain i hg hl ht rfl (reg_same i.reg (by simp)) (Nat.le_refl _) (by simp) (by simp [PC.ref?])
      (fun u _ => foreign_none u) (fun _ => ?_)
    obtain ⟨a, b, T0, h1, h2, h3, h4, h5, h6, h7⟩ :=
      (i.walk t (by rw [h]; rfl)).grow g (Nat.le_refl _) (foreign_none t)
    rw [h] at h7
    obtain ⟨k1, k2, k3, k4⟩ := h7
    refine ⟨a, b, T0, h1, h2, h3, h4, h5, h6, k2, k3, by rw [k1]; simp, fun x hx hl' => .inr (k4 x hx hl'), ?_⟩
    intro hlast x hx hl'
    right
    have hle := k4 x hx hl'
    rcases Nat.lt_or_ge x n with hlt | hge
    · obtain ⟨m, hm, _⟩ := hl.fromCdr n x k3 hlt hl'
      rw [decide_eq_true_eq] at hlast
      simp only at hm
      rw [hlast] at hm; cases hm
    · omega
  | call t n last h =>
    refine inv_plain i hg hl ht rfl (reg_same i.reg (by simp)) (Nat.le_refl _) (by simp)
      (by split <;> simp [PC.ref?])
      (fun u hu x e => by cases e; simp [Ne.symm hu]) (fun _ => ?_)
    have hw := (i.walk t (by rw [h]; rfl)).grow g (Nat.le_refl s.next) (foreign_none t)
    rw [h] at hw
    simp only [Option.toList_none, List.append_nil] at hw
    obtain ⟨a, b, T0, h1, h2, h3, h4, h5, h6, k1, k2, k3, k4, k5⟩ := hw
    have hc : callsOf t (b ++ [.called t n]) = callsOf t b ++ [n] := by
      rw [callsOf_append]; simp [callsOf]
    refine ⟨a, b ++ [.called t n], T0, by simp [h1], by simp [h2], h3, h4, ?_, ?_, ?_⟩
    · rw [hc, List.pairwise_append]
      exact ⟨h5, by simp, fun y hy z hz => by simp at hz; subst hz; exact k3 y hy⟩
    · rw [hc]; intro y hy
      rw [List.mem_append, List.mem_singleton] at hy
      rcases hy with hy | rfl
      · exact h6 y hy
      · exact ⟨k1, k2⟩
    · rw [hc]
      cases last with
      | true =>
        intro x hx hl'
        rw [List.mem_append, List.mem_singleton]
        exact k5 rfl x hx hl'
      | false =>
        refine ⟨k1, k2, fun y hy => ?_, fun x hx hl' => ?_⟩
        · rw [List.mem_append, List.mem_singleton] at hy
          rcases hy with hy | rfl
          · exact Nat.le_of_lt (k3 y hy)
          · exact Nat.le_refl _
        · rw [List.mem_append, List.mem_singleton]
          rcases k4 x hx hl' with h' | h'
          · exact .inl (.inl h')
          · by_cases e : x = n
            · exact .inl (.inr e)
            · exact .inr (by omega)
  | moreNil t n h hc =>
    refine inv_plain i hg hl ht rfl (reg_same i.reg (by simp)) (Nat.le_refl _) (by simp) (by simp [PC.ref?])
      (fun u _ => foreign_none u) (fun _ => ?_)
    obtain ⟨a, b, T0, h1, h2, h3, h4, h5, h6, h7⟩ :=
      (i.walk t (by rw [h]; rfl)).grow g (Nat.le_refl _) (foreign_none t)
    rw [h] at h7
    obtain ⟨k1, k2, k3, k4⟩ := h7
    refine ⟨a, b, T0, h1, h2, h3, h4, h5, h6, fun x hx hl' => ?_⟩
    rcases k4 x hx hl' with h' | h'
    · exact h'
    · obtain ⟨m, hm, _⟩ := hl.fromCdr n x k2 h' hl'
      simp only at hm
      rw [hc] at hm; cases hm
  | moreNext t n m h hc =>
    refine inv_plain i hg hl ht rfl (reg_same i.reg (by simp)) (Nat.le_refl _) (by simp) (by simp [PC.ref?])
      (fun u _ => foreign_none u) (fun _ => ?_)
    obtain ⟨a, b, T0, h1, h2, h3, h4, h5, h6, h7⟩ :=
      (i.walk t (by rw [h]; rfl)).grow g (Nat.le_refl _) (foreign_none t)
    rw [h] at h7
    obtain ⟨k1, k2, k3, k4⟩ := h7
    have hlt := hl.desc n m hc
    refine ⟨a, b, T0, h1, h2, h3, h4, h5, h6, ?_, Nat.lt_trans hlt k2, fun y hy => Nat.lt_of_lt_of_le hlt (k3 y hy),
      fun x hx hl' => ?_, by simp⟩
    · -- the next one was not taken out before the walk began
      intro k hk
      cases hn : rt' n with
      | none => rw [hl.cdrLive n m hn hc] at hk; cases hk
      | some kn =>
        rcases hl.cdrDead n m kn hn hc with h' | ⟨k', h', hlt'⟩
        · rw [h'] at hk; cases hk
        · rw [h'] at hk; cases hk
          have := k1 kn hn
          omega
    · rcases k4 x hx hl' with h' | h'
      · exact .inl h'
      · obtain ⟨m', hm, hle⟩ := hl.fromCdr n x k2 h' hl'
        simp only at hm
        rw [hc] at hm; cases hm
        exact .inr hle
  | finish t h =>
    exact inv_plain i hg hl ht rfl (reg_same i.reg (by simp)) (Nat.le_refl _) (by simp) (by simp [PC.ref?])
      (fun u hu x e => by cases e; simp) (by simp [PC.walking])

theorem inv_exec {tr : List Ev} {s : State} (h : Exec Step init tr s) : ∃ rt clk, Inv tr s rt clk :=
  Exec.induct (fun tr s => ∃ rt clk, Inv tr s rt clk) ⟨_, _, inv_init'⟩
    (fun _ _ _ _ ⟨_, _, i⟩ st => inv_step' i st) h

end Monkit.Observers
