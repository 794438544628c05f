import Verif.Proofs.Scope

namespace Monkit.Scope
open Go Spec

theorem solid_true {x : Option Obj} (h : solid x = true) : ∃ o, x = some o ∧ o.kind ≠ .gauge := by
  cases x with
  | none => cases h
  | some o => exact ⟨o, rfl, by simpa [solid] using h⟩

theorem solid_false {x : Option Obj} (h : solid x = false) (o : Obj) (ho : x = some o) : o.kind = .gauge := by
  subst ho
  simpa [solid] using h

theorem step_legal {tr : List Ev} {s s' : State} {ev : Ev} (h : Inv tr s) (st : Step s (some ev) s') : Legal tr ev := by
  generalize he : some ev = e at st
  cases st with
  | call t c hp hk => cases he; exact (h.pend t).trans (by rw [hp]; rfl)
  | make t c hp =>
    cases he
    have hk : c.kind ≠ .gauge := h.kinds t c.kind (by rw [hp]; rfl)
    refine ⟨(h.pend t).trans (by rw [hp]; rfl), (h.tab _).symm.trans (h.absent t c.key (by rw [hp]; rfl)), rfl, hk, ?_⟩
    intro x hx n o' hp'
    exact Nat.ne_of_lt (h.fresh x hx n o' hp')
  | ret t c o hp hk =>
    cases he
    have hk' : c.kind ≠ .gauge := h.kinds t c.kind (by rw [hp]; rfl)
    exact ⟨(h.pend t).trans (by rw [hp]; rfl),
      (h.tab _).symm.trans (h.carrySolid t c.key o (by rw [hp]; rfl) (hk ▸ hk')), hk, hk ▸ hk'⟩
  | panic t c o hp hk =>
    cases he
    refine ⟨(h.pend t).trans (by rw [hp]; rfl), ?_⟩
    by_cases hg : o.kind = .gauge
    · have := h.carryGauge t c.key o (by rw [hp]; rfl) hg
      rw [h.tab] at this
      cases ht : table tr c.key with
      | none => rw [ht] at this; cases this
      | some o' =>
        rw [ht] at this
        exact ⟨o', rfl, by
          have e : o'.kind = .gauge := Option.some.inj this
          rw [e, ← hg]; exact hk⟩
    · exact ⟨o, (h.tab _).symm.trans (h.carrySolid t c.key o (by rw [hp]; rfl) hg), hk⟩
  | gSet t n hp =>
    cases he
    refine ⟨fun o' ho' => solid_false (h.free t n (by rw [hp]; rfl)) o' ((h.tab n).trans ho'), rfl, ?_⟩
    intro x hx m o' hp'
    exact Nat.ne_of_lt (h.fresh x hx m o' hp')
  | gUnlock t n b hp =>
    cases b with
    | false => cases he; trivial
    | true =>
      cases he
      have := solid_true (h.bad t n (by rw [hp]; rfl))
      rw [h.tab] at this
      exact this
  | cAppend t c hp => cases he; trivial
  | sCall t hp => cases he; trivial
  | gCall t n hp => cases he; trivial
  | cCall t c hp => cases he; trivial
  | cUnlock t c hp => cases he; trivial
  | sUnlock2 t hp => cases he; trivial
  | sCopy t l hp hl =>
    cases he
    refine ⟨Map.ok_perm hl.symm h.ok, fun n o => ?_⟩
    rw [← h.tab, ← Map.mem_iff_get h.ok]
    exact hl.mem_iff
  | sCopy2 t hp => cases he; exact h.chains
  | _ => cases he

/-- Where a goroutine is and what it is in the middle of. -/
def At : PC → Phase → Prop
  | .idle, .idle => True
  | .rlock c, .accessor c' | .reading c, .accessor c' | .read c _, .accessor c' | .wlock c, .accessor c' | .locked c, .accessor c' | .absent c, .accessor c'
  | .unlock c _, .accessor c' | .got c _, .accessor c' => c = c'
  | .unlock c o, .made c' o' | .got c o, .made c' o' => c = c' ∧ o = o' ∧ o.kind = c.kind
  | .gLock n, .gauge n' | .gLocked n, .gauge n' | .gFree n, .gauge n' | .gUnlock n true, .gauge n' => n = n'
  | .gUnlock n false, .gaugeSet n' => n = n'
  | .cLock c, .chain c' | .cLocked c, .chain c' => c = c'
  | .cUnlock c, .chainAdded c' => c = c'
  | .sLock, .stats | .sLocked, .stats => True
  | .sUnlock, .statsSources | .sLock2, .statsSources | .sLocked2, .statsSources => True
  | .sUnlock2, .statsChains => True
  | _, _ => False

theorem phase_snoc (tr : List Ev) (e : Ev) (t : Nat) : phase (tr ++ [e]) t = if by' e = t then (phase tr t).bind (·.next e) else phase tr t := by
  unfold phase
  rw [List.filter_append]
  by_cases h : by' e = t
  · simp [h, List.filter_cons, List.foldlM_append]
  · simp [h, List.filter_cons]

theorem phase_move {tr : List Ev} {s : State} (i : ∀ t, ∃ p, phase tr t = some p ∧ At (s.pc t) p) {t : Nat} {ev : Option Ev} {q : PC} {s' : State} (hs : s'.pc = upd s.pc t q)
    (he : ∀ e, ev = some e → by' e = t) (hq : ∀ p, At (s.pc t) p → ∃ p', (match ev with | none => some p | some e => p.next e) = some p' ∧ At q p') :
    ∀ u, ∃ p, phase (tr ++ ev.toList) u = some p ∧ At (s'.pc u) p := by
  intro u
  obtain ⟨p, hp, ha⟩ := i u
  rw [hs]
  by_cases e : u = t
  · subst e
    obtain ⟨p', h1, h2⟩ := hq p ha
    refine ⟨p', ?_, by rw [upd_same]; exact h2⟩
    cases ev with
    | none => cases h1; simpa using hp
    | some x =>
      rw [Option.toList_some, phase_snoc, if_pos (he x rfl), hp]
      exact h1
  · refine ⟨p, ?_, by rw [upd_other _ _ e]; exact ha⟩
    cases ev with
    | none => simpa using hp
    | some x => rw [Option.toList_some, phase_snoc, if_neg (by rw [he x rfl]; exact fun h => e h.symm)]; exact hp

theorem phase_step {tr : List Ev} {s s' : State} {ev : Option Ev} (i : ∀ t, ∃ p, phase tr t = some p ∧ At (s.pc t) p) (st : Step s ev s') :
    ∀ t, ∃ p, phase (tr ++ ev.toList) t = some p ∧ At (s'.pc t) p := by
  cases st with
  | again t c h =>
    refine phase_move i rfl (fun _ h => by cases h) (fun p hp => ⟨p, rfl, ?_⟩)
    rw [h] at hp
    cases p <;> simp only [At] at hp
    subst hp
    cases Map.get s.sources c.key <;> rfl
  | gUnlock t n b h =>
    cases b
    · refine phase_move i rfl (fun _ h => by cases h; rfl) (fun p hp => ?_)
      rw [h] at hp
      cases p <;> simp only [At] at hp
      subst hp
      exact ⟨.idle, by simp [Phase.next], trivial⟩
    · refine phase_move i rfl (fun _ h => by cases h; rfl) (fun p hp => ?_)
      rw [h] at hp
      cases p <;> simp only [At] at hp
      subst hp
      exact ⟨.idle, by simp [Phase.next], trivial⟩
  | panic t c o h k =>
    refine phase_move i rfl (fun _ h => by cases h; rfl) (fun p hp => ?_)
    rw [h] at hp
    cases p <;> simp only [At] at hp
    · subst hp; exact ⟨.idle, by simp [Phase.next], trivial⟩
    · exact absurd hp.2.2 k
  | call t c h | rlock t c h | read t c h | runlockSome t c o h | runlockNone t c h | wlock t c h | make t c h | unlock t c o h | ret t c o h | gCall t n h | gLock t n h
  | gOk t n h | gBad t n o h | gSet t n h | cCall t c h | cLock t c h | cAppend t c h | cUnlock t c h | sCall t h | sLock t h | sCopy t l h | sUnlock t h | sLock2 t h
  | sCopy2 t h | sUnlock2 t h =>
    refine phase_move i rfl (fun _ h => by cases h <;> rfl) (fun p hp => ?_)
    rw [h] at hp
    cases p <;> simp only [At] at hp <;> first | (refine ⟨_, rfl, ?_⟩; first | trivial | exact hp | exact ⟨rfl, rfl, rfl⟩) | (subst hp; simp [Phase.next, At]) | (obtain ⟨rfl, rfl, hk⟩ := hp; simp [Phase.next, At])

theorem phases {tr : List Ev} {s : State} (h : Exec Step State.init tr s) : ∀ t, ∃ p, phase tr t = some p ∧ At (s.pc t) p :=
  Exec.induct (fun tr s => ∀ t, ∃ p, phase tr t = some p ∧ At (s.pc t) p) (fun t => ⟨.idle, rfl, show At ((State.init).pc t) .idle from trivial⟩) (fun _ _ _ _ hi st => phase_step hi st) h

theorem history {tr : List Ev} {s : State} (h : Exec Step State.init tr s) : LegalHistory tr := by
  intro a e b hab
  obtain ⟨s1, s2, h1, h2, h3⟩ := Exec.split h a e b hab
  exact step_legal (inv h1) h2

/-! ### What follows from the specification alone -/

theorem LegalHistory.pre {a b : List Ev} (h : LegalHistory (a ++ b)) : LegalHistory a := by
  intro x e y hxy
  exact h x e (y ++ b) (by rw [hxy]; simp)

theorem table_mem {h : List Ev} {n : Str} {o : Obj} (ht : table h n = some o) : ∃ x ∈ h, puts x = some (n, o) := by
  unfold table at ht
  cases hf : ((h.filterMap puts).reverse.find? (fun x => x.1 = n)) with
  | none => rw [hf] at ht; cases ht
  | some y =>
    rw [hf] at ht
    have h1 : y.2 = o := Option.some.inj ht
    have h2 : y.1 = n := by simpa using List.find?_some hf
    have h3 := List.mem_of_find?_eq_some hf
    rw [List.mem_reverse, List.mem_filterMap] at h3
    obtain ⟨x, hx, hp⟩ := h3
    exact ⟨x, hx, by rw [hp, ← h1, ← h2]⟩

/-- What is not a gauge stays. -/
theorem persist {a b : List Ev} {n : Str} {o : Obj} (h : LegalHistory (a ++ b)) (ht : table a n = some o)
    (hk : o.kind ≠ .gauge) : table (a ++ b) n = some o := by
  induction b generalizing a with
  | nil => simpa using ht
  | cons e b ih =>
    have hl := h a e b rfl
    have : a ++ e :: b = (a ++ [e]) ++ b := by simp
    rw [this] at h ⊢
    refine ih h ?_
    rw [table_snoc]
    cases e with
    | made t c o' =>
      simp only [puts]
      rw [if_neg]
      · exact ht
      · intro e
        have := hl.2.1
        rw [e, ht] at this
        cases this
    | gauge t m o' =>
      simp only [puts]
      rw [if_neg]
      · exact ht
      · intro e
        exact hk (hl.1 o (e ▸ ht))
    | _ => exact ht

/-- Each object enters the table once. -/
theorem puts_once {tr : List Ev} (h : LegalHistory tr) {x y : Ev} {n m : Str} {o o' : Obj} (hx : x ∈ tr) (hy : y ∈ tr)
    (px : puts x = some (n, o)) (py : puts y = some (m, o')) (hid : o.id = o'.id) : x = y := by
  have key : ∀ (a b c : List Ev) (u v : Ev) (n m : Str) (o o' : Obj), tr = a ++ u :: (b ++ v :: c) → puts u = some (n, o) →
      puts v = some (m, o') → o.id ≠ o'.id := by
    intro a b c u v n m o o' ht pu pv
    have hl := h (a ++ u :: b) v c (by rw [ht]; simp)
    have hf : Fresh (a ++ u :: b) o' := by
      cases v with
      | made t c o2 =>
        cases pv
        exact hl.2.2.2.2
      | gauge t m o2 =>
        cases pv
        exact hl.2.2
      | _ => cases pv
    exact hf u (by simp) n o pu
  obtain ⟨a, b, hab⟩ := List.append_of_mem hx
  by_cases hxy : x = y
  · exact hxy
  exfalso
  rw [hab, List.mem_append, List.mem_cons] at hy
  rcases hy with hy | hy | hy
  · obtain ⟨c, d, hcd⟩ := List.append_of_mem hy
    exact key c d b y x m n o' o (by rw [hab, hcd]; simp) py px hid.symm
  · exact hxy hy.symm
  · obtain ⟨c, d, hcd⟩ := List.append_of_mem hy
    exact key a c d x y n m o o' (by rw [hab, hcd]) px py hid

/-! ### Source names -/

theorem cut {c : UInt8} {a b x y : Str} (ha : c ∉ a) (hb : c ∉ b) (hx : x = [] ∨ ∃ x', x = c :: x') (hy : y = [] ∨ ∃ y', y = c :: y')
    (h : a ++ x = b ++ y) : a = b ∧ x = y := by
  induction a generalizing b with
  | nil =>
    cases b with
    | nil => exact ⟨rfl, h⟩
    | cons d b =>
      rcases hx with hx | ⟨x', hx⟩
      · subst hx; simp at h
      · subst hx
        simp only [List.nil_append, List.cons_append, List.cons.injEq] at h
        exact absurd (List.mem_cons.2 (Or.inl h.1)) hb
  | cons d a ih =>
    cases b with
    | nil =>
      rcases hy with hy | ⟨y', hy⟩
      · subst hy; simp at h
      · subst hy
        simp only [List.nil_append, List.cons_append, List.cons.injEq] at h
        exact absurd (List.mem_cons.2 (Or.inl h.1.symm)) ha
    | cons d' b =>
      simp only [List.cons_append, List.cons.injEq] at h
      obtain ⟨h1, h2⟩ := ih (List.not_mem_of_not_mem_cons ha) (List.not_mem_of_not_mem_cons hb) h.2
      exact ⟨by rw [h.1, h1], h2⟩

theorem tagsText_inj : ∀ {l l' : List (Str × Str)}, (∀ x ∈ l, 44 ∉ x.1 ∧ 61 ∉ x.1 ∧ 44 ∉ x.2) →
    (∀ x ∈ l', 44 ∉ x.1 ∧ 61 ∉ x.1 ∧ 44 ∉ x.2) →
    (l.flatMap fun t => [44] ++ t.1 ++ [61] ++ t.2) = (l'.flatMap fun t => [44] ++ t.1 ++ [61] ++ t.2) → l = l'
  | [], [], _, _, _ => rfl
  | [], _ :: _, _, _, h => by simp at h
  | _ :: _, [], _, _, h => by simp at h
  | (k, v) :: l, (k', v') :: l', h1, h2, h => by
    simp only [List.flatMap_cons, List.append_assoc, List.cons_append, List.nil_append, List.cons.injEq, true_and] at h
    have a := h1 (k, v) (by simp)
    have a' := h2 (k', v') (by simp)
    obtain ⟨e1, e2⟩ := cut a.2.1 a'.2.1 (Or.inr ⟨_, rfl⟩) (Or.inr ⟨_, rfl⟩) h
    simp only [List.cons.injEq, true_and] at e2
    have start : ∀ l : List (Str × Str), (l.flatMap fun t => [44] ++ t.1 ++ [61] ++ t.2) = [] ∨
        ∃ x', (l.flatMap fun t => [44] ++ t.1 ++ [61] ++ t.2) = 44 :: x' := by
      intro l
      cases l with
      | nil => exact Or.inl rfl
      | cons t l => exact Or.inr ⟨_, by simp [List.flatMap_cons]; rfl⟩
    obtain ⟨e3, e4⟩ := cut a.2.2 a'.2.2 (by simpa using start l) (by simpa using start l') e2
    have := tagsText_inj (l := l) (l' := l') (fun x hx => h1 x (List.mem_cons_of_mem _ hx)) (fun x hx => h2 x (List.mem_cons_of_mem _ hx))
      (by simpa using e4)
    have e1' : k = k' := e1
    have e3' : v = v' := e3
    rw [e1', e3', this]

theorem sourceName_inj {ns n n' : Str} {l l' : List (Str × Str)} (hp : Plain n l) (hp' : Plain n' l')
    (h : sourceName ns n l = sourceName ns n' l') : n = n' ∧ l = l' := by
  unfold sourceName at h
  rw [List.append_assoc, List.append_assoc, List.append_cancel_left_eq] at h
  have start : ∀ l : List (Str × Str), (l.flatMap fun t => [44] ++ t.1 ++ [61] ++ t.2) = [] ∨
      ∃ x', (l.flatMap fun t => [44] ++ t.1 ++ [61] ++ t.2) = 44 :: x' := by
    intro l
    cases l with
    | nil => exact Or.inl rfl
    | cons t l => exact Or.inr ⟨_, by simp [List.flatMap_cons]; rfl⟩
  obtain ⟨e1, e2⟩ := cut hp.1 hp'.1 (start l) (start l') h
  exact ⟨e1, tagsText_inj hp.2 hp'.2 e2⟩

/-- Returns of different objects for different source names. -/
theorem distinct_of_key {tr : List Ev} {s : State} (h : Exec Step State.init tr s) {t t' : Nat} {c c' : Call} {o o' : Obj}
    (h1 : Ev.ret t c o ∈ tr) (h2 : Ev.ret t' c' o' ∈ tr) (hk : c.key ≠ c'.key) : o ≠ o' := by
  have hl := history h
  have key : ∀ t c o, Ev.ret t c o ∈ tr → ∃ x ∈ tr, puts x = some (c.key, o) := by
    intro t c o ho
    obtain ⟨a, b, hab⟩ := List.append_of_mem ho
    obtain ⟨x, hx, hp⟩ := table_mem (hl a _ b hab).2.1
    exact ⟨x, by rw [hab]; simp [hx], hp⟩
  obtain ⟨x, hx, px⟩ := key t c o h1
  obtain ⟨y, hy, py⟩ := key t' c' o' h2
  intro e
  have hxy := puts_once hl hx hy px py (by rw [e])
  rw [hxy, py] at px
  simp only [Option.some.injEq, Prod.mk.injEq] at px
  exact hk px.1.symm

/-! ### Runs -/

/-- Nobody holds the lock and `t` is idle. -/
def Quiet (s : State) (t : Nat) : Prop := s.writer = none ∧ s.readers = [] ∧ s.pc t = .idle

/-- A call that finds its name. -/
theorem run_hit {s : State} {t : Nat} {c : Call} {o : Obj} (q : Quiet s t) (hc : c.kind ≠ .gauge)
    (hg : Map.get s.sources c.key = some o) :
    ∃ s', Exec Step s [.call t c, if o.kind = c.kind then .ret t c o else .panic t c] s' ∧ Quiet s' t ∧ s'.sources = s.sources := by
  obtain ⟨q1, q2, q3⟩ := q
  have h0 : Exec Step s [] s := .start
  have h1 := Exec.step _ h0 (.call s t c q3 hc)
  have h2 := Exec.step _ h1 (.rlock _ t c (upd_same ..) q1)
  have h3 := Exec.step _ h2 (.read _ t c (upd_same ..))
  have h4 := Exec.step _ h3 (.runlockSome _ t c o (by simp [hg]))
  by_cases hk : o.kind = c.kind
  · rw [if_pos hk]
    exact ⟨_, Exec.step _ h4 (.ret _ t c o (upd_same ..) hk), ⟨q1, by simp [q2], upd_same ..⟩, rfl⟩
  · rw [if_neg hk]
    exact ⟨_, Exec.step _ h4 (.panic _ t c o (upd_same ..) hk), ⟨q1, by simp [q2], upd_same ..⟩, rfl⟩

/-- A call that does not. -/
theorem run_miss {s : State} {t : Nat} {c : Call} (q : Quiet s t) (hc : c.kind ≠ .gauge) (hg : Map.get s.sources c.key = none) :
    ∃ s', Exec Step s [.call t c, .made t c ⟨s.next, c.kind⟩, .ret t c ⟨s.next, c.kind⟩] s' ∧ Quiet s' t ∧
      s'.sources = Map.set s.sources c.key ⟨s.next, c.kind⟩ ∧ s'.next = s.next + 1 := by
  obtain ⟨q1, q2, q3⟩ := q
  have h0 : Exec Step s [] s := .start
  have h1 := Exec.step _ h0 (.call s t c q3 hc)
  have h2 := Exec.step _ h1 (.rlock _ t c (upd_same ..) q1)
  have h3 := Exec.step _ h2 (.read _ t c (upd_same ..))
  have h4 := Exec.step _ h3 (.runlockNone _ t c (by simp [hg]))
  have h5 := Exec.step _ h4 (.wlock _ t c (upd_same ..) q1 (by simp [q2]))
  have h6 := Exec.step _ h5 (.again _ t c (upd_same ..))
  have h7 := Exec.step _ h6 (.make _ t c (by simp [hg]))
  have h8 := Exec.step _ h7 (.unlock _ t c _ (upd_same ..))
  exact ⟨_, Exec.step _ h8 (.ret _ t c _ (upd_same ..) rfl), ⟨rfl, by simp [q2], upd_same ..⟩, rfl, rfl⟩

end Monkit.Scope
