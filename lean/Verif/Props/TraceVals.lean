import Verif.Proofs.TraceVals

/-!
# C71: values attached to a trace

Executions are arbitrary schedules of any number of goroutines calling `Get`, `Set`, `GetAll` and cancelling observers.
-/

namespace Monkit.TraceVals
open Go Monkit.Spec.TraceVals

/-- The moment a goroutine's last call got the mutex is unique. -/
theorem since_unique {t : Nat} {op op' : Op} {p m p' m' : List Event} (h : ∀ e ∈ m, by_ t e = false)
    (h' : ∀ e ∈ m', by_ t e = false) (he : p ++ Event.acquire t op :: m = p' ++ Event.acquire t op' :: m') :
    p = p' ∧ op = op' := by
  rw [List.append_eq_append_iff] at he
  rcases he with ⟨x, hx1, hx2⟩ | ⟨x, hx1, hx2⟩
  · cases x with
    | nil => simp at hx1 hx2; exact ⟨hx1.symm, hx2.1⟩
    | cons y ys =>
      simp at hx2
      exact absurd (h (.acquire t op') (by rw [hx2.2]; simp)) (by simp [by_])
  · cases x with
    | nil => simp at hx1 hx2; exact ⟨hx1, hx2.1.symm⟩
    | cons y ys =>
      simp at hx2
      exact absurd (h' (.acquire t op) (by rw [hx2.2]; simp)) (by simp [by_])

/-- **C71.** `Get(k)` returns the value most recently set for `k` (nil if none) as of the moment it got the mutex, which is
between its call and its return. -/
theorem C71_get (p m q : List Event) (t : Nat) (k : Key) (r : Ret) (s : State)
    (h : Exec Step init (p ++ .acquire t (.get k) :: m ++ .ret t r :: q) s) (hm : ∀ e ∈ m, by_ t e = false) :
    r = .got ((cur p k).getD none) := by
  obtain ⟨s1, s2, h1, st, _⟩ := h.split (p ++ .acquire t (.get k) :: m) _ q rfl
  have hi := (inv_exec h1).pend t
  cases st with
  | unlock _ _ hp =>
    rw [hp] at hi
    cases r with
    | got v =>
      obtain ⟨p', k', ⟨⟨m', e, hm'⟩, _⟩, hv⟩ := hi
      obtain ⟨rfl, hop⟩ := since_unique hm hm' e
      cases hop; rw [hv]
    | all a =>
      obtain ⟨p', ⟨⟨m', e, hm'⟩, _⟩, _⟩ := hi
      cases (since_unique hm hm' e).2
    | done =>
      obtain ⟨p', ⟨k', v', ⟨⟨m', e, hm'⟩, _⟩⟩ | ⟨⟨m', e, hm'⟩, _⟩⟩ := hi <;> cases (since_unique hm hm' e).2

/-- **C71.** Every call that returns was called, got the mutex once, and answers as its method does. -/
theorem C71_calls (p q : List Event) (t : Nat) (r : Ret) (s : State) (h : Exec Step init (p ++ .ret t r :: q) s) :
    ∃ l op, own t p = l ++ [.call t op, .acquire t op] ∧
      match op, r with
      | .get _, .got _ => True
      | .getAll, .all _ => True
      | .set _ _, .done => True
      | .cancel, .done => True
      | _, _ => False := by
  obtain ⟨s1, s2, h1, st, _⟩ := h.split p _ q rfl
  have hi := (inv_exec h1).pend t
  have key : ∀ op p', Since t op p' p → ∃ l, own t p = l ++ [.call t op, .acquire t op] := by
    rintro op p' ⟨⟨m, rfl, hm⟩, l, hl⟩
    refine ⟨l, ?_⟩
    rw [own_append, hl]
    have : own t (Event.acquire t op :: m) = [.acquire t op] := by
      have := own_none t m hm
      simp only [own] at this ⊢
      simp [List.filter_cons, by_, this]
    rw [this]; simp
  cases st with
  | unlock _ _ hp =>
    rw [hp] at hi
    cases r with
    | got v => obtain ⟨p', k', h1, _⟩ := hi; obtain ⟨l, hl⟩ := key _ _ h1; exact ⟨l, _, hl, trivial⟩
    | all a => obtain ⟨p', h1, _⟩ := hi; obtain ⟨l, hl⟩ := key _ _ h1; exact ⟨l, _, hl, trivial⟩
    | done =>
      obtain ⟨p', ⟨k', v', h1⟩ | h1⟩ := hi <;> obtain ⟨l, hl⟩ := key _ _ h1 <;> exact ⟨l, _, hl, trivial⟩

/-- What stays true of a map once `GetAll` has handed it out. -/
structure Owned (a : Nat) (base : Key → Option Val) (tr : List Event) (s : State) : Prop where
  given : s.given a = true
  vals : s.vals ≠ some a
  tgt : ∀ t, target (s.thr t) ≠ some a
  fresh : a < s.next
  got : ∀ k, (s.heap a).get k = (edited a tr k).orElse fun _ => base k

theorem owned_step (a : Nat) (base : Key → Option Val) (tr : List Event) (s : State) (e : Option Event) (s' : State)
    (h : Owned a base tr s) (st : Step s e s') : Owned a base (tr ++ e.toList) s' := by
  obtain ⟨hg, hv, ht, hf, hr⟩ := h
  have hgot : ∀ e k, (∀ k v, e ≠ Event.uset a k v) →
      (edited a (tr ++ [e]) k).orElse (fun _ => base k) = (edited a tr k).orElse fun _ => base k := by
    intro e k he
    rw [edited_snoc]
    cases e with
    | uset a' k' v =>
      have : ¬ (a' = a ∧ k' = k) := by rintro ⟨rfl, rfl⟩; exact he _ _ rfl
      simp [this]
    | _ => rfl
  have tmove : ∀ (t : Nat) (pc : PC), target pc ≠ some a → ∀ t', target (upd s.thr t pc t') ≠ some a := by
    intro t pc hpc t'; simp only [upd_apply]; split
    · exact hpc
    · exact ht t'
  cases st with
  | call t op hp => exact ⟨hg, hv, tmove t _ (by simp [target]), hf, fun k => by rw [Option.toList_some, hgot _ _ (by simp)]; exact hr k⟩
  | lock t op hp free => exact ⟨hg, hv, tmove t _ (by simp [target]), hf, fun k => by rw [Option.toList_some, hgot _ _ (by simp)]; exact hr k⟩
  | getNil t k hp _ => exact ⟨hg, hv, tmove t _ (by simp [target]), hf, by simpa using hr⟩
  | get t b n hp _ => exact ⟨hg, hv, tmove t _ (by simp [target]), hf, by simpa using hr⟩
  | getPanic t b n hp _ => exact ⟨hg, hv, tmove t _ (by simp [target]), hf, fun k => by rw [Option.toList_some, hgot _ _ (by simp)]; exact hr k⟩
  | setPanic t n v hp => exact ⟨hg, hv, tmove t _ (by simp [target]), hf, fun k => by rw [Option.toList_some, hgot _ _ (by simp)]; exact hr k⟩
  | setNew t n v hp _ =>
    refine ⟨hg, ?_, tmove t _ (by simp [target]), by simp; omega, fun k => ?_⟩
    · intro e; simp at e; omega
    · simp only [upd_other _ _ (Nat.ne_of_lt hf)]; simpa using hr k
  | set t b n v hp hb =>
    have : a ≠ b := by rintro rfl; exact hv hb
    exact ⟨hg, hv, tmove t _ (by simp [target]), hf, fun k => by simp only [upd_other _ _ this]; simpa using hr k⟩
  | getAll t rest hp _ =>
    refine ⟨hg, hv, tmove t _ (by simp [target]; omega), by simp; omega, fun k => ?_⟩
    simp only [upd_other _ _ (Nat.ne_of_lt hf)]; simpa using hr k
  | copy t b k v rest hp =>
    have : a ≠ b := by rintro rfl; exact ht t (by rw [hp]; rfl)
    exact ⟨hg, hv, tmove t _ (by simp [target]; exact fun e => this e.symm), hf, fun k => by
      simp only [upd_other _ _ this]; simpa using hr k⟩
  | copied t b hp =>
    have : a ≠ b := by rintro rfl; exact ht t (by rw [hp]; rfl)
    exact ⟨hg, hv, tmove t _ (by simp [target]; exact fun e => this e.symm), hf, by simpa using hr⟩
  | cancel t hp => exact ⟨hg, hv, tmove t _ (by simp [target]), hf, by simpa using hr⟩
  | unlock t r hp =>
    refine ⟨?_, hv, tmove t _ (by simp [target]), hf, fun k => by rw [Option.toList_some, hgot _ _ (by simp)]; exact hr k⟩
    cases r with
    | all b => simp only [upd_apply]; split <;> simp [hg]
    | _ => exact hg
  | uset b n v hb =>
    refine ⟨hg, hv, ht, hf, fun k => ?_⟩
    rw [Option.toList_some]
    by_cases e : b = a
    · subst e
      simp only [upd_same, Map.get_set, edited_snoc, true_and]
      split
      · simp
      · exact hr k
    · have : a ≠ b := fun h => e h.symm
      rw [hgot _ _ (by simp [e])]
      simp only [upd_other _ _ this]; exact hr k
  | uget b n hb => exact ⟨hg, hv, ht, hf, fun k => by rw [Option.toList_some, hgot _ _ (by simp)]; exact hr k⟩

/-- **C71.** `GetAll` returns a map of its own: whatever is found in it later is what had been set on the trace when `GetAll` got
the mutex, unless the caller stored something else into the map since.  Later `Set`s do not show in it. -/
theorem C71_get_all (p m q : List Event) (t a : Nat) (k : Key) (r : Option Val) (s : State)
    (h : Exec Step init (p ++ .acquire t .getAll :: m ++ .ret t (.all a) :: q ++ [.uget a k r]) s)
    (hm : ∀ e ∈ m, by_ t e = false) : r = (edited a q k).orElse fun _ => cur p k := by
  obtain ⟨s1, s2, h1, st, h2⟩ := h.split (p ++ .acquire t .getAll :: m) (.ret t (.all a)) (q ++ [.uget a k r]) (by simp)
  have hi := inv_exec h1
  have hbase : Owned a (cur p) [] s2 := by
    cases st with
    | unlock _ _ hp =>
      have hpd := hi.pend t
      have htg := hi.tgt t a (by rw [hp]; rfl)
      have hpast : past (s1.thr t) = true := by rw [hp]; rfl
      rw [hp] at hpd
      obtain ⟨p', ⟨⟨m', e, hm'⟩, _⟩, hv⟩ := hpd
      obtain ⟨rfl, _⟩ := since_unique hm hm' e
      refine ⟨by simp, htg.2.2, ?_, htg.1, fun k => by simp [edited, hv]⟩
      intro t'
      simp only [upd_apply]; split
      · simp [target]
      · rename_i hne
        have := hi.alone hpast hne
        revert this; cases s1.thr t' <;> simp [past, target]
  obtain ⟨s3, s4, h3, st', _⟩ := h2.split q _ [] rfl
  have ho := h3.induct (Owned a (cur p)) hbase (owned_step a (cur p))
  cases st' with
  | uget _ n _ => exact ho.got _

/-- The hypotheses are met: two values are set, copied, changed on the trace and in the copy, and read. -/
example : ∃ s, Exec Step init ([.call 0 (.set (.hashable 1) (some 5)), .acquire 0 (.set (.hashable 1) (some 5)), .ret 0 .done,
      .call 1 .getAll] ++ .acquire 1 .getAll :: [.call 0 (.set (.hashable 1) (some 6))] ++ .ret 1 (.all 1) ::
      [.acquire 0 (.set (.hashable 1) (some 6)), .ret 0 .done, .call 0 (.get (.hashable 1)), .acquire 0 (.get (.hashable 1)),
       .ret 0 (.got (some 6))] ++ [.uget 1 (.hashable 1) (some (some 5))]) s := by
  have e := Exec.start (step := Step) (s₀ := init)
  have e := Exec.step _ e (.call _ 0 (.set (.hashable 1) (some 5)) rfl)
  have e := Exec.step _ e (.lock _ 0 _ rfl rfl)
  have e := Exec.step _ e (.setNew _ 0 1 _ rfl rfl)
  have e := Exec.step _ e (.unlock _ 0 _ rfl)
  have e := Exec.step _ e (.call _ 1 .getAll rfl)
  have e := Exec.step _ e (.lock _ 1 _ rfl rfl)
  have e := Exec.step _ e (.getAll _ 1 [(.hashable 1, some 5)] rfl (List.Perm.refl _))
  have e := Exec.step _ e (.call _ 0 (.set (.hashable 1) (some 6)) rfl)
  have e := Exec.step _ e (.copy _ 1 1 _ _ _ rfl)
  have e := Exec.step _ e (.copied _ 1 1 rfl)
  have e := Exec.step _ e (.unlock _ 1 _ rfl)
  have e := Exec.step _ e (.lock _ 0 _ rfl rfl)
  have e := Exec.step _ e (.set _ 0 0 1 _ rfl rfl)
  have e := Exec.step _ e (.unlock _ 0 _ rfl)
  have e := Exec.step _ e (.call _ 0 (.get (.hashable 1)) rfl)
  have e := Exec.step _ e (.lock _ 0 _ rfl rfl)
  have e := Exec.step _ e (.get _ 0 0 1 rfl rfl)
  have e := Exec.step _ e (.unlock _ 0 _ rfl)
  have e := Exec.step _ e (.uget _ 1 1 rfl)
  exact ⟨_, e⟩

/-- **C71, what fails.** Once a `Get` or `Set` has panicked, no call on that trace ever gets the mutex again: every later `Get`,
`Set`, `GetAll` and every cancelling of an observer blocks for ever. -/
theorem C71_panic_blocks (p q : List Event) (t : Nat) (s : State) (h : Exec Step init (p ++ .panic t :: q) s) :
    ∀ e ∈ q, (∀ t' op, e ≠ .acquire t' op) ∧ ∀ t' r, e ≠ .ret t' r := by
  intro e he
  obtain ⟨q1, q2, rfl⟩ := List.append_of_mem he
  obtain ⟨s1, s2, h1, st, _⟩ := h.split (p ++ .panic t :: q1) e q2 (by simp)
  have hp := (inv_exec h1).poison ⟨t, by simp⟩
  constructor
  · rintro t' op rfl
    cases st with
    | lock _ _ _ free => rw [hp.1] at free; cases free
  · rintro t' r rfl
    cases st with
    | unlock _ _ h => have := hp.2 t'; rw [h] at this; cases this

/-- **C71, when.** The only calls that panic are `Get` and `Set` with a key that cannot be hashed. -/
theorem C71_panics_only_unhashable (p q : List Event) (t : Nat) (s : State) (h : Exec Step init (p ++ .panic t :: q) s) :
    ∃ l n, own t p = l ++ [.call t (.get (.unhashable n)), .acquire t (.get (.unhashable n))] ∨
      ∃ v, own t p = l ++ [.call t (.set (.unhashable n) v), .acquire t (.set (.unhashable n) v)] := by
  obtain ⟨s1, s2, h1, st, _⟩ := h.split p _ q rfl
  have hi := (inv_exec h1).pend t
  have key : ∀ op p', Since t op p' p → ∃ l, own t p = l ++ [.call t op, .acquire t op] := by
    rintro op p' ⟨⟨m, rfl, hm⟩, l, hl⟩
    refine ⟨l, ?_⟩
    rw [own_append, hl]
    have : own t (Event.acquire t op :: m) = [.acquire t op] := by
      have := own_none t m hm
      simp only [own] at this ⊢
      simp [List.filter_cons, by_, this]
    rw [this]; simp
  cases st with
  | getPanic _ a n hp _ =>
    rw [hp] at hi; obtain ⟨p', h1, _⟩ := hi; obtain ⟨l, hl⟩ := key _ _ h1
    exact ⟨l, n, .inl hl⟩
  | setPanic _ n v hp =>
    rw [hp] at hi; obtain ⟨p', h1, _⟩ := hi; obtain ⟨l, hl⟩ := key _ _ h1
    exact ⟨l, n, .inr ⟨v, hl⟩⟩

theorem holder_step (tr : List Event) (s : State) (e : Option Event) (s' : State)
    (h : Inv tr s ∧ (¬ Panicked tr → s.held = true → ∃ t, past (s.thr t) = true)) (st : Step s e s') :
    Inv (tr ++ e.toList) s' ∧ (¬ Panicked (tr ++ e.toList) → s'.held = true → ∃ t, past (s'.thr t) = true) := by
  refine ⟨inv_step tr s e s' h.1 st, fun hp hh => ?_⟩
  have hp' : ¬ Panicked tr := fun ⟨t, ht⟩ => hp ⟨t, by simp [ht]⟩
  have keep : ∀ t pc, (past (s.thr t) = true → past pc = true) → s.held = true → ∃ t', past (upd s.thr t pc t') = true := by
    intro t pc hk hh
    obtain ⟨t', ht'⟩ := h.2 hp' hh
    by_cases e : t' = t
    · subst e; exact ⟨t', by rw [upd_same]; exact hk ht'⟩
    · exact ⟨t', by rw [upd_other _ _ e]; exact ht'⟩
  cases st with
  | call t op hq => exact keep t _ (by rw [hq]; simp [past]) hh
  | lock t op hq _ => exact ⟨t, by simp [past]⟩
  | getPanic t => exact absurd ⟨t, by simp⟩ hp
  | setPanic t => exact absurd ⟨t, by simp⟩ hp
  | unlock t r hq => simp at hh
  | uset a n v hg => exact h.2 hp' hh
  | uget a n hg => exact h.2 hp' hh
  | getNil t => exact keep t _ (fun _ => rfl) hh
  | get t => exact keep t _ (fun _ => rfl) hh
  | setNew t => exact keep t _ (fun _ => rfl) hh
  | set t => exact keep t _ (fun _ => rfl) hh
  | getAll t => exact keep t _ (fun _ => rfl) hh
  | copy t => exact keep t _ (fun _ => rfl) hh
  | copied t => exact keep t _ (fun _ => rfl) hh
  | cancel t => exact keep t _ (fun _ => rfl) hh

/-- How much a call still has to do once it holds the mutex. -/
def left : PC → Nat
  | .idle | .waiting _ => 0
  | .leaving _ => 1
  | .copying _ rest => rest.length + 2
  | .inside _ => 0

/-- **C71.** As long as no key that cannot be hashed has been given, no call waits for ever: from every state reached, whatever
is going on, the schedule can be continued so that a waiting call returns. -/
theorem C71_progress_partial (tr : List Event) (s : State) (t : Nat) (op : Op) (h : Exec Step init tr s)
    (hk : ∀ t op, Event.call t op ∈ tr → ∀ n, op ≠ .get (.unhashable n) ∧ ∀ v, op ≠ .set (.unhashable n) v)
    (hw : s.thr t = .waiting op) :
    ∃ tr' r s', Exec Step s (tr' ++ [.ret t r]) s' := by
  -- a call that holds the mutex finishes alone
  have leave : ∀ n (s : State) u, left (s.thr u) ≤ n → 0 < left (s.thr u) →
      ∃ tr' r s', Exec Step s (tr' ++ [.ret u r]) s' ∧ s'.held = false ∧ ∀ v, v ≠ u → s'.thr v = s.thr v := by
    intro n
    induction n with
    | zero => intro s u h1 h2; omega
    | succ n ih =>
      intro s u h1 h2
      cases hpc : s.thr u with
      | idle => rw [hpc] at h2; simp [left] at h2
      | waiting op => rw [hpc] at h2; simp [left] at h2
      | inside op => rw [hpc] at h2; simp [left] at h2
      | leaving r =>
        have st := Step.unlock s u r hpc
        exact ⟨[], r, _, Exec.step _ .start st, rfl, fun v hv => by simp [upd_other _ _ hv]⟩
      | copying a rest =>
        cases rest with
        | nil =>
          have st := Step.copied s u a hpc
          exact ⟨[], _, _, Exec.step _ (Exec.step none .start st) (.unlock _ u _ (upd_same _ _ _)), rfl, fun v hv => by
            simp [upd_other _ _ hv]⟩
        | cons x xs =>
          obtain ⟨k, v⟩ := x
          have st := Step.copy s u a k v xs hpc
          rw [hpc] at h1
          simp only [left, List.length_cons] at h1
          obtain ⟨tr', r, s', g1, g2, g3⟩ := ih { s with heap := upd s.heap a ((s.heap a).set k v), thr := upd s.thr u (.copying a xs) } u
            (by simp [left]; omega) (by simp [left])
          exact ⟨tr', r, s', by simpa using (Exec.step none .start st).append g1, g2, fun w hw => by
            rw [g3 w hw]; simp [upd_other _ _ hw]⟩
  have start : ∀ (s : State) u op, s.thr u = .inside op → (∀ n, op ≠ .get (.unhashable n) ∧ ∀ v, op ≠ .set (.unhashable n) v) →
      ∃ s', Exec Step s [] s' ∧ 0 < left (s'.thr u) ∧ ∀ v, v ≠ u → s'.thr v = s.thr v := by
    intro s u op hpc hk
    cases op with
    | get k =>
      cases hv : s.vals with
      | none => exact ⟨_, Exec.step none .start (.getNil s u k hpc hv), by simp [left], fun v h => upd_other _ _ h⟩
      | some a =>
        cases k with
        | hashable n => exact ⟨_, Exec.step none .start (.get s u a n hpc hv), by simp [left], fun v h => upd_other _ _ h⟩
        | unhashable n => exact absurd rfl (hk n).1
    | set k v =>
      cases k with
      | unhashable n => exact absurd rfl ((hk n).2 v)
      | hashable n =>
        cases hv : s.vals with
        | none => exact ⟨_, Exec.step none .start (.setNew s u n v hpc hv), by simp [left], fun v h => upd_other _ _ h⟩
        | some a => exact ⟨_, Exec.step none .start (.set s u a n v hpc hv), by simp [left], fun v h => upd_other _ _ h⟩
    | getAll => exact ⟨_, Exec.step none .start (.getAll s u _ hpc (List.Perm.refl _)), by simp [left], fun v h => upd_other _ _ h⟩
    | cancel => exact ⟨_, Exec.step none .start (.cancel s u hpc), by simp [left], fun v h => upd_other _ _ h⟩
  have finish : ∀ (s : State) u, past (s.thr u) = true → (∀ op, s.thr u = .inside op → ∀ n, op ≠ .get (.unhashable n) ∧ ∀ v, op ≠ .set (.unhashable n) v) →
      ∃ tr' r s', Exec Step s (tr' ++ [.ret u r]) s' ∧ s'.held = false ∧ ∀ v, v ≠ u → s'.thr v = s.thr v := by
    intro s u hp hk
    by_cases hl : 0 < left (s.thr u)
    · exact leave _ s u (Nat.le_refl _) hl
    · cases hpc : s.thr u with
      | idle => rw [hpc] at hp; cases hp
      | waiting op => rw [hpc] at hp; cases hp
      | leaving r => rw [hpc] at hl; simp [left] at hl
      | copying a rest => rw [hpc] at hl; simp [left] at hl
      | inside op =>
        obtain ⟨s1, g1, g2, g3⟩ := start s u op hpc (hk op hpc)
        obtain ⟨tr', r, s', k1, k2, k3⟩ := leave _ s1 u (Nat.le_refl _) g2
        exact ⟨tr', r, s', by simpa using g1.append k1, k2, fun v hv => (k3 v hv).trans (g3 v hv)⟩
  have hi := (h.induct (fun tr s => Inv tr s ∧ (¬ Panicked tr → s.held = true → ∃ t, past (s.thr t) = true))
    ⟨inv_init, by simp [init]⟩ holder_step)
  have called : ∀ u op p, Since u op p tr → Event.call u op ∈ tr := by
    rintro u op p ⟨⟨m, rfl, _⟩, l, hl⟩
    have : Event.call u op ∈ own u p := by rw [hl]; simp
    simp only [own, List.mem_filter] at this
    simp [this.1]
  have hop : ∀ n, op ≠ .get (.unhashable n) ∧ ∀ v, op ≠ .set (.unhashable n) v := by
    have := hi.1.pend t
    rw [hw] at this
    obtain ⟨l, hl⟩ := this
    have : Event.call t op ∈ own t tr := by rw [hl]; simp
    simp only [own, List.mem_filter] at this
    exact hk t op this.1
  have np : ¬ Panicked tr := by
    rintro ⟨u, hu⟩
    obtain ⟨p, q, rfl⟩ := List.append_of_mem hu
    obtain ⟨l, n, hl | ⟨v, hl⟩⟩ := C71_panics_only_unhashable p q u s h
    · have : Event.call u (.get (.unhashable n)) ∈ own u p := by rw [hl]; simp
      simp only [own, List.mem_filter] at this
      exact (hk u _ (by simp [this.1]) n).1 rfl
    · have : Event.call u (.set (.unhashable n) v) ∈ own u p := by rw [hl]; simp
      simp only [own, List.mem_filter] at this
      exact (hk u _ (by simp [this.1]) n).2 v rfl
  -- from a state where the mutex is free
  have free : ∀ (s : State), s.thr t = .waiting op → s.held = false → ∃ tr' r s', Exec Step s (tr' ++ [.ret t r]) s' := by
    intro s hw hf
    have st := Step.lock s t op hw hf
    obtain ⟨tr', r, s', g1, _, _⟩ := finish { s with held := true, thr := upd s.thr t (.inside op) } t (by simp [past]) (by
      intro op' e; simp at e; subst e; exact hop)
    exact ⟨.acquire t op :: tr', r, s', by simpa using (Exec.step _ .start st).append g1⟩
  cases hh : s.held with
  | false => exact free s hw hh
  | true =>
    obtain ⟨u, hu⟩ := hi.2 np hh
    have hne : t ≠ u := by rintro rfl; rw [hw] at hu; cases hu
    obtain ⟨tr1, r1, s1, g1, g2, g3⟩ := finish s u hu (by
      intro op' e
      have := hi.1.pend u
      rw [e] at this
      obtain ⟨p, hs, _⟩ := this
      exact hk u op' (called u op' p hs))
    obtain ⟨tr2, r2, s2, k1⟩ := free s1 (by rw [g3 t hne]; exact hw) g2
    exact ⟨tr1 ++ [.ret u r1] ++ tr2, r2, s2, by simpa using g1.append k1⟩

/-- **C71 is false of the code** as far as calls are to return: a `Set` whose key is a slice panics, and from then on another
goroutine's `Get` on the same trace never returns. -/
theorem C71_blocks_violated : ∃ tr s, Exec Step init tr s ∧ Event.panic 0 ∈ tr ∧
    Event.call 1 (.get (.hashable 1)) ∈ tr ∧
    ∀ q s', Exec Step s q s' → ∀ r, Event.ret 1 r ∉ q := by
  have e := Exec.start (step := Step) (s₀ := init)
  have e := Exec.step _ e (.call _ 0 (.set (.unhashable 0) none) rfl)
  have e := Exec.step _ e (.lock _ 0 _ rfl rfl)
  have e := Exec.step _ e (.setPanic _ 0 0 none rfl)
  have e := Exec.step _ e (.call _ 1 (.get (.hashable 1)) rfl)
  refine ⟨_, _, e, by simp, by simp, ?_⟩
  intro q s' hq r hr
  have := C71_panic_blocks [.call 0 (.set (.unhashable 0) none), .acquire 0 (.set (.unhashable 0) none)]
    (.call 1 (.get (.hashable 1)) :: q) 0 s' (by simpa using e.append hq) (.ret 1 r) (by simp [hr])
  exact this.2 1 r rfl

end Monkit.TraceVals
