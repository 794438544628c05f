import Verif.Go.Race
import Mathlib.Tactic.ByContra

/-!
# A checker for locks, and why it finds every race

The checker follows which locks are held.  It is used only in proofs: what it accepts has no race in any state it can reach.
-/

namespace Go.Race
variable {K V : Type} [DecidableEq K] [DecidableEq V]

/-- How a lock is held; `opened` means that the `Once` is done. -/
inductive Mode where
  | excl | shared | opened
  deriving DecidableEq

/-- How a kind of variables is protected. -/
inductive Class (K : Type) where
  /-- it is not written after the object was made -/
  | const
  /-- all accesses are atomic -/
  | atomic
  /-- by a lock of the same object -/
  | guarded (k : K)
  /-- not at all -/
  | free
  deriving DecidableEq

/-- The order in which locks are taken, and which of them belong to a `Once`. -/
structure Disc (K : Type) where
  rank : K → Nat
  once : K → Bool

abbrev Held (K : Type) := List (K × Nat × Mode)

/-- May the access be made? -/
def okRead (cls : V → Class K) (v : V) (r : Nat) (H : Held K) : Bool :=
  match cls v with
  | .const => true
  | .atomic => false
  | .free => true
  | .guarded k => decide ((k, r, .excl) ∈ H ∨ (k, r, .shared) ∈ H ∨ (k, r, .opened) ∈ H)

def okWrite (cls : V → Class K) (v : V) (r : Nat) (H : Held K) : Bool :=
  match cls v with
  | .guarded k => decide ((k, r, .excl) ∈ H)
  | .free => true
  | _ => false

/-- May the lock be taken? -/
abbrev Fresh (d : Disc K) (k : K) (H : Held K) : Prop := ∀ x ∈ H, d.rank x.1 < d.rank k

/-- The locks held after the code, if all its accesses are protected. -/
def chk (d : Disc K) (cls : V → Class K) : Cmd K V → Held K → Option (Held K)
  | .skip, H => some H
  | .lock k r, H => if Fresh d k H ∧ d.once k = false then some ((k, r, .excl) :: H) else none
  | .unlock k r, H => if (k, r, .excl) ∈ H then some (H.erase (k, r, .excl)) else none
  | .rlock k r, H => if Fresh d k H ∧ d.once k = false then some ((k, r, .shared) :: H) else none
  | .runlock k r, H => if (k, r, .shared) ∈ H then some (H.erase (k, r, .shared)) else none
  | .once k r body, H =>
    if Fresh d k H ∧ d.once k = true ∧ chk d cls body ((k, r, .excl) :: H) = some ((k, r, .excl) :: H) then some ((k, r, .opened) :: H) else none
  | .publish k r, H => if (k, r, .excl) ∈ H ∧ d.once k = true then some ((k, r, .opened) :: H.erase (k, r, .excl)) else none
  | .read v r, H => if okRead cls v r H then some H else none
  | .write v r, H => if okWrite cls v r H then some H else none
  | .atomic v _, H => if cls v = .atomic ∨ cls v = .free then some H else none
  | .pick r, H => if r ∈ H.map (·.2.1) then none else some H
  | .seq a b, H => (chk d cls a H).bind (chk d cls b)
  | .choice a b, H => if chk d cls a H = chk d cls b H then chk d cls a H else none
  | .loop a, H => if chk d cls a H = some H then some H else none

/-- The same for all that is to be done. -/
def chks (d : Disc K) (cls : V → Class K) : List (Cmd K V) → Held K → Option (Held K)
  | [], H => some H
  | a :: c, H => (chk d cls a H).bind (chks d cls c)

/-- The code is accepted and leaves no lock held. -/
def Ends : Option (Held K) → Prop
  | none => False
  | some F => ∀ x ∈ F, x.2.2 = .opened

instance (o : Option (Held K)) : Decidable (Ends o) := by cases o <;> unfold Ends <;> infer_instance

/-- Goroutine `i` has the lock. -/
def Has (l : Lock) (i : Nat) : Mode → Prop
  | .excl => l.writer = some i
  | .shared => l.readers i ≠ 0
  | .opened => l.done = true

/-- Goroutine `i` does hold these locks. -/
def Holds (s : State K V) (i : Nat) (H : Held K) : Prop :=
  (H.map (·.1)).Nodup ∧ ∀ k r m, (k, r, m) ∈ H → Has (s.locks k ((s.thr i).obj r)) i m

/-- Goroutine `i` holds no others. -/
def Exact (s : State K V) (i : Nat) (H : Held K) : Prop :=
  (∀ k o, (s.locks k o).writer = some i → ∃ r, (k, r, .excl) ∈ H ∧ (s.thr i).obj r = o) ∧
  (∀ k o, (s.locks k o).readers i ≠ 0 → (s.locks k o).readers i = 1 ∧ ∃ r, (k, r, .shared) ∈ H ∧ (s.thr i).obj r = o)

/-- All goroutines hold what they need. -/
structure Inv (d : Disc K) (cls : V → Class K) (s : State K V) : Prop where
  locks : ∀ k o, (s.locks k o).writer ≠ none → (∀ j, (s.locks k o).readers j = 0) ∧ (s.locks k o).done = false
  done : ∀ k o, (s.locks k o).done = true → d.once k = true
  shared : ∀ k o j, (s.locks k o).readers j ≠ 0 → d.once k = false
  thr : ∀ i, ∃ H, (Holds s i H ∧ Exact s i H) ∧ Ends (chks d cls (s.thr i).todo H)

variable {d : Disc K} {cls : V → Class K} {s : State K V}

theorem goto_todo_same (i : Nat) (c : List (Cmd K V)) : ((s.goto i c).thr i).todo = c := by simp [State.goto]
theorem goto_obj (i j : Nat) (c : List (Cmd K V)) : ((s.goto i c).thr j).obj = (s.thr j).obj := by
  by_cases h : j = i <;> simp [State.goto, h, upd]
theorem goto_todo_other {i j : Nat} (c : List (Cmd K V)) (h : j ≠ i) : ((s.goto i c).thr j).todo = (s.thr j).todo := by simp [State.goto, upd, h]

/-- A step that changes no lock. -/
theorem Inv.goto (h : Inv d cls s) (i : Nat) (c : List (Cmd K V))
    (hc : ∀ H, Holds s i H ∧ Exact s i H → Ends (chks d cls (s.thr i).todo H) → ∃ H', (Holds s i H' ∧ Exact s i H') ∧ Ends (chks d cls c H')) :
    Inv d cls (s.goto i c) := by
  have hh : ∀ j H, Holds s j H ∧ Exact s j H → Holds (s.goto i c) j H ∧ Exact (s.goto i c) j H := by
    intro j H hj
    refine ⟨⟨hj.1.1, ?_⟩, ?_⟩
    · intro k r m hm
      have := hj.1.2 k r m hm
      rw [goto_obj]
      exact this
    · unfold Exact
      rw [goto_obj]
      exact hj.2
  refine ⟨h.locks, h.done, h.shared, ?_⟩
  intro j
  obtain ⟨H, h1, h2⟩ := h.thr j
  by_cases e : j = i
  · subst e
    obtain ⟨H', h3, h4⟩ := hc H h1 h2
    exact ⟨H', hh j H' h3, by rw [goto_todo_same]; exact h4⟩
  · exact ⟨H, hh j H h1, by rw [goto_todo_other c e]; exact h2⟩

theorem setLock_same (f : K → Nat → Lock) (k : K) (o : Nat) (l : Lock) : setLock f k o l k o = l := by simp [setLock]
theorem setLock_other (f : K → Nat → Lock) {k k' : K} (o o' : Nat) (l : Lock) (h : ¬ (k' = k ∧ o' = o)) : setLock f k o l k' o' = f k' o' := by
  simp only [setLock, if_neg h]

/-- A step that changes one lock. -/
theorem Inv.set (h : Inv d cls s) (i : Nat) (k : K) (o : Nat) (l : Lock) (c : List (Cmd K V))
    (hl : l.writer ≠ none → (∀ j, l.readers j = 0) ∧ l.done = false)
    (ho : ∀ j, j ≠ i → ((s.locks k o).writer = some j ↔ l.writer = some j) ∧ (s.locks k o).readers j = l.readers j)
    (hd : (s.locks k o).done = true → l.done = true) (hd' : l.done = true → d.once k = true)
    (hs : ∀ j, l.readers j ≠ 0 → d.once k = false)
    (hc : ∀ H, Holds s i H ∧ Exact s i H → Ends (chks d cls (s.thr i).todo H) →
      ∃ H', (Holds (s.set i k o l c) i H' ∧ Exact (s.set i k o l c) i H') ∧ Ends (chks d cls c H')) :
    Inv d cls (s.set i k o l c) := by
  refine ⟨?_, ?_, ?_, ?_⟩
  · intro k' o'
    show (setLock s.locks k o l k' o').writer ≠ none → _
    by_cases e : k' = k ∧ o' = o
    · obtain ⟨rfl, rfl⟩ := e
      intro hw
      rw [setLock_same] at hw
      have := hl hw
      simpa [State.set, setLock_same] using this
    · intro hw
      rw [setLock_other _ _ _ _ e] at hw
      have := h.locks k' o' hw
      simpa [State.set, setLock_other _ _ _ _ e] using this
  · intro k' o'
    show (setLock s.locks k o l k' o').done = true → _
    by_cases e : k' = k ∧ o' = o
    · obtain ⟨rfl, rfl⟩ := e
      rw [setLock_same]
      exact hd'
    · rw [setLock_other _ _ _ _ e]
      exact h.done k' o'
  · intro k' o' j
    show (setLock s.locks k o l k' o').readers j ≠ 0 → _
    by_cases e : k' = k ∧ o' = o
    · obtain ⟨rfl, rfl⟩ := e
      rw [setLock_same]
      exact hs j
    · rw [setLock_other _ _ _ _ e]
      exact h.shared k' o' j
  · intro j
    by_cases e : j = i
    · subst e
      obtain ⟨H, h1, h2⟩ := h.thr j
      obtain ⟨H', h3, h4⟩ := hc H h1 h2
      exact ⟨H', h3, by simpa [State.set, State.goto] using h4⟩
    · obtain ⟨H, h1, h2⟩ := h.thr j
      have eo : ((s.set i k o l c).thr j).obj = (s.thr j).obj := by simp [State.set, State.goto, upd, e]
      refine ⟨H, ⟨⟨h1.1.1, ?_⟩, ?_, ?_⟩, by simpa [State.set, State.goto, upd, e] using h2⟩
      · intro k' r m hm
        have := h1.1.2 k' r m hm
        rw [eo]
        show Has (setLock s.locks k o l k' ((s.thr j).obj r)) j m
        by_cases e' : k' = k ∧ (s.thr j).obj r = o
        · obtain ⟨rfl, rfl⟩ := e'
          rw [setLock_same]
          cases m with
          | excl => exact (ho j e).1.1 this
          | shared =>
            show l.readers j ≠ 0
            rw [← (ho j e).2]
            exact this
          | opened => exact hd this
        · rw [setLock_other _ _ _ _ e']
          exact this
      · intro k' o'
        show (setLock s.locks k o l k' o').writer = some j → _
        rw [eo]
        by_cases e' : k' = k ∧ o' = o
        · obtain ⟨rfl, rfl⟩ := e'
          rw [setLock_same]
          exact fun hw => h1.2.1 k' o' ((ho j e).1.2 hw)
        · rw [setLock_other _ _ _ _ e']
          exact h1.2.1 k' o'
      · intro k' o'
        show (setLock s.locks k o l k' o').readers j ≠ 0 → (setLock s.locks k o l k' o').readers j = 1 ∧ _
        rw [eo]
        by_cases e' : k' = k ∧ o' = o
        · obtain ⟨rfl, rfl⟩ := e'
          rw [setLock_same, ← (ho j e).2]
          exact h1.2.2 k' o'
        · rw [setLock_other _ _ _ _ e']
          exact h1.2.2 k' o'

/-- Locks of other kinds stay held. -/
theorem holds_set {i : Nat} {k : K} {r : Nat} {l : Lock} {c : List (Cmd K V)} {H H' : Held K} (h : Holds s i H)
    (hn : (H'.map (·.1)).Nodup)
    (hs : ∀ k' r' m, (k', r', m) ∈ H' → (k', r', m) ∈ H ∧ k' ≠ k ∨
      (k' = k ∧ r' = r ∧ Has l i m)) :
    Holds (s.set i k ((s.thr i).obj r) l c) i H' := by
  refine ⟨hn, ?_⟩
  intro k' r' m hm
  have eo : ((s.set i k ((s.thr i).obj r) l c).thr i).obj = (s.thr i).obj := by simp [State.set, State.goto]
  rw [eo]
  show Has (setLock s.locks k ((s.thr i).obj r) l k' ((s.thr i).obj r')) i m
  rcases hs k' r' m hm with ⟨h1, h2⟩ | ⟨rfl, rfl, h3⟩
  · rw [setLock_other _ _ _ _ (fun e => h2 e.1)]
    exact h.2 k' r' m h1
  · rw [setLock_same]
    exact h3

/-- And no others are. -/
theorem exact_set {i : Nat} {k : K} {r : Nat} {l : Lock} {c : List (Cmd K V)} {H H' : Held K} (h : Exact s i H)
    (hw : l.writer = some i → (k, r, .excl) ∈ H') (hr : l.readers i ≠ 0 → l.readers i = 1 ∧ (k, r, .shared) ∈ H')
    (hs : ∀ k' r' m, (k', r', m) ∈ H → ¬ (k' = k ∧ (s.thr i).obj r' = (s.thr i).obj r) → (k', r', m) ∈ H') :
    Exact (s.set i k ((s.thr i).obj r) l c) i H' := by
  have eo : ((s.set i k ((s.thr i).obj r) l c).thr i).obj = (s.thr i).obj := by simp [State.set, State.goto]
  refine ⟨?_, ?_⟩
  · intro k' o'
    rw [eo]
    show (setLock s.locks k ((s.thr i).obj r) l k' o').writer = some i → _
    by_cases e : k' = k ∧ o' = (s.thr i).obj r
    · obtain ⟨rfl, rfl⟩ := e
      rw [setLock_same]
      exact fun h => ⟨r, hw h, rfl⟩
    · rw [setLock_other _ _ _ _ e]
      intro h'
      obtain ⟨r', h1, h2⟩ := h.1 k' o' h'
      exact ⟨r', hs _ _ _ h1 (by rw [h2]; exact e), h2⟩
  · intro k' o'
    rw [eo]
    show (setLock s.locks k ((s.thr i).obj r) l k' o').readers i ≠ 0 → (setLock s.locks k ((s.thr i).obj r) l k' o').readers i = 1 ∧ _
    by_cases e : k' = k ∧ o' = (s.thr i).obj r
    · obtain ⟨rfl, rfl⟩ := e
      rw [setLock_same]
      exact fun h => ⟨(hr h).1, r, (hr h).2, rfl⟩
    · rw [setLock_other _ _ _ _ e]
      intro h'
      obtain ⟨h0, r', h1, h2⟩ := h.2 k' o' h'
      exact ⟨h0, r', hs _ _ _ h1 (by rw [h2]; exact e), h2⟩

theorem nodup_erase {H : Held K} (h : (H.map (·.1)).Nodup) (x : K × Nat × Mode) : ((H.erase x).map (·.1)).Nodup :=
  h.sublist (List.Sublist.map _ List.erase_sublist)

/-- After a lock is taken off the list no lock of its kind is in it. -/
theorem erase_kind {H : Held K} {x y : K × Nat × Mode} (h : (H.map (·.1)).Nodup) (hx : x ∈ H) (hy : y ∈ H.erase x) : y ∈ H ∧ y.1 ≠ x.1 := by
  refine ⟨List.mem_of_mem_erase hy, ?_⟩
  intro e
  have hp := List.perm_cons_erase hx
  have : ((x :: H.erase x).map (·.1)).Nodup := (hp.map _).nodup_iff.1 h
  rw [List.map_cons, List.nodup_cons] at this
  exact this.1 (List.mem_map.2 ⟨y, hy, e⟩)

theorem fresh_not {k : K} {H : Held K} (h : Fresh d k H) : k ∉ H.map (·.1) := by
  intro hk
  obtain ⟨x, hx, rfl⟩ := List.mem_map.1 hk
  exact absurd (h x hx) (Nat.lt_irrefl _)

theorem erase_stays {i : Nat} {k : K} {r : Nat} {m₀ : Mode} {H : Held K} (k' : K) (r' : Nat) (m : Mode) (h : (k', r', m) ∈ H)
    (hn : ¬ (k' = k ∧ (s.thr i).obj r' = (s.thr i).obj r)) : (k', r', m) ∈ H.erase (k, r, m₀) := by
  refine (List.mem_erase_of_ne ?_).2 h
  intro e
  cases e
  exact hn ⟨rfl, rfl⟩

theorem chks_cons {a : Cmd K V} {c : List (Cmd K V)} {H : Held K} (h : Ends (chks d cls (a :: c) H)) :
    ∃ H', chk d cls a H = some H' ∧ Ends (chks d cls c H') := by
  rw [chks] at h
  cases e : chk d cls a H with
  | none => rw [e] at h; cases h
  | some H' => rw [e] at h; exact ⟨H', rfl, h⟩

theorem isSome_if {p : Prop} [Decidable p] {α : Type} {a b : α} (h : (if p then some a else none) = some b) : p ∧ a = b := by
  split at h
  · rename_i hp; exact ⟨hp, Option.some.inj h⟩
  · cases h

theorem isSome_if' {p : Prop} [Decidable p] {α : Type} {a b : α} (h : (if p then none else some a) = some b) : ¬ p ∧ a = b := by
  split at h
  · cases h
  · rename_i hp; exact ⟨hp, Option.some.inj h⟩

theorem inv_step {methods : List (Cmd K V)} (hm : ∀ m ∈ methods, Ends (chk d cls m [])) (h : Inv d cls s) {e : Option Empty} {s' : State K V}
    (st : Step methods s e s') : Inv d cls s' := by
  cases st with
  | call i m obj hmem hi =>
    refine ⟨h.locks, h.done, h.shared, ?_⟩
    intro j
    obtain ⟨H, h1, h2⟩ := h.thr j
    by_cases e : j = i
    · subst e
      rw [hi] at h2
      refine ⟨[], ⟨⟨by simp, by intro k r m hm; cases hm⟩, ?_, ?_⟩, ?_⟩
      · intro k o hw
        obtain ⟨r, hr, -⟩ := h1.2.1 k o hw
        cases h2 _ hr
      · intro k o hw
        obtain ⟨-, r, hr, -⟩ := h1.2.2 k o hw
        cases h2 _ hr
      · simp only [upd_same, chks]
        have := hm m hmem
        cases hc : chk d cls m [] with
        | none => rw [hc] at this; cases this
        | some x => rw [hc] at this; exact this
    · refine ⟨H, ⟨⟨h1.1.1, ?_⟩, ?_⟩, by simpa [upd, e] using h2⟩
      · intro k r m hm
        have := h1.1.2 k r m hm
        simpa [upd, e] using this
      · have := h1.2
        unfold Exact at this ⊢
        simpa [upd, e] using this
  | skip i c hi =>
    refine h.goto i c fun H h1 h2 => ?_
    rw [hi] at h2
    obtain ⟨H', h3, h4⟩ := chks_cons h2
    cases h3
    exact ⟨H, h1, h4⟩
  | pick i r o c hi =>
    refine ⟨h.locks, h.done, h.shared, ?_⟩
    intro j
    obtain ⟨H, h1, h2⟩ := h.thr j
    by_cases e : j = i
    · subst e
      rw [hi] at h2
      obtain ⟨H', h3, h4⟩ := chks_cons h2
      rw [chk] at h3
      obtain ⟨e, rfl⟩ := isSome_if' h3
      have hne : ∀ k r' m, (k, r', m) ∈ H → r' ≠ r := by
        rintro k r' m hm rfl
        exact e (List.mem_map_of_mem (f := fun x : K × Nat × Mode => x.2.1) hm)
      refine ⟨H, ⟨⟨h1.1.1, ?_⟩, ?_, ?_⟩, by simpa using h4⟩
      · intro k r' m hm
        have := h1.1.2 k r' m hm
        simpa [upd, hne k r' m hm] using this
      · intro k o' hw
        obtain ⟨r', hr, ho⟩ := h1.2.1 k o' hw
        exact ⟨r', hr, by simpa [upd, hne _ _ _ hr] using ho⟩
      · intro k o' hw
        obtain ⟨h0, r', hr, ho⟩ := h1.2.2 k o' hw
        exact ⟨h0, r', hr, by simpa [upd, hne _ _ _ hr] using ho⟩
    · refine ⟨H, ⟨⟨h1.1.1, ?_⟩, ?_⟩, by simpa [upd, e] using h2⟩
      · intro k r m hm
        have := h1.1.2 k r m hm
        simpa [upd, e] using this
      · have := h1.2
        unfold Exact at this ⊢
        simpa [upd, e] using this
  | seq i a b c hi =>
    refine h.goto i _ fun H h1 h2 => ?_
    rw [hi] at h2
    refine ⟨H, h1, ?_⟩
    simpa [chks, chk, Option.bind_assoc] using h2
  | left i a b c hi =>
    refine h.goto i _ fun H h1 h2 => ?_
    rw [hi] at h2
    obtain ⟨H', h3, h4⟩ := chks_cons h2
    refine ⟨H, h1, ?_⟩
    rw [chk] at h3
    split at h3
    · rw [chks, h3]; exact h4
    · cases h3
  | right i a b c hi =>
    refine h.goto i _ fun H h1 h2 => ?_
    rw [hi] at h2
    obtain ⟨H', h3, h4⟩ := chks_cons h2
    refine ⟨H, h1, ?_⟩
    rw [chk] at h3
    split at h3
    · rename_i e; rw [chks, ← e, h3]; exact h4
    · cases h3
  | again i a c hi =>
    refine h.goto i _ fun H h1 h2 => ?_
    rw [hi] at h2
    obtain ⟨H', h3, h4⟩ := chks_cons h2
    refine ⟨H, h1, ?_⟩
    have h3' := h3
    rw [chk] at h3
    obtain ⟨e, rfl⟩ := isSome_if h3
    rw [chks, e, Option.bind_some, chks, h3']
    exact h4
  | leave i a c hi =>
    refine h.goto i _ fun H h1 h2 => ?_
    rw [hi] at h2
    obtain ⟨H', h3, h4⟩ := chks_cons h2
    rw [chk] at h3
    obtain ⟨e, rfl⟩ := isSome_if h3
    exact ⟨H, h1, h4⟩
  | read i v r c hi =>
    refine h.goto i _ fun H h1 h2 => ?_
    rw [hi] at h2
    obtain ⟨H', h3, h4⟩ := chks_cons h2
    rw [chk] at h3
    obtain ⟨e, rfl⟩ := isSome_if h3
    exact ⟨H, h1, h4⟩
  | write i v r c hi =>
    refine h.goto i _ fun H h1 h2 => ?_
    rw [hi] at h2
    obtain ⟨H', h3, h4⟩ := chks_cons h2
    rw [chk] at h3
    obtain ⟨e, rfl⟩ := isSome_if h3
    exact ⟨H, h1, h4⟩
  | atomic i v r c hi =>
    refine h.goto i _ fun H h1 h2 => ?_
    rw [hi] at h2
    obtain ⟨H', h3, h4⟩ := chks_cons h2
    rw [chk] at h3
    obtain ⟨e, rfl⟩ := isSome_if h3
    exact ⟨H, h1, h4⟩
  | lock i k r c hi l hl hw hr hd =>
    refine h.set i k _ _ c (fun _ => ⟨hr, hd⟩) ?_ ?_ ?_ ?_ ?_
    · intro j hj
      rw [hl, hw]
      exact ⟨⟨by simp, fun e => absurd (Option.some.inj e).symm hj⟩, rfl⟩
    · rw [hl, hd]; simp
    · intro e; rw [hd] at e; cases e
    · exact fun j hj => absurd (hr j) hj
    · intro H h1 h2
      rw [hi] at h2
      obtain ⟨H', h3, h4⟩ := chks_cons h2
      rw [chk] at h3
      obtain ⟨⟨hf, -⟩, rfl⟩ := isSome_if h3
      have e := fresh_not hf
      refine ⟨_, ⟨holds_set h1.1 (by rw [List.map_cons, List.nodup_cons]; exact ⟨e, h1.1.1⟩) ?_,
        exact_set h1.2 (fun _ => List.mem_cons_self ..) (fun h => absurd (hr i) h) (fun _ _ _ h _ => List.mem_cons_of_mem _ h)⟩, h4⟩
      intro k' r' m hm
      rcases List.mem_cons.1 hm with e' | hm'
      · cases e'; exact .inr ⟨rfl, rfl, rfl⟩
      · refine .inl ⟨hm', ?_⟩
        rintro rfl
        exact e (List.mem_map_of_mem (f := fun x : K × Nat × Mode => x.1) hm')
  | unlock i k r c hi l hl =>
    obtain ⟨H, h1, h2⟩ := h.thr i
    have h2' := h2
    rw [hi] at h2'
    obtain ⟨H', h3, h4⟩ := chks_cons h2'
    rw [chk] at h3
    obtain ⟨e, rfl⟩ := isSome_if h3
    have hw : l.writer = some i := by rw [← hl]; exact h1.1.2 k r .excl e
    have hlk := h.locks k ((s.thr i).obj r)
    rw [hl] at hlk
    have hlk := hlk (by rw [hw]; simp)
    refine h.set i k _ _ c (fun h => absurd rfl h) ?_ ?_ ?_ ?_ ?_
    · intro j hj
      rw [hl, hw]
      exact ⟨⟨fun e => absurd (Option.some.inj e).symm hj, by simp⟩, rfl⟩
    · rw [hl]; exact id
    · intro e; rw [hlk.2] at e; cases e
    · exact fun j hj => absurd (hlk.1 j) hj
    · intro _ _ _
      refine ⟨_, ⟨holds_set h1.1 (nodup_erase h1.1.1 _) ?_, exact_set h1.2 (by simp) (fun h => absurd (hlk.1 i) h) erase_stays⟩, h4⟩
      intro k' r' m hm
      exact .inl (erase_kind h1.1.1 e hm)
  | rlock i k r c hi l hl hw =>
    refine h.set i k _ _ c (fun h => absurd hw h) ?_ ?_ ?_ ?_ ?_
    · intro j hj
      rw [hl, hw]
      exact ⟨by simp, by simp [upd, hj]⟩
    · rw [hl]; exact id
    · exact fun e => h.done k _ (by rw [hl]; exact e)
    · intro _ _
      obtain ⟨H, h1, h2⟩ := h.thr i
      rw [hi] at h2
      obtain ⟨H', h3, h4⟩ := chks_cons h2
      rw [chk] at h3
      exact (isSome_if h3).1.2
    · intro H h1 h2
      rw [hi] at h2
      obtain ⟨H', h3, h4⟩ := chks_cons h2
      rw [chk] at h3
      obtain ⟨⟨hf, -⟩, rfl⟩ := isSome_if h3
      have e := fresh_not hf
      have h0 : l.readers i = 0 := by
        by_contra hne
        obtain ⟨-, r', hr', -⟩ := h1.2.2 k ((s.thr i).obj r) (by rw [hl]; exact hne)
        exact e (List.mem_map_of_mem (f := fun x : K × Nat × Mode => x.1) hr')
      refine ⟨_, ⟨holds_set h1.1 (by rw [List.map_cons, List.nodup_cons]; exact ⟨e, h1.1.1⟩) ?_,
        exact_set h1.2 (fun h => by rw [hw] at h; cases h) (fun _ => ⟨by simp [h0], List.mem_cons_self ..⟩) (fun _ _ _ h _ => List.mem_cons_of_mem _ h)⟩, h4⟩
      intro k' r' m hm
      rcases List.mem_cons.1 hm with e' | hm'
      · cases e'; exact .inr ⟨rfl, rfl, by simp [Has]⟩
      · refine .inl ⟨hm', ?_⟩
        rintro rfl
        exact e (List.mem_map_of_mem (f := fun x : K × Nat × Mode => x.1) hm')
  | runlock i k r c hi l hl =>
    obtain ⟨H, h1, h2⟩ := h.thr i
    have h2' := h2
    rw [hi] at h2'
    obtain ⟨H', h3, h4⟩ := chks_cons h2'
    rw [chk] at h3
    obtain ⟨e, rfl⟩ := isSome_if h3
    have hw : l.readers i ≠ 0 := by rw [← hl]; exact h1.1.2 k r .shared e
    have hn : l.writer = none := by
      by_contra hne
      exact hw (by have := (h.locks k ((s.thr i).obj r)); rw [hl] at this; exact (this hne).1 i)
    have h1' : l.readers i = 1 := by rw [← hl] at hw ⊢; exact (h1.2.2 k _ hw).1
    refine h.set i k _ _ c (fun h => absurd hn h) ?_ ?_ ?_ ?_ ?_
    · intro j hj
      rw [hl]
      exact ⟨Iff.rfl, by simp [upd, hj]⟩
    · rw [hl]; exact id
    · exact fun e => h.done k _ (by rw [hl]; exact e)
    · exact fun _ _ => h.shared k _ i (by rw [hl]; exact hw)
    · intro _ _ _
      refine ⟨_, ⟨holds_set h1.1 (nodup_erase h1.1.1 _) ?_, exact_set h1.2 (fun h => by rw [hn] at h; cases h) (fun h => absurd (by simp [h1']) h) erase_stays⟩, h4⟩
      intro k' r' m hm
      exact .inl (erase_kind h1.1.1 e hm)
  | onceFirst i k r body c hi l hl hw hr hd =>
    refine h.set i k _ _ _ (fun _ => ⟨hr, hd⟩) ?_ ?_ ?_ ?_ ?_
    · intro j hj
      rw [hl, hw]
      exact ⟨⟨by simp, fun e => absurd (Option.some.inj e).symm hj⟩, rfl⟩
    · rw [hl, hd]; simp
    · intro e; rw [hd] at e; cases e
    · exact fun j hj => absurd (hr j) hj
    · intro H h1 h2
      rw [hi] at h2
      obtain ⟨H', h3, h4⟩ := chks_cons h2
      rw [chk] at h3
      obtain ⟨⟨hf, ho, e'⟩, rfl⟩ := isSome_if h3
      have e := fresh_not hf
      refine ⟨(k, r, .excl) :: H, ⟨holds_set h1.1 (by rw [List.map_cons, List.nodup_cons]; exact ⟨e, h1.1.1⟩) ?_,
        exact_set h1.2 (fun _ => List.mem_cons_self ..) (fun h => absurd (hr i) h) (fun _ _ _ h _ => List.mem_cons_of_mem _ h)⟩, ?_⟩
      · intro k' r' m hm
        rcases List.mem_cons.1 hm with e' | hm'
        · cases e'; exact .inr ⟨rfl, rfl, rfl⟩
        · refine .inl ⟨hm', ?_⟩
          rintro rfl
          exact e (List.mem_map_of_mem (f := fun x : K × Nat × Mode => x.1) hm')
      · rw [chks, e', Option.bind_some, chks, chk, if_pos ⟨List.mem_cons_self .., ho⟩, Option.bind_some, List.erase_cons_head]
        exact h4
  | onceDone i k r body c hi hd =>
    refine h.goto i _ fun H h1 h2 => ?_
    rw [hi] at h2
    obtain ⟨H', h3, h4⟩ := chks_cons h2
    rw [chk] at h3
    obtain ⟨⟨hf, -, -⟩, rfl⟩ := isSome_if h3
    have e := fresh_not hf
    refine ⟨_, ⟨⟨by rw [List.map_cons, List.nodup_cons]; exact ⟨e, h1.1.1⟩, ?_⟩, ?_, ?_⟩, h4⟩
    · intro k' r' m hm
      rcases List.mem_cons.1 hm with e' | hm
      · cases e'; exact hd
      · exact h1.1.2 k' r' m hm
    · intro k' o' hw
      obtain ⟨r', h5, h6⟩ := h1.2.1 k' o' hw
      exact ⟨r', List.mem_cons_of_mem _ h5, h6⟩
    · intro k' o' hw
      obtain ⟨h0, r', h5, h6⟩ := h1.2.2 k' o' hw
      exact ⟨h0, r', List.mem_cons_of_mem _ h5, h6⟩
  | publish i k r c hi l hl =>
    obtain ⟨H, h1, h2⟩ := h.thr i
    have h2' := h2
    rw [hi] at h2'
    obtain ⟨H', h3, h4⟩ := chks_cons h2'
    rw [chk] at h3
    obtain ⟨⟨e, hon⟩, rfl⟩ := isSome_if h3
    have hw : l.writer = some i := by rw [← hl]; exact h1.1.2 k r .excl e
    have hlk := h.locks k ((s.thr i).obj r)
    rw [hl] at hlk
    have hlk := hlk (by rw [hw]; simp)
    refine h.set i k _ _ c (fun h => absurd rfl h) ?_ (fun _ => rfl) (fun _ => hon) (fun j hj => absurd (hlk.1 j) hj) ?_
    · intro j hj
      rw [hl, hw]
      exact ⟨⟨fun e => absurd (Option.some.inj e).symm hj, by simp⟩, rfl⟩
    · intro _ _ _
      refine ⟨_, ⟨holds_set h1.1 ?_ ?_, exact_set h1.2 (by simp) (fun h => absurd (hlk.1 i) h)
        (fun k' r' m h hn => List.mem_cons_of_mem _ (erase_stays k' r' m h hn))⟩, h4⟩
      · rw [List.map_cons, List.nodup_cons]
        refine ⟨?_, nodup_erase h1.1.1 _⟩
        intro hk
        obtain ⟨y, hy, hyk⟩ := List.mem_map.1 hk
        exact (erase_kind h1.1.1 e hy).2 hyk
      · intro k' r' m hm
        rcases List.mem_cons.1 hm with e' | hm
        · cases e'; exact .inr ⟨rfl, rfl, rfl⟩
        · exact .inl (erase_kind h1.1.1 e hm)

theorem reach_inv {methods : List (Cmd K V)} (hm : ∀ m ∈ methods, Ends (chk d cls m [])) (h : Reach methods s) : Inv d cls s := by
  obtain ⟨tr, h⟩ := h
  refine Exec.induct (fun _ s => Inv d cls s) ?_ (fun _ _ _ _ ih st => inv_step hm ih st) h
  refine ⟨fun k o h => absurd rfl h, fun k o h => (by cases h), fun k o j h => absurd rfl h, fun i => ⟨[], ⟨⟨by simp, by intro k r m hm; cases hm⟩, ?_, ?_⟩, ?_⟩⟩
  · intro k o h; cases h
  · intro k o h; exact absurd rfl h
  · intro x hx; cases hx

/-- What the checker accepts has no race, except on variables that are not checked. -/
theorem inv_no_race (h : Inv d cls s) {v : V} (hr : RacingOn s v) : cls v = .free := by
  obtain ⟨i, j, o, a, b, hij, hi, hj, hc⟩ := hr
  by_contra hfree
  -- what an access needs
  have need : ∀ i a, s.next i = some (a, v, o) →
      (a = .atomic ∧ cls v = .atomic) ∨ (a = .read ∧ cls v = .const) ∨ ∃ k, cls v = .guarded k ∧
        ((s.locks k o).writer = some i ∨ a = .read ∧ ((s.locks k o).readers i ≠ 0 ∨ (s.locks k o).done = true)) := by
    intro i a hi
    obtain ⟨H, h1, h2⟩ := h.thr i
    unfold State.next at hi
    split at hi
    · rename_i v' r c ht
      rw [ht] at h2
      obtain ⟨H', h3, -⟩ := chks_cons h2
      rw [chk] at h3
      obtain ⟨e, -⟩ := isSome_if h3
      cases hi
      unfold okRead at e
      split at e
      · rename_i hk; exact .inr (.inl ⟨rfl, hk⟩)
      · cases e
      · rename_i hk; exact absurd hk hfree
      · rename_i k hk
        refine .inr (.inr ⟨k, hk, ?_⟩)
        rcases of_decide_eq_true e with e | e | e
        · exact .inl (h1.1.2 k r .excl e)
        · exact .inr ⟨rfl, .inl (h1.1.2 k r .shared e)⟩
        · exact .inr ⟨rfl, .inr (h1.1.2 k r .opened e)⟩
    · rename_i v' r c ht
      rw [ht] at h2
      obtain ⟨H', h3, -⟩ := chks_cons h2
      rw [chk] at h3
      obtain ⟨e, -⟩ := isSome_if h3
      cases hi
      unfold okWrite at e
      split at e
      · rename_i k hk
        exact .inr (.inr ⟨k, hk, .inl (h1.1.2 k r .excl (of_decide_eq_true e))⟩)
      · rename_i hk; exact absurd hk hfree
      · cases e
    · rename_i v' r c ht
      rw [ht] at h2
      obtain ⟨H', h3, -⟩ := chks_cons h2
      rw [chk] at h3
      obtain ⟨e, -⟩ := isSome_if h3
      cases hi
      exact .inl ⟨rfl, e.resolve_right hfree⟩
    · cases hi
  rcases need i a hi with ⟨ea, ca⟩ | ⟨ea, ca⟩ | ⟨k, ca, ha⟩
  · rcases need j b hj with ⟨eb, cb⟩ | ⟨eb, cb⟩ | ⟨k, cb, hb⟩
    · exact hc.2 ⟨ea, eb⟩
    · rw [ca] at cb; cases cb
    · rw [ca] at cb; cases cb
  · rcases need j b hj with ⟨eb, cb⟩ | ⟨eb, cb⟩ | ⟨k, cb, hb⟩
    · rw [ca] at cb; cases cb
    · exact hc.1 ⟨ea, eb⟩
    · rw [ca] at cb; cases cb
  · rcases need j b hj with ⟨eb, cb⟩ | ⟨eb, cb⟩ | ⟨k', cb, hb⟩
    · rw [ca] at cb; cases cb
    · rw [ca] at cb; cases cb
    · rw [ca] at cb
      cases cb
      have hl := h.locks k o
      rcases ha with ha | ⟨ea, ha⟩
      · have hl := hl (by rw [ha]; simp)
        rcases hb with hb | ⟨-, hb | hb⟩
        · rw [ha] at hb; exact hij (Option.some.inj hb)
        · exact hb (hl.1 j)
        · rw [hl.2] at hb; cases hb
      · rcases hb with hb | ⟨eb, -⟩
        · have hl := hl (by rw [hb]; simp)
          rcases ha with ha | ha
          · exact ha (hl.1 i)
          · rw [hl.2] at ha; cases ha
        · exact hc.1 ⟨ea, eb⟩

theorem no_race {methods : List (Cmd K V)} (d : Disc K) (cls : V → Class K) (hm : ∀ m ∈ methods, Ends (chk d cls m [])) (h : Reach methods s) {v : V} (hr : RacingOn s v) :
    cls v = .free := inv_no_race (reach_inv hm h) hr

end Go.Race
