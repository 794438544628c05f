import Verif.Proofs.Race

/-!
# Why code that the checker accepts cannot deadlock

Whoever waits for a lock holds only locks of lower rank, so a chain of goroutines that wait for each other climbs and ends.
-/

namespace Go.Race
variable {K V : Type} [DecidableEq K] [DecidableEq V] {d : Disc K} {cls : V → Class K} {s : State K V}

/-- The kind of lock that is taken next. -/
def wants : List (Cmd K V) → Option K
  | .lock k _ :: _ => some k
  | .rlock k _ :: _ => some k
  | .once k _ _ :: _ => some k
  | _ => none

theorem holder_wants (h : Inv d cls s) {k : K} {o j : Nat} (hj : Holder s k o j) :
    (s.thr j).todo ≠ [] ∧ ∀ k', wants (s.thr j).todo = some k' → d.rank k < d.rank k' := by
  obtain ⟨H, h1, h2⟩ := h.thr j
  have hk : ∃ r m, (k, r, m) ∈ H ∧ m ≠ .opened := by
    rcases hj with hj | hj
    · obtain ⟨r, hr, -⟩ := h1.2.1 k o hj
      exact ⟨r, _, hr, by simp⟩
    · obtain ⟨-, r, hr, -⟩ := h1.2.2 k o hj
      exact ⟨r, _, hr, by simp⟩
  obtain ⟨r, m, hr, hm⟩ := hk
  refine ⟨?_, ?_⟩
  · intro e
    rw [e] at h2
    exact hm (h2 _ hr)
  · intro k' hw
    unfold wants at hw
    split at hw
    all_goals first
      | cases hw; done
      | rename_i ht
        rw [ht] at h2
        obtain ⟨H', h3, -⟩ := chks_cons h2
        rw [chk] at h3
        have := (isSome_if h3).1.1 _ hr
        cases hw
        exact this

theorem waits_wants {i j : Nat} (h : WaitsFor s i j) : ∃ k, wants (s.thr i).todo = some k := by
  unfold WaitsFor at h
  split at h
  all_goals first
    | exact absurd h id
    | (rename_i ht; rw [ht]; exact ⟨_, rfl⟩)

/-- Who waits, waits for a holder of the lock, or for a writer that waits for it. -/
theorem waits_for (h : Inv d cls s) {i j : Nat} (hw : WaitsFor s i j) {k : K} (hk : wants (s.thr i).todo = some k) :
    (∃ o, Holder s k o j) ∨ ∃ r c, (s.thr j).todo = .lock k r :: c := by
  unfold WaitsFor at hw
  split at hw
  · rename_i ht
    rw [ht] at hk; cases hk
    exact .inl ⟨_, hw⟩
  · rename_i ht
    rw [ht] at hk; cases hk
    rcases hw with hw | ⟨r, c, e, -⟩
    · exact .inl ⟨_, .inl hw⟩
    · exact .inr ⟨r, c, e⟩
  · rename_i ht
    rw [ht] at hk; cases hk
    exact .inl ⟨_, .inl hw⟩
  · exact absurd hw id

theorem choice_ne (a b : Cmd K V) : a ≠ .choice a b := by
  intro h
  have := congrArg sizeOf h
  simp at this
  omega

theorem can_go {methods : List (Cmd K V)} (h : Inv d cls s) {j : Nat} (ht : (s.thr j).todo ≠ []) (hb : ∀ i, ¬ WaitsFor s j i) : CanGo methods s j := by
  refine ⟨hb, ?_⟩
  have other : ∀ (c : List (Cmd K V)) i, i ≠ j → (s.goto j c).thr i = s.thr i := by intro c i hi; simp [State.goto, upd, hi]
  have other' : ∀ (k : K) (o : Nat) (l : Lock) (c : List (Cmd K V)) i, i ≠ j → (s.set j k o l c).thr i = s.thr i := by
    intro k o l c i hi; simp [State.set, State.goto, upd, hi]
  have ne : ∀ c : List (Cmd K V), c ≠ (s.thr j).todo → (s.goto j c).thr j ≠ s.thr j := by
    intro c hc e
    exact hc (by rw [← e]; simp [State.goto])
  have ne' : ∀ (k : K) (o : Nat) (l : Lock) (c : List (Cmd K V)), c ≠ (s.thr j).todo → (s.set j k o l c).thr j ≠ s.thr j := by
    intro k o l c hc e
    exact hc (by rw [← e]; simp [State.set, State.goto])
  obtain ⟨H, h1, h2⟩ := h.thr j
  unfold WaitsFor at hb
  cases hc : (s.thr j).todo with
  | nil => exact absurd hc ht
  | cons a c =>
    simp only [hc] at hb ne ne'
    rw [hc] at h2
    obtain ⟨H', h3, -⟩ := chks_cons h2
    have cn : ∀ a : Cmd K V, c ≠ a :: c := fun a e => by have := congrArg List.length e; simp at this
    cases a with
    | skip => exact ⟨_, .skip j c hc, ne _ (cn _), other _⟩
    | pick r =>
      refine ⟨_, .pick j r 0 c hc, ?_, ?_⟩
      · intro e
        have := congrArg Thread.todo e
        simp only [upd_same, hc] at this
        exact cn _ this
      · intro i hi; simp [upd, hi]
    | seq a b => exact ⟨_, .seq j a b c hc, ne _ (fun e => by have := congrArg List.length e; simp at this), other _⟩
    | choice a b => exact ⟨_, .left j a b c hc, ne _ (fun e => choice_ne a b (List.cons.inj e).1), other _⟩
    | loop a => exact ⟨_, .leave j a c hc, ne _ (cn _), other _⟩
    | read v r => exact ⟨_, .read j v r c hc, ne _ (cn _), other _⟩
    | write v r => exact ⟨_, .write j v r c hc, ne _ (cn _), other _⟩
    | atomic v r => exact ⟨_, .atomic j v r c hc, ne _ (cn _), other _⟩
    | unlock k r => exact ⟨_, .unlock j k r c hc _ rfl, ne' _ _ _ _ (cn _), other' _ _ _ _⟩
    | runlock k r => exact ⟨_, .runlock j k r c hc _ rfl, ne' _ _ _ _ (cn _), other' _ _ _ _⟩
    | publish k r => exact ⟨_, .publish j k r c hc _ rfl, ne' _ _ _ _ (cn _), other' _ _ _ _⟩
    | lock k r =>
      have hw : (s.locks k ((s.thr j).obj r)).writer = none := by
        cases e : (s.locks k ((s.thr j).obj r)).writer with
        | none => rfl
        | some i => exact absurd (.inl e) (hb i)
      have hr : ∀ i, (s.locks k ((s.thr j).obj r)).readers i = 0 := fun i => by
        by_contra e
        exact hb i (.inr e)
      rw [chk] at h3
      have hd : (s.locks k ((s.thr j).obj r)).done = false := by
        cases e : (s.locks k ((s.thr j).obj r)).done with
        | false => rfl
        | true => have := h.done _ _ e; rw [(isSome_if h3).1.2] at this; cases this
      exact ⟨_, .lock j k r c hc _ rfl hw hr hd, ne' _ _ _ _ (cn _), other' _ _ _ _⟩
    | rlock k r =>
      have hw : (s.locks k ((s.thr j).obj r)).writer = none := by
        cases e : (s.locks k ((s.thr j).obj r)).writer with
        | none => rfl
        | some i => exact absurd (.inl e) (hb i)
      exact ⟨_, .rlock j k r c hc _ rfl hw, ne' _ _ _ _ (cn _), other' _ _ _ _⟩
    | once k r body =>
      have hw : (s.locks k ((s.thr j).obj r)).writer = none := by
        cases e : (s.locks k ((s.thr j).obj r)).writer with
        | none => rfl
        | some i => exact absurd e (hb i)
      cases hd : (s.locks k ((s.thr j).obj r)).done with
      | true => exact ⟨_, .onceDone j k r body c hc hd, ne _ (cn _), other _⟩
      | false =>
        rw [chk] at h3
        have hr : ∀ i, (s.locks k ((s.thr j).obj r)).readers i = 0 := by
          intro i
          by_contra e
          have := h.shared _ _ _ e
          rw [(isSome_if h3).1.2.1] at this
          cases this
        exact ⟨_, .onceFirst j k r body c hc _ rfl hw hr hd, ne' _ _ _ _ (fun e => by have := congrArg List.length e; simp at this), other' _ _ _ _⟩

theorem holder_progresses {methods : List (Cmd K V)} (h : Inv d cls s) {B : Nat} (hB : ∀ k, d.rank k ≤ B) :
    ∀ (n : Nat) {k : K} {o j : Nat}, Holder s k o j → B ≤ d.rank k + n → Progresses methods s j := by
  intro n
  induction n with
  | zero =>
    intro k o j hj hn
    obtain ⟨h1, h2⟩ := holder_wants h hj
    by_cases hb : ∃ i, WaitsFor s j i
    · obtain ⟨i, hb⟩ := hb
      obtain ⟨k', hk'⟩ := waits_wants hb
      have := h2 k' hk'
      have := hB k'
      omega
    · exact .now _ (can_go h h1 (fun i hi => hb ⟨i, hi⟩))
  | succ n ih =>
    intro k o j hj hn
    obtain ⟨h1, h2⟩ := holder_wants h hj
    by_cases hb : ∃ i, WaitsFor s j i
    · obtain ⟨i, hb⟩ := hb
      obtain ⟨k', hk'⟩ := waits_wants hb
      have := h2 k' hk'
      refine .later _ i hb ?_
      rcases waits_for h hb hk' with ⟨o', ho⟩ | ⟨r, c, e⟩
      · exact ih ho (by omega)
      · by_cases hb' : ∃ i', WaitsFor s i i'
        · obtain ⟨i', hb'⟩ := hb'
          refine .later _ i' hb' ?_
          have hk2 : wants (s.thr i).todo = some k' := by rw [e]; rfl
          have hw := hb'
          unfold WaitsFor at hw
          rw [e] at hw
          exact ih hw (by omega)
        · exact .now _ (can_go h (by rw [e]; simp) (fun i hi => hb' ⟨i, hi⟩))
    · exact .now _ (can_go h h1 (fun i hi => hb ⟨i, hi⟩))

theorem no_deadlock {methods : List (Cmd K V)} (d : Disc K) (cls : V → Class K) {B : Nat} (hB : ∀ k, d.rank k ≤ B) (hm : ∀ m ∈ methods, Ends (chk d cls m []))
    (h : Reach methods s) {i : Nat} (hi : (s.thr i).todo ≠ []) : Progresses methods s i := by
  have h := reach_inv hm h
  by_cases hb : ∃ j, WaitsFor s i j
  · obtain ⟨j, hb⟩ := hb
    obtain ⟨k, hk⟩ := waits_wants hb
    refine .later _ j hb ?_
    rcases waits_for h hb hk with ⟨o, ho⟩ | ⟨r, c, e⟩
    · exact holder_progresses h hB B ho (by omega)
    · by_cases hb' : ∃ i', WaitsFor s j i'
      · obtain ⟨i', hb'⟩ := hb'
        refine .later _ i' hb' ?_
        have hw := hb'
        unfold WaitsFor at hw
        rw [e] at hw
        exact holder_progresses h hB B hw (by omega)
      · exact .now _ (can_go h (by rw [e]; simp) (fun i hi => hb' ⟨i, hi⟩))
  · exact .now _ (can_go h hi (fun j hj => hb ⟨j, hj⟩))

end Go.Race
