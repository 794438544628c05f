import Verif.Proofs.Collector

namespace Monkit.Collector
open Go

theorem callAfter_snoc {t y x : Nat} {tr : List Ev} {e : Option Ev} (h : CallAfter t y x (tr ++ e.toList)) :
    CallAfter t y x tr ∨ (e = some (.finishCall t y) ∧ x ∈ starts tr) := by
  cases e with
  | none => left; simpa using h
  | some e =>
    obtain ⟨a, b, h1, h2⟩ := h
    rcases List.eq_nil_or_concat b with rfl | ⟨b', z, rfl⟩
    · have := List.append_inj' h1 rfl
      right
      refine ⟨?_, by rw [this.1]; exact h2⟩
      simpa using this.2
    · left
      rw [List.concat_eq_append] at h1
      have h1' : tr ++ [e] = (a ++ .finishCall t y :: b') ++ [z] := by simpa using h1
      exact ⟨a, b', (List.append_inj' h1' rfl).1, h2⟩

theorem callAfter_starts {t y x : Nat} {tr : List Ev} (h : CallAfter t y x tr) : x ∈ starts tr := by
  obtain ⟨a, b, rfl, h⟩ := h
  rw [starts_append]; exact List.mem_append_left _ h

theorem starts_eq {traceOf : Nat → Nat} {tr : List Ev} {s : State} (b : Base traceOf tr s) {x : Nat}
    (h : x ∈ starts tr) : starts tr = [x] := by
  have := b.atMost
  match hs : starts tr, this, h with
  | [z], _, h => simp [hs] at h; rw [h]
  | [], _, h => simp [hs] at h
  | _ :: _ :: _, h, _ => simp [hs] at h

structure Hist (traceOf : Nat → Nat) (tr : List Ev) (s : State) : Prop where
  fin : ∀ t x, CallAfter t x x tr → s.check = .done ∨ s.root ≠ none ∨ ∃ u, (s.pc u).finishing = some x
  call : ∀ t y x, CallAfter t y x tr → traceOf x = traceOf y → y ≠ x →
    Ending x tr ∨ y ∈ s.coll ∨ (s.pc t).finishing = some y
  recd : ∀ y ∈ s.coll, ∃ a b, tr = a ++ b ∧ starts a ≠ [] ∧
    ((∃ t, s.pc t = .fout y) ∨ ∃ t, Ev.finishRet t y ∈ b)

theorem hist_init (traceOf : Nat → Nat) : Hist traceOf [] init := by
  constructor
  · intro t x h; have := callAfter_starts h; simp [starts] at this
  · intro t y x h; have := callAfter_starts h; simp [starts] at this
  · intro y hy; simp [init] at hy

theorem ending_mono {x : Nat} {tr : List Ev} (e : Option Ev) (h : Ending x tr) : Ending x (tr ++ e.toList) := by
  rcases h with ⟨t, h⟩ | h
  · exact .inl ⟨t, List.mem_append_left _ h⟩
  · exact .inr (by rw [finishes_append]; exact List.mem_append_left _ h)

theorem done_ending {traceOf : Nat → Nat} {tr : List Ev} {s : State}
    (i : Coll traceOf tr s) {x : Nat} (hx : starts tr = [x]) (h : s.check = .done) : Ending x tr := by
  rcases i.ending h with h | ⟨z, hz, h⟩
  · exact .inl h
  · rw [hx] at hz; cases hz; exact .inr h

/-- What it takes for `Finish(y)` to be over as far as recording goes. -/
def Gone (traceOf : Nat → Nat) (tr : List Ev) (s' : State) (y : Nat) : Prop :=
  ∀ x, starts tr = [x] → traceOf x = traceOf y →
    (y = x → s'.check = .done ∨ s'.root ≠ none) ∧ (y ≠ x → Ending x tr ∨ y ∈ s'.coll)

theorem hist_plain {traceOf : Nat → Nat} {tr : List Ev} {s s' : State} {e : Option Ev} (b : Base traceOf tr s)
    (j : Hist traceOf tr s) (t : Nat) (v : PC) (hpc : s'.pc = upd s.pc t v)
    (hfin : ∀ y, (s.pc t).finishing = some y → v.finishing = some y ∨ Gone traceOf tr s' y)
    (hdone : s.check = .done → s'.check = .done) (hroot : s.root ≠ none → s'.root ≠ none)
    (hcoll : ∀ y ∈ s.coll, y ∈ s'.coll)
    (hcall : ∀ t' y, e = some (.finishCall t' y) → t' = t ∧ v.finishing = some y)
    (hrec : ∀ y ∈ s'.coll, (y ∈ s.coll ∧ (s.pc t = .fout y → e = some (.finishRet t y))) ∨
      (v = .fout y ∧ starts tr ≠ [])) :
    Hist traceOf (tr ++ e.toList) s' := by
  have keep : ∀ u y x, (s.pc u).finishing = some y → starts tr = [x] → traceOf x = traceOf y →
      (s'.pc u).finishing = some y ∨ ((y = x → s'.check = .done ∨ s'.root ≠ none) ∧ (y ≠ x → Ending x tr ∨ y ∈ s'.coll)) := by
    intro u y x hu hx ht
    rw [hpc]
    by_cases e : u = t
    · subst e
      rw [upd_same]
      rcases hfin y hu with h | h
      · exact .inl h
      · exact .inr (h x hx ht)
    · rw [upd_other _ _ e]; exact .inl hu
  constructor
  · intro t' x hc
    rcases callAfter_snoc hc with hc | ⟨he, hx⟩
    · rcases j.fin t' x hc with h | h | ⟨u, hu⟩
      · exact .inl (hdone h)
      · exact .inr (.inl (hroot h))
      · rcases keep u x x hu (starts_eq b (callAfter_starts hc)) rfl with h | h
        · exact .inr (.inr ⟨u, h⟩)
        · rcases h.1 rfl with h | h
          · exact .inl h
          · exact .inr (.inl h)
    · obtain ⟨rfl, hv⟩ := hcall t' x he
      exact .inr (.inr ⟨t', by rw [hpc, upd_same]; exact hv⟩)
  · intro t' y x hc ht hne
    rcases callAfter_snoc hc with hc | ⟨he, hx⟩
    · rcases j.call t' y x hc ht hne with h | h | h
      · exact .inl (ending_mono _ h)
      · exact .inr (.inl (hcoll y h))
      · rcases keep t' y x h (starts_eq b (callAfter_starts hc)) ht with h | h
        · exact .inr (.inr h)
        · rcases h.2 hne with h | h
          · exact .inl (ending_mono _ h)
          · exact .inr (.inl h)
    · obtain ⟨rfl, hv⟩ := hcall t' y he
      exact .inr (.inr (by rw [hpc, upd_same]; exact hv))
  · intro y hy
    rcases hrec y hy with ⟨hy, hr⟩ | ⟨hv, hs⟩
    · obtain ⟨a, c, h1, h2, h3⟩ := j.recd y hy
      refine ⟨a, c ++ e.toList, by rw [h1]; simp, h2, ?_⟩
      rcases h3 with ⟨u, hu⟩ | ⟨u, hu⟩
      · by_cases e' : u = t
        · subst e'
          exact .inr ⟨u, by rw [hr hu]; simp⟩
        · exact .inl ⟨u, by rw [hpc, upd_other _ _ e']; exact hu⟩
      · exact .inr ⟨u, List.mem_append_left _ hu⟩
    · exact ⟨tr, e.toList, rfl, hs, .inl ⟨t, by rw [hpc, upd_same]; exact hv⟩⟩

theorem hist_step {traceOf : Nat → Nat} {tr : List Ev} {s s' : State} {e : Option Ev} (b : Base traceOf tr s)
    (i : Coll traceOf tr s) (j : Hist traceOf tr s)
    (st : Step traceOf s e s') : Hist traceOf (tr ++ e.toList) s' := by
  cases st with
  | start t y h =>
    refine hist_plain b j t _ rfl ?_ (fun h => by first | exact h | simp) (fun h => h) (fun _ h => h) (by simp [retEv, PC.finishing]) ?_
    · intro z hz; rw [h] at hz; first | exact .inl hz | simp [PC.finishing] at hz
    · intro z hz; exact .inl ⟨hz, by rw [h]; intro q; cases q; try rfl⟩
  | sloadSet t y h c =>
    refine hist_plain b j t _ rfl ?_ (fun h => by first | exact h | simp) (fun h => h) (fun _ h => h) (by simp [retEv, PC.finishing]) ?_
    · intro z hz; rw [h] at hz; first | exact .inl hz | simp [PC.finishing] at hz
    · intro z hz; exact .inl ⟨hz, by rw [h]; intro q; cases q; try rfl⟩
  | sloadNil t y h c =>
    refine hist_plain b j t _ rfl ?_ (fun h => by first | exact h | simp) (fun h => h) (fun _ h => h) (by simp [retEv, PC.finishing]) ?_
    · intro z hz; rw [h] at hz; first | exact .inl hz | simp [PC.finishing] at hz
    · intro z hz; exact .inl ⟨hz, by rw [h]; intro q; cases q; try rfl⟩
  | smatchNo t y h =>
    refine hist_plain b j t _ rfl ?_ (fun h => by first | exact h | simp) (fun h => h) (fun _ h => h) (by simp [retEv, PC.finishing]) ?_
    · intro z hz; rw [h] at hz; first | exact .inl hz | simp [PC.finishing] at hz
    · intro z hz; exact .inl ⟨hz, by rw [h]; intro q; cases q; try rfl⟩
  | smatchYes t y h =>
    refine hist_plain b j t _ rfl ?_ (fun h => by first | exact h | simp) (fun h => h) (fun _ h => h) (by simp [retEv, PC.finishing]) ?_
    · intro z hz; rw [h] at hz; first | exact .inl hz | simp [PC.finishing] at hz
    · intro z hz; exact .inl ⟨hz, by rw [h]; intro q; cases q; try rfl⟩
  | force t y h =>
    refine hist_plain b j t _ rfl ?_ (fun h => by first | exact h | simp) (fun h => h) (fun _ h => h) (by simp [retEv, PC.finishing]) ?_
    · intro z hz; rw [h] at hz; first | exact .inl hz | simp [PC.finishing] at hz
    · intro z hz; exact .inl ⟨hz, by rw [h]; intro q; cases q; try rfl⟩
  | scasOk t y h c =>
    refine hist_plain b j t _ rfl ?_ (fun h => by rw [c] at h; cases h) (fun h => h) (fun _ h => h) (by simp) ?_
    · intro z hz; rw [h] at hz; simp [PC.finishing] at hz
    · intro z hz; exact .inl ⟨hz, by rw [h]; intro q; cases q⟩
  | scasNo t y h c =>
    refine hist_plain b j t _ rfl ?_ (fun h => by first | exact h | simp) (fun h => h) (fun _ h => h) (by simp [retEv, PC.finishing]) ?_
    · intro z hz; rw [h] at hz; first | exact .inl hz | simp [PC.finishing] at hz
    · intro z hz; exact .inl ⟨hz, by rw [h]; intro q; cases q; try rfl⟩
  | finish t y h =>
    refine hist_plain b j t _ rfl ?_ (fun h => by first | exact h | simp) (fun h => h) (fun _ h => h) (by simp [retEv, PC.finishing]) ?_
    · intro z hz; rw [h] at hz; first | exact .inl hz | simp [PC.finishing] at hz
    · intro z hz; exact .inl ⟨hz, by rw [h]; intro q; cases q; try rfl⟩
  | floadNo t y h c =>
    refine hist_plain b j t _ rfl ?_ (fun h => h) (fun h => h) (fun _ h => h) (by simp) ?_
    · intro z hz
      rw [h] at hz; simp [PC.finishing] at hz; subst hz
      right
      intro x hx ht
      have hd : s.check = .done := by
        cases hk : s.check with
        | unset => rw [b.unset hk] at hx; cases hx
        | span x' =>
          have := b.span x' hk
          rw [hx] at this; cases this
          exact absurd ht (c x hk)
        | done => rfl
      exact ⟨fun _ => .inl hd, fun _ => .inl (done_ending i hx hd)⟩
    · intro z hz; exact .inl ⟨hz, by rw [h]; intro q; cases q⟩
  | floadYes t y x h c c' =>
    refine hist_plain b j t _ rfl ?_ (fun h => by first | exact h | simp) (fun h => h) (fun _ h => h) (by simp [retEv, PC.finishing]) ?_
    · intro z hz; rw [h] at hz; first | exact .inl hz | simp [PC.finishing] at hz
    · intro z hz; exact .inl ⟨hz, by rw [h]; intro q; cases q; try rfl⟩
  | flock t y x h free =>
    refine hist_plain b j t _ rfl ?_ (fun h => by first | exact h | simp) (fun h => h) (fun _ h => h) (by simp [retEv, PC.finishing]) ?_
    · intro z hz; rw [h] at hz; first | exact .inl hz | simp [PC.finishing] at hz
    · intro z hz; exact .inl ⟨hz, by rw [h]; intro q; cases q; try rfl⟩
  | frootSet t y x h c =>
    refine hist_plain b j t _ rfl ?_ (fun h => h) (fun h => h) (fun _ h => h) (by simp) ?_
    · intro z hz
      rw [h] at hz; simp [PC.finishing] at hz; subst hz
      right
      intro x hx ht
      refine ⟨fun _ => .inr c, fun _ => .inl (.inr ?_)⟩
      cases hr : s.root with
      | none => exact absurd hr c
      | some r =>
        have := (b.root r hr).1
        rw [hx] at this; cases this
        exact i.endRoot x hr
    · intro z hz; exact .inl ⟨hz, by rw [h]; intro q; cases q⟩
  | frootNil t y x h c =>
    refine hist_plain b j t _ rfl ?_ (fun h => by first | exact h | simp) (fun h => h) (fun _ h => h) (by simp [retEv, PC.finishing]) ?_
    · intro z hz; rw [h] at hz; first | exact .inl hz | simp [PC.finishing] at hz
    · intro z hz; exact .inl ⟨hz, by rw [h]; intro q; cases q; try rfl⟩
  | fsetRoot t y x h c =>
    refine hist_plain b j t _ rfl ?_ (fun h => h) (fun h => by simp) (fun _ h => h) (by simp) ?_
    · intro z hz
      rw [h] at hz; simp [PC.finishing] at hz; subst hz
      right
      intro x' hx ht
      have := (b.loaded t y x (by rw [h]; rfl)).1
      rw [hx] at this; cases this
      exact ⟨fun _ => .inr (by simp), fun hne => absurd c.symm hne⟩
    · intro z hz; exact .inl ⟨hz, by rw [h]; intro q; cases q⟩
  | fsetColl t y x h c =>
    refine hist_plain b j t _ rfl ?_ (fun h => h) (fun h => h) (fun _ h => by simp [h]) (by simp) ?_
    · intro z hz
      rw [h] at hz; simp [PC.finishing] at hz; subst hz
      right
      intro x' hx ht
      have := (b.loaded t y x (by rw [h]; rfl)).1
      rw [hx] at this; cases this
      exact ⟨fun e => absurd e.symm c, fun _ => .inr (by simp)⟩
    · intro z hz
      rcases List.mem_append.mp hz with hz | hz
      · exact .inl ⟨hz, by rw [h]; intro q; cases q⟩
      · simp at hz; subst hz
        exact .inr ⟨rfl, by rw [(b.loaded t z x (by rw [h]; rfl)).1]; simp⟩
  | fout t y h =>
    refine hist_plain b j t _ rfl ?_ (fun h => by first | exact h | simp) (fun h => h) (fun _ h => h) (by simp [retEv, PC.finishing]) ?_
    · intro z hz; rw [h] at hz; first | exact .inl hz | simp [PC.finishing] at hz
    · intro z hz; exact .inl ⟨hz, by rw [h]; intro q; cases q; try rfl⟩
  | frootOut t y h =>
    refine hist_plain b j t _ rfl ?_ (fun h => by first | exact h | simp) (fun h => h) (fun _ h => h) (by simp [retEv, PC.finishing]) ?_
    · intro z hz; rw [h] at hz; first | exact .inl hz | simp [PC.finishing] at hz
    · intro z hz; exact .inl ⟨hz, by rw [h]; intro q; cases q; try rfl⟩
  | stop t h =>
    refine hist_plain b j t _ rfl ?_ (fun h => by first | exact h | simp) (fun h => h) (fun _ h => h) (by simp [retEv, PC.finishing]) ?_
    · intro z hz; rw [h] at hz; first | exact .inl hz | simp [PC.finishing] at hz
    · intro z hz; exact .inl ⟨hz, by rw [h]; intro q; cases q; try rfl⟩
  | swapDone t y h c =>
    refine hist_plain b j t _ rfl ?_ (fun h => by first | exact h | simp) (fun h => h) (fun _ h => h) (by simp [retEv, PC.finishing]) ?_
    · intro z hz; rw [h] at hz; first | exact .inl hz | simp [PC.finishing] at hz
    · intro z hz; exact .inl ⟨hz, by rw [h]; intro q; cases q; try rfl⟩
  | swapNew t y h c =>
    refine hist_plain b j t _ rfl ?_ (fun h => by first | exact h | simp) (fun h => h) (fun _ h => h) (by simp [retEv, PC.finishing]) ?_
    · intro z hz; rw [h] at hz; first | exact .inl hz | simp [PC.finishing] at hz
    · intro z hz; exact .inl ⟨hz, by rw [h]; intro q; cases q; try rfl⟩
  | close t y h =>
    refine hist_plain b j t _ rfl ?_ (fun h => by first | exact h | simp) (fun h => h) (fun _ h => h) (by simp [retEv, PC.finishing]) ?_
    · intro z hz; rw [h] at hz; first | exact .inl hz | simp [PC.finishing] at hz
    · intro z hz; exact .inl ⟨hz, by rw [h]; intro q; cases q; try rfl⟩
  | ret t y h =>
    cases y
    all_goals
    refine hist_plain b j t _ rfl ?_ (fun h => by first | exact h | simp) (fun h => h) (fun _ h => h) (by simp [retEv, PC.finishing]) ?_
    · intro z hz; rw [h] at hz; first | exact .inl hz | simp [PC.finishing] at hz
    · intro z hz; exact .inl ⟨hz, by rw [h]; intro q; cases q; try rfl⟩

/-! ### All reachable states -/

theorem inv_exec {traceOf : Nat → Nat} {tr : List Ev} {s : State} (h : Exec (Step traceOf) init tr s) :
    Base traceOf tr s ∧ Coll traceOf tr s ∧ Hist traceOf tr s :=
  Exec.induct (fun tr s => Base traceOf tr s ∧ Coll traceOf tr s ∧ Hist traceOf tr s)
    ⟨base_init _, coll_init _, hist_init _⟩
    (fun _ _ _ _ i st => ⟨base_step i.1 st, coll_step i.1 i.2.1 st, hist_step i.1 i.2.1 i.2.2 st⟩) h

end Monkit.Collector
