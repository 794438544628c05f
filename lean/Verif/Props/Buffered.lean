import Verif.Spec.Buffered

/-!
# C76, C77: results over HTTP
-/

namespace Monkit.Buffered
open Go
open Monkit.ListWriter (Writer WriteResult)
open Spec

/-- As long as there is no error, what was taken and what is in the buffer is what was written; after an error what was taken is a part of it. -/
structure Inv (b : Buf) (d : Str) : Prop where
  ok : b.err = none → b.out ++ b.buf = d
  pre : b.out <+: d
  room : b.err = none → b.buf.length ≤ size

theorem direct_inv (w : Writer) {b : Buf} {d : Str} (h : Inv b d) (he : b.err = none) (hb : b.buf = []) (p : Str) : Inv (direct w b p) (d ++ p) := by
  have h0 : b.out = d := by have := h.ok he; rwa [hb, List.append_nil] at this
  unfold direct
  split
  · exact ⟨fun _ => by simp [hb, h0], by simp [h0], fun _ => by simp [hb]⟩
  · refine ⟨fun h => by simp at h, ?_, fun h => by simp at h⟩
    simp only [h0]
    exact (List.prefix_append_right_inj d).2 (List.take_prefix _ _)

theorem flush_inv (w : Writer) {b : Buf} {d : Str} (h : Inv b d) : Inv (flush w b) d ∧ ((flush w b).err = none → (flush w b).buf = []) := by
  unfold flush
  split
  · rename_i he; exact ⟨h, fun h => absurd h he⟩
  · rename_i he
    have he : b.err = none := Classical.not_not.1 he
    split
    · exact ⟨h, fun _ => by assumption⟩
    · have h0 := h.ok he
      split
      · exact ⟨⟨fun _ => by simpa using h0, by simp [h0], fun _ => by simp⟩, fun _ => rfl⟩
      · refine ⟨⟨fun h => by simp at h, ?_, fun h => by simp at h⟩, fun h => by simp at h⟩
        simp only
        rw [← h0]
        exact (List.prefix_append_right_inj _).2 (List.take_prefix _ _)

theorem write_inv (w : Writer) {b : Buf} {d : Str} (h : Inv b d) (p : Str) : Inv (write w b p) (d ++ p) := by
  unfold write
  split
  · rename_i he
    exact ⟨fun h => absurd h he, h.pre.trans (List.prefix_append _ _), fun h => absurd h he⟩
  · rename_i he
    have he : b.err = none := Classical.not_not.1 he
    have h0 := h.ok he
    have hr := h.room he
    split
    · rename_i hl
      refine ⟨fun _ => by simp [← h0], h.pre.trans (List.prefix_append _ _), fun _ => ?_⟩
      simp only [List.length_append]
      omega
    · split
      · rename_i hb; exact direct_inv w h he hb p
      · have h1 : Inv { b with buf := b.buf ++ p.take (size - b.buf.length) } (d ++ p.take (size - b.buf.length)) := by
          refine ⟨fun _ => by simp [← h0], h.pre.trans (List.prefix_append _ _), fun _ => ?_⟩
          simp only [List.length_append, List.length_take]
          omega
        obtain ⟨h2, h3⟩ := flush_inv w h1
        have e : d ++ p = d ++ p.take (size - b.buf.length) ++ p.drop (size - b.buf.length) := by simp
        simp only
        generalize flush w { b with buf := b.buf ++ p.take (size - b.buf.length) } = b1 at h2 h3 ⊢
        rw [e]
        split
        · rename_i he
          exact ⟨fun h => absurd h he, h2.pre.trans (List.prefix_append _ _), fun h => absurd h he⟩
        · rename_i he
          have he : b1.err = none := Classical.not_not.1 he
          have h4 := h2.ok he
          rw [h3 he, List.append_nil] at h4
          split
          · rename_i hl
            exact ⟨fun _ => by simp [h4], h2.pre.trans (List.prefix_append _ _), fun _ => hl⟩
          · exact direct_inv w h2 he (h3 he) _

/-- An error stays, and nothing more is taken. -/
theorem write_stuck (w : Writer) {b : Buf} (h : b.err ≠ none) (p : Str) : write w b p = b := by
  unfold write
  rw [if_pos h]

theorem run_stuck (w : Writer) (p : Prog) {b : Buf} (h : b.err ≠ none) : (p.run w b).1 = b := by
  induction p with
  | ret => rfl
  | write d k ih => rw [Prog.run, write_stuck w h, ih]

theorem run_inv (w : Writer) (p : Prog) {b : Buf} {d : Str} (h : Inv b d) (he : b.err = none) :
    Inv (p.run w b).1 (d ++ (wants p).1) ∧ ((p.run w b).1.err = none → (p.run w b).2 = (wants p).2) := by
  induction p generalizing b d with
  | ret e => simpa [Prog.run, wants] using h
  | write x k ih =>
    have h1 := write_inv w h x
    rw [Prog.run, wants]
    cases h2 : (write w b x).err with
    | none =>
      have := ih none h1 h2
      simpa [List.append_assoc] using this
    | some e =>
      have e1 := run_stuck w (k (some e)) (b := write w b x) (by simp [h2])
      rw [e1]
      refine ⟨⟨fun h => by simp [h2] at h, ?_, fun h => by simp [h2] at h⟩, fun h => by simp [h2] at h⟩
      rw [← List.append_assoc]
      exact h1.pre.trans (List.prefix_append _ _)

theorem new_inv : Inv .new [] := ⟨fun _ => rfl, by simp [Buf.new], fun _ => by simp [Buf.new]⟩

/-- **C76**: if a result returns nil, the client got exactly what the presenter writes, and the presenter returned nil. -/
theorem C76_complete (w : Writer) (p : Prog) (h : (result w p).2 = none) : (result w p).1.out = (wants p).1 ∧ (wants p).2 = none := by
  obtain ⟨h1, h2⟩ := run_inv w p new_inv rfl
  unfold result at h ⊢
  split at h
  · simp at h
  · rename_i b hr
    rw [hr] at h1 h2
    obtain ⟨h3, h4⟩ := flush_inv w h1
    have hb : b.err = none := by
      cases hb : b.err with
      | none => rfl
      | some e => simp [flush, hb] at h
    have h5 := h3.ok h
    rw [h4 h, List.append_nil] at h5
    exact ⟨h5, (h2 hb).symm⟩

/-- **C76**: whatever happens, the client got the beginning of what the presenter writes. -/
theorem C76_prefix (w : Writer) (p : Prog) : (result w p).1.out <+: (wants p).1 := by
  obtain ⟨h1, -⟩ := run_inv w p new_inv rfl
  unfold result
  split
  · rename_i b e hr; rw [hr] at h1; exact h1.pre
  · rename_i b hr; rw [hr] at h1; exact (flush_inv w h1).1.pre

/-- **C76**: a failure to write is always reported, even by a presenter that forgets it. -/
theorem C76_failure_reported (w : Writer) (p : Prog) (i m e : Nat) (hw : w i = .fail m e) (hc : i < (result w p).1.calls) : (result w p).2 ≠ none := by
  have key : ∀ b : Buf, ((∃ i m e, i < b.calls ∧ w i = .fail m e) → b.err ≠ none) → ∀ x, ((∃ i m e, i < (direct w b x).calls ∧ w i = .fail m e) → (direct w b x).err ≠ none) ∧ ((∃ i m e, i < (flush w b).calls ∧ w i = .fail m e) → (flush w b).err ≠ none) := by
    intro b hb x
    have step : ∀ n, (∃ i m e, i < n + 1 ∧ w i = .fail m e) → w n = .ok → ∃ i m e, i < n ∧ w i = .fail m e := by
      rintro n ⟨i, m, e, hi, h⟩ hn
      refine ⟨i, m, e, ?_, h⟩
      rcases Nat.lt_succ_iff_lt_or_eq.1 hi with h' | rfl
      · exact h'
      · rw [hn] at h; exact absurd h (by simp)
    constructor
    · unfold direct
      split
      · rename_i hn; exact fun h => hb (step _ h hn)
      · simp
    · unfold flush
      split
      · exact hb
      · split
        · exact hb
        · split
          · rename_i hn; exact fun h => hb (step _ h hn)
          · simp
  have wr : ∀ b : Buf, ((∃ i m e, i < b.calls ∧ w i = .fail m e) → b.err ≠ none) → ∀ x, (∃ i m e, i < (write w b x).calls ∧ w i = .fail m e) → (write w b x).err ≠ none := by
    intro b hb x
    unfold write
    split
    · exact hb
    · split
      · exact hb
      · split
        · exact (key b hb x).1
        · have := (key { b with buf := b.buf ++ x.take (size - b.buf.length) } hb x).2
          simp only
          split
          · exact this
          · split
            · exact this
            · exact (key _ this _).1
  have rn : ∀ (p : Prog) (b : Buf), ((∃ i m e, i < b.calls ∧ w i = .fail m e) → b.err ≠ none) → (∃ i m e, i < (p.run w b).1.calls ∧ w i = .fail m e) → (p.run w b).1.err ≠ none := by
    intro p
    induction p with
    | ret => exact fun b hb => hb
    | write d k ih => exact fun b hb => ih _ _ (wr b hb d)
  have h0 := rn p .new (by rintro ⟨i, m, e, hi, -⟩; simp [Buf.new] at hi)
  unfold result at hc ⊢
  split
  · simp
  · rename_i b hr
    rw [hr] at hc h0
    exact (key b h0 []).2 ⟨i, m, e, hc, hw⟩

/-- **C76**: if the client takes everything, a presenter that returns nil is a result that returns nil. -/
theorem C76_succeeds (w : Writer) (p : Prog) (hw : ∀ i, w i = .ok) (hp : (wants p).2 = none) : (result w p).2 = none := by
  have d0 : ∀ b x, (direct w b x).err = b.err := by intro b x; simp [direct, hw]
  have f0 : ∀ b, (flush w b).err = b.err := by
    intro b; unfold flush; split
    · rfl
    · split
      · rfl
      · simp [hw]
  have w0 : ∀ b x, (write w b x).err = b.err := by
    intro b x; unfold write; split
    · rfl
    · split
      · rfl
      · split
        · exact d0 b x
        · simp only
          split
          · exact f0 _
          · split
            · exact f0 _
            · rw [d0]; exact f0 _
  have r0 : ∀ (p : Prog) b, (p.run w b).1.err = b.err := by
    intro p
    induction p with
    | ret => exact fun b => rfl
    | write d k ih => intro b; rw [Prog.run, ih, w0]
  obtain ⟨-, h2⟩ := run_inv w p new_inv rfl
  have h3 := h2 (r0 p .new)
  unfold result
  split
  · rename_i hr; rw [hr, hp] at h3; simp at h3
  · rename_i b hr
    simp only
    rw [f0]
    have := r0 p .new
    rw [hr] at this
    exact this

/-- **C76**: what the presenter wrote before it failed is lost if it fits into the buffer; the client gets nothing. -/
theorem C76_error_drops_buffer (w : Writer) (d : Str) (e : Nat) (hd : d.length ≤ 4096) :
    (result w (.write d fun _ => .ret (some e))).1.out = [] := by
  have hd : d.length ≤ size := hd
  simp [result, Prog.run, write, Buf.new, hd]

/-- The listings of C73-C75, which write pieces until one is refused, want all pieces. -/
theorem C76_listing (ps : List Str) : wants (listing ps) = (ps.flatten, none) := by
  induction ps with
  | nil => rfl
  | cons p ps ih => simp [listing, wants, ih]

/-- **C77**, violated: while a trace query waits, up to 4096 keep-alive newlines (more than a day of them) stay in the buffer; the client
receives nothing. -/
theorem C77_pings_violated (w : Writer) (n : Nat) (hn : n ≤ 4096) : (pings w .new n).calls = 0 ∧ (pings w .new n).out = [] ∧ (pings w .new n).err = none := by
  have : ∀ n k, n + k ≤ size → pings w ⟨[], 0, none, List.replicate k 10⟩ n = ⟨[], 0, none, List.replicate (n + k) 10⟩ := by
    intro n
    induction n with
    | zero => intro k _; simp [pings]
    | succ n ih =>
      intro k hk
      have e : write w ⟨[], 0, none, List.replicate k 10⟩ b!"\n" = ⟨[], 0, none, List.replicate (k + 1) 10⟩ := by
        unfold write
        rw [if_neg (by simp), if_pos (by simp; omega)]
        simp [List.replicate_succ']
      rw [pings, e, ih (k + 1) (by omega)]
      simp [Nat.add_comm, Nat.add_left_comm]
  have := this n 0 (by unfold size; omega)
  have e : pings w .new n = ⟨[], 0, none, List.replicate (n + 0) 10⟩ := this
  rw [e]
  exact ⟨rfl, rfl, rfl⟩

/-- **C77**, partial: as long as writing does not fail, the client has received all newlines but the last 4096.  What is missing: those. -/
theorem C77_lag_partial (w : Writer) (n : Nat) (h : (pings w .new n).err = none) :
    ∃ k, (pings w .new n).out = List.replicate k 10 ∧ k ≤ n ∧ n ≤ k + 4096 := by
  have : ∀ n (b : Buf) (k : Nat), Inv b (List.replicate k 10) → Inv (pings w b n) (List.replicate (k + n) 10) := by
    intro n
    induction n with
    | zero => exact fun b k h => h
    | succ n ih =>
      intro b k h
      have h1 := write_inv w h b!"\n"
      rw [show (List.replicate k 10 ++ b!"\n" : Str) = List.replicate (k + 1) 10 by rw [List.replicate_succ']] at h1
      have := ih _ _ h1
      rwa [show k + 1 + n = k + (n + 1) by omega] at this
  have hi := this n .new 0 new_inv
  rw [Nat.zero_add] at hi
  have h1 := hi.ok h
  have h2 := hi.room h
  have h3 := congrArg List.length h1
  rw [List.length_append, List.length_replicate] at h3
  refine ⟨(pings w .new n).out.length, ?_, by omega, by unfold size at h2; omega⟩
  have := hi.pre
  rw [List.prefix_iff_eq_take, List.take_replicate] at this
  rw [this, List.length_replicate]

/-- Such a writer: one that takes everything. -/
example : (pings (fun _ => .ok) .new 300).err = none ∧ (pings (fun _ => .ok) .new 300).buf.length = 300 := by decide +kernel

example : ∃ w : Writer, (∀ i, w i = .ok) ∧ (result w (listing [b!"a", b!"b"])).1.out = b!"ab" := ⟨fun _ => .ok, fun _ => rfl, by decide +kernel⟩

end Monkit.Buffered
