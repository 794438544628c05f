import Verif.Spec.Ticker
import Mathlib.Tactic.ByContra

/-!
# Invariants of the ticker
-/

namespace Monkit.Ticker
open Go Monkit.Spec.Ticker

/-- What a slice shows. -/
def State.view (s : State) (h : Header) : List Nat := (s.heap h.arr).take h.len

/-- The meter a goroutine has yet to append. -/
def PC.owes : PC → Option Nat
  | .waiting m | .testing m | .spawning m | .appending m => some m
  | _ => none

/-- Whether a goroutine making a meter holds the mutex. -/
def PC.crit : PC → Bool
  | .testing _ | .spawning _ | .appending _ | .added _ => true
  | _ => false

/-- Whether a goroutine of `run` holds the mutex. -/
def RPC.crit : RPC → Bool
  | .loading | .loaded _ => true
  | _ => false

/-- A slice that later appends do not change. -/
structure Stable (h : Header) (s : State) : Prop where
  long : h.len ≤ (s.heap h.arr).length
  old : 0 < h.len → h.arr < s.next
  behind : h.arr = s.meters.arr → h.len ≤ s.meters.len

/-- The current round began after `p`; `q` happened since. -/
def Cur (p q tr : List Event) : Prop := (∃ r, tr = p ++ .wake r :: q) ∧ ∀ e ∈ q, edge e = false

/-- What a goroutine of `run` at a position knows. -/
def Round (c : RPC) (tr : List Event) (s : State) : Prop :=
  match c with
  | .none | .sleeping => True
  | .waiting | .loading => ∃ p q, Cur p q tr ∧ ticked q = [] ∧ clocks q = [] ∧ times q = []
  | .loaded h | .clock h => ∃ p q, Cur p q tr ∧ ticked q = [] ∧ clocks q = [] ∧ times q = [] ∧ Stable h s ∧ (s.view h).Nodup ∧
      (∀ m, Made m p → m ∈ s.view h) ∧ ∀ m ∈ s.view h, s.made m = true
  | .walking h i now => ∃ p q, Cur p q tr ∧ ticked q = (s.view h).take i ∧ clocks q = [now] ∧ times q = List.replicate i now ∧ i ≤ h.len ∧
      Stable h s ∧ (s.view h).Nodup ∧ (∀ m, Made m p → m ∈ s.view h) ∧ ∀ m ∈ s.view h, s.made m = true

structure Inv (tr : List Event) (s : State) : Prop where
  len : s.meters.len ≤ s.meters.cap
  arr : 0 < s.meters.cap → s.meters.arr < s.next ∧ (s.heap s.meters.arr).length = s.meters.cap
  nodup : (s.view s.meters).Nodup
  exist : ∀ m ∈ s.view s.meters, s.made m = true
  begun : ∀ m, s.made m = true → Begun m tr
  ret : ∀ m, Made m tr → m ∈ s.view s.meters
  added : ∀ t m, s.thr t = .added m → m ∈ s.view s.meters
  owes : ∀ t m, (s.thr t).owes = some m → s.made m = true ∧ m ∉ s.view s.meters
  apart : ∀ t t' m, (s.thr t).owes = some m → (s.thr t').owes = some m → t = t'
  hold : ∀ t, (s.thr t).crit = true ↔ s.holder = some (.maker t)
  rhold : ∀ r, (s.run r).crit = true ↔ s.holder = some (.runner r)
  runs : ∀ r, s.run r ≠ .none ↔ r < s.nrun
  spawned : spawns tr = s.nrun
  fresh : s.started = false → s.nrun = 0
  about : ∀ t m, s.thr t = .spawning m → s.started = true ∧ s.nrun = 0
  one : s.started = true → (∀ t m, s.thr t ≠ .spawning m) → s.nrun = 1
  going : ∀ t m, s.thr t = .appending m ∨ s.thr t = .added m → s.nrun = 1
  some1 : ∀ m, m ∈ s.view s.meters → s.nrun = 1
  round : ∀ r, Round (s.run r) tr s

theorem Inv.le_one {tr s} (h : Inv tr s) : s.nrun ≤ 1 := by
  cases hs : s.started
  · rw [h.fresh hs]; omega
  · by_cases hx : ∃ t m, s.thr t = .spawning m
    · obtain ⟨t, m, e⟩ := hx
      rw [(h.about t m e).2]; omega
    · rw [h.one hs (fun t m e => hx ⟨t, m, e⟩)]; omega

@[simp] theorem ticked_append (a b : List Event) : ticked (a ++ b) = ticked a ++ ticked b := by simp [ticked]
@[simp] theorem clocks_append (a b : List Event) : clocks (a ++ b) = clocks a ++ clocks b := by simp [clocks]
@[simp] theorem times_append (a b : List Event) : times (a ++ b) = times a ++ times b := by simp [times]
@[simp] theorem spawns_append (a b : List Event) : spawns (a ++ b) = spawns a + spawns b := by simp [spawns]

theorem Cur.snoc {p q tr : List Event} (h : Cur p q tr) (e : Event) (he : edge e = false) : Cur p (q ++ [e]) (tr ++ [e]) := by
  obtain ⟨⟨r, rfl⟩, hq⟩ := h
  refine ⟨⟨r, by simp⟩, fun x hx => ?_⟩
  rcases List.mem_append.1 hx with h | h
  · exact hq x h
  · rw [List.mem_singleton.1 h]; exact he

/-- The beginning of the current round is unique. -/
theorem Cur.unique {p q p' q' tr : List Event} (h : Cur p q tr) (h' : Cur p' q' tr) : p = p' ∧ q = q' := by
  obtain ⟨⟨r, rfl⟩, hq⟩ := h
  obtain ⟨⟨r', he⟩, hq'⟩ := h'
  rw [List.append_eq_append_iff] at he
  rcases he with ⟨x, hx1, hx2⟩ | ⟨x, hx1, hx2⟩
  · cases x with
    | nil => simp at hx1 hx2; exact ⟨hx1.symm, hx2.2⟩
    | cons y ys =>
      simp at hx2
      exact absurd (hq (.wake r') (by rw [hx2.2]; simp)) (by simp [edge])
  · cases x with
    | nil => simp at hx1 hx2; exact ⟨hx1, hx2.2.symm⟩
    | cons y ys =>
      simp at hx2
      exact absurd (hq' (.wake r) (by rw [hx2.2]; simp)) (by simp [edge])

/-- An event that is no tick, no clock reading and no edge leaves a round as it is. -/
theorem Round.other {c : RPC} {tr : List Event} {s s' : State} (h : Round c tr s) (e : Option Event)
    (he : ∀ x ∈ e, edge x = false ∧ ticked [x] = [] ∧ clocks [x] = [] ∧ times [x] = [])
    (hv : ∀ h, Stable h s → Stable h s' ∧ s'.view h = s.view h) (hm : ∀ m, s.made m = true → s'.made m = true) :
    Round c (tr ++ e.toList) s' := by
  have key : ∀ p q, Cur p q tr → ∃ q', Cur p q' (tr ++ e.toList) ∧ ticked q' = ticked q ∧ clocks q' = clocks q ∧ times q' = times q := by
    intro p q hc
    cases e with
    | none => exact ⟨q, by simpa using hc, rfl, rfl, rfl⟩
    | some x =>
      obtain ⟨h1, h2, h3, h4⟩ := he x rfl
      exact ⟨q ++ [x], hc.snoc x h1, by simp [h2], by simp [h3], by simp [h4]⟩
  cases c with
  | none => trivial
  | sleeping => trivial
  | waiting =>
    obtain ⟨p, q, hc, h⟩ := h
    obtain ⟨q', hc', e1, e2, e3⟩ := key p q hc
    exact ⟨p, q', hc', by rw [e1, e2, e3]; exact h⟩
  | loading =>
    obtain ⟨p, q, hc, h⟩ := h
    obtain ⟨q', hc', e1, e2, e3⟩ := key p q hc
    exact ⟨p, q', hc', by rw [e1, e2, e3]; exact h⟩
  | loaded hd =>
    obtain ⟨p, q, hc, h1, h2, h3, h4, h5, h6, h7⟩ := h
    obtain ⟨q', hc', e1, e2, e3⟩ := key p q hc
    obtain ⟨v1, v2⟩ := hv hd h4
    exact ⟨p, q', hc', by rw [e1]; exact h1, by rw [e2]; exact h2, by rw [e3]; exact h3, v1, by rw [v2]; exact h5, by rw [v2]; exact h6,
      by rw [v2]; exact fun m h => hm m (h7 m h)⟩
  | clock hd =>
    obtain ⟨p, q, hc, h1, h2, h3, h4, h5, h6, h7⟩ := h
    obtain ⟨q', hc', e1, e2, e3⟩ := key p q hc
    obtain ⟨v1, v2⟩ := hv hd h4
    exact ⟨p, q', hc', by rw [e1]; exact h1, by rw [e2]; exact h2, by rw [e3]; exact h3, v1, by rw [v2]; exact h5, by rw [v2]; exact h6,
      by rw [v2]; exact fun m h => hm m (h7 m h)⟩
  | walking hd i now =>
    obtain ⟨p, q, hc, h1, h2, h3, hi, h4, h5, h6, h7⟩ := h
    obtain ⟨q', hc', e1, e2, e3⟩ := key p q hc
    obtain ⟨v1, v2⟩ := hv hd h4
    exact ⟨p, q', hc', by rw [e1, v2]; exact h1, by rw [e2]; exact h2, by rw [e3]; exact h3, hi, v1, by rw [v2]; exact h5, by rw [v2]; exact h6,
      by rw [v2]; exact fun m h => hm m (h7 m h)⟩

theorem inv_init : Inv [] init := by
  refine ⟨?_, ?_, ?_, ?_, ?_, ?_, ?_, ?_, ?_, ?_, ?_, ?_, ?_, ?_, ?_, ?_, ?_, ?_, ?_⟩ <;>
    simp [init, State.view, Made, PC.owes, PC.crit, RPC.crit, spawns, Round]

theorem take_set (l : List Nat) (i k x : Nat) (h : k ≤ i) : (l.set i x).take k = l.take k := by
  rw [List.take_set_of_le h]

/-- Appending a meter in place. -/
theorem view_append {tr s} (hi : Inv tr s) (m : Nat) (room : s.meters.len < s.meters.cap) :
    ((s.heap s.meters.arr).set s.meters.len m).take (s.meters.len + 1) = s.view s.meters ++ [m] := by
  have hl := (hi.arr (by omega)).2
  rw [List.take_succ, take_set _ _ _ _ (Nat.le_refl _), List.getElem?_set_self (by omega)]
  rfl

theorem made_snoc {m : Nat} {tr : List Event} {e : Event} : Made m (tr ++ [e]) ↔ Made m tr ∨ ∃ t, e = .made t m := by
  unfold Made
  simp only [List.mem_append, List.mem_singleton]
  constructor
  · rintro ⟨t, h | h⟩
    · exact Or.inl ⟨t, h⟩
    · exact Or.inr ⟨t, h.symm⟩
  · rintro (⟨t, h⟩ | ⟨t, h⟩)
    · exact ⟨t, Or.inl h⟩
    · exact ⟨t, Or.inr h.symm⟩

theorem begun_mono {m : Nat} {tr tr' : List Event} (h : Begun m tr) : Begun m (tr ++ tr') := by
  obtain ⟨t, h⟩ := h
  exact ⟨t, List.mem_append_left _ h⟩

theorem made_mono {m : Nat} {tr tr' : List Event} (h : Made m tr) : Made m (tr ++ tr') := by
  obtain ⟨t, h⟩ := h
  exact ⟨t, List.mem_append_left _ h⟩

/-- A step of a goroutine of `run` that does not touch the makers' data. -/
theorem inv_run {tr s} (hi : Inv tr s) (r : Nat) (c : RPC) (e : Option Event) (ho : Option Who) (hr : s.run r ≠ .none) (hc : c ≠ .none)
    (he : ∀ x ∈ e, (∀ t m, x ≠ .made t m) ∧ spawns [x] = 0)
    (h1 : ∀ t, (s.thr t).crit = true ↔ ho = some (.maker t))
    (h2 : ∀ r', (upd s.run r c r').crit = true ↔ ho = some (.runner r'))
    (hround : Round c (tr ++ e.toList) { s with run := upd s.run r c, holder := ho }) :
    Inv (tr ++ e.toList) { s with run := upd s.run r c, holder := ho } := by
  have hlt := (hi.runs r).1 hr
  have hle := hi.le_one
  refine ⟨hi.len, hi.arr, hi.nodup, hi.exist, fun m hm => begun_mono (hi.begun m hm), fun m hm => hi.ret m ?_, hi.added, hi.owes, hi.apart,
    h1, h2, fun r' => ?_, ?_, hi.fresh, hi.about, hi.one, hi.going, hi.some1, fun r' => ?_⟩
  · cases e with
    | none => simpa using hm
    | some x =>
      rcases made_snoc.1 hm with h | ⟨t, h⟩
      · exact h
      · exact absurd h ((he x rfl).1 t m)
  · by_cases e' : r' = r
    · subst e'; simp only [upd_same]; exact ⟨fun _ => hlt, fun _ => hc⟩
    · simp only [upd_other _ _ e']; exact hi.runs r'
  · cases e with
    | none => simpa using hi.spawned
    | some x => simp only [Option.toList_some, spawns_append, (he x rfl).2, Nat.add_zero]; exact hi.spawned
  · by_cases e' : r' = r
    · subst e'; simp only [upd_same]; exact hround
    · have : s.run r' = .none := by
        by_contra h
        have := (hi.runs r').1 h
        omega
      simp only [upd_other _ _ e', this]
      trivial

/-- A step of a maker that changes no array. -/
theorem inv_maker {tr s} (hi : Inv tr s) (t : Nat) (c : PC) (e : Option Event) (ho : Option Who) (st : Bool)
    (he : ∀ x ∈ e, edge x = false ∧ ticked [x] = [] ∧ clocks [x] = [] ∧ times [x] = [] ∧ spawns [x] = 0)
    (hmade : ∀ m, Made m (tr ++ e.toList) → m ∈ s.view s.meters)
    (hadded : ∀ m, c = .added m → m ∈ s.view s.meters)
    (howes : ∀ m, c.owes = some m → (s.thr t).owes = some m)
    (h1 : ∀ t', (upd s.thr t c t').crit = true ↔ ho = some (.maker t'))
    (h2 : ∀ r, (s.run r).crit = true ↔ ho = some (.runner r))
    (hfresh : st = false → s.nrun = 0)
    (habout : ∀ t' m, upd s.thr t c t' = .spawning m → st = true ∧ s.nrun = 0)
    (hone : st = true → (∀ t' m, upd s.thr t c t' ≠ .spawning m) → s.nrun = 1)
    (hgoing : ∀ m, c = .appending m ∨ c = .added m → s.nrun = 1) :
    Inv (tr ++ e.toList) { s with thr := upd s.thr t c, holder := ho, started := st } := by
  refine ⟨hi.len, hi.arr, hi.nodup, hi.exist, fun m hm => begun_mono (hi.begun m hm), hmade, fun t' m h => ?_, fun t' m h => ?_,
    fun t' t'' m h h' => ?_, h1, h2, hi.runs, ?_, hfresh, habout, hone, fun t' m h => ?_, hi.some1, fun r => ?_⟩
  · by_cases e' : t' = t
    · subst e'; simp only [upd_same] at h; exact hadded m h
    · simp only [upd_other _ _ e'] at h; exact hi.added t' m h
  · by_cases e' : t' = t
    · subst e'; simp only [upd_same] at h; exact hi.owes t' m (howes m h)
    · simp only [upd_other _ _ e'] at h; exact hi.owes t' m h
  · have h : (s.thr t').owes = some m := by
      by_cases e' : t' = t
      · subst e'; simp only [upd_same] at h; exact howes m h
      · simp only [upd_other _ _ e'] at h; exact h
    have h' : (s.thr t'').owes = some m := by
      by_cases e' : t'' = t
      · subst e'; simp only [upd_same] at h'; exact howes m h'
      · simp only [upd_other _ _ e'] at h'; exact h'
    exact hi.apart t' t'' m h h'
  · cases e with
    | none => simpa using hi.spawned
    | some x => simp only [Option.toList_some, spawns_append, (he x rfl).2.2.2.2, Nat.add_zero]; exact hi.spawned
  · by_cases e' : t' = t
    · subst e'; simp only [upd_same] at h; exact hgoing m h
    · simp only [upd_other _ _ e'] at h; exact hi.going t' m h
  · exact (hi.round r).other e (fun x hx => ⟨(he x hx).1, (he x hx).2.1, (he x hx).2.2.1, (he x hx).2.2.2.1⟩)
      (fun h hs => ⟨⟨hs.long, hs.old, hs.behind⟩, rfl⟩) fun m hm => hm

/-- Appending a meter. -/
theorem inv_append {tr s} (hi : Inv tr s) (t m : Nat) (h : s.thr t = .appending m) (heap : Nat → List Nat) (next : Nat) (meters : Header)
    (hlen : meters.len ≤ meters.cap) (harr : 0 < meters.cap → meters.arr < next ∧ (heap meters.arr).length = meters.cap)
    (hview : (heap meters.arr).take meters.len = s.view s.meters ++ [m])
    (hst : ∀ h, Stable h s → Stable h { s with heap := heap, next := next, meters := meters, thr := upd s.thr t (.added m) } ∧
      (heap h.arr).take h.len = s.view h) :
    Inv tr { s with heap := heap, next := next, meters := meters, thr := upd s.thr t (.added m) } := by
  obtain ⟨hm1, hm2⟩ := hi.owes t m (by rw [h]; rfl)
  have hv : State.view { s with heap := heap, next := next, meters := meters, thr := upd s.thr t (.added m) } meters = s.view s.meters ++ [m] := hview
  have hcrit := (hi.hold t).1 (by rw [h]; rfl)
  refine ⟨hlen, harr, ?_, ?_, hi.begun, ?_, ?_, ?_, ?_, ?_, hi.rhold, hi.runs, hi.spawned, hi.fresh, ?_, ?_, ?_, ?_, ?_⟩
  · rw [hv, List.nodup_append]
    refine ⟨hi.nodup, by simp, fun a ha b hb => ?_⟩
    rw [List.mem_singleton.1 hb]
    rintro rfl; exact hm2 ha
  · intro m' h'
    rw [hv] at h'
    rcases List.mem_append.1 h' with h' | h'
    · exact hi.exist m' h'
    · rw [List.mem_singleton.1 h']; exact hm1
  · intro m' h'; rw [hv]; exact List.mem_append_left _ (hi.ret m' h')
  · intro t' m' h'
    rw [hv]
    by_cases e' : t' = t
    · subst e'; simp only [upd_same] at h'; cases h'; simp
    · simp only [upd_other _ _ e'] at h'; exact List.mem_append_left _ (hi.added t' m' h')
  · intro t' m' h'
    rw [hv]
    by_cases e' : t' = t
    · subst e'; simp only [upd_same] at h'; cases h'
    · simp only [upd_other _ _ e'] at h'
      obtain ⟨g1, g2⟩ := hi.owes t' m' h'
      refine ⟨g1, fun hin => ?_⟩
      rcases List.mem_append.1 hin with hin | hin
      · exact g2 hin
      · rw [List.mem_singleton.1 hin] at h'
        exact e' (hi.apart t' t m h' (by rw [h]; rfl))
  · intro t' t'' m' h' h''
    by_cases e' : t' = t
    · subst e'; simp only [upd_same] at h'; cases h'
    · by_cases e'' : t'' = t
      · subst e''; simp only [upd_same] at h''; cases h''
      · simp only [upd_other _ _ e'] at h'
        simp only [upd_other _ _ e''] at h''
        exact hi.apart t' t'' m' h' h''
  · intro t'
    by_cases e' : t' = t
    · subst e'; simp only [upd_same]; exact ⟨fun _ => hcrit, fun _ => rfl⟩
    · simp only [upd_other _ _ e']; exact hi.hold t'
  · intro t' m' h'
    by_cases e' : t' = t
    · subst e'; simp only [upd_same] at h'; cases h'
    · simp only [upd_other _ _ e'] at h'; exact hi.about t' m' h'
  · intro hs hno
    refine hi.one hs fun t' m' h' => ?_
    by_cases e' : t' = t
    · subst e'; rw [h] at h'; cases h'
    · exact hno t' m' (by simp only [upd_other _ _ e']; exact h')
  · intro t' m' h'
    by_cases e' : t' = t
    · subst e'; exact hi.going t' m (Or.inl h)
    · simp only [upd_other _ _ e'] at h'; exact hi.going t' m' h'
  · intro m' h'; exact hi.going t m (Or.inl h)
  · intro r
    have := (hi.round r).other (s' := { s with heap := heap, next := next, meters := meters, thr := upd s.thr t (.added m) }) none (by simp)
      (fun h hs => ⟨(hst h hs).1, (hst h hs).2⟩) fun m hm => hm
    simpa using this

theorem inv_step (tr : List Event) (s : State) (e : Option Event) (s' : State) (hi : Inv tr s) (st : Step s e s') :
    Inv (tr ++ e.toList) s' := by
  -- what the mutex says about the others
  have hothers : ∀ t c, (s.thr t).crit = c.crit → ∀ t', (upd s.thr t c t').crit = true ↔ s.holder = some (.maker t') := by
    intro t c hc t'
    by_cases e' : t' = t
    · subst e'; simp only [upd_same, ← hc]; exact hi.hold t'
    · simp only [upd_other _ _ e']; exact hi.hold t'
  have hrothers : ∀ r c, (s.run r).crit = c.crit → ∀ r', (upd s.run r c r').crit = true ↔ s.holder = some (.runner r') := by
    intro r c hc r'
    by_cases e' : r' = r
    · subst e'; simp only [upd_same, ← hc]; exact hi.rhold r'
    · simp only [upd_other _ _ e']; exact hi.rhold r'
  have hspawn : ∀ t c, (∀ m, c ≠ PC.spawning m) → ∀ t' m, upd s.thr t c t' = .spawning m → s.started = true ∧ s.nrun = 0 := by
    intro t c hc t' m h
    by_cases e' : t' = t
    · subst e'; simp only [upd_same] at h; exact absurd h (hc m)
    · simp only [upd_other _ _ e'] at h; exact hi.about t' m h
  have hone : ∀ t c, (∀ m, s.thr t ≠ PC.spawning m) → s.started = true → (∀ t' m, upd s.thr t c t' ≠ PC.spawning m) → s.nrun = 1 := by
    intro t c hc hs hno
    refine hi.one hs fun t' m h => ?_
    by_cases e' : t' = t
    · subst e'; exact hc m h
    · exact hno t' m (by simp only [upd_other _ _ e']; exact h)
  have hview : ∀ (h : Header) (s' : State), s'.heap = s.heap → s'.next = s.next → s'.meters = s.meters → Stable h s →
      Stable h s' ∧ s'.view h = s.view h := by
    intro h s' e1 e2 e3 hs
    exact ⟨⟨by rw [e1]; exact hs.long, by rw [e2]; exact hs.old, by rw [e3]; exact hs.behind⟩, by simp [State.view, e1]⟩
  cases st with
  | make t m h fresh =>
    have hnew : m ∉ s.view s.meters := fun hin => by rw [hi.exist m hin] at fresh; cases fresh
    refine ⟨hi.len, hi.arr, hi.nodup, fun m' h' => ?_, fun m' h' => ?_, fun m' h' => ?_, fun t' m' h' => ?_, fun t' m' h' => ?_,
      fun t' t'' m' h' h'' => ?_, ?_, hi.rhold, hi.runs, ?_, hi.fresh, ?_, ?_, fun t' m' h' => ?_, hi.some1, fun r => ?_⟩
    · have := hi.exist m' h'
      by_cases e' : m' = m
      · subst e'; simp
      · simp only [upd_other _ _ e']; exact this
    · by_cases e' : m' = m
      · subst e'; exact ⟨t, by simp⟩
      · simp only [upd_other _ _ e'] at h'; exact begun_mono (hi.begun m' h')
    · rcases made_snoc.1 h' with h' | ⟨_, h'⟩
      · exact hi.ret m' h'
      · cases h'
    · by_cases e' : t' = t
      · subst e'; simp only [upd_same] at h'; cases h'
      · simp only [upd_other _ _ e'] at h'; exact hi.added t' m' h'
    · by_cases e' : t' = t
      · subst e'; simp only [upd_same, PC.owes] at h'; cases h'
        exact ⟨by simp, hnew⟩
      · simp only [upd_other _ _ e'] at h'
        obtain ⟨g1, g2⟩ := hi.owes t' m' h'
        refine ⟨?_, g2⟩
        by_cases e'' : m' = m
        · subst e''; simp
        · simp only [upd_other _ _ e'']; exact g1
    · have hold : ∀ t', t' ≠ t → (s.thr t').owes = some m → False := by
        intro t' _ h
        rw [(hi.owes t' m h).1] at fresh; cases fresh
      by_cases e' : t' = t <;> by_cases e'' : t'' = t
      · rw [e', e'']
      · subst e'
        simp only [upd_same, PC.owes] at h'; cases h'
        simp only [upd_other _ _ e''] at h''
        exact absurd h'' (hold t'' e'')
      · subst e''
        simp only [upd_same, PC.owes] at h''; cases h''
        simp only [upd_other _ _ e'] at h'
        exact absurd h' (hold t' e')
      · simp only [upd_other _ _ e'] at h'
        simp only [upd_other _ _ e''] at h''
        exact hi.apart t' t'' m' h' h''
    · exact hothers t _ (by rw [h]; rfl)
    · simp only [Option.toList_some, spawns_append]; exact hi.spawned
    · exact hspawn t _ (by simp)
    · exact hone t _ (by simp [h])
    · by_cases e' : t' = t
      · subst e'; simp only [upd_same] at h'; rcases h' with h' | h' <;> cases h'
      · simp only [upd_other _ _ e'] at h'; exact hi.going t' m' h'
    · refine (hi.round r).other _ (by simp [edge, ticked, clocks, times]) (fun h hs => hview h _ rfl rfl rfl hs) fun m' h' => ?_
      by_cases e' : m' = m
      · subst e'; simp
      · simp only [upd_other _ _ e']; exact h'
  | lock t m h free =>
    have := inv_maker hi t (.testing m) none (some (.maker t)) s.started (by simp) (by simpa using hi.ret) (by simp) (by simp [h, PC.owes])
      (fun t' => by
        by_cases e' : t' = t
        · subst e'; simp [PC.crit]
        · simp only [upd_other _ _ e']
          refine ⟨fun hc => ?_, fun hc => by simp at hc; exact absurd hc.symm e'⟩
          rw [(hi.hold t').1 hc] at free; cases free)
      (fun r => ⟨(fun hc => by rw [(hi.rhold r).1 hc] at free; cases free), fun hc => by simp at hc⟩)
      hi.fresh (hspawn t _ (by simp)) (hone t _ (by simp [h])) (by simp)
    simpa using this
  | already t m h st' =>
    have := inv_maker hi t (.appending m) none s.holder s.started (by simp) (by simpa using hi.ret) (by simp) (by simp [h, PC.owes])
      (hothers t _ (by rw [h]; rfl)) hi.rhold hi.fresh (hspawn t _ (by simp)) (hone t _ (by simp [h]))
      (fun m' _ => by
        refine hi.one st' fun t' m' h' => ?_
        have h1 := (hi.hold t).1 (by rw [h]; rfl)
        have h2 := (hi.hold t').1 (by rw [h']; rfl)
        rw [h1] at h2; simp at h2; subst h2
        rw [h] at h'; cases h')
    simpa using this
  | start t m h st' =>
    have hn := hi.fresh st'
    have := inv_maker hi t (.spawning m) none s.holder true (by simp) (by simpa using hi.ret) (by simp) (by simp [h, PC.owes])
      (hothers t _ (by rw [h]; rfl)) hi.rhold (by simp)
      (fun t' m' h' => ⟨rfl, hn⟩)
      (fun _ hno => absurd (by simp) (hno t m)) (by simp)
    simpa using this
  | spawn t m h =>
    obtain ⟨hs, hn⟩ := hi.about t m h
    have hnone : ∀ r, s.run r = .none := fun r => by
      by_contra hr
      have := (hi.runs r).1 hr
      omega
    have hno : ∀ t' m', upd s.thr t (.appending m) t' ≠ .spawning m' := by
      intro t' m' h'
      by_cases e' : t' = t
      · subst e'; simp only [upd_same] at h'; cases h'
      · simp only [upd_other _ _ e'] at h'
        have h1 := (hi.hold t).1 (by rw [h]; rfl)
        have h2 := (hi.hold t').1 (by rw [h']; rfl)
        rw [h1] at h2; simp at h2; exact e' h2.symm
    refine ⟨hi.len, hi.arr, hi.nodup, hi.exist, fun m' h' => begun_mono (hi.begun m' h'), fun m' h' => ?_, fun t' m' h' => ?_,
      fun t' m' h' => ?_, fun t' t'' m' h' h'' => ?_, hothers t _ (by rw [h]; rfl), ?_, fun r => ?_, ?_, fun e => ?_, fun t' m' h' => ?_, ?_,
      ?_, ?_, fun r => ?_⟩
    · rcases made_snoc.1 h' with h' | ⟨_, h'⟩
      · exact hi.ret m' h'
      · cases h'
    · by_cases e' : t' = t
      · subst e'; simp only [upd_same] at h'; cases h'
      · simp only [upd_other _ _ e'] at h'; exact hi.added t' m' h'
    · by_cases e' : t' = t
      · subst e'; simp only [upd_same, PC.owes] at h'; cases h'
        exact hi.owes t' m (by rw [h]; rfl)
      · simp only [upd_other _ _ e'] at h'; exact hi.owes t' m' h'
    · have h' : (s.thr t').owes = some m' := by
        by_cases e' : t' = t
        · subst e'; simp only [upd_same, PC.owes] at h'; cases h'; rw [h]; rfl
        · simp only [upd_other _ _ e'] at h'; exact h'
      have h'' : (s.thr t'').owes = some m' := by
        by_cases e' : t'' = t
        · subst e'; simp only [upd_same, PC.owes] at h''; cases h''; rw [h]; rfl
        · simp only [upd_other _ _ e'] at h''; exact h''
      exact hi.apart t' t'' m' h' h''
    · exact hrothers _ _ (by rw [hnone]; rfl)
    · by_cases e' : r = s.nrun
      · subst e'; simp
      · simp only [upd_other _ _ e']
        rw [hi.runs r]; omega
    · simp only [Option.toList_some, spawns_append]
      rw [hi.spawned]; rfl
    · rw [show s.started = false from e] at hs; cases hs
    · exact absurd h' (hno t' m')
    · intro _ _; show s.nrun + 1 = 1; omega
    · intro _ _ _; show s.nrun + 1 = 1; omega
    · intro m' h'; show s.nrun + 1 = 1; omega
    · by_cases e' : r = s.nrun
      · subst e'; simp only [upd_same]; trivial
      · simp only [upd_other _ _ e', hnone]; trivial
  | append t m h room =>
    simp only [Option.toList_none, List.append_nil]
    have ha := hi.arr (by omega)
    refine inv_append hi t m h _ s.next _ (by simp; omega) ?_ ?_ ?_
    · intro hc
      simp only [upd_same, List.length_set]
      exact hi.arr hc
    · simp only [upd_same]
      exact view_append hi m room
    · intro hd hs
      by_cases e' : hd.arr = s.meters.arr
      · have hb := hs.behind e'
        refine ⟨⟨?_, hs.old, ?_⟩, ?_⟩
        · simp only [e', upd_same, List.length_set]; rw [← e']; exact hs.long
        · intro _; simp; omega
        · simp only [e', upd_same]
          rw [take_set _ _ _ _ hb, State.view, e']
      · refine ⟨⟨?_, hs.old, fun h' => absurd h' e'⟩, ?_⟩
        · simp only [upd_other _ _ e']; exact hs.long
        · simp only [upd_other _ _ e']; rfl
  | grow t m extra h full =>
    simp only [Option.toList_none, List.append_nil]
    have hlen : (s.view s.meters).length = s.meters.len := by
      simp only [State.view, List.length_take]
      by_cases h0 : 0 < s.meters.cap
      · rw [(hi.arr h0).2]; omega
      · omega
    refine inv_append hi t m h _ (s.next + 1) _ (by simp) ?_ ?_ ?_
    · intro _
      refine ⟨by simp, ?_⟩
      simp only [upd_same, List.length_append, List.length_cons]
      rw [show ((s.heap s.meters.arr).take s.meters.len).length = s.meters.len from hlen]; omega
    · simp only [upd_same]
      rw [List.take_append, show ((s.heap s.meters.arr).take s.meters.len) = s.view s.meters from rfl, hlen,
        show s.meters.len + 1 - s.meters.len = 1 by omega, List.take_of_length_le (by rw [hlen]; omega)]
      simp
    · intro hd hs
      by_cases e' : hd.arr = s.next
      · have h0 : hd.len = 0 := by
          by_contra hne
          have := hs.old (by omega)
          omega
        refine ⟨⟨by rw [h0]; omega, by rw [h0]; omega, fun _ => by rw [h0]; omega⟩, ?_⟩
        simp [State.view, h0]
      · refine ⟨⟨?_, fun hp => Nat.lt_succ_of_lt (hs.old hp), fun h' => absurd h' e'⟩, ?_⟩
        · simp only [upd_other _ _ e']; exact hs.long
        · simp only [upd_other _ _ e']; rfl
  | unlock t m h =>
    exact inv_maker hi t .idle (some (.made t m)) none s.started (by simp [edge, ticked, clocks, times, spawns])
      (fun m' h' => by
        rcases made_snoc.1 h' with h' | ⟨_, h'⟩
        · exact hi.ret m' h'
        · cases h'; exact hi.added t m h)
      (by simp) (by simp [PC.owes])
      (fun t' => by
        by_cases e' : t' = t
        · subst e'; simp [PC.crit]
        · simp only [upd_other _ _ e']
          refine ⟨fun hc => ?_, fun hc => by simp at hc⟩
          have h1 := (hi.hold t).1 (by rw [h]; rfl)
          have h2 := (hi.hold t').1 hc
          rw [h1] at h2; simp at h2; exact absurd h2.symm e')
      (fun r => ⟨(fun hc => by
          have h1 := (hi.hold t).1 (by rw [h]; rfl)
          have h2 := (hi.rhold r).1 hc
          rw [h1] at h2; simp at h2), fun hc => by simp at hc⟩)
      hi.fresh (hspawn t _ (by simp)) (hone t _ (by simp [h])) (by simp)
  | wake r h =>
    refine inv_run hi r .waiting (some (.wake r)) s.holder (by simp [h]) (by simp) (by simp [spawns]) hi.hold
      (hrothers r _ (by rw [h]; rfl)) ?_
    exact ⟨tr, [], ⟨⟨r, rfl⟩, by simp⟩, rfl, rfl, rfl⟩
  | rlock r h free =>
    refine inv_run hi r .loading none (some (.runner r)) (by simp [h]) (by simp) (by simp) ?_ ?_ ?_
    · exact fun t => ⟨(fun hc => by rw [(hi.hold t).1 hc] at free; cases free), fun hc => by simp at hc⟩
    · intro r'
      by_cases e' : r' = r
      · subst e'; simp [RPC.crit]
      · simp only [upd_other _ _ e']
        refine ⟨fun hc => ?_, fun hc => by simp at hc; exact absurd hc.symm e'⟩
        rw [(hi.rhold r').1 hc] at free; cases free
    · have := hi.round r
      rw [h] at this
      simpa [Round] using this
  | load r h =>
    have hn : ∀ t m, s.thr t ≠ .added m := fun t m h' => by
      have h1 := (hi.rhold r).1 (by rw [h]; rfl)
      have h2 := (hi.hold t).1 (by rw [h']; rfl)
      rw [h1] at h2; simp at h2
    refine inv_run hi r (.loaded s.meters) none s.holder (by simp [h]) (by simp) (by simp) hi.hold (hrothers r _ (by rw [h]; rfl)) ?_
    have := hi.round r
    rw [h] at this
    obtain ⟨p, q, hc, h1, h2, h3⟩ := this
    refine ⟨p, q, by simpa using hc, h1, h2, h3, ⟨?_, ?_, fun _ => Nat.le_refl _⟩, hi.nodup, fun m hm => hi.ret m ?_, hi.exist⟩
    · by_cases h0 : 0 < s.meters.cap
      · show s.meters.len ≤ (s.heap s.meters.arr).length
        rw [(hi.arr h0).2]; exact hi.len
      · have := hi.len; simp; omega
    · intro h0; exact (hi.arr (Nat.lt_of_lt_of_le h0 hi.len)).1
    · obtain ⟨⟨r', e⟩, _⟩ := hc
      rw [e]; exact made_mono hm
  | runlock r hd h =>
    refine inv_run hi r (.clock hd) none none (by simp [h]) (by simp) (by simp) ?_ ?_ ?_
    · refine fun t => ⟨fun hc => ?_, fun hc => by simp at hc⟩
      have h1 := (hi.rhold r).1 (by rw [h]; rfl)
      have h2 := (hi.hold t).1 hc
      rw [h1] at h2; simp at h2
    · intro r'
      by_cases e' : r' = r
      · subst e'; simp [RPC.crit]
      · simp only [upd_other _ _ e']
        refine ⟨fun hc => ?_, fun hc => by simp at hc⟩
        have h1 := (hi.rhold r).1 (by rw [h]; rfl)
        have h2 := (hi.rhold r').1 hc
        rw [h1] at h2; simp at h2; exact absurd h2.symm e'
    · have := hi.round r
      rw [h] at this
      exact this.other (c := .clock hd) none (by simp) (fun h hs => hview h _ rfl rfl rfl hs) fun m hm => hm
  | clock r hd now h =>
    refine inv_run hi r (.walking hd 0 now) (some (.clock r now)) s.holder (by simp [h]) (by simp) (by simp [spawns]) hi.hold
      (hrothers r _ (by rw [h]; rfl)) ?_
    have := hi.round r
    rw [h] at this
    obtain ⟨p, q, hc, h1, h2, h3, h4, h5, h6, h7⟩ := this
    refine ⟨p, q ++ [.clock r now], hc.snoc _ rfl, ?_, ?_, ?_, Nat.zero_le _, ⟨h4.long, h4.old, h4.behind⟩, h5, h6, h7⟩
    · rw [ticked_append, h1]; rfl
    · rw [clocks_append, h2]; rfl
    · rw [times_append, h3]; rfl
  | tick r hd i m now h more hm =>
    refine inv_run hi r (.walking hd (i + 1) now) (some (.tick r m now)) s.holder (by simp [h]) (by simp) (by simp [spawns]) hi.hold
      (hrothers r _ (by rw [h]; rfl)) ?_
    have := hi.round r
    rw [h] at this
    obtain ⟨p, q, hc, h1, h2, h3, hle, h4, h5, h6, h7⟩ := this
    refine ⟨p, q ++ [.tick r m now], hc.snoc _ rfl, ?_, ?_, ?_, more, ⟨h4.long, h4.old, h4.behind⟩, h5, h6, h7⟩
    · rw [ticked_append, h1]
      show _ = ((s.heap hd.arr).take hd.len).take (i + 1)
      rw [List.take_succ, List.getElem?_take_of_lt more, hm]
      rfl
    · rw [clocks_append, h2]; rfl
    · rw [times_append, h3, List.replicate_succ']; rfl
  | sleep r hd i now h all =>
    exact inv_run hi r .sleeping (some (.sleep r)) s.holder (by simp [h]) (by simp) (by simp [spawns]) hi.hold
      (hrothers r _ (by rw [h]; rfl)) trivial

theorem inv_exec {tr s} (h : Exec Step init tr s) : Inv tr s := h.induct Inv inv_init inv_step

end Monkit.Ticker
