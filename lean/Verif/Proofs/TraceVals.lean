import Verif.Spec.TraceVals

namespace Monkit.TraceVals
open Go Monkit.Spec.TraceVals

/-- What the trace's own map holds. -/
def content (s : State) (k : Key) : Option Val := s.vals.bind fun a => (s.heap a).get k

def past : PC → Bool
  | .idle | .waiting _ => false
  | _ => true

def Panicked (tr : List Event) : Prop := ∃ t, Event.panic t ∈ tr

/-- `t`'s current call got the mutex after `p`. -/
def Since (t : Nat) (op : Op) (p tr : List Event) : Prop :=
  (∃ m, tr = p ++ .acquire t op :: m ∧ ∀ e ∈ m, by_ t e = false) ∧ ∃ l, own t p = l ++ [.call t op]

def Pend (tr : List Event) (s : State) (t : Nat) : PC → Prop
  | .idle => True
  | .waiting op => ∃ l, own t tr = l ++ [.call t op]
  | .inside op => ∃ p, Since t op p tr ∧ ∀ k, content s k = cur p k
  | .copying a rest => ∃ p, Since t .getAll p tr ∧ Map.Ok rest ∧
      ∀ k, ((Map.get rest k).orElse fun _ => (s.heap a).get k) = cur p k
  | .leaving (.got v) => ∃ p k, Since t (.get k) p tr ∧ v = (cur p k).getD none
  | .leaving (.all a) => ∃ p, Since t .getAll p tr ∧ ∀ k, (s.heap a).get k = cur p k
  | .leaving .done => ∃ p, (∃ k v, Since t (.set k v) p tr) ∨ Since t .cancel p tr

def target : PC → Option Nat
  | .copying a _ => some a
  | .leaving (.all a) => some a
  | _ => none

structure Inv (tr : List Event) (s : State) : Prop where
  lock1 : ∀ t, past (s.thr t) = true → s.held = true
  lock2 : ∀ t t', past (s.thr t) = true → past (s.thr t') = true → t = t'
  vfresh : ∀ a, s.vals = some a → a < s.next ∧ s.given a = false
  gfresh : ∀ a, s.given a = true → a < s.next
  ok : ∀ a, Map.Ok (s.heap a)
  tgt : ∀ t a, target (s.thr t) = some a → a < s.next ∧ s.given a = false ∧ s.vals ≠ some a
  poison : Panicked tr → s.held = true ∧ ∀ t, past (s.thr t) = false
  idle : ¬ Panicked tr → (∀ t k v, s.thr t ≠ .inside (.set k v)) → ∀ k, content s k = cur tr k
  setting : ∀ t k v, s.thr t = .inside (.set k v) → ∀ k', cur tr k' = if k = k' then some v else content s k'
  pend : ∀ t, Pend tr s t (s.thr t)

theorem inv_init : Inv [] init := by
  constructor <;> simp [init, past, target, Panicked, content, cur, Pend, Map.ok_nil]

theorem cur_snoc (tr : List Event) (e : Event) (k : Key) :
    cur (tr ++ [e]) k = match e with | .acquire _ (.set k' v) => if k' = k then some v else cur tr k | _ => cur tr k := by
  simp only [cur, List.foldl_append, List.foldl_cons, List.foldl_nil]
  cases e with
  | acquire t op => cases op <;> rfl
  | _ => rfl

theorem edited_snoc (a : Nat) (tr : List Event) (e : Event) (k : Key) :
    edited a (tr ++ [e]) k =
      match e with | .uset a' k' v => if a' = a ∧ k' = k then some v else edited a tr k | _ => edited a tr k := by
  simp only [edited, List.foldl_append, List.foldl_cons, List.foldl_nil]
  cases e <;> rfl

theorem own_append (t : Nat) (a b : List Event) : own t (a ++ b) = own t a ++ own t b := by simp [own]

theorem own_none (t : Nat) (l : List Event) (h : ∀ e ∈ l, by_ t e = false) : own t l = [] := by
  simp only [own, List.filter_eq_nil_iff]; intro e he; simp [h e he]

theorem since_mono {t : Nat} {op : Op} {p tr l : List Event} (h : Since t op p tr) (hl : ∀ e ∈ l, by_ t e = false) :
    Since t op p (tr ++ l) := by
  obtain ⟨⟨m, h1, h2⟩, h3⟩ := h
  refine ⟨⟨m ++ l, by simp [h1], ?_⟩, h3⟩
  intro e he
  rcases List.mem_append.mp he with he | he
  · exact h2 e he
  · exact hl e he

/-- A goroutine's pending claim survives events of others that leave its maps alone. -/
theorem pend_mono {tr l : List Event} {s s' : State} {t : Nat} {pc : PC} (h : Pend tr s t pc) (hl : ∀ e ∈ l, by_ t e = false)
    (hc : ∀ op, pc = .inside op → ∀ k, content s' k = content s k)
    (ht : ∀ a, target pc = some a → s'.heap a = s.heap a) : Pend (tr ++ l) s' t pc := by
  cases pc with
  | idle => trivial
  | waiting op =>
    obtain ⟨q, h⟩ := h
    exact ⟨q, by rw [own_append, own_none t l hl, List.append_nil, h]⟩
  | inside op =>
    obtain ⟨p, h1, h2⟩ := h
    exact ⟨p, since_mono h1 hl, fun k => by rw [hc op rfl, h2]⟩
  | copying a rest =>
    obtain ⟨p, h1, h2, h3⟩ := h
    exact ⟨p, since_mono h1 hl, h2, fun k => by rw [ht a rfl]; exact h3 k⟩
  | leaving r =>
    cases r with
    | got v => obtain ⟨p, k, h1, h2⟩ := h; exact ⟨p, k, since_mono h1 hl, h2⟩
    | all a => obtain ⟨p, h1, h2⟩ := h; exact ⟨p, since_mono h1 hl, fun k => by rw [ht a rfl]; exact h2 k⟩
    | done =>
      obtain ⟨p, ⟨k, v, h1⟩ | h1⟩ := h
      · exact ⟨p, .inl ⟨k, v, since_mono h1 hl⟩⟩
      · exact ⟨p, .inr (since_mono h1 hl)⟩

theorem upd_apply {α : Type} (f : Nat → α) (t : Nat) (v : α) (t' : Nat) : upd f t v t' = if t' = t then v else f t' := rfl

/-- All goroutines but the one that moved. -/
theorem pend_others {tr l : List Event} {s s' : State} {t : Nat} (pc : PC) (h : ∀ t, Pend tr s t (s.thr t))
    (hthr : s'.thr = upd s.thr t pc) (hl : ∀ t', t' ≠ t → ∀ e ∈ l, by_ t' e = false) (me : Pend (tr ++ l) s' t pc)
    (hc : ∀ t' op, t' ≠ t → s.thr t' = .inside op → ∀ k, content s' k = content s k)
    (ht : ∀ t' a, t' ≠ t → target (s.thr t') = some a → s'.heap a = s.heap a) : ∀ t', Pend (tr ++ l) s' t' (s'.thr t') := by
  intro t'
  rw [hthr]
  by_cases e : t' = t
  · subst e; rw [upd_same]; exact me
  · rw [upd_other _ _ e]
    exact pend_mono (h t') (hl t' e) (fun op ho => hc t' op e ho) (fun a ha => ht t' a e ha)

theorem panicked_snoc (tr : List Event) (e : Event) : Panicked (tr ++ [e]) ↔ Panicked tr ∨ ∃ t, e = .panic t := by
  simp only [Panicked, List.mem_append, List.mem_singleton]
  constructor
  · rintro ⟨t, h | h⟩
    · exact .inl ⟨t, h⟩
    · exact .inr ⟨t, h.symm⟩
  · rintro (⟨t, h⟩ | ⟨t, h⟩)
    · exact ⟨t, .inl h⟩
    · exact ⟨t, .inr h.symm⟩

/-- Nobody panicked while somebody holds the mutex in an orderly way. -/
theorem Inv.not_panicked {tr : List Event} {s : State} (h : Inv tr s) {t : Nat} (ht : past (s.thr t) = true) : ¬ Panicked tr :=
  fun hp => by rw [(h.poison hp).2 t] at ht; cases ht

theorem Inv.alone {tr : List Event} {s : State} (h : Inv tr s) {t t' : Nat} (ht : past (s.thr t) = true) (e : t' ≠ t) :
    past (s.thr t') = false := by
  cases hp : past (s.thr t') with
  | false => rfl
  | true => exact absurd (h.lock2 _ _ hp ht) e

/-- If a call holds the mutex and is not a pending `Set`, the trace's map is what the history says. -/
theorem Inv.now {tr : List Event} {s : State} (h : Inv tr s) {t : Nat} (ht : past (s.thr t) = true)
    (hn : ∀ k v, s.thr t ≠ .inside (.set k v)) (k : Key) : content s k = cur tr k := by
  refine h.idle (h.not_panicked ht) ?_ k
  intro t' k v hs
  by_cases e : t' = t
  · subst e; exact hn k v hs
  · have := h.alone ht e
    rw [hs] at this; cases this

theorem content_heap {s s' : State} (hv : s'.vals = s.vals) (h : ∀ a, s.vals = some a → s'.heap a = s.heap a) (k : Key) :
    content s' k = content s k := by
  simp only [content, hv]
  cases e : s.vals with
  | none => rfl
  | some a => simp [h a e]

set_option maxHeartbeats 1000000 in
theorem inv_step (tr : List Event) (s : State) (e : Option Event) (s' : State) (h : Inv tr s) (st : Step s e s') :
    Inv (tr ++ e.toList) s' := by
  obtain ⟨lock1, lock2, vfresh, gfresh, ok, tgt, poison, idle, setting, pend⟩ := id h
  cases st with
  | call t op hp =>
    have hn : ∀ k, cur (tr ++ [Event.call t op]) k = cur tr k := fun k => by rw [cur_snoc]
    refine ⟨?_, ?_, vfresh, gfresh, ok, ?_, ?_, ?_, ?_, ?_⟩
    · grind [upd_apply, past]
    · grind [upd_apply, past]
    · grind [upd_apply, target]
    · simp only [Option.toList_some, panicked_snoc]; grind [upd_apply, past]
    · simp only [Option.toList_some, panicked_snoc, hn]
      intro h1 h2 k
      exact idle (fun h => h1 (.inl h)) (fun t' k v e => h2 t' k v (by grind [upd_apply])) k
    · simp only [Option.toList_some, hn]
      intro t' k v e k'
      exact setting t' k v (by grind [upd_apply]) k'
    · refine pend_others (.waiting op) pend rfl ?_ ⟨own t tr, by simp [own, by_]⟩ (fun _ _ _ _ _ => rfl) (fun _ _ _ _ => rfl)
      intro t' ht e he; simp at he; subst he; simp [by_, Ne.symm ht]
  | lock t op hp free =>
    have np : ¬ Panicked tr := fun hp => by rw [(poison hp).1] at free; cases free
    have nobody : ∀ t', past (s.thr t') = false := fun t' => by
      cases hp : past (s.thr t') with
      | false => rfl
      | true => rw [lock1 t' hp] at free; cases free
    have hc : ∀ k, content s k = cur tr k := idle np (fun t' k v e => by have := nobody t'; rw [e] at this; cases this)
    refine ⟨fun _ _ => rfl, ?_, vfresh, gfresh, ok, ?_, ?_, ?_, ?_, ?_⟩
    · grind [upd_apply, past]
    · grind [upd_apply, target]
    · simp only [Option.toList_some, panicked_snoc]; grind
    · intro _ hs k
      simp only [Option.toList_some, cur_snoc]
      have hop : ∀ k v, op ≠ .set k v := fun k v e => hs t k v (by simp [e])
      cases op with
      | set k v => exact absurd rfl (hop k v)
      | _ => exact hc k
    · intro t' k v e k'
      simp only [Option.toList_some, cur_snoc]
      have : t' = t := by
        by_cases ht : t' = t
        · exact ht
        · simp only [upd_other _ _ ht] at e; have := nobody t'; rw [e] at this; cases this
      subst this
      simp at e
      subst e
      simp only
      rw [← hc k']; rfl
    · refine pend_others (.inside op) pend rfl ?_ ?_ (fun _ _ _ _ _ => rfl) (fun _ _ _ _ => rfl)
      · intro t' ht e he; simp at he; subst he; simp [by_, Ne.symm ht]
      · have := pend t; rw [hp] at this
        exact ⟨tr, ⟨⟨[], rfl, by simp⟩, this⟩, hc⟩
  | getNil t k hp hv =>
    have hpast : past (s.thr t) = true := by rw [hp]; rfl
    simp only [Option.toList_none, List.append_nil]
    refine ⟨?_, ?_, vfresh, gfresh, ok, ?_, ?_, ?_, ?_, ?_⟩
    · grind [upd_apply, past]
    · grind [upd_apply, past]
    · grind [upd_apply, target]
    · grind [upd_apply, past]
    · intro h1 h2 k
      exact idle h1 (fun t' k v e => h2 t' k v (by grind [upd_apply])) k
    · intro t' k v e k'
      exact setting t' k v (by grind [upd_apply]) k'
    · have := pend_others (l := []) (s' := { s with thr := upd s.thr t (.leaving (.got none)) }) (.leaving (.got none)) pend rfl
        (by simp) ?_ (fun _ _ _ _ _ => rfl) (fun _ _ _ _ => rfl)
      · simpa using this
      · have := pend t; rw [hp] at this
        obtain ⟨p, h1, h2⟩ := this
        refine ⟨p, k, by simpa using h1, ?_⟩
        rw [← h2 k]; simp [content, hv]
  | get t a n hp hv =>
    have hpast : past (s.thr t) = true := by rw [hp]; rfl
    simp only [Option.toList_none, List.append_nil]
    refine ⟨?_, ?_, vfresh, gfresh, ok, ?_, ?_, ?_, ?_, ?_⟩
    · grind [upd_apply, past]
    · grind [upd_apply, past]
    · grind [upd_apply, target]
    · grind [upd_apply, past]
    · intro h1 h2 k
      exact idle h1 (fun t' k v e => h2 t' k v (by grind [upd_apply])) k
    · intro t' k v e k'
      exact setting t' k v (by grind [upd_apply]) k'
    · have := pend_others (l := []) (s' := { s with thr := upd s.thr t (.leaving (.got (((s.heap a).get (.hashable n)).getD none))) }) (.leaving (.got (((s.heap a).get (.hashable n)).getD none))) pend rfl
        (by simp) ?_ (fun _ _ _ _ _ => rfl) (fun _ _ _ _ => rfl)
      · simpa using this
      · have := pend t; rw [hp] at this
        obtain ⟨p, h1, h2⟩ := this
        refine ⟨p, _, by simpa using h1, ?_⟩
        rw [← h2]; simp [content, hv]
  | cancel t hp =>
    have hpast : past (s.thr t) = true := by rw [hp]; rfl
    simp only [Option.toList_none, List.append_nil]
    refine ⟨?_, ?_, vfresh, gfresh, ok, ?_, ?_, ?_, ?_, ?_⟩
    · grind [upd_apply, past]
    · grind [upd_apply, past]
    · grind [upd_apply, target]
    · grind [upd_apply, past]
    · intro h1 h2 k
      exact idle h1 (fun t' k v e => h2 t' k v (by grind [upd_apply])) k
    · intro t' k v e k'
      exact setting t' k v (by grind [upd_apply]) k'
    · have := pend_others (l := []) (s' := { s with thr := upd s.thr t (.leaving .done) }) (.leaving .done) pend rfl
        (by simp) ?_ (fun _ _ _ _ _ => rfl) (fun _ _ _ _ => rfl)
      · simpa using this
      · have := pend t; rw [hp] at this
        obtain ⟨p, h1, h2⟩ := this
        exact ⟨p, .inr (by simpa using h1)⟩
  | copied t a hp =>
    have hpast : past (s.thr t) = true := by rw [hp]; rfl
    simp only [Option.toList_none, List.append_nil]
    have htgt := tgt t a (by rw [hp]; rfl)
    refine ⟨?_, ?_, vfresh, gfresh, ok, ?_, ?_, ?_, ?_, ?_⟩
    · grind [upd_apply, past]
    · grind [upd_apply, past]
    · grind [upd_apply, target]
    · grind [upd_apply, past]
    · intro h1 h2 k
      exact idle h1 (fun t' k v e => h2 t' k v (by grind [upd_apply])) k
    · intro t' k v e k'
      exact setting t' k v (by grind [upd_apply]) k'
    · have := pend_others (l := []) (s' := { s with thr := upd s.thr t (.leaving (.all a)) }) (.leaving (.all a)) pend rfl
        (by simp) ?_ (fun _ _ _ _ _ => rfl) (fun _ _ _ _ => rfl)
      · simpa using this
      · have := pend t; rw [hp] at this
        obtain ⟨p, h1, h2, h3⟩ := this
        exact ⟨p, by simpa using h1, fun k => by simpa using h3 k⟩
  | getPanic t a n hp hv =>
    have hpast : past (s.thr t) = true := by rw [hp]; rfl
    have hn : ∀ k, cur (tr ++ [Event.panic t]) k = cur tr k := fun k => by rw [cur_snoc]
    have others : ∀ t', t' ≠ t → past (s.thr t') = false := fun t' e => h.alone hpast e
    refine ⟨?_, ?_, vfresh, gfresh, ok, ?_, ?_, ?_, ?_, ?_⟩
    · grind [upd_apply, past]
    · grind [upd_apply, past]
    · grind [upd_apply, target]
    · intro _; exact ⟨lock1 t hpast, fun t' => by grind [upd_apply, past]⟩
    · intro h1; exact absurd ⟨t, by simp⟩ h1
    · intro t' k v e
      have := others t' (by rintro rfl; simp at e)
      grind [upd_apply, past]
    · refine pend_others .idle pend rfl ?_ trivial (fun _ _ _ _ _ => rfl) (fun _ _ _ _ => rfl)
      intro t' ht e he; simp at he; subst he; simp [by_, Ne.symm ht]
  | setPanic t n v hp =>
    have hpast : past (s.thr t) = true := by rw [hp]; rfl
    have others : ∀ t', t' ≠ t → past (s.thr t') = false := fun t' e => h.alone hpast e
    refine ⟨?_, ?_, vfresh, gfresh, ok, ?_, ?_, ?_, ?_, ?_⟩
    · grind [upd_apply, past]
    · grind [upd_apply, past]
    · grind [upd_apply, target]
    · intro _; exact ⟨lock1 t hpast, fun t' => by grind [upd_apply, past]⟩
    · intro h1; exact absurd ⟨t, by simp⟩ h1
    · intro t' k v e
      have := others t' (by rintro rfl; simp at e)
      grind [upd_apply, past]
    · refine pend_others .idle pend rfl ?_ trivial (fun _ _ _ _ _ => rfl) (fun _ _ _ _ => rfl)
      intro t' ht e he; simp at he; subst he; simp [by_, Ne.symm ht]
  | setNew t n v hp hv =>
    have hpast : past (s.thr t) = true := by rw [hp]; rfl
    have others : ∀ t', t' ≠ t → past (s.thr t') = false := fun t' e => h.alone hpast e
    have hset := setting t _ v hp
    simp only [Option.toList_none, List.append_nil]
    refine ⟨?_, ?_, ?_, ?_, ?_, ?_, ?_, ?_, ?_, ?_⟩
    · grind [upd_apply, past]
    · grind [upd_apply, past]
    · intro a ha; simp at ha; subst ha
      exact ⟨by simp, by cases hg : s.given s.next with | false => rfl | true => exact absurd (gfresh _ hg) (by simp)⟩
    · intro a ha; exact Nat.lt_succ_of_lt (gfresh a ha)
    · intro a; simp only [upd_apply]; split
      · simp [Map.Ok]
      · exact ok a
    · intro t' a ha
      by_cases e : t' = t
      · subst e; simp [target] at ha
      · simp only [upd_other _ _ e] at ha
        have := others t' e
        revert ha this; cases s.thr t' <;> simp [past, target]
    · intro hp; exact absurd hp (h.not_panicked hpast)
    · intro _ _ k
      rw [hset k]
      simp [content, hv, Map.get_cons]
    · intro t' k v e
      have := others t' (by rintro rfl; simp at e)
      grind [upd_apply, past]
    · have := pend_others (l := []) (s' := { s with heap := upd s.heap s.next [(.hashable n, v)], next := s.next + 1, vals := some s.next, thr := upd s.thr t (.leaving .done) }) (.leaving .done) pend rfl
        (by simp) ?_ ?_ ?_
      · simpa using this
      · have := pend t; rw [hp] at this
        obtain ⟨p, h1, h2⟩ := this
        exact ⟨p, .inl ⟨_, _, by simpa using h1⟩⟩
      · intro t' op ht e; have := others t' ht; rw [e] at this; cases this
      · intro t' a ht e; have := others t' ht; revert this e; cases s.thr t' <;> simp [past, target]
  | set t a n v hp hv =>
    have hpast : past (s.thr t) = true := by rw [hp]; rfl
    have others : ∀ t', t' ≠ t → past (s.thr t') = false := fun t' e => h.alone hpast e
    have hset := setting t _ v hp
    simp only [Option.toList_none, List.append_nil]
    refine ⟨?_, ?_, vfresh, gfresh, ?_, ?_, ?_, ?_, ?_, ?_⟩
    · grind [upd_apply, past]
    · grind [upd_apply, past]
    · intro b; simp only [upd_apply]; split
      · exact Map.ok_set (ok a) _ _
      · exact ok b
    · intro t' a ha
      by_cases e : t' = t
      · subst e; simp [target] at ha
      · simp only [upd_other _ _ e] at ha
        have := others t' e
        revert ha this; cases s.thr t' <;> simp [past, target]
    · intro hp; exact absurd hp (h.not_panicked hpast)
    · intro _ _ k
      rw [hset k]
      simp [content, hv, Map.get_set]
    · intro t' k v e
      have := others t' (by rintro rfl; simp at e)
      grind [upd_apply, past]
    · have := pend_others (l := []) (s' := { s with heap := upd s.heap a ((s.heap a).set (.hashable n) v), thr := upd s.thr t (.leaving .done) }) (.leaving .done) pend rfl
        (by simp) ?_ ?_ ?_
      · simpa using this
      · have := pend t; rw [hp] at this
        obtain ⟨p, h1, h2⟩ := this
        exact ⟨p, .inl ⟨_, _, by simpa using h1⟩⟩
      · intro t' op ht e; have := others t' ht; rw [e] at this; cases this
      · intro t' a ht e; have := others t' ht; revert this e; cases s.thr t' <;> simp [past, target]
  | getAll t rest hp hr =>
    have hpast : past (s.thr t) = true := by rw [hp]; rfl
    have others : ∀ t', t' ≠ t → past (s.thr t') = false := fun t' e => h.alone hpast e
    simp only [Option.toList_none, List.append_nil]
    have hcont : ∀ k, content { s with heap := upd s.heap s.next [], next := s.next + 1, thr := upd s.thr t (.copying s.next rest) } k = content s k := by
      refine content_heap rfl fun a ha => ?_
      have := (vfresh a ha).1
      simp [upd_other _ _ (Nat.ne_of_lt this)]
    refine ⟨?_, ?_, ?_, ?_, ?_, ?_, ?_, ?_, ?_, ?_⟩
    · grind [upd_apply, past]
    · grind [upd_apply, past]
    · intro a ha; have := vfresh a ha; exact ⟨by simp; omega, this.2⟩
    · intro a ha; exact Nat.lt_succ_of_lt (gfresh a ha)
    · intro a; simp only [upd_apply]; split
      · exact Map.ok_nil
      · exact ok a
    · intro t' a ha
      by_cases e : t' = t
      · subst e; simp [target] at ha; subst ha
        refine ⟨by simp, ?_, ?_⟩
        · cases hg : s.given s.next with | false => rfl | true => exact absurd (gfresh _ hg) (by simp)
        · intro e; exact absurd (vfresh _ e).1 (by simp)
      · simp only [upd_other _ _ e] at ha
        have := others t' e
        revert ha this; cases s.thr t' <;> simp [past, target]
    · intro hp; exact absurd hp (h.not_panicked hpast)
    · intro h1 h2 k
      rw [hcont]
      exact h.now hpast (by rw [hp]; simp) k
    · intro t' k v e
      have := others t' (by rintro rfl; simp at e)
      grind [upd_apply, past]
    · have := pend_others (l := []) (s' := { s with heap := upd s.heap s.next [], next := s.next + 1, thr := upd s.thr t (.copying s.next rest) }) (.copying s.next rest) pend rfl
        (by simp) ?_ ?_ ?_
      · simpa using this
      · have := pend t; rw [hp] at this
        obtain ⟨p, h1, h2⟩ := this
        have hok : Map.Ok ((s.vals.map s.heap).getD []) := by cases s.vals <;> simp [Map.ok_nil, ok]
        have hok' := Map.ok_perm hr.symm hok
        refine ⟨p, by simpa using h1, hok', fun k => ?_⟩
        simp only [upd_same]
        rw [← h2 k, Map.get_perm hr hok']
        simp only [content]
        cases s.vals <;> simp
      · intro t' op ht e; have := others t' ht; rw [e] at this; cases this
      · intro t' a ht e; have := others t' ht; revert this e; cases s.thr t' <;> simp [past, target]
  | copy t a k v rest hp =>
    have hpast : past (s.thr t) = true := by rw [hp]; rfl
    have others : ∀ t', t' ≠ t → past (s.thr t') = false := fun t' e => h.alone hpast e
    simp only [Option.toList_none, List.append_nil]
    have htgt := tgt t a (by rw [hp]; rfl)
    have hcont : ∀ k', content { s with heap := upd s.heap a ((s.heap a).set k v), thr := upd s.thr t (.copying a rest) } k' = content s k' := by
      refine content_heap rfl fun b hb => ?_
      have : b ≠ a := by rintro rfl; exact htgt.2.2 hb
      simp [upd_other _ _ this]
    refine ⟨?_, ?_, vfresh, gfresh, ?_, ?_, ?_, ?_, ?_, ?_⟩
    · grind [upd_apply, past]
    · grind [upd_apply, past]
    · intro b; simp only [upd_apply]; split
      · exact Map.ok_set (ok a) _ _
      · exact ok b
    · intro t' b hb
      by_cases e : t' = t
      · subst e; simp [target] at hb; subst hb; exact htgt
      · simp only [upd_other _ _ e] at hb
        have := others t' e
        revert hb this; cases s.thr t' <;> simp [past, target]
    · intro hp; exact absurd hp (h.not_panicked hpast)
    · intro h1 h2 k
      rw [hcont]
      exact h.now hpast (by rw [hp]; simp) k
    · intro t' k v e
      have := others t' (by rintro rfl; simp at e)
      grind [upd_apply, past]
    · have := pend_others (l := []) (s' := { s with heap := upd s.heap a ((s.heap a).set k v), thr := upd s.thr t (.copying a rest) }) (.copying a rest) pend rfl
        (by simp) ?_ ?_ ?_
      · simpa using this
      · have := pend t; rw [hp] at this
        obtain ⟨p, h1, h2, h3⟩ := this
        have hrest : Map.Ok rest := by simp only [Map.Ok, List.map_cons, List.nodup_cons] at h2 ⊢; exact h2.2
        refine ⟨p, by simpa using h1, hrest, fun k' => ?_⟩
        have := h3 k'
        rw [Map.get_cons] at this
        simp only [upd_same, Map.get_set]
        by_cases e : k = k'
        · subst e
          have hk : Map.get rest k = none := by
            have hn : k ∉ rest.map (·.1) := by
              simp only [Map.Ok, List.map_cons, List.nodup_cons] at h2; exact h2.1
            cases hg : Map.get rest k with
            | none => rfl
            | some w => exact absurd ((Map.mem_keys_iff rest k).mpr (by rw [hg]; rfl)) hn
          simp [hk] at this ⊢
          exact this
        · simpa [e] using this
      · intro t' op ht e; have := others t' ht; rw [e] at this; cases this
      · intro t' a ht e; have := others t' ht; revert this e; cases s.thr t' <;> simp [past, target]
  | unlock t r hp =>
    have hpast : past (s.thr t) = true := by rw [hp]; rfl
    have others : ∀ t', t' ≠ t → past (s.thr t') = false := fun t' e => h.alone hpast e
    have hn : ∀ k, cur (tr ++ [Event.ret t r]) k = cur tr k := fun k => by rw [cur_snoc]
    refine ⟨?_, ?_, ?_, ?_, ok, ?_, ?_, ?_, ?_, ?_⟩
    · grind [upd_apply, past]
    · grind [upd_apply, past]
    · intro a ha
      have := vfresh a ha
      refine ⟨this.1, ?_⟩
      cases r with
      | all b =>
        have hb := tgt t b (by rw [hp]; rfl)
        have : a ≠ b := by rintro rfl; exact hb.2.2 ha
        simp only [upd_other _ _ this]; exact (vfresh a ha).2
      | _ => exact this.2
    · intro a ha
      cases r with
      | all b =>
        have hb := tgt t b (by rw [hp]; rfl)
        simp only [upd_apply] at ha
        split at ha
        · subst_vars; exact hb.1
        · exact gfresh a ha
      | _ => exact gfresh a ha
    · intro t' b hb
      by_cases e : t' = t
      · subst e; simp [target] at hb
      · simp only [upd_other _ _ e] at hb
        have := others t' e
        revert hb this; cases s.thr t' <;> simp [past, target]
    · simp only [Option.toList_some, panicked_snoc]
      rintro (hp | ⟨_, e⟩)
      · exact absurd hp (h.not_panicked hpast)
      · cases e
    · intro h1 h2 k
      simp only [Option.toList_some, hn]
      exact h.now hpast (by rw [hp]; simp) k
    · intro t' k v e
      have := others t' (by rintro rfl; simp at e)
      grind [upd_apply, past]
    · refine pend_others .idle pend rfl ?_ trivial (fun _ _ _ _ _ => rfl) (fun _ _ _ _ => rfl)
      intro t' ht e he; simp at he; subst he; simp [by_, Ne.symm ht]
  | uset a n v hg =>
    have hn : ∀ k, cur (tr ++ [Event.uset a (.hashable n) v]) k = cur tr k := fun k => by rw [cur_snoc]
    have hcont : ∀ k', content { s with heap := upd s.heap a ((s.heap a).set (.hashable n) v) } k' = content s k' := by
      refine content_heap rfl fun b hb => ?_
      have : b ≠ a := by rintro rfl; rw [(vfresh b hb).2] at hg; cases hg
      simp [upd_other _ _ this]
    refine ⟨lock1, lock2, vfresh, gfresh, ?_, tgt, ?_, ?_, ?_, ?_⟩
    · intro b; simp only [upd_apply]; split
      · exact Map.ok_set (ok a) _ _
      · exact ok b
    · simp only [Option.toList_some, panicked_snoc]
      rintro (hp | ⟨_, e⟩)
      · exact poison hp
      · cases e
    · simp only [Option.toList_some, panicked_snoc, hn, hcont]
      intro h1 h2 k
      exact idle (fun h => h1 (.inl h)) h2 k
    · intro t' k v' e k'
      simp only [Option.toList_some, hn, hcont]
      exact setting t' k v' e k'
    · intro t'
      refine pend_mono (pend t') (by simp [by_]) (fun op _ k => hcont k) ?_
      intro b hb
      have hb' := tgt t' b hb
      have : b ≠ a := by rintro rfl; rw [hb'.2.1] at hg; cases hg
      simp [upd_other _ _ this]
  | uget a n hg =>
    have hn : ∀ r k, cur (tr ++ [Event.uget a (.hashable n) r]) k = cur tr k := fun r k => by rw [cur_snoc]
    refine ⟨lock1, lock2, vfresh, gfresh, ok, tgt, ?_, ?_, ?_, ?_⟩
    · simp only [Option.toList_some, panicked_snoc]
      rintro (hp | ⟨_, e⟩)
      · exact poison hp
      · cases e
    · simp only [Option.toList_some, panicked_snoc, hn]
      intro h1 h2 k
      exact idle (fun h => h1 (.inl h)) h2 k
    · intro t' k v' e k'
      simp only [Option.toList_some, hn]
      exact setting t' k v' e k'
    · intro t'
      exact pend_mono (pend t') (by simp [by_]) (fun _ _ _ => rfl) (fun _ _ => rfl)

theorem inv_exec {tr : List Event} {s : State} (h : Exec Step init tr s) : Inv tr s :=
  h.induct Inv inv_init inv_step

end Monkit.TraceVals
