import Verif.Spec.Annotations

namespace Monkit.Annotations
open Go Monkit.Spec.Annotations

def past : PC → Bool
  | .inside _ | .added | .loaded _ => true
  | _ => false

/-- `t`'s current call got the mutex after `p`. -/
def Since (t : Nat) (op : Op) (p tr : List Event) : Prop :=
  (∃ m, tr = p ++ .acquire t op :: m ∧ ∀ e ∈ m, by_ t e = false) ∧ ∃ l, own t p = l ++ [.call t op]

/-- A header through which exactly `xs` is seen, now and for ever. -/
def Shows (s : State) (h : Header) (xs : List Annotation) : Prop :=
  h.len = xs.length ∧ (s.heap h.arr).take h.len = xs ∧
  (0 < h.len → h.arr < s.next ∧ s.given h.arr = false ∧ (h.arr = s.ann.arr → h.len ≤ s.ann.len))

def Pend (tr : List Event) (s : State) (t : Nat) : PC → Prop
  | .idle => True
  | .waiting op => ∃ l, own t tr = l ++ [.call t op]
  | .inside op => ∃ p, Since t op p tr ∧ ∃ x, added tr = added p ++ x ∧ (op = .annotations → x = [])
  | .added => ∃ p x, Since t (.annotate x) p tr
  | .loaded h => ∃ p, Since t .annotations p tr ∧ Shows s h (added p)
  | .copying h acc => ∃ p, Since t .annotations p tr ∧ Shows s h (added p) ∧ acc = (added p).take acc.length ∧ acc.length ≤ h.len

structure Inv (tr : List Event) (s : State) : Prop where
  lock1 : ∀ t, past (s.thr t) = true → s.held = true
  lock2 : ∀ t t', past (s.thr t) = true → past (s.thr t') = true → t = t'
  gfresh : ∀ a, s.given a = true → a < s.next
  hdr : s.ann.len ≤ s.ann.cap ∧ (0 < s.ann.cap → s.ann.arr < s.next ∧ s.given s.ann.arr = false ∧ (s.heap s.ann.arr).length = s.ann.cap)
  idle : (∀ t x, s.thr t ≠ .inside (.annotate x)) → (s.heap s.ann.arr).take s.ann.len = added tr
  adding : ∀ t x, s.thr t = .inside (.annotate x) → added tr = (s.heap s.ann.arr).take s.ann.len ++ [x]
  pend : ∀ t, Pend tr s t (s.thr t)

theorem inv_init : Inv [] init := by
  constructor <;> simp [init, past, added, Pend]

theorem added_append (a b : List Event) : added (a ++ b) = added a ++ added b := by simp [added]

theorem edited_snoc (a i : Nat) (tr : List Event) (e : Event) :
    edited a i (tr ++ [e]) =
      match e with | .uset a' i' x => if a' = a ∧ i' = i then some x else edited a i tr | _ => edited a i tr := by
  simp only [edited, List.foldl_append, List.foldl_cons, List.foldl_nil]
  cases e <;> rfl

theorem own_append (t : Nat) (a b : List Event) : own t (a ++ b) = own t a ++ own t b := by simp [own]

theorem own_none (t : Nat) (l : List Event) (h : ∀ e ∈ l, by_ t e = false) : own t l = [] := by
  simp only [own, List.filter_eq_nil_iff]; intro e he; simp [h e he]

theorem since_mono {t : Nat} {op : Op} {p tr l : List Event} (h : Since t op p tr) (hl : ∀ e ∈ l, by_ t e = false) :
    Since t op p (tr ++ l) := by
  obtain ⟨⟨m, h1, h2⟩, h3⟩ := h
  refine ⟨⟨m ++ l, by simp [h1], ?_⟩, h3⟩
  intro e he
  rcases List.mem_append.mp he with he | he
  · exact h2 e he
  · exact hl e he

/-- `s'` shows through every old header what `s` showed. -/
def Keeps (s s' : State) : Prop := ∀ h xs, Shows s h xs → Shows s' h xs

theorem pend_mono {tr l : List Event} {s s' : State} {t : Nat} {pc : PC} (h : Pend tr s t pc) (hl : ∀ e ∈ l, by_ t e = false)
    (ha : past pc = true → added l = []) (hk : Keeps s s') : Pend (tr ++ l) s' t pc := by
  cases pc with
  | idle => trivial
  | waiting op =>
    obtain ⟨q, h⟩ := h
    exact ⟨q, by rw [own_append, own_none t l hl, List.append_nil, h]⟩
  | inside op =>
    obtain ⟨p, h1, x, h2, h3⟩ := h
    exact ⟨p, since_mono h1 hl, x, by rw [added_append, ha rfl, List.append_nil, h2], h3⟩
  | added => obtain ⟨p, x, h1⟩ := h; exact ⟨p, x, since_mono h1 hl⟩
  | loaded hd => obtain ⟨p, h1, h2⟩ := h; exact ⟨p, since_mono h1 hl, hk _ _ h2⟩
  | copying hd acc => obtain ⟨p, h1, h2, h3⟩ := h; exact ⟨p, since_mono h1 hl, hk _ _ h2, h3⟩

theorem upd_apply {α : Type} (f : Nat → α) (t : Nat) (v : α) (t' : Nat) : upd f t v t' = if t' = t then v else f t' := rfl

theorem pend_others {tr l : List Event} {s s' : State} {t : Nat} (pc : PC) (h : ∀ t, Pend tr s t (s.thr t))
    (hthr : s'.thr = upd s.thr t pc) (hl : ∀ t', t' ≠ t → ∀ e ∈ l, by_ t' e = false) (me : Pend (tr ++ l) s' t pc)
    (ha : ∀ t', t' ≠ t → past (s.thr t') = true → added l = []) (hk : Keeps s s') : ∀ t', Pend (tr ++ l) s' t' (s'.thr t') := by
  intro t'
  rw [hthr]
  by_cases e : t' = t
  · subst e; rw [upd_same]; exact me
  · rw [upd_other _ _ e]
    exact pend_mono (h t') (hl t' e) (ha t' e) hk

theorem lock1_upd {s : State} {held' : Bool} (t : Nat) (pc : PC) (l1 : ∀ t, past (s.thr t) = true → s.held = true)
    (h : held' = s.held) (hpc : past pc = true → past (s.thr t) = true) : ∀ t', past (upd s.thr t pc t') = true → held' = true := by
  intro t' ht'
  by_cases e : t' = t
  · subst e; rw [upd_same] at ht'; rw [h]; exact l1 _ (hpc ht')
  · rw [upd_other _ _ e] at ht'; rw [h]; exact l1 _ ht'

theorem lock2_upd {s : State} (t : Nat) (pc : PC) (l2 : ∀ t t', past (s.thr t) = true → past (s.thr t') = true → t = t')
    (hpc : past pc = true → past (s.thr t) = true) :
    ∀ u u', past (upd s.thr t pc u) = true → past (upd s.thr t pc u') = true → u = u' := by
  have key : ∀ u, past (upd s.thr t pc u) = true → past (s.thr u) = true := by
    intro u hu
    by_cases e : u = t
    · subst e; rw [upd_same] at hu; exact hpc hu
    · rwa [upd_other _ _ e] at hu
  exact fun u u' h1 h2 => l2 u u' (key u h1) (key u' h2)

theorem Inv.alone {tr : List Event} {s : State} (h : Inv tr s) {t t' : Nat} (ht : past (s.thr t) = true) (e : t' ≠ t) :
    past (s.thr t') = false := by
  cases hp : past (s.thr t') with
  | false => rfl
  | true => exact absurd (h.lock2 _ _ hp ht) e

theorem keeps_same {s s' : State} (h1 : s'.heap = s.heap) (h2 : s'.ann = s.ann) (h3 : s'.given = s.given) (h4 : s'.next = s.next) :
    Keeps s s' := by
  intro h xs hs; simpa [Shows, h1, h2, h3, h4] using hs

theorem Inv.now {tr : List Event} {s : State} (h : Inv tr s) {t : Nat} (ht : past (s.thr t) = true)
    (hn : ∀ x, s.thr t ≠ .inside (.annotate x)) : (s.heap s.ann.arr).take s.ann.len = added tr := by
  refine h.idle ?_
  intro t' x hs
  by_cases e : t' = t
  · subst e; exact hn x hs
  · have := h.alone ht e
    rw [hs] at this; cases this

set_option maxHeartbeats 1000000 in
theorem inv_step (tr : List Event) (s : State) (e : Option Event) (s' : State) (h : Inv tr s) (st : Step s e s') :
    Inv (tr ++ e.toList) s' := by
  obtain ⟨lock1, lock2, gfresh, hdr, idle, adding, pend⟩ := id h
  cases st with
  | call t op hp =>
    have hn : added (tr ++ [Event.call t op]) = added tr := by simp [added]
    refine ⟨?_, ?_, gfresh, hdr, ?_, ?_, ?_⟩
    · exact lock1_upd t _ lock1 rfl (by simp [past])
    · exact lock2_upd t _ lock2 (by simp [past])
    · intro h2; rw [Option.toList_some, hn]; exact idle (fun t' x e => h2 t' x (by grind [upd_apply]))
    · intro t' x e; rw [Option.toList_some, hn]; exact adding t' x (by grind [upd_apply])
    · refine pend_others (.waiting op) pend rfl ?_ ⟨own t tr, by simp [own, by_]⟩ (fun _ _ _ => rfl) (keeps_same rfl rfl rfl rfl)
      intro t' ht e he; simp at he; subst he; simp [by_, Ne.symm ht]
  | lock t op hp free =>
    have nobody : ∀ t', past (s.thr t') = false := fun t' => by
      cases hp : past (s.thr t') with
      | false => rfl
      | true => rw [lock1 t' hp] at free; cases free
    have hc := idle (fun t' x e => by have := nobody t'; rw [e] at this; cases this)
    refine ⟨fun _ _ => rfl, ?_, gfresh, hdr, ?_, ?_, ?_⟩
    · grind [upd_apply, past]
    · intro hs
      rw [Option.toList_some, added_append, hc]
      have hop : ∀ x, op ≠ .annotate x := fun x e => hs t x (by simp [e])
      cases op with
      | annotate x => exact absurd rfl (hop x)
      | annotations => simp [added]
    · intro t' x e
      rw [Option.toList_some, added_append]
      have : t' = t := by
        by_cases ht : t' = t
        · exact ht
        · simp only [upd_other _ _ ht] at e; have := nobody t'; rw [e] at this; cases this
      subst this
      simp at e
      subst e
      simp only
      rw [hc]; simp [added]
    · refine pend_others (.inside op) pend rfl ?_ ?_ (fun t' _ ht => by rw [nobody t'] at ht; cases ht) (keeps_same rfl rfl rfl rfl)
      · intro t' ht e he; simp at he; subst he; simp [by_, Ne.symm ht]
      · have := pend t; rw [hp] at this
        exact ⟨tr, ⟨⟨[], rfl, by simp⟩, this⟩, _, added_append _ _, by rintro rfl; rfl⟩
  | append t x hp room =>
    have hpast : past (s.thr t) = true := by rw [hp]; rfl
    have others : ∀ t', t' ≠ t → past (s.thr t') = false := fun t' e => h.alone hpast e
    have hadd := adding t x hp
    have hcap : 0 < s.ann.cap := by omega
    obtain ⟨h1, h2, h3⟩ := hdr.2 hcap
    have htake : ((s.heap s.ann.arr).set s.ann.len x).take (s.ann.len + 1) = (s.heap s.ann.arr).take s.ann.len ++ [x] := by
      rw [List.take_add_one, List.take_set_of_le (Nat.le_refl _)]
      simp [h3, room]
    have keeps : Keeps s { s with heap := upd s.heap s.ann.arr ((s.heap s.ann.arr).set s.ann.len x), ann := { s.ann with len := s.ann.len + 1 }, thr := upd s.thr t .added } := by
      rintro hd xs ⟨k1, k2, k3⟩
      refine ⟨k1, ?_, ?_⟩
      · by_cases h0 : 0 < hd.len
        · obtain ⟨_, _, k4⟩ := k3 h0
          by_cases e : hd.arr = s.ann.arr
          · simp only [e, upd_same]
            rw [List.take_set_of_le (k4 e), ← e]; exact k2
          · simp only [upd_other _ _ e]; exact k2
        · have : hd.len = 0 := by omega
          rw [this] at k2 ⊢; simpa using k2
      · intro h0
        obtain ⟨k4, k5, k6⟩ := k3 h0
        exact ⟨k4, k5, fun e => by have := k6 e; simp; omega⟩
    simp only [Option.toList_none, List.append_nil]
    refine ⟨?_, ?_, gfresh, ?_, ?_, ?_, ?_⟩
    · exact lock1_upd t _ lock1 rfl (fun _ => hpast)
    · exact lock2_upd t _ lock2 (fun _ => hpast)
    · exact ⟨by simp; omega, fun _ => ⟨h1, h2, by simp [h3]⟩⟩
    · intro _
      simp only [upd_same]; rw [htake, hadd]
    · intro t' y e
      have := others t' (by rintro rfl; simp at e)
      grind [upd_apply, past]
    · have := pend_others (l := []) (s' := { s with heap := upd s.heap s.ann.arr ((s.heap s.ann.arr).set s.ann.len x), ann := { s.ann with len := s.ann.len + 1 }, thr := upd s.thr t .added }) .added pend rfl (by simp) ?_ (fun _ _ _ => rfl) keeps
      · simpa using this
      · have := pend t; rw [hp] at this
        obtain ⟨p, h1, _⟩ := this
        exact ⟨p, x, by simpa using h1⟩
  | grow t x extra hp full =>
    have hpast : past (s.thr t) = true := by rw [hp]; rfl
    have others : ∀ t', t' ≠ t → past (s.thr t') = false := fun t' e => h.alone hpast e
    have hadd := adding t x hp
    have hlen : ((s.heap s.ann.arr).take s.ann.len).length = s.ann.len := by
      by_cases hcap : 0 < s.ann.cap
      · have := (hdr.2 hcap).2.2
        rw [List.length_take]; omega
      · have : s.ann.len = 0 := by omega
        simp [this]
    have hg : s.given s.next = false := by
      cases hg : s.given s.next with | false => rfl | true => exact absurd (gfresh _ hg) (by simp)
    have keeps : Keeps s { s with heap := upd s.heap s.next ((s.heap s.ann.arr).take s.ann.len ++ x :: extra), next := s.next + 1, ann := ⟨s.next, s.ann.len + 1, s.ann.len + 1 + extra.length⟩, thr := upd s.thr t .added } := by
      rintro hd xs ⟨k1, k2, k3⟩
      refine ⟨k1, ?_, ?_⟩
      · by_cases h0 : 0 < hd.len
        · obtain ⟨k4, _, _⟩ := k3 h0
          simp only [upd_other _ _ (Nat.ne_of_lt k4)]; exact k2
        · have : hd.len = 0 := by omega
          rw [this] at k2 ⊢; simpa using k2
      · intro h0
        obtain ⟨k4, k5, k6⟩ := k3 h0
        exact ⟨by simp; omega, k5, fun e => by simp at e; omega⟩
    simp only [Option.toList_none, List.append_nil]
    refine ⟨?_, ?_, ?_, ?_, ?_, ?_, ?_⟩
    · exact lock1_upd t _ lock1 rfl (fun _ => hpast)
    · exact lock2_upd t _ lock2 (fun _ => hpast)
    · intro a ha; exact Nat.lt_succ_of_lt (gfresh a ha)
    · refine ⟨by simp, fun _ => ⟨by simp, hg, ?_⟩⟩
      simp only [upd_same, List.length_append, hlen, List.length_cons]; omega
    · intro _
      simp only [upd_same]
      rw [hadd, List.take_append, hlen, List.take_of_length_le (by rw [hlen]; omega)]
      simp
    · intro t' y e
      have := others t' (by rintro rfl; simp at e)
      grind [upd_apply, past]
    · have := pend_others (l := []) (s' := { s with heap := upd s.heap s.next ((s.heap s.ann.arr).take s.ann.len ++ x :: extra), next := s.next + 1, ann := ⟨s.next, s.ann.len + 1, s.ann.len + 1 + extra.length⟩, thr := upd s.thr t .added }) .added pend rfl (by simp) ?_ (fun _ _ _ => rfl) keeps
      · simpa using this
      · have := pend t; rw [hp] at this
        obtain ⟨p, h1, _⟩ := this
        exact ⟨p, x, by simpa using h1⟩
  | unlock t hp =>
    have hpast : past (s.thr t) = true := by rw [hp]; rfl
    have others : ∀ t', t' ≠ t → past (s.thr t') = false := fun t' e => h.alone hpast e
    have hn : added (tr ++ [Event.done t]) = added tr := by simp [added]
    refine ⟨?_, ?_, gfresh, hdr, ?_, ?_, ?_⟩
    · intro t' ht'
      by_cases e : t' = t
      · subst e; simp [past] at ht'
      · simp only [upd_other _ _ e, others t' e] at ht'; cases ht'
    · exact lock2_upd t _ lock2 (by simp [past])
    · intro _; rw [Option.toList_some, hn]; exact h.now hpast (by rw [hp]; simp)
    · intro t' y e
      have := others t' (by rintro rfl; simp at e)
      grind [upd_apply, past]
    · refine pend_others .idle pend rfl ?_ trivial (fun _ _ _ => rfl) (keeps_same rfl rfl rfl rfl)
      intro t' ht e he; simp at he; subst he; simp [by_, Ne.symm ht]
  | load t hp =>
    have hpast : past (s.thr t) = true := by rw [hp]; rfl
    have others : ∀ t', t' ≠ t → past (s.thr t') = false := fun t' e => h.alone hpast e
    have hnow := h.now hpast (by rw [hp]; simp)
    simp only [Option.toList_none, List.append_nil]
    refine ⟨?_, ?_, gfresh, hdr, ?_, ?_, ?_⟩
    · exact lock1_upd t _ lock1 rfl (fun _ => hpast)
    · exact lock2_upd t _ lock2 (fun _ => hpast)
    · intro _; exact hnow
    · intro t' y e
      have := others t' (by rintro rfl; simp at e)
      grind [upd_apply, past]
    · have := pend_others (l := []) (s' := { s with thr := upd s.thr t (.loaded s.ann) }) (.loaded s.ann) pend rfl (by simp) ?_ (fun _ _ _ => rfl) (keeps_same rfl rfl rfl rfl)
      · simpa using this
      · have := pend t; rw [hp] at this
        obtain ⟨p, h1, x, h2, h3⟩ := this
        obtain rfl := h3 rfl
        rw [List.append_nil] at h2
        refine ⟨p, by simpa using h1, ?_⟩
        have hlen : ((s.heap s.ann.arr).take s.ann.len).length = s.ann.len := by
          by_cases hcap : 0 < s.ann.cap
          · have := (hdr.2 hcap).2.2
            have := hdr.1
            rw [List.length_take]; omega
          · have : s.ann.len = 0 := by have := hdr.1; omega
            simp [this]
        refine ⟨by rw [← h2, ← hnow, hlen], by rw [← h2]; exact hnow, fun h0 => ?_⟩
        have := hdr.2 (Nat.lt_of_lt_of_le h0 hdr.1)
        exact ⟨this.1, this.2.1, fun _ => Nat.le_refl _⟩
  | release t hd hp =>
    have hpast : past (s.thr t) = true := by rw [hp]; rfl
    have others : ∀ t', t' ≠ t → past (s.thr t') = false := fun t' e => h.alone hpast e
    simp only [Option.toList_none, List.append_nil]
    refine ⟨?_, ?_, gfresh, hdr, ?_, ?_, ?_⟩
    · intro t' ht'
      by_cases e : t' = t
      · subst e; simp [past] at ht'
      · simp only [upd_other _ _ e, others t' e] at ht'; cases ht'
    · exact lock2_upd t _ lock2 (by simp [past])
    · intro _; exact h.now hpast (by rw [hp]; simp)
    · intro t' y e
      have := others t' (by rintro rfl; simp at e)
      grind [upd_apply, past]
    · have := pend_others (l := []) (s' := { s with held := false, thr := upd s.thr t (.copying hd []) }) (.copying hd []) pend rfl (by simp) ?_ (fun _ _ _ => rfl) (keeps_same rfl rfl rfl rfl)
      · simpa using this
      · have := pend t; rw [hp] at this
        obtain ⟨p, h1, h2⟩ := this
        exact ⟨p, by simpa using h1, keeps_same (s := s) rfl rfl rfl rfl _ _ h2, by simp, by simp⟩
  | copy t hd acc x hp more hx =>
    simp only [Option.toList_none, List.append_nil]
    refine ⟨?_, ?_, gfresh, hdr, ?_, ?_, ?_⟩
    · exact lock1_upd t _ lock1 rfl (by simp [past])
    · exact lock2_upd t _ lock2 (by simp [past])
    · intro h2; exact idle (fun t' x e => h2 t' x (by grind [upd_apply]))
    · intro t' x e; exact adding t' x (by grind [upd_apply])
    · have := pend_others (l := []) (s' := { s with thr := upd s.thr t (.copying hd (acc ++ [x])) }) (.copying hd (acc ++ [x])) pend rfl (by simp) ?_ (fun _ _ _ => rfl) (keeps_same rfl rfl rfl rfl)
      · simpa using this
      · have := pend t; rw [hp] at this
        obtain ⟨p, h1, h2, h3, h4⟩ := this
        refine ⟨p, by simpa using h1, keeps_same (s := s) rfl rfl rfl rfl _ _ h2, ?_, by simp; omega⟩
        have hx' : (added p)[acc.length]? = some x := by
          rw [← h2.2.1, List.getElem?_take, if_pos more]; exact hx
        rw [List.length_append, List.length_singleton, List.take_add_one, ← h3, hx']
        rfl
  | ret t hd acc extra hp all =>
    have hn : added (tr ++ [Event.list t s.next acc.length]) = added tr := by simp [added]
    have hann : (upd s.heap s.next (acc ++ extra) s.ann.arr).take s.ann.len = (s.heap s.ann.arr).take s.ann.len := by
      by_cases hcap : 0 < s.ann.cap
      · rw [upd_other _ _ (Nat.ne_of_lt (hdr.2 hcap).1)]
      · have : s.ann.len = 0 := by omega
        simp [this]
    have keeps : Keeps s { s with heap := upd s.heap s.next (acc ++ extra), next := s.next + 1, given := upd s.given s.next true, thr := upd s.thr t .idle } := by
      rintro hd xs ⟨k1, k2, k3⟩
      refine ⟨k1, ?_, ?_⟩
      · by_cases h0 : 0 < hd.len
        · obtain ⟨k4, _, _⟩ := k3 h0
          simp only [upd_other _ _ (Nat.ne_of_lt k4)]; exact k2
        · have : hd.len = 0 := by omega
          rw [this] at k2 ⊢; simpa using k2
      · intro h0
        obtain ⟨k4, k5, k6⟩ := k3 h0
        exact ⟨by simp; omega, by simp only [upd_other _ _ (Nat.ne_of_lt k4)]; exact k5, k6⟩
    refine ⟨?_, ?_, ?_, ?_, ?_, ?_, ?_⟩
    · exact lock1_upd t _ lock1 rfl (by simp [past])
    · exact lock2_upd t _ lock2 (by simp [past])
    · intro a ha
      simp only [upd_apply] at ha
      split at ha
      · simp; omega
      · exact Nat.lt_succ_of_lt (gfresh a ha)
    · refine ⟨hdr.1, fun hc => ?_⟩
      obtain ⟨h1, h2, h3⟩ := hdr.2 hc
      simp only [upd_other _ _ (Nat.ne_of_lt h1)]
      exact ⟨by omega, h2, h3⟩
    · intro h2; rw [Option.toList_some, hn]; simp only [hann]; exact idle (fun t' x e => h2 t' x (by grind [upd_apply]))
    · intro t' x e; rw [Option.toList_some, hn]; simp only [hann]; exact adding t' x (by grind [upd_apply])
    · refine pend_others .idle pend rfl ?_ trivial (fun _ _ _ => rfl) keeps
      intro t' ht e he; simp at he; subst he; simp [by_, Ne.symm ht]
  | uset a i x hg =>
    have hn : added (tr ++ [Event.uset a i x]) = added tr := by simp [added]
    have hann : (upd s.heap a ((s.heap a).set i x) s.ann.arr).take s.ann.len = (s.heap s.ann.arr).take s.ann.len := by
      by_cases hcap : 0 < s.ann.cap
      · have : s.ann.arr ≠ a := by rintro rfl; rw [(hdr.2 hcap).2.1] at hg; cases hg
        rw [upd_other _ _ this]
      · have : s.ann.len = 0 := by omega
        simp [this]
    have keeps : Keeps s { s with heap := upd s.heap a ((s.heap a).set i x) } := by
      rintro hd xs ⟨k1, k2, k3⟩
      refine ⟨k1, ?_, k3⟩
      by_cases h0 : 0 < hd.len
      · obtain ⟨_, k4, _⟩ := k3 h0
        have : hd.arr ≠ a := by rintro rfl; rw [k4] at hg; cases hg
        simp only [upd_other _ _ this]; exact k2
      · have : hd.len = 0 := by omega
        rw [this] at k2 ⊢; simpa using k2
    refine ⟨lock1, lock2, gfresh, ?_, ?_, ?_, fun t' => pend_mono (pend t') (by simp [by_]) (fun _ => rfl) keeps⟩
    · refine ⟨hdr.1, fun hc => ?_⟩
      obtain ⟨h1, h2, h3⟩ := hdr.2 hc
      have : s.ann.arr ≠ a := by rintro rfl; rw [h2] at hg; cases hg
      simp only [upd_other _ _ this]
      exact ⟨h1, h2, h3⟩
    · intro h2; rw [Option.toList_some, hn]; simp only [hann]; exact idle h2
    · intro t' x e; rw [Option.toList_some, hn]; simp only [hann]; exact adding t' x e
  | uget a i hg =>
    have hn : added (tr ++ [Event.uget a i ((s.heap a)[i]?)]) = added tr := by simp [added]
    refine ⟨lock1, lock2, gfresh, hdr, ?_, ?_, fun t' => pend_mono (pend t') (by simp [by_]) (fun _ => rfl) (keeps_same rfl rfl rfl rfl)⟩
    · intro h2; rw [Option.toList_some, hn]; exact idle h2
    · intro t' x e; rw [Option.toList_some, hn]; exact adding t' x e

theorem inv_exec {tr : List Event} {s : State} (h : Exec Step init tr s) : Inv tr s :=
  h.induct Inv inv_init inv_step

end Monkit.Annotations
