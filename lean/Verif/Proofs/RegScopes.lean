import Verif.Spec.RegScopes

namespace Monkit.RegScopes
open Go Spec

def PC.holds : PC → Bool
  | .nLocked _ | .nUnlock .. | .aLocked | .aUnlock _ => true
  | _ => false

def PC.got : PC → Option (Str × Scope)
  | .nUnlock n x => some (n, x)
  | _ => none

def PC.todo : PC → Option (List Scope)
  | .aUnlock c | .aSort c | .aVisit c => some c
  | _ => none

def PC.unsorted : PC → Option (List Scope)
  | .aUnlock c | .aSort c => some c
  | _ => none

def PC.sorted : PC → Option (List Scope)
  | .aVisit c => some c
  | _ => none

theorem created_snoc (h : List Ev) (e : Ev) : created (h ++ [e]) = created h ++ (match e with | .made _ s => [s] | _ => []) := by
  unfold created
  rw [List.filterMap_append]
  cases e <;> rfl

def lookAll (t : Nat) (h : List Ev) : List Scope × List Scope × List Scope :=
  h.foldl (fun (r : List Scope × List Scope × List Scope) e => match e with
    | .made _ s => (r.1 ++ [s], r.2)
    | .copied t' => if t' = t then (r.1, r.1, []) else r
    | .visit t' s => if t' = t then (r.1, r.2.1, r.2.2 ++ [s]) else r
    | _ => r) ([], [], [])

theorem lookAll_snoc (t : Nat) (h : List Ev) (e : Ev) : lookAll t (h ++ [e]) =
    (match e with
    | .made _ s => ((lookAll t h).1 ++ [s], (lookAll t h).2)
    | .copied t' => if t' = t then ((lookAll t h).1, (lookAll t h).1, []) else lookAll t h
    | .visit t' s => if t' = t then ((lookAll t h).1, (lookAll t h).2.1, (lookAll t h).2.2 ++ [s]) else lookAll t h
    | _ => lookAll t h) := by
  unfold lookAll
  rw [List.foldl_append]
  cases e <;> rfl

theorem lookAll_fst (t : Nat) (h : List Ev) : (lookAll t h).1 = created h := by
  generalize hn : h.length = n
  induction n generalizing h with
  | zero =>
    have : h = [] := List.length_eq_zero_iff.1 hn
    subst this
    rfl
  | succ n ih =>
    rcases List.eq_nil_or_concat h with rfl | ⟨h', e, rfl⟩
    · simp at hn
    · rw [List.concat_eq_append] at hn ⊢
      have := ih h' (by simpa using hn)
      rw [lookAll_snoc, created_snoc]
      cases e with
      | made t s => simp [this]
      | copied t' => by_cases h : t' = t <;> simp [h, this]
      | visit t' s => by_cases h : t' = t <;> simp [h, this]
      | _ => simpa using this

theorem look_snoc (t : Nat) (h : List Ev) (e : Ev) : look t (h ++ [e]) =
    (match e with
    | .copied t' => if t' = t then (created h, []) else look t h
    | .visit t' s => if t' = t then ((look t h).1, (look t h).2 ++ [s]) else look t h
    | _ => look t h) := by
  have e1 : look t (h ++ [e]) = (lookAll t (h ++ [e])).2 := rfl
  have e2 : look t h = (lookAll t h).2 := rfl
  rw [e1, e2, lookAll_snoc]
  cases e with
  | copied t' => by_cases hh : t' = t <;> simp [hh, lookAll_fst]
  | visit t' s => by_cases hh : t' = t <;> simp [hh]
  | _ => rfl

structure Inv (tr : List Ev) (s : State) : Prop where
  ok : Map.Ok s.scopes
  names : ∀ n x, Map.get s.scopes n = some x → x.name = n
  content : ∀ x, x ∈ created tr ↔ Map.get s.scopes x.name = some x
  nodup : ((created tr).map (·.name)).Nodup
  ids : ∀ x ∈ created tr, x.id < s.next
  lock : ∀ t, (s.pc t).holds = true → s.lock = some t
  got : ∀ t n x, (s.pc t).got = some (n, x) → Map.get s.scopes n = some x
  todo : ∀ t c, (s.pc t).todo = some c → ∀ x, x ∈ (look t tr).1 ↔ x ∈ (look t tr).2 ∨ x ∈ c
  unsorted : ∀ t c, (s.pc t).unsorted = some c → (look t tr).2 = [] ∧ (c.map (·.name)).Nodup
  sorted : ∀ t c, (s.pc t).sorted = some c → c.Pairwise (fun a b => strLt a.name b.name = true) ∧
    ∀ v ∈ (look t tr).2, ∀ x ∈ c, strLt v.name x.name = true

theorem inv_init : Inv [] State.init := by
  constructor <;> simp [State.init, PC.holds, PC.got, PC.todo, PC.unsorted, PC.sorted, created, Map.ok_nil]

theorem upd_apply {α : Type} (f : Nat → α) (t : Nat) (v : α) (t' : Nat) : upd f t v t' = if t' = t then v else f t' := rfl

theorem other {s : State} (hl : ∀ t, (s.pc t).holds = true → s.lock = some t) {t u : Nat} (ht : (s.pc t).holds = true)
    (hu : (s.pc u).holds = true) : u = t := by
  have h1 := hl t ht
  have h2 := hl u hu
  rw [h1] at h2
  exact (Option.some.inj h2).symm

theorem strict {c : List Scope} (hn : (c.map (·.name)).Nodup) (hs : c.Pairwise (fun a b => strLt b.name a.name = false)) :
    c.Pairwise (fun a b => strLt a.name b.name = true) := by
  have hn' : c.Pairwise (fun a b => a.name ≠ b.name) := List.pairwise_map.1 hn
  refine (hs.and hn').imp ?_
  rintro a b ⟨h1, h2⟩
  unfold strLt at *
  by_contra h3
  apply h2
  grind [strLe_antisymm, strLe_total]

theorem mem_values {m : Map Str Scope} (h : Map.Ok m) (hn : ∀ n x, Map.get m n = some x → x.name = n) (x : Scope) :
    x ∈ m.map (·.2) ↔ Map.get m x.name = some x := by
  rw [← Map.mem_iff_get h, List.mem_map]
  constructor
  · rintro ⟨⟨n, y⟩, h1, h2⟩
    simp only at h2
    subst h2
    have := hn n y ((Map.mem_iff_get h n y).1 h1)
    rw [this]
    exact h1
  · intro h1
    exact ⟨_, h1, rfl⟩

theorem values_nodup {m : Map Str Scope} (h : Map.Ok m) (hn : ∀ n x, Map.get m n = some x → x.name = n) :
    ((m.map (·.2)).map (·.name)).Nodup := by
  have : (m.map (·.2)).map (·.name) = m.map (·.1) := by
    rw [List.map_map]
    apply List.map_congr_left
    rintro ⟨n, x⟩ hx
    exact hn n x ((Map.mem_iff_get h n x).1 hx)
  rw [this]
  exact h

set_option maxHeartbeats 1000000 in
theorem inv_step {tr : List Ev} {s : State} {e : Option Ev} {s' : State} (h : Inv tr s) (st : Step s e s') :
    Inv (tr ++ e.toList) s' := by
  cases st
  case aCopy t c hp hc =>
    have hm := fun x => (mem_values h.ok h.names x).symm.trans hc.mem_iff.symm
    have hnd : (c.map (·.name)).Nodup := (hc.map _).nodup_iff.2 (values_nodup h.ok h.names)
    have oth := fun u hu => other h.lock (t := t) (u := u) (by rw [hp]; rfl) hu
    obtain ⟨i1, i2, i3, i4, i5, i6, i7, i8, i9, i10⟩ := h
    constructor
    all_goals simp only [upd_apply, Option.toList_some, created_snoc, look_snoc, List.append_nil]
    all_goals grind [PC.holds, PC.got, PC.todo, PC.unsorted, PC.sorted]
  case aSort t c d hp hd hs =>
    have hm := fun x => hd.mem_iff (a := x)
    have hnd := (h.unsorted t c (by rw [hp]; rfl)).2
    have hst := strict ((hd.map _).nodup_iff.2 hnd) hs
    obtain ⟨i1, i2, i3, i4, i5, i6, i7, i8, i9, i10⟩ := h
    constructor
    all_goals simp only [upd_apply, Option.toList_none, List.append_nil]
    all_goals grind [PC.holds, PC.got, PC.todo, PC.unsorted, PC.sorted]
  case aVisit t x c hp =>
    obtain ⟨i1, i2, i3, i4, i5, i6, i7, i8, i9, i10⟩ := h
    have h10 := i10 t (x :: c) (by rw [hp]; rfl)
    rw [List.pairwise_cons] at h10
    constructor
    all_goals simp only [upd_apply, Option.toList_some, created_snoc, look_snoc, List.append_nil]
    all_goals grind [PC.holds, PC.got, PC.todo, PC.unsorted, PC.sorted]
  case make t n hp hg =>
    have oth := fun u hu => other h.lock (t := t) (u := u) (by rw [hp]; rfl) hu
    have og : ∀ u m x, (s.pc u).got = some (m, x) → u = t := by
      intro u m x hu
      refine oth u ?_
      cases hpu : s.pc u <;> rw [hpu] at hu <;> first | rfl | cases hu
    obtain ⟨i1, i2, i3, i4, i5, i6, i7, i8, i9, i10⟩ := h
    constructor
    all_goals simp only [upd_apply, Option.toList_some, created_snoc, look_snoc, List.append_nil, Map.get_set]
    case ok => exact Map.ok_set i1 _ _
    case nodup =>
      rw [List.map_append, List.nodup_append]
      refine ⟨i4, by simp, ?_⟩
      intro a ha b hb
      simp only [List.map_cons, List.map_nil, List.mem_singleton] at hb
      subst hb
      obtain ⟨x, hx, rfl⟩ := List.mem_map.1 ha
      intro e
      have := (i3 x).1 hx
      rw [e, hg] at this
      cases this
    all_goals grind [PC.holds, PC.got, PC.todo, PC.unsorted, PC.sorted]
  all_goals
    obtain ⟨i1, i2, i3, i4, i5, i6, i7, i8, i9, i10⟩ := h
    constructor
    all_goals simp only [upd_apply, Option.toList_none, Option.toList_some, created_snoc, look_snoc, List.append_nil]
    all_goals grind [PC.holds, PC.got, PC.todo, PC.unsorted, PC.sorted]

theorem inv {tr : List Ev} {s : State} (h : Exec Step State.init tr s) : Inv tr s :=
  Exec.induct Inv inv_init (fun _ _ _ _ hi st => inv_step hi st) h

theorem step_legal {tr : List Ev} {s s' : State} {ev : Ev} (h : Inv tr s) (st : Step s (some ev) s') : Legal tr ev := by
  generalize he : some ev = e at st
  cases st with
  | make t n hp hg =>
    cases he
    intro x hx
    refine ⟨fun e => ?_, Nat.ne_of_lt (h.ids x hx)⟩
    have := (h.content x).1 hx
    simp only at e
    rw [e, hg] at this
    cases this
  | nUnlock t n x hp =>
    cases he
    have h1 := h.got t n x (by rw [hp]; rfl)
    have h2 := h.names n x h1
    exact ⟨(h.content x).2 (h2 ▸ h1), h2⟩
  | aVisit t x c hp =>
    cases he
    refine ⟨(h.todo t _ (by rw [hp]; rfl) x).2 (Or.inr (by simp)), fun v hv => ?_⟩
    exact (h.sorted t _ (by rw [hp]; rfl)).2 v hv x (by simp)
  | aDone t hp =>
    cases he
    intro x hx
    exact ((h.todo t _ (by rw [hp]; rfl) x).1 hx).resolve_right (by simp)
  | call t n hp => cases he; trivial
  | aCopy t c hp hc => cases he; trivial
  | _ => cases he

end Monkit.RegScopes
