import Verif.Spec.Remote
import Verif.Props.FindSpan
import Verif.Props.KeepAlive

/-!
# Invariants of `/trace/remote`
-/

namespace Monkit.Remote
open Go

variable {traceOf : Nat → Nat} {accepts : Nat → Bool}

/-- The part of `keepAlive` is an execution of `keepAlive`. -/
theorem ka_exec {tr : List Ev} {s : State} (h : Exec (Step traceOf accepts) init tr s) : Exec KeepAlive.Step KeepAlive.init (kaOf tr) s.k := by
  refine Exec.induct (fun tr s => Exec KeepAlive.Step KeepAlive.init (kaOf tr) s.k) .start ?_ h
  intro tr s e s' i st
  rw [kaOf, List.filterMap_append, ← kaOf]
  cases st with
  | ka e k' st own => cases e <;> exact i.step _ st
  | find e f' st own => cases e <;> simpa using i
  | stop k' st h => exact i.step _ st
  | stopOk k' st h => exact i.step _ st
  | stopErr k' e st h => exact i.step _ st
  | last r k' st h => exact i.step _ st
  | lastRet r x k' st h => exact i.step _ st
  | _ => simpa using i

/-- The part of `FindSpan` is an execution of `FindSpan`. -/
theorem find_exec {tr : List Ev} {s : State} (h : Exec (Step traceOf accepts) init tr s) : Exec FindSpan.Step FindSpan.init (findOf tr) s.f := by
  refine Exec.induct (fun tr s => Exec FindSpan.Step FindSpan.init (findOf tr) s.f) .start ?_ h
  intro tr s e s' i st
  rw [findOf, List.filterMap_append, ← findOf]
  cases st with
  | find e f' st own => cases e <;> exact i.step _ st
  | ka e k' st own => cases e <;> simpa using i
  | ctx f' st h => exact i.step _ st
  | ask t y f' st => exact i.step _ st
  | answer t y b f' st h => exact i.step _ st
  | fails t y f' st h => exact i.step _ st
  | found f' st h => exact i.step _ st
  | _ => simpa using i

/-- Holding `traceMtx`. -/
def MPC.holds : MPC → Bool
  | .test _ | .set _ | .look _ | .call _ | .unlock | .unlockFailed => true
  | _ => false

def Main.holds : Main → Bool
  | .use | .unlock _ => true
  | _ => false

/-- The span the matcher deals with and has accepted. -/
def MPC.span : MPC → Option Nat
  | .want y | .test y | .set y | .look y | .call y => .some y
  | _ => Option.none

/-- After `stop` has returned nil. -/
def Main.good : Main → Bool
  | .lock | .use | .unlock _ => true
  | _ => false

structure Inv (traceOf : Nat → Nat) (accepts : Nat → Bool) (tr : List Ev) (s : State) : Prop where
  mt : ∀ t, s.mtx = some (.thr t) ↔ (s.m t).holds = true
  mm : s.mtx = some .main ↔ s.main.holds = true
  acc : ∀ t y, (s.m t).span = some y → accepts y = true
  tnone : s.trace = none → samples tr = [] ∧ (∀ t y, s.m t ≠ .set y ∧ s.m t ≠ .look y ∧ s.m t ≠ .call y) ∧ ∀ t, s.m t ≠ .unlock ∧ s.m t ≠ .done true
  tsome : ∀ T, s.trace = some T → (∃ t y, samples tr = [(t, y)] ∧ traceOf y = T ∧ accepts y = true ∧ ∀ u z, s.m u ≠ .set z) ∨
    (samples tr = [] ∧ ∃ t y, s.m t = .set y ∧ traceOf y = T)
  look : ∀ t y, s.m t = .look y ∨ s.m t = .call y → samples tr = [(t, y)] ∧ callbacks tr = []
  cbs : callbacks tr = [] ∨ callbacks tr = samples tr
  /-- the matcher runs inside `Start` -/
  inside : ∀ t, s.m t ≠ .none → ∃ y, s.f.pc t = .asking y
  yes : ∀ t y, s.f.pc t = .swap y → s.trace ≠ none
  flag : s.f.flag = true → s.trace ≠ none ∨ s.f.main = .close ∨ s.f.main = .out ∨ s.f.main = .returned
  left : s.f.main ≠ .watch → s.trace ≠ none ∨ s.f.ctxDone = true
  ctx : s.f.ctxDone = true → s.k.pingErr ≠ none
  main : s.main ≠ .finding → s.f.main = .returned
  good : s.main.good = true → s.trace ≠ none
  res : ∀ r, s.main = .unlock r ∨ s.main = .last r ∨ s.main = .lasting r ∨ s.main = .returned r →
    (∃ T, r = .trace T ∧ s.trace = some T ∧ samples tr ≠ []) ∨ ∃ e, r = .err e ∧ Ev.ka (.stopRet 0 (some e)) ∈ tr

theorem inv_init : Inv traceOf accepts [] init := by
  constructor <;> simp [init, MPC.holds, Main.holds, MPC.span, Main.good, FindSpan.init, samples, callbacks]

theorem samples_snoc (tr : List Ev) (e : Ev) : samples (tr ++ [e]) = samples tr ++ (match e with | .sampled t y => [(t, y)] | _ => []) := by
  cases e <;> simp [samples]

theorem callbacks_snoc (tr : List Ev) (e : Ev) : callbacks (tr ++ [e]) = callbacks tr ++ (match e with | .callback t y => [(t, y)] | _ => []) := by
  cases e <;> simp [callbacks]

theorem ka_keeps {k k' : KeepAlive.State} {e : Option KeepAlive.Event} (st : KeepAlive.Step k e k') (h : k.pingErr ≠ none) : k'.pingErr ≠ none := by
  cases st <;> simp_all

theorem samples_other {tr : List Ev} {e : Option Ev} (h : ∀ t y, e ≠ some (.sampled t y)) : samples (tr ++ e.toList) = samples tr := by
  cases e with
  | none => simp
  | some e => cases e <;> simp_all [samples_snoc]

theorem callbacks_other {tr : List Ev} {e : Option Ev} (h : ∀ t y, e ≠ some (.callback t y)) : callbacks (tr ++ e.toList) = callbacks tr := by
  cases e with
  | none => simp
  | some e => cases e <;> simp_all [callbacks_snoc]

/-- A step that changes only the part of `keepAlive`. -/
theorem inv_ka {tr : List Ev} {s : State} {e : Option Ev} {k' : KeepAlive.State} (h : Inv traceOf accepts tr s)
    (hs : ∀ t y, e ≠ some (.sampled t y)) (hc : ∀ t y, e ≠ some (.callback t y)) (hk : s.k.pingErr ≠ none → k'.pingErr ≠ none) :
    Inv traceOf accepts (tr ++ e.toList) { s with k := k' } := by
  obtain ⟨h1, h2, h3, h4, h5, h6, h7, h8, h9, h10, h11, h12, h13, h14, h15⟩ := h
  constructor <;> simp only [samples_other hs, callbacks_other hc] <;> first | assumption | skip
  · exact fun h => hk (h12 h)
  · intro r hr
    rcases h15 r hr with g | ⟨e', g, g'⟩
    · exact Or.inl g
    · exact Or.inr ⟨e', g, List.mem_append_left _ g'⟩

set_option maxHeartbeats 4000000 in
theorem inv_step {tr : List Ev} {s s' : State} {e : Option Ev} {trf trk} (h : Inv traceOf accepts tr s) (hf : FindSpan.Inv trf s.f)
    (hk : KeepAlive.Inv trk s.k) (st : Step traceOf accepts s e s') : Inv traceOf accepts (tr ++ e.toList) s' := by
  have closed : 0 < s.f.closes → s.f.flag = true := by
    intro hc
    cases hfl : s.f.flag with
    | true => rfl
    | false => have := (hf.flag0 hfl).1; omega
  cases st with
  | ka e k' st own => exact inv_ka h (by cases e <;> simp) (by cases e <;> simp) (ka_keeps st)
  | stop k' st hm =>
    have := inv_ka (e := some (.ka (.stopCall 0))) h (by simp) (by simp) (ka_keeps st)
    obtain ⟨h1, h2, h3, h4, h5, h6, h7, h8, h9, h10, h11, h12, h13, h14, h15⟩ := this
    constructor <;> first | assumption | skip
    all_goals grind [Main.holds, Main.good]
  | no t y hm a =>
    obtain ⟨h1, h2, h3, h4, h5, h6, h7, h8, h9, h10, h11, h12, h13, h14, h15⟩ := h
    constructor
    all_goals try simp only [FindSpan.upd_apply, samples_snoc, callbacks_snoc, Option.toList_some, Option.toList_none, List.append_nil, List.mem_append, List.mem_singleton]
    all_goals first
      | grind [MPC.holds, Main.holds, MPC.span, Main.good]
      | (intro T hT
         rcases h5 T hT with ⟨u, z, a, b, c, d⟩ | ⟨a, u, z, b, c⟩
         · exact Or.inl ⟨u, z, by grind, b, c, by grind⟩
         · exact Or.inr ⟨a, u, z, by grind, c⟩)
      | (intro u hu
         by_cases hut : u = t
         · exact ⟨y, by simp [hut]⟩
         · obtain ⟨z, hz⟩ := h8 u (by grind)
           exact ⟨z, by grind⟩)
  | yes t y hm a =>
    obtain ⟨h1, h2, h3, h4, h5, h6, h7, h8, h9, h10, h11, h12, h13, h14, h15⟩ := h
    constructor
    all_goals try simp only [FindSpan.upd_apply, samples_snoc, callbacks_snoc, Option.toList_some, Option.toList_none, List.append_nil, List.mem_append, List.mem_singleton]
    all_goals first
      | grind [MPC.holds, Main.holds, MPC.span, Main.good]
      | (intro T hT
         rcases h5 T hT with ⟨u, z, a, b, c, d⟩ | ⟨a, u, z, b, c⟩
         · exact Or.inl ⟨u, z, by grind, b, c, by grind⟩
         · exact Or.inr ⟨a, u, z, by grind, c⟩)
      | (intro u hu
         by_cases hut : u = t
         · exact ⟨y, by simp [hut]⟩
         · obtain ⟨z, hz⟩ := h8 u (by grind)
           exact ⟨z, by grind⟩)
  | lock t y hm free =>
    obtain ⟨h1, h2, h3, h4, h5, h6, h7, h8, h9, h10, h11, h12, h13, h14, h15⟩ := h
    constructor
    all_goals try simp only [FindSpan.upd_apply, samples_snoc, callbacks_snoc, Option.toList_some, Option.toList_none, List.append_nil, List.mem_append, List.mem_singleton]
    all_goals first
      | grind [MPC.holds, Main.holds, MPC.span, Main.good]
      | (intro T hT
         rcases h5 T hT with ⟨u, z, a, b, c, d⟩ | ⟨a, u, z, b, c⟩
         · exact Or.inl ⟨u, z, by grind, b, c, by grind⟩
         · exact Or.inr ⟨a, u, z, by grind, c⟩)
      | (intro u hu
         by_cases hut : u = t
         · exact ⟨y, by simp [hut]⟩
         · obtain ⟨z, hz⟩ := h8 u (by grind)
           exact ⟨z, by grind⟩)
  | old t y hm c =>
    obtain ⟨h1, h2, h3, h4, h5, h6, h7, h8, h9, h10, h11, h12, h13, h14, h15⟩ := h
    constructor
    all_goals try simp only [FindSpan.upd_apply, samples_snoc, callbacks_snoc, Option.toList_some, Option.toList_none, List.append_nil, List.mem_append, List.mem_singleton]
    all_goals first
      | grind [MPC.holds, Main.holds, MPC.span, Main.good]
      | (intro T hT
         rcases h5 T hT with ⟨u, z, a, b, c, d⟩ | ⟨a, u, z, b, c⟩
         · exact Or.inl ⟨u, z, by grind, b, c, by grind⟩
         · exact Or.inr ⟨a, u, z, by grind, c⟩)
      | (intro u hu
         by_cases hut : u = t
         · exact ⟨y, by simp [hut]⟩
         · obtain ⟨z, hz⟩ := h8 u (by grind)
           exact ⟨z, by grind⟩)
  | new t y hm c =>
    obtain ⟨h1, h2, h3, h4, h5, h6, h7, h8, h9, h10, h11, h12, h13, h14, h15⟩ := h
    constructor
    all_goals try simp only [FindSpan.upd_apply, samples_snoc, callbacks_snoc, Option.toList_some, Option.toList_none, List.append_nil, List.mem_append, List.mem_singleton]
    all_goals first
      | grind [MPC.holds, Main.holds, MPC.span, Main.good]
      | (intro T hT
         rcases h5 T hT with ⟨u, z, a, b, c, d⟩ | ⟨a, u, z, b, c⟩
         · exact Or.inl ⟨u, z, by grind, b, c, by grind⟩
         · exact Or.inr ⟨a, u, z, by grind, c⟩)
      | (intro u hu
         by_cases hut : u = t
         · exact ⟨y, by simp [hut]⟩
         · obtain ⟨z, hz⟩ := h8 u (by grind)
           exact ⟨z, by grind⟩)
  | sampled t y hm =>
    obtain ⟨h1, h2, h3, h4, h5, h6, h7, h8, h9, h10, h11, h12, h13, h14, h15⟩ := h
    have hS : samples tr = [] := by
      cases hT : s.trace with
      | none => exact (h4 hT).1
      | some T => rcases h5 T hT with ⟨u, z, a, b, c, d⟩ | ⟨a, _⟩
                  · exact absurd hm (d t y)
                  · exact a
    have hC : callbacks tr = [] := by grind
    constructor
    all_goals try simp only [FindSpan.upd_apply, samples_snoc, callbacks_snoc, Option.toList_some, Option.toList_none, List.append_nil, List.mem_append, List.mem_singleton]
    all_goals first
      | grind [MPC.holds, Main.holds, MPC.span, Main.good]
      | (intro T hT
         rcases h5 T hT with ⟨u, z, a, b, c, d⟩ | ⟨a, u, z, b, c⟩
         · exact Or.inl ⟨u, z, by grind, b, c, by grind⟩
         · exact Or.inr ⟨a, u, z, by grind, c⟩)
      | (intro u hu
         by_cases hut : u = t
         · exact ⟨y, by simp [hut]⟩
         · obtain ⟨z, hz⟩ := h8 u (by grind)
           exact ⟨z, by grind⟩)
  | noCallback t y hm =>
    obtain ⟨h1, h2, h3, h4, h5, h6, h7, h8, h9, h10, h11, h12, h13, h14, h15⟩ := h
    constructor
    all_goals try simp only [FindSpan.upd_apply, samples_snoc, callbacks_snoc, Option.toList_some, Option.toList_none, List.append_nil, List.mem_append, List.mem_singleton]
    all_goals first
      | grind [MPC.holds, Main.holds, MPC.span, Main.good]
      | (intro T hT
         rcases h5 T hT with ⟨u, z, a, b, c, d⟩ | ⟨a, u, z, b, c⟩
         · exact Or.inl ⟨u, z, by grind, b, c, by grind⟩
         · exact Or.inr ⟨a, u, z, by grind, c⟩)
      | (intro u hu
         by_cases hut : u = t
         · exact ⟨y, by simp [hut]⟩
         · obtain ⟨z, hz⟩ := h8 u (by grind)
           exact ⟨z, by grind⟩)
  | hasCallback t y hm =>
    obtain ⟨h1, h2, h3, h4, h5, h6, h7, h8, h9, h10, h11, h12, h13, h14, h15⟩ := h
    constructor
    all_goals try simp only [FindSpan.upd_apply, samples_snoc, callbacks_snoc, Option.toList_some, Option.toList_none, List.append_nil, List.mem_append, List.mem_singleton]
    all_goals first
      | grind [MPC.holds, Main.holds, MPC.span, Main.good]
      | (intro T hT
         rcases h5 T hT with ⟨u, z, a, b, c, d⟩ | ⟨a, u, z, b, c⟩
         · exact Or.inl ⟨u, z, by grind, b, c, by grind⟩
         · exact Or.inr ⟨a, u, z, by grind, c⟩)
      | (intro u hu
         by_cases hut : u = t
         · exact ⟨y, by simp [hut]⟩
         · obtain ⟨z, hz⟩ := h8 u (by grind)
           exact ⟨z, by grind⟩)
  | callback t y hm =>
    obtain ⟨h1, h2, h3, h4, h5, h6, h7, h8, h9, h10, h11, h12, h13, h14, h15⟩ := h
    constructor
    all_goals try simp only [FindSpan.upd_apply, samples_snoc, callbacks_snoc, Option.toList_some, Option.toList_none, List.append_nil, List.mem_append, List.mem_singleton]
    all_goals first
      | grind [MPC.holds, Main.holds, MPC.span, Main.good]
      | (intro T hT
         rcases h5 T hT with ⟨u, z, a, b, c, d⟩ | ⟨a, u, z, b, c⟩
         · exact Or.inl ⟨u, z, by grind, b, c, by grind⟩
         · exact Or.inr ⟨a, u, z, by grind, c⟩)
      | (intro u hu
         by_cases hut : u = t
         · exact ⟨y, by simp [hut]⟩
         · obtain ⟨z, hz⟩ := h8 u (by grind)
           exact ⟨z, by grind⟩)
  | unlock t hm =>
    obtain ⟨h1, h2, h3, h4, h5, h6, h7, h8, h9, h10, h11, h12, h13, h14, h15⟩ := h
    constructor
    all_goals try simp only [FindSpan.upd_apply, samples_snoc, callbacks_snoc, Option.toList_some, Option.toList_none, List.append_nil, List.mem_append, List.mem_singleton]
    all_goals first
      | grind [MPC.holds, Main.holds, MPC.span, Main.good]
      | (intro T hT
         rcases h5 T hT with ⟨u, z, a, b, c, d⟩ | ⟨a, u, z, b, c⟩
         · exact Or.inl ⟨u, z, by grind, b, c, by grind⟩
         · exact Or.inr ⟨a, u, z, by grind, c⟩)
      | (intro u hu
         by_cases hut : u = t
         · exact ⟨y, by simp [hut]⟩
         · obtain ⟨z, hz⟩ := h8 u (by grind)
           exact ⟨z, by grind⟩)
  | callbackPanics t y hm =>
    obtain ⟨h1, h2, h3, h4, h5, h6, h7, h8, h9, h10, h11, h12, h13, h14, h15⟩ := h
    constructor
    all_goals try simp only [FindSpan.upd_apply, samples_snoc, callbacks_snoc, Option.toList_some, Option.toList_none, List.append_nil, List.mem_append, List.mem_singleton]
    all_goals first
      | grind [MPC.holds, Main.holds, MPC.span, Main.good]
      | (intro T hT
         rcases h5 T hT with ⟨u, z, a, b, c, d⟩ | ⟨a, u, z, b, c⟩
         · exact Or.inl ⟨u, z, by grind, b, c, by grind⟩
         · exact Or.inr ⟨a, u, z, by grind, c⟩)
      | (intro u hu
         by_cases hut : u = t
         · exact ⟨y, by simp [hut]⟩
         · obtain ⟨z, hz⟩ := h8 u (by grind)
           exact ⟨z, by grind⟩)
  | unlockFailed t hm =>
    obtain ⟨h1, h2, h3, h4, h5, h6, h7, h8, h9, h10, h11, h12, h13, h14, h15⟩ := h
    constructor
    all_goals try simp only [FindSpan.upd_apply, samples_snoc, callbacks_snoc, Option.toList_some, Option.toList_none, List.append_nil, List.mem_append, List.mem_singleton]
    all_goals first
      | grind [MPC.holds, Main.holds, MPC.span, Main.good]
      | (intro T hT
         rcases h5 T hT with ⟨u, z, a, b, c, d⟩ | ⟨a, u, z, b, c⟩
         · exact Or.inl ⟨u, z, by grind, b, c, by grind⟩
         · exact Or.inr ⟨a, u, z, by grind, c⟩)
      | (intro u hu
         by_cases hut : u = t
         · exact ⟨y, by simp [hut]⟩
         · obtain ⟨z, hz⟩ := h8 u (by grind)
           exact ⟨z, by grind⟩)
  | mlock hm free =>
    obtain ⟨h1, h2, h3, h4, h5, h6, h7, h8, h9, h10, h11, h12, h13, h14, h15⟩ := h
    constructor
    all_goals try simp only [FindSpan.upd_apply, samples_snoc, callbacks_snoc, Option.toList_some, Option.toList_none, List.append_nil, List.mem_append, List.mem_singleton]
    all_goals first
      | grind [MPC.holds, Main.holds, MPC.span, Main.good]
      | (intro T hT
         rcases h5 T hT with ⟨u, z, a, b, c, d⟩ | ⟨a, u, z, b, c⟩
         · exact Or.inl ⟨u, z, by grind, b, c, by grind⟩
         · exact Or.inr ⟨a, u, z, by grind, c⟩)
      | (intro u hu
         by_cases hut : u = t
         · exact ⟨y, by simp [hut]⟩
         · obtain ⟨z, hz⟩ := h8 u (by grind)
           exact ⟨z, by grind⟩)
  | use T hm c =>
    obtain ⟨h1, h2, h3, h4, h5, h6, h7, h8, h9, h10, h11, h12, h13, h14, h15⟩ := h
    constructor
    all_goals try simp only [FindSpan.upd_apply, samples_snoc, callbacks_snoc, Option.toList_some, Option.toList_none, List.append_nil, List.mem_append, List.mem_singleton]
    all_goals first
      | grind [MPC.holds, Main.holds, MPC.span, Main.good]
      | (intro T hT
         rcases h5 T hT with ⟨u, z, a, b, c, d⟩ | ⟨a, u, z, b, c⟩
         · exact Or.inl ⟨u, z, by grind, b, c, by grind⟩
         · exact Or.inr ⟨a, u, z, by grind, c⟩)
      | (intro u hu
         by_cases hut : u = t
         · exact ⟨y, by simp [hut]⟩
         · obtain ⟨z, hz⟩ := h8 u (by grind)
           exact ⟨z, by grind⟩)
  | crash hm c =>
    obtain ⟨h1, h2, h3, h4, h5, h6, h7, h8, h9, h10, h11, h12, h13, h14, h15⟩ := h
    constructor
    all_goals try simp only [FindSpan.upd_apply, samples_snoc, callbacks_snoc, Option.toList_some, Option.toList_none, List.append_nil, List.mem_append, List.mem_singleton]
    all_goals first
      | grind [MPC.holds, Main.holds, MPC.span, Main.good]
      | (intro T hT
         rcases h5 T hT with ⟨u, z, a, b, c, d⟩ | ⟨a, u, z, b, c⟩
         · exact Or.inl ⟨u, z, by grind, b, c, by grind⟩
         · exact Or.inr ⟨a, u, z, by grind, c⟩)
      | (intro u hu
         by_cases hut : u = t
         · exact ⟨y, by simp [hut]⟩
         · obtain ⟨z, hz⟩ := h8 u (by grind)
           exact ⟨z, by grind⟩)
  | munlock r hm =>
    obtain ⟨h1, h2, h3, h4, h5, h6, h7, h8, h9, h10, h11, h12, h13, h14, h15⟩ := h
    constructor
    all_goals try simp only [FindSpan.upd_apply, samples_snoc, callbacks_snoc, Option.toList_some, Option.toList_none, List.append_nil, List.mem_append, List.mem_singleton]
    all_goals first
      | grind [MPC.holds, Main.holds, MPC.span, Main.good]
      | (intro T hT
         rcases h5 T hT with ⟨u, z, a, b, c, d⟩ | ⟨a, u, z, b, c⟩
         · exact Or.inl ⟨u, z, by grind, b, c, by grind⟩
         · exact Or.inr ⟨a, u, z, by grind, c⟩)
      | (intro u hu
         by_cases hut : u = t
         · exact ⟨y, by simp [hut]⟩
         · obtain ⟨z, hz⟩ := h8 u (by grind)
           exact ⟨z, by grind⟩)
  | ends r hm =>
    obtain ⟨h1, h2, h3, h4, h5, h6, h7, h8, h9, h10, h11, h12, h13, h14, h15⟩ := h
    constructor
    all_goals try simp only [FindSpan.upd_apply, samples_snoc, callbacks_snoc, Option.toList_some, Option.toList_none, List.append_nil, List.mem_append, List.mem_singleton]
    all_goals first
      | grind [MPC.holds, Main.holds, MPC.span, Main.good]
      | (intro T hT
         rcases h5 T hT with ⟨u, z, a, b, c, d⟩ | ⟨a, u, z, b, c⟩
         · exact Or.inl ⟨u, z, by grind, b, c, by grind⟩
         · exact Or.inr ⟨a, u, z, by grind, c⟩)
      | (intro u hu
         by_cases hut : u = t
         · exact ⟨y, by simp [hut]⟩
         · obtain ⟨z, hz⟩ := h8 u (by grind)
           exact ⟨z, by grind⟩)
  | stopOk k' st hm =>
    have := inv_ka (e := some (.ka (.stopRet 0 none))) h (by simp) (by simp) (ka_keeps st)
    have hp : none = s.k.pingErr := by cases st with | stopRet _ _ h => exact (hk.returning 0 _ h).2
    have hc := h.ctx
    have hl := h.left
    have hr := h.main
    obtain ⟨h1, h2, h3, h4, h5, h6, h7, h8, h9, h10, h11, h12, h13, h14, h15⟩ := this
    constructor <;> first | assumption | skip
    all_goals grind [Main.holds, Main.good]
  | stopErr k' e st hm =>
    have := inv_ka (e := some (.ka (.stopRet 0 (some e)))) h (by simp) (by simp) (ka_keeps st)
    obtain ⟨h1, h2, h3, h4, h5, h6, h7, h8, h9, h10, h11, h12, h13, h14, h15⟩ := this
    constructor <;> first | assumption | skip
    all_goals grind [Main.holds, Main.good]
  | last r k' st hm =>
    have := inv_ka (e := some (.ka (.stopCall 0))) h (by simp) (by simp) (ka_keeps st)
    obtain ⟨h1, h2, h3, h4, h5, h6, h7, h8, h9, h10, h11, h12, h13, h14, h15⟩ := this
    constructor <;> first | assumption | skip
    all_goals grind [Main.holds, Main.good]
  | lastRet r x k' st hm =>
    have := inv_ka (e := some (.ka (.stopRet 0 x))) h (by simp) (by simp) (ka_keeps st)
    obtain ⟨h1, h2, h3, h4, h5, h6, h7, h8, h9, h10, h11, h12, h13, h14, h15⟩ := this
    constructor <;> first | assumption | skip
    all_goals grind [Main.holds, Main.good]
  | find e f' st own =>
    obtain ⟨h1, h2, h3, h4, h5, h6, h7, h8, h9, h10, h11, h12, h13, h14, h15⟩ := h
    cases st
    all_goals first | (exfalso; simp [FindSpan.Ev.own] at own; done) | skip
    all_goals constructor
    all_goals try simp only [Option.map_some, Option.map_none]
    all_goals try simp only [FindSpan.upd_apply, samples_snoc, callbacks_snoc, Option.toList_some, Option.toList_none, List.append_nil, List.mem_append, List.mem_singleton]
    all_goals first
      | grind [MPC.holds, Main.holds, MPC.span, Main.good]
      | (intro T hT
         rcases h5 T hT with ⟨u, z, a, b, c, d⟩ | ⟨a, u, z, b, c⟩
         · exact Or.inl ⟨u, z, by grind, b, c, by grind⟩
         · exact Or.inr ⟨a, u, z, by grind, c⟩)
      | (intro u hu
         by_cases hut : u = t
         · exact ⟨y, by simp [hut]⟩
         · obtain ⟨z, hz⟩ := h8 u (by grind)
           exact ⟨z, by grind⟩)
  | ctx f' st hc =>
    obtain ⟨h1, h2, h3, h4, h5, h6, h7, h8, h9, h10, h11, h12, h13, h14, h15⟩ := h
    have hkc := hk.cancelled hc
    cases st
    all_goals constructor
    all_goals try simp only [FindSpan.upd_apply, samples_snoc, callbacks_snoc, Option.toList_some, Option.toList_none, List.append_nil, List.mem_append, List.mem_singleton]
    all_goals first
      | grind [MPC.holds, Main.holds, MPC.span, Main.good]
      | (intro T hT
         rcases h5 T hT with ⟨u, z, a, b, c, d⟩ | ⟨a, u, z, b, c⟩
         · exact Or.inl ⟨u, z, by grind, b, c, by grind⟩
         · exact Or.inr ⟨a, u, z, by grind, c⟩)
      | (intro u hu
         by_cases hut : u = t
         · exact ⟨y, by simp [hut]⟩
         · obtain ⟨z, hz⟩ := h8 u (by grind)
           exact ⟨z, by grind⟩)
  | ask t y f' st =>
    obtain ⟨h1, h2, h3, h4, h5, h6, h7, h8, h9, h10, h11, h12, h13, h14, h15⟩ := h
    skip
    cases st
    have hn : s.m t = .none := by grind
    all_goals constructor
    all_goals try simp only [FindSpan.upd_apply, samples_snoc, callbacks_snoc, Option.toList_some, Option.toList_none, List.append_nil, List.mem_append, List.mem_singleton]
    all_goals first
      | grind [MPC.holds, Main.holds, MPC.span, Main.good]
      | (intro T hT
         rcases h5 T hT with ⟨u, z, a, b, c, d⟩ | ⟨a, u, z, b, c⟩
         · exact Or.inl ⟨u, z, by grind, b, c, by grind⟩
         · exact Or.inr ⟨a, u, z, by grind, c⟩)
      | (intro u hu
         by_cases hut : u = t
         · exact ⟨y, by simp [hut]⟩
         · obtain ⟨z, hz⟩ := h8 u (by grind)
           exact ⟨z, by grind⟩)
  | answer t y b f' st hm =>
    obtain ⟨h1, h2, h3, h4, h5, h6, h7, h8, h9, h10, h11, h12, h13, h14, h15⟩ := h
    skip
    cases st
    all_goals constructor
    all_goals try simp only [FindSpan.upd_apply, samples_snoc, callbacks_snoc, Option.toList_some, Option.toList_none, List.append_nil, List.mem_append, List.mem_singleton]
    all_goals first
      | grind [MPC.holds, Main.holds, MPC.span, Main.good]
      | (intro T hT
         rcases h5 T hT with ⟨u, z, a, b, c, d⟩ | ⟨a, u, z, b, c⟩
         · exact Or.inl ⟨u, z, by grind, b, c, by grind⟩
         · exact Or.inr ⟨a, u, z, by grind, c⟩)
      | (intro u hu
         by_cases hut : u = t
         · exact ⟨y, by simp [hut]⟩
         · obtain ⟨z, hz⟩ := h8 u (by grind)
           exact ⟨z, by grind⟩)
  | fails t y f' st hm =>
    obtain ⟨h1, h2, h3, h4, h5, h6, h7, h8, h9, h10, h11, h12, h13, h14, h15⟩ := h
    skip
    cases st
    all_goals constructor
    all_goals try simp only [FindSpan.upd_apply, samples_snoc, callbacks_snoc, Option.toList_some, Option.toList_none, List.append_nil, List.mem_append, List.mem_singleton]
    all_goals first
      | grind [MPC.holds, Main.holds, MPC.span, Main.good]
      | (intro T hT
         rcases h5 T hT with ⟨u, z, a, b, c, d⟩ | ⟨a, u, z, b, c⟩
         · exact Or.inl ⟨u, z, by grind, b, c, by grind⟩
         · exact Or.inr ⟨a, u, z, by grind, c⟩)
      | (intro u hu
         by_cases hut : u = t
         · exact ⟨y, by simp [hut]⟩
         · obtain ⟨z, hz⟩ := h8 u (by grind)
           exact ⟨z, by grind⟩)
  | found f' st hm =>
    obtain ⟨h1, h2, h3, h4, h5, h6, h7, h8, h9, h10, h11, h12, h13, h14, h15⟩ := h
    skip
    cases st
    all_goals constructor
    all_goals try simp only [FindSpan.upd_apply, samples_snoc, callbacks_snoc, Option.toList_some, Option.toList_none, List.append_nil, List.mem_append, List.mem_singleton]
    all_goals first
      | grind [MPC.holds, Main.holds, MPC.span, Main.good]
      | (intro T hT
         rcases h5 T hT with ⟨u, z, a, b, c, d⟩ | ⟨a, u, z, b, c⟩
         · exact Or.inl ⟨u, z, by grind, b, c, by grind⟩
         · exact Or.inr ⟨a, u, z, by grind, c⟩)
      | (intro u hu
         by_cases hut : u = t
         · exact ⟨y, by simp [hut]⟩
         · obtain ⟨z, hz⟩ := h8 u (by grind)
           exact ⟨z, by grind⟩)

theorem inv_exec {tr : List Ev} {s : State} (h : Exec (Step traceOf accepts) init tr s) : Inv traceOf accepts tr s := by
  refine (Exec.induct (fun tr s => Exec (Step traceOf accepts) init tr s ∧ Inv traceOf accepts tr s) ⟨.start, inv_init⟩ ?_ h).2
  intro tr s e s' ⟨i, j⟩ st
  exact ⟨i.step _ st, inv_step j (FindSpan.inv_exec (find_exec i)) (KeepAlive.inv_exec (ka_exec i)) st⟩

theorem of_ends {s s' : State} {e : Option Ev} {r : Res} (st : Step traceOf accepts s e s') (he : e = some (.ends r)) : s.main = .returned r := by
  cases st <;> simp_all

theorem of_callback {s s' : State} {e : Option Ev} {t y : Nat} (st : Step traceOf accepts s e s') (he : e = some (.callback t y)) : s.m t = .call y := by
  cases st <;> simp_all

end Monkit.Remote
