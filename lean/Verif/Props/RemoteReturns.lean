import Verif.Props.Remote
import Verif.Props.KeepAliveReturns

/-!
# C86: `/trace/remote` returns

Goroutine 0 pings, goroutine 1 runs the request, goroutine `t + 2` starts spans.
-/

namespace Monkit.Remote
open Go Returns

variable {traceOf : Nat → Nat} {accepts : Nat → Bool}

/-- Where a goroutine is. -/
inductive Pos where
  | pinger (l : KeepAlive.Loop)
  | request (m : Main) (f : FindSpan.Main) (t : KeepAlive.Stop)
  | span (p : FindSpan.PC) (m : MPC)

/-- Where the goroutines are. -/
def at_ (s : State) : Nat → Pos
  | 0 => .pinger s.k.loop
  | 1 => .request s.main s.f.main (s.k.thr 0)
  | t + 2 => .span (s.f.pc t) (s.m t)

/-- The pinger waits for the ticker or has finished, the request still waits for a span or has ended, no span is being started. -/
def Rests : Pos → Prop
  | .pinger l => l = .select ∨ l = .finished
  | .request m f _ => (m = .finding ∧ f = .watch) ∨ ∃ r, m = .returned r
  | .span p _ => p = .idle

/-- Steps left in FindSpan. -/
def leftF : FindSpan.Main → Nat
  | .watch => 9 | .cancel => 5 | .swap => 4 | .close => 3 | .out => 2 | .returned => 1

/-- Steps left in stop. -/
def leftK (t : KeepAlive.Stop) : Nat := KeepAlive.rankOf (.inr t)

/-- Steps left. -/
def left : Pos → Nat
  | .pinger l => KeepAlive.rankOf (.inl l)
  | .request .finding f t => 60 + leftF f * 10 + leftK t
  | .request .stop _ _ => 39
  | .request .stopping _ t => 25 + leftK t
  | .request .lock _ t => 20 + leftK t
  | .request .use _ _ => 19
  | .request (.unlock _) _ _ => 18
  | .request (.last _) _ _ => 17
  | .request (.lasting _) _ t => 5 + leftK t
  | .request (.returned _) _ _ => 0
  | .span .idle _ => 0
  | .span (.load _) _ => 20
  | .span (.ask _) _ => 19
  | .span (.asking _) m => match m with
    | .none => 10 | .pre _ => 18 | .want _ => 17 | .test _ => 16 | .set _ => 15 | .look _ => 14 | .call _ => 13 | .unlock => 12 | .done _ => 11 | .unlockFailed => 12 | .failed => 11
  | .span (.swap _) _ => 3
  | .span (.close _) _ => 2
  | .span (.out _) _ => 1

/-- In stop. -/
def Main.stops : Main → Bool
  | .stopping | .lasting _ => true
  | _ => false

/-- Only the request calls stop, and it is in it where it says so. -/
structure Calls (s : State) : Prop where
  zero : s.k.thr 0 ≠ .idle ↔ s.main.stops = true
  other : ∀ i, i ≠ 0 → s.k.thr i = .idle

theorem closing {tr k i} (h : KeepAlive.Inv tr k) (hi : k.thr i = .closing) : k.closed = false := by
  have h1 := (h.once i).2 hi
  cases hc : k.closed with
  | false => rfl
  | true => rw [h.closed.1 hc] at h1; cases h1

/-- A step of its own leaves a caller of stop in or out of it. -/
theorem ka_inside {tr k e k'} (h : KeepAlive.Inv tr k) (st : KeepAlive.Step k e k') (own : ∀ x, e = some x → KeepAlive.Event.own x = true) (i : Nat) :
    k'.thr i = .idle ↔ k.thr i = .idle := by
  cases st with
  | stopCall j hj => cases own _ rfl
  | stopRet j r hj => cases own _ rfl
  | closeAgain j hj hc => rw [closing h hj] at hc; cases hc
  | onceFirst j hj | onceDone j hj | close j hj | stopLock j hj | stopSet j hj | stopRead j hj =>
    simp only [FindSpan.upd_apply]
    split
    · next c => subst c; simp [hj]
    · rfl
  | _ => rfl

theorem calls_exec {tr : List Ev} {s : State} (h : Exec (Step traceOf accepts) init tr s) : Calls s := by
  have key : ∀ {tr s}, Exec (Step traceOf accepts) init tr s → KeepAlive.Inv (kaOf tr) s.k := fun h => KeepAlive.inv_exec (ka_exec h)
  induction h with
  | start => exact ⟨by simp [init, KeepAlive.init, Main.stops], fun i _ => rfl⟩
  | step e h st ih =>
    have hk := key h
    cases st with
    | ka e k' st own =>
      exact ⟨(not_congr (ka_inside hk st own 0)).trans ih.zero, fun i hi => (ka_inside hk st own i).2 (ih.other i hi)⟩
    | stop k' st hm | last r k' st hm =>
      cases st
      exact ⟨by simp [Main.stops], fun i hi => (upd_other _ _ hi).trans (ih.other i hi)⟩
    | stopOk k' st hm | stopErr k' e st hm | lastRet r x k' st hm =>
      cases st
      exact ⟨by simp [Main.stops], fun i hi => (upd_other _ _ hi).trans (ih.other i hi)⟩
    | found f' st hm | mlock hm | use T hm | crash hm | munlock r hm =>
      exact ⟨ih.zero.trans (by simp [hm, Main.stops]), ih.other⟩
    | _ => exact ⟨ih.zero, ih.other⟩

/-- The request goes on as soon as FindSpan has returned. -/
theorem busy {tr : List Ev} {s : State} (h : Exec (Step traceOf accepts) init tr s) : s.main = .finding → s.f.main ≠ .returned := by
  refine Exec.induct (fun _ s => s.main = .finding → s.f.main ≠ .returned) (by simp [init, FindSpan.init]) ?_ h
  intro tr s e s' ih st hm
  cases st with
  | find e f' st own =>
    cases st with
    | ret => cases own _ rfl
    | selectCtx | selectDone | detach | mswapSet | mswapZero | mclose => simp
    | _ => exact ih hm
  | ctx f' st => cases st; exact ih hm
  | ask t y f' st => cases st; exact ih hm
  | answer t y b f' st => cases st <;> exact ih hm
  | fails t y f' st => cases st; exact ih hm
  | found | stop | stopOk | stopErr | mlock | use | crash | munlock | last | lastRet => simp_all
  | _ => exact ih hm

theorem at_span {s s' : State} {t : Nat} (h0 : s'.k.loop = s.k.loop) (h1 : s'.main = s.main) (h2 : s'.f.main = s.f.main) (h3 : s'.k.thr 0 = s.k.thr 0)
    (hp : ∀ u, u ≠ t → s'.f.pc u = s.f.pc u) (hm : ∀ u, u ≠ t → s'.m u = s.m u) : ∀ u, u ≠ t + 2 → at_ s' u = at_ s u := by
  intro u hu
  match u with
  | 0 => simp [at_, h0]
  | 1 => simp [at_, h1, h2, h3]
  | u + 2 => simp only [at_]; rw [hp u (by omega), hm u (by omega)]

theorem at_request {s s' : State} (h0 : s'.k.loop = s.k.loop) (hp : s'.f.pc = s.f.pc) (hm : s'.m = s.m) : ∀ u, u ≠ 1 → at_ s' u = at_ s u := by
  intro u hu
  match u with
  | 0 => simp [at_, h0]
  | 1 => exact absurd rfl hu
  | u + 2 => simp [at_, hp, hm]

theorem at_pinger {s s' : State} (h1 : s'.main = s.main) (hf : s'.f = s.f) (h3 : s'.k.thr 0 = s.k.thr 0) (hm : s'.m = s.m) : ∀ u, u ≠ 0 → at_ s' u = at_ s u := by
  intro u hu
  match u with
  | 0 => exact absurd rfl hu
  | 1 => simp [at_, h1, hf, h3]
  | u + 2 => simp [at_, hf, hm]

theorem one {tr s e s'} (h : Exec (Step traceOf accepts) init tr s) (st : Step traceOf accepts s e s') :
    ∃ t, (∀ u, u ≠ t → at_ s' u = at_ s u) ∧ (¬ Rests (at_ s t) → at_ s' t ≠ at_ s t → left (at_ s' t) < left (at_ s t)) := by
  have c := calls_exec h
  have about := Exec.induct (fun _ s => ∀ t y, s.f.pc t = .asking y → (s.m t).about accepts y) (fun t y h => by cases h) (fun _ _ _ _ hi st => about_step hi st) h
  have inside := (inv_exec h).inside
  cases st with
  | ka e k' st own =>
    cases st with
    | stopCall j hj => cases own _ rfl
    | stopRet j r hj => cases own _ rfl
    | parent => cases own _ rfl
    | closeAgain j hj hc => rw [closing (KeepAlive.inv_exec (ka_exec h)) hj] at hc; cases hc
    | onceFirst j hj | onceDone j hj | close j hj | stopLock j hj | stopSet j hj | stopRead j hj =>
      have h0 : j = 0 := by
        by_contra hne
        rw [c.other j hne] at hj; cases hj
      subst h0
      have hs := c.zero.1 (by simp [hj])
      refine ⟨1, at_request rfl rfl rfl, fun _ _ => ?_⟩
      cases hm : s.main <;> simp [hm, Main.stops] at hs <;> simp [at_, left, hm, hj, leftK, KeepAlive.rankOf]
    | selectDone hl | selectCtx hl | selectTick hl =>
      exact ⟨0, at_pinger rfl rfl rfl rfl, fun hn => absurd (Or.inl hl) hn⟩
    | lock hl | checkStop hl | checkGo hl | quit hl | ping hl | pongOk _ hl | pongErr _ _ hl | setErr _ hl | unlockErr hl | cancel hl | unlock hl =>
      exact ⟨0, at_pinger rfl rfl rfl rfl, fun _ _ => by simp [at_, left, hl, KeepAlive.rankOf]⟩
  | find e f' st own =>
    cases st with
    | start t y hp => exact ⟨t + 2, at_span rfl rfl rfl rfl (fun u hu => upd_other _ _ hu) (fun _ _ => rfl), fun hn => absurd hp hn⟩
    | loadSet t y hp | loadZero t y hp | swapSet t y hp | swapZero t y hp | close t y hp | started t y hp =>
      exact ⟨t + 2, at_span rfl rfl rfl rfl (fun u hu => upd_other _ _ hu) (fun _ _ => rfl), fun _ _ => by simp [at_, left, hp]⟩
    | ask t y hp => cases own _ rfl
    | no t y hp => cases own _ rfl
    | yes t y hp => cases own _ rfl
    | panics t y hp => cases own _ rfl
    | ctxDone => cases own _ rfl
    | ret => cases own _ rfl
    | selectCtx hw | selectDone hw =>
      refine ⟨1, at_request rfl rfl rfl, fun hn => absurd ?_ hn⟩
      have hm : s.main = .finding := by
        by_contra hne
        rw [(inv_exec h).main hne] at hw; cases hw
      exact Or.inl ⟨hm, hw⟩
    | detach hw | mswapSet hw | mswapZero hw | mclose hw =>
      refine ⟨1, at_request rfl rfl rfl, fun _ _ => ?_⟩
      have hm : s.main = .finding := by
        by_contra hne
        rw [(inv_exec h).main hne] at hw; cases hw
      simp [at_, left, hm, hw, leftF]
  | ctx f' st hc => cases st; exact ⟨1, at_request rfl rfl rfl, fun _ hne => absurd rfl hne⟩
  | ask t y f' st =>
    cases st with
    | ask _ _ hp => exact ⟨t + 2, at_span rfl rfl rfl rfl (fun u hu => upd_other _ _ hu) (fun u hu => upd_other _ _ hu), fun _ _ => by simp [at_, left, hp]⟩
  | answer t y b f' st hb =>
    cases st with
    | no _ _ hp | yes _ _ hp =>
      exact ⟨t + 2, at_span rfl rfl rfl rfl (fun u hu => upd_other _ _ hu) (fun u hu => upd_other _ _ hu), fun _ _ => by simp [at_, left, hp, hb]⟩
  | fails t y f' st hb =>
    cases st with
    | panics _ _ hp =>
      exact ⟨t + 2, at_span rfl rfl rfl rfl (fun u hu => upd_other _ _ hu) (fun u hu => upd_other _ _ hu), fun _ _ => by simp [at_, left, hp, hb]⟩
  | no t y hq | yes t y hq | lock t y hq | old t y hq | new t y hq | sampled t y hq | noCallback t y hq | hasCallback t y hq | callback t y hq | unlock t hq | callbackPanics t y hq | unlockFailed t hq =>
    obtain ⟨z, hp⟩ := inside t (by simp [hq])
    exact ⟨t + 2, at_span rfl rfl rfl rfl (fun _ _ => rfl) (fun u hu => upd_other _ _ hu), fun _ _ => by simp [at_, left, hp, hq]⟩
  | found f' st hm =>
    cases st
    exact ⟨1, at_request rfl rfl rfl, fun _ _ => by simp [at_, left, hm]; omega⟩
  | stop k' st hm =>
    cases st
    exact ⟨1, at_request rfl rfl rfl, fun _ _ => by simp [at_, left, hm, leftK, KeepAlive.rankOf]⟩
  | stopOk k' st hm =>
    cases st with
    | stopRet _ _ hr => exact ⟨1, at_request rfl rfl rfl, fun _ _ => by simp [at_, left, hm, hr, leftK, KeepAlive.rankOf]⟩
  | stopErr k' e st hm =>
    cases st with
    | stopRet _ _ hr => exact ⟨1, at_request rfl rfl rfl, fun _ _ => by simp [at_, left, hm, hr, leftK, KeepAlive.rankOf]⟩
  | last r k' st hm =>
    cases st
    exact ⟨1, at_request rfl rfl rfl, fun _ _ => by simp [at_, left, hm, leftK, KeepAlive.rankOf]⟩
  | lastRet r x k' st hm =>
    cases st with
    | stopRet _ _ hr => exact ⟨1, at_request rfl rfl rfl, fun _ _ => by simp [at_, left, hm, hr, leftK, KeepAlive.rankOf]⟩
  | mlock hm | use T hm | crash hm | munlock r hm =>
    exact ⟨1, at_request rfl rfl rfl, fun _ _ => by simp [at_, left, hm]; try omega⟩
  | ends r hm => exact ⟨1, fun _ _ => rfl, fun _ hne => absurd rfl hne⟩

theorem go {tr s t} (h : Exec (Step traceOf accepts) init tr s) (ht : ¬ Rests (at_ s t)) :
    ∃ u e s', ¬ Rests (at_ s u) ∧ Step traceOf accepts s e s' ∧ at_ s' u ≠ at_ s u := by
  have c := calls_exec h
  have i := inv_exec h
  have about := Exec.induct (fun _ s => ∀ t y, s.f.pc t = .asking y → (s.m t).about accepts y) (fun t y h => by cases h) (fun _ _ _ _ hi st => about_step hi st) h
  have request : ∀ {e s'}, Step traceOf accepts s e s' → ¬ Rests (at_ s 1) → s'.main ≠ s.main ∨ s'.f.main ≠ s.f.main ∨ s'.k.thr 0 ≠ s.k.thr 0 →
      ∃ u e s', ¬ Rests (at_ s u) ∧ Step traceOf accepts s e s' ∧ at_ s' u ≠ at_ s u := fun st hn hne =>
    ⟨1, _, _, hn, st, fun hh => by simp only [at_, Pos.request.injEq] at hh; grind⟩
  have span : ∀ {e s'} t, Step traceOf accepts s e s' → s.f.pc t ≠ .idle → s'.f.pc t ≠ s.f.pc t ∨ s'.m t ≠ s.m t →
      ∃ u e s', ¬ Rests (at_ s u) ∧ Step traceOf accepts s e s' ∧ at_ s' u ≠ at_ s u := fun t st hn hne =>
    ⟨t + 2, _, _, hn, st, fun hh => by simp only [at_, Pos.span.injEq] at hh; grind⟩
  have own0 : ∀ x : FindSpan.Ev, (none : Option FindSpan.Ev) = some x → FindSpan.Ev.own x = true := fun x hx => by cases hx
  have inStop : s.main.stops = true → ¬ Rests (at_ s 1) := by
    intro hs
    cases hm : s.main <;> simp [hm, Main.stops] at hs <;> simp [at_, Rests, hm]
  have ka : (∃ t, ¬ KeepAlive.Rests (KeepAlive.at_ s.k t)) → ∃ u e s', ¬ Rests (at_ s u) ∧ Step traceOf accepts s e s' ∧ at_ s' u ≠ at_ s u := by
    intro hk
    obtain ⟨b, hb⟩ := KeepAlive.C58_returns (ka_exec h)
    obtain ⟨e, k', st, nc, hne⟩ := (hb 0 s.k .start).2 hk
    obtain ⟨u, hu⟩ : ∃ u, KeepAlive.at_ k' u ≠ KeepAlive.at_ s.k u := by
      by_contra hh
      exact hne (funext fun u => by by_contra h'; exact hh ⟨u, h'⟩)
    have hr : ¬ KeepAlive.Rests (KeepAlive.at_ s.k u) := fun hr => hu (nc u hr)
    have fin : ∀ {e' s'}, Step traceOf accepts s e' s' → s'.k = k' → ∃ u e s', ¬ Rests (at_ s u) ∧ Step traceOf accepts s e s' ∧ at_ s' u ≠ at_ s u := by
      intro e' s' st' hk'
      match u with
      | 0 => exact ⟨0, _, _, hr, st', fun hh => hu (by simp only [at_, Pos.pinger.injEq, hk'] at hh; simp [KeepAlive.at_, hh])⟩
      | 1 =>
        have h0 : s.k.thr 0 ≠ .idle := hr
        exact request st' (inStop (c.zero.1 h0)) (.inr (.inr fun hh => hu (by rw [hk'] at hh; simp [KeepAlive.at_, hh])))
      | u + 2 => exact absurd (c.other (u + 1) (by omega)) hr
    cases e with
    | none => exact fin (.ka s none k' st (fun x hx => by cases hx)) rfl
    | some x =>
      cases x with
      | ping => exact fin (.ka s _ k' st (fun x hx => by cases hx; rfl)) rfl
      | pong o => exact fin (.ka s _ k' st (fun x hx => by cases hx; rfl)) rfl
      | cancel => exact fin (.ka s _ k' st (fun x hx => by cases hx; rfl)) rfl
      | parentDone => cases st; exact absurd (by cases u <;> rfl) hu
      | stopCall j =>
        cases st with
        | stopCall _ hj =>
          have := nc (j + 1) hj
          simp [KeepAlive.at_, hj] at this
      | stopRet j r =>
        have hj : s.k.thr j = .ret r := by cases st; assumption
        have h0 : j = 0 := by
          by_contra hne
          rw [c.other j hne] at hj; cases hj
        subst h0
        have hs := c.zero.1 (by simp [hj])
        cases hm : s.main with
        | stopping =>
          cases r with
          | none => exact fin (.stopOk s k' st hm) rfl
          | some e => exact fin (.stopErr s k' e st hm) rfl
        | lasting r' => exact fin (.lastRet s r' r k' st hm) rfl
        | _ => simp [hm, Main.stops] at hs
  have matcher : ∀ t, (s.m t).holds = true → ∃ u e s', ¬ Rests (at_ s u) ∧ Step traceOf accepts s e s' ∧ at_ s' u ≠ at_ s u := by
    intro t hh
    have hm : s.m t ≠ .none := by rintro h0; simp [h0, MPC.holds] at hh
    obtain ⟨y, hp⟩ := i.inside t hm
    have hn : s.f.pc t ≠ .idle := by simp [hp]
    cases hq : s.m t with
    | test y =>
      by_cases hc : s.trace = none
      · exact span t (.new s t y hq hc) hn (.inr (by simp [hq]))
      · exact span t (.old s t y hq hc) hn (.inr (by simp [hq]))
    | set y => exact span t (.sampled s t y hq) hn (.inr (by simp [hq]))
    | look y => exact span t (.noCallback s t y hq) hn (.inr (by simp [hq]))
    | call y => exact span t (.callback s t y hq) hn (.inr (by simp [hq]))
    | unlock => exact span t (.unlock s t hq) hn (.inr (by simp [hq]))
    | unlockFailed => exact span t (.unlockFailed s t hq) hn (.inr (by simp [hq]))
    | _ => simp [hq, MPC.holds] at hh
  have holder : s.mtx ≠ none → ∃ u e s', ¬ Rests (at_ s u) ∧ Step traceOf accepts s e s' ∧ at_ s' u ≠ at_ s u := by
    intro hne
    obtain ⟨w, hw⟩ := Option.ne_none_iff_exists'.1 hne
    cases w with
    | thr t => exact matcher t ((i.mt t).1 hw)
    | main =>
      have hh := i.mm.1 hw
      cases hm : s.main with
      | use =>
        cases hT : s.trace with
        | none => exact request (.crash s hm hT) (by simp [at_, Rests, hm]) (.inl (by simp [hm]))
        | some T => exact request (.use s T hm hT) (by simp [at_, Rests, hm]) (.inl (by simp [hm]))
      | unlock r => exact request (.munlock s r hm) (by simp [at_, Rests, hm]) (.inl (by simp [hm]))
      | _ => simp [hm, Main.holds] at hh
  match t with
  | 0 => exact ka ⟨0, ht⟩
  | 1 =>
    cases hm : s.main with
    | finding =>
      cases hf : s.f.main with
      | watch => exact absurd (.inl ⟨hm, hf⟩) ht
      | cancel => exact request (.find s (some .detach) _ (.detach _ hf) (fun x hx => by cases hx; rfl)) ht (.inr (.inl (by simp [hf])))
      | swap =>
        cases hc : s.f.flag with
        | true => exact request (.find s none _ (.mswapSet _ hf hc) own0) ht (.inr (.inl (by simp [hf])))
        | false => exact request (.find s none _ (.mswapZero _ hf hc) own0) ht (.inr (.inl (by simp [hf])))
      | close => exact request (.find s none _ (.mclose _ hf) own0) ht (.inr (.inl (by simp [hf])))
      | out => exact request (.found s _ (.ret _ hf) hm) ht (.inl (by simp [hm]))
      | returned => exact absurd hf (busy h hm)
    | stop =>
      have h0 : s.k.thr 0 = .idle := by
        by_contra hne
        simpa [hm, Main.stops] using c.zero.1 hne
      exact request (.stop s _ (.stopCall _ 0 h0) hm) ht (.inl (by simp [hm]))
    | stopping => exact ka ⟨1, c.zero.2 (by simp [hm, Main.stops])⟩
    | lock =>
      by_cases hx : s.mtx = none
      · exact request (.mlock s hm hx) ht (.inl (by simp [hm]))
      · exact holder hx
    | use => exact holder (by rw [i.mm.2 (by simp [hm, Main.holds])]; simp)
    | unlock r => exact request (.munlock s r hm) ht (.inl (by simp [hm]))
    | last r =>
      have h0 : s.k.thr 0 = .idle := by
        by_contra hne
        simpa [hm, Main.stops] using c.zero.1 hne
      exact request (.last s r _ (.stopCall _ 0 h0) hm) ht (.inl (by simp [hm]))
    | lasting r => exact ka ⟨1, c.zero.2 (by simp [hm, Main.stops])⟩
    | returned r => exact absurd (.inr ⟨r, hm⟩) ht
  | t + 2 =>
    have hn : s.f.pc t ≠ .idle := ht
    cases hp : s.f.pc t with
    | idle => exact absurd hp hn
    | load y =>
      cases hc : s.f.flag with
      | true => exact span t (.find s none _ (.loadSet _ t y hp hc) own0) hn (.inl (by simp [hp]))
      | false => exact span t (.find s none _ (.loadZero _ t y hp hc) own0) hn (.inl (by simp [hp]))
    | ask y => exact span t (.ask s t y _ (.ask _ t y hp)) hn (.inl (by simp [hp]))
    | asking y =>
      have ha := about t y hp
      cases hq : s.m t with
      | none => rw [hq] at ha; exact absurd ha (by simp [MPC.about])
      | pre z =>
        cases hz : accepts z with
        | false => exact span t (.no s t z hq hz) hn (.inr (by simp [hq]))
        | true => exact span t (.yes s t z hq hz) hn (.inr (by simp [hq]))
      | want z =>
        by_cases hx : s.mtx = none
        · exact span t (.lock s t z hq hx) hn (.inr (by simp [hq]))
        · exact holder hx
      | done b =>
        cases b with
        | false => exact span t (.answer s t y false _ (.no _ t y hp) hq) hn (.inl (by simp [hp]))
        | true => exact span t (.answer s t y true _ (.yes _ t y hp) hq) hn (.inl (by simp [hp]))
      | failed => exact span t (.fails s t y _ (.panics _ t y hp) hq) hn (.inl (by simp [hp]))
      | _ => exact matcher t (by simp [hq, MPC.holds])
    | swap y =>
      cases hc : s.f.flag with
      | true => exact span t (.find s none _ (.swapSet _ t y hp hc) own0) hn (.inl (by simp [hp]))
      | false => exact span t (.find s none _ (.swapZero _ t y hp hc) own0) hn (.inl (by simp [hp]))
    | close y => exact span t (.find s none _ (.close _ t y hp) own0) hn (.inl (by simp [hp]))
    | out y => exact span t (.find s (some (.started t y)) _ (.started _ t y hp) (fun x hx => by cases hx; rfl)) hn (.inl (by simp [hp]))

/-- **C86**, the request returns: once it no longer waits for a span, and if the ticker does not fire again and no further spans are started, the request, the
goroutine that pings and the goroutines that start spans take only so many further steps, whichever runs when, and while one of them has not come to
its end, one can go on. -/
theorem C86_returns {tr : List Ev} {s : State} (h : Exec (Step traceOf accepts) init tr s) : AllReturn (Step traceOf accepts) at_ Rests s := by
  refine allReturn (rank := left) ?_ (fun tr s e s' h st => one h st) (fun tr s t h ht => go h ht) h
  intro t
  match t with
  | 0 => exact .inl rfl
  | 1 => exact .inl ⟨rfl, rfl⟩
  | t + 2 => rfl

theorem found_flag {tr : List FindSpan.Ev} {f : FindSpan.State} (h : Exec FindSpan.Step FindSpan.init tr f) :
    FindSpan.Found tr → f.flag = true ∨ ∃ t y, f.pc t = .swap y := by
  refine Exec.induct (fun tr f => FindSpan.Found tr → f.flag = true ∨ ∃ t y, f.pc t = .swap y) ?_ ?_ h
  · rintro ⟨t, y, hh⟩; simp at hh
  · intro tr f e f' ih st hF
    have keep : ∀ {t : Nat} {v : FindSpan.PC}, (∀ y, f.pc t ≠ .swap y) → (f.flag = true ∨ ∃ t y, f.pc t = .swap y) →
        f.flag = true ∨ ∃ u y, upd f.pc t v u = .swap y := by
      intro t v ht hh
      rcases hh with hh | ⟨u, y, hu⟩
      · exact .inl hh
      · exact .inr ⟨u, y, by rw [upd_other _ _ (by rintro rfl; exact ht y hu)]; exact hu⟩
    have old : (∀ t y, e ≠ some (.answer t y true)) → FindSpan.Found tr := by
      intro hne
      obtain ⟨t, y, hy⟩ := hF
      rcases List.mem_append.1 hy with hy | hy
      · exact ⟨t, y, hy⟩
      · exact absurd (by simpa using hy) (hne t y)
    cases st with
    | yes t y hp => exact .inr ⟨t, y, by simp⟩
    | swapSet t y hp c => exact .inl c
    | swapZero t y hp c => exact .inl rfl
    | mswapZero hm c => exact .inl rfl
    | start t y hp | loadSet t y hp | loadZero t y hp | ask t y hp | no t y hp | close t y hp | started t y hp | panics t y hp =>
      exact keep (by simp [hp]) (ih (old (by simp)))
    | _ => exact ih (old (by simp))

/-- **C86**, the wait ends: if a span has been accepted or the context has been cancelled, because a ping failed, and the goroutines that start spans
have come to rest, a request that still waits can leave the wait. -/
theorem C86_wakes {tr : List Ev} {s : State} (h : Exec (Step traceOf accepts) init tr s)
    (hr : (∃ t y, Ev.find (.answer t y true) ∈ tr) ∨ Ev.ka .cancel ∈ tr) (hs : ∀ t, s.f.pc t = .idle) (hm : s.main = .finding) (hw : s.f.main = .watch) :
    ∃ tr' s', Exec (Step traceOf accepts) s tr' s' ∧ ¬ Rests (at_ s' 1) := by
  have own0 : ∀ x : FindSpan.Ev, (none : Option FindSpan.Ev) = some x → FindSpan.Ev.own x = true := fun x hx => by cases hx
  rcases hr with ⟨t, y, hy⟩ | hc
  · have hF : FindSpan.Found (findOf tr) := ⟨t, y, List.mem_filterMap.2 ⟨_, hy, rfl⟩⟩
    have hf := FindSpan.inv_exec (find_exec h)
    have flag : s.f.flag = true := by
      rcases found_flag (find_exec h) hF with hh | ⟨t, y, hh⟩
      · exact hh
      · rw [hs t] at hh; cases hh
    have one : s.f.closes = 1 := by
      rcases hf.flag1 flag with hh | ⟨t, y, hh⟩ | hh
      · exact hh
      · rw [hs t] at hh; cases hh
      · rw [hw] at hh; cases hh
    have e := (Exec.start (step := Step traceOf accepts) (s₀ := s)).step _ (.find s none _ (.selectDone _ hw (by omega)) own0)
    exact ⟨_, _, e, by simp [at_, Rests, hm]⟩
  · have hk : s.k.cancelled = true := by
      have key : ∀ {tr k}, Exec KeepAlive.Step KeepAlive.init tr k → KeepAlive.Event.cancel ∈ tr → k.cancelled = true := by
        intro tr k hx
        refine Exec.induct (fun tr k => KeepAlive.Event.cancel ∈ tr → k.cancelled = true) (by simp) ?_ hx
        intro tr k e k' ih st hh
        cases st <;> simp_all
      exact key (ka_exec h) (List.mem_filterMap.2 ⟨_, hc, rfl⟩)
    have e := (Exec.start (step := Step traceOf accepts) (s₀ := s)).step _ (.ctx s _ (.ctxDone _) hk)
    have e := e.step _ (.find _ none _ (.selectCtx _ hw rfl) own0)
    exact ⟨_, _, e, by simp [at_, Rests, hm]⟩

/-- A span is accepted; the request still waits, and there is something to return from. -/
example : (∃ s tr, Exec (Step (fun y => 100 + y) (fun _ => true)) init tr s ∧ Ev.find (.answer 0 10 true) ∈ tr ∧ (∀ t, s.f.pc t = .idle) ∧
      s.main = .finding ∧ s.f.main = .watch) ∧
    ∃ s tr, Exec (Step (fun y => 100 + y) (fun _ => true)) init tr s ∧ s.main = .stopping ∧ ¬ Rests (at_ s 1) := by
  have e := Exec.start (step := Step (fun y => 100 + y) (fun _ => true)) (s₀ := init)
  have e := e.step _ (.find _ (some (.start 0 10)) _ (.start _ 0 10 rfl) (by simp [FindSpan.Ev.own]))
  have e := e.step _ (.find _ (none) _ (.loadZero _ 0 10 rfl rfl) (by simp [FindSpan.Ev.own]))
  have e := e.step _ (.ask _ 0 10 _ (.ask _ 0 10 rfl))
  have e := e.step _ (.yes _ 0 10 rfl rfl)
  have e := e.step _ (.lock _ 0 10 rfl rfl)
  have e := e.step _ (.new _ 0 10 rfl rfl)
  have e := e.step _ (.sampled _ 0 10 rfl)
  have e := e.step _ (.noCallback _ 0 10 rfl)
  have e := e.step _ (.unlock _ 0 rfl)
  have e := e.step _ (.answer _ 0 10 true _ (.yes _ 0 10 rfl) rfl)
  have e := e.step _ (.find _ (none) _ (.swapZero _ 0 10 rfl rfl) (by simp [FindSpan.Ev.own]))
  have e := e.step _ (.find _ (none) _ (.close _ 0 10 rfl) (by simp [FindSpan.Ev.own]))
  have e := e.step _ (.find _ (some (.started 0 10)) _ (.started _ 0 10 rfl) (by simp [FindSpan.Ev.own]))
  refine ⟨⟨_, _, e, by simp, fun t => ?_, rfl, rfl⟩, ?_⟩
  · by_cases ht : t = 0
    · subst ht; rfl
    · simp [upd, ht, init, FindSpan.init]
  have e := e.step _ (.find _ (none) _ (.selectDone _ rfl (by decide)) (by simp [FindSpan.Ev.own]))
  have e := e.step _ (.find _ (some .detach) _ (.detach _ rfl) (by simp [FindSpan.Ev.own]))
  have e := e.step _ (.find _ (none) _ (.mswapSet _ rfl rfl) (by simp [FindSpan.Ev.own]))
  have e := e.step _ (.found _ _ (.ret _ rfl) rfl)
  have e := e.step _ (.stop _ _ (.stopCall _ 0 rfl) rfl)
  exact ⟨_, _, e, rfl, by simp [at_, Rests]⟩

end Monkit.Remote
