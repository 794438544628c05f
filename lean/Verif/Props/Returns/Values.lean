import Verif.Proofs.Returns
import Verif.Props.CounterConc
import Verif.Props.BoolVal
import Verif.Props.Delta
import Verif.Props.DiffConc
import Verif.Props.TagsConc
import Verif.Props.Annotations

/-!
# C109: calls return – values, transformers, tags, annotations
-/

open Returns

namespace Go.Mutex
variable {S L Op Ret : Type}

/-- Steps left. -/
def PC.left (o : Obj S L Op Ret) : PC S L Op → Nat
  | .idle => 0
  | .waiting op => (o.body op).length + 2
  | .inside _ rest _ => rest.length + 1

/-- Inside the critical section. -/
def PC.locked : PC S L Op → Bool
  | .inside _ _ _ => true
  | _ => false

theorem exec_eq {o : Obj S L Op Ret} {s₀ : S} {tr c} (h : Exec o s₀ tr c) : Go.Exec (Step o) (Config.init s₀) tr c := by
  induction h with
  | start => exact .start
  | step e _ st ih => exact .step e ih st

theorem upd_eq {α : Type} (f : Nat → α) (t : Nat) (v : α) : upd f t v = Go.upd f t v := rfl

theorem owner {o : Obj S L Op Ret} {s₀ : S} {tr c} (h : Go.Exec (Step o) (Config.init s₀) tr c) : c.held = true → ∃ t, (c.thr t).locked = true := by
  refine h.induct (fun _ s => s.held = true → ∃ t, (s.thr t).locked = true) (by simp [Config.init]) ?_
  intro tr s e s' ih st
  cases st <;> exact owner_upd ih (by simp_all [PC.locked])

/-- **C109** for every type whose methods lock one mutex: Counter, the values, Timer, Meter, the mutex-based atomics. -/
theorem C109_mutex (o : Obj S L Op Ret) {s₀ : S} {tr c} (h : Exec o s₀ tr c) : AllReturn (Step o) Config.thr (· = .idle) c := by
  refine allReturn (by simp [Config.init]) (PC.left o) ?_ ?_ (exec_eq h)
  · intro tr s e s' h st
    cases st with
    | call t _ hp => exact ⟨t, fun u hu => Go.upd_other _ _ hu, fun hi => absurd hp hi⟩
    | lock t _ hp | access t _ _ _ _ hp | unlock t _ _ hp =>
      refine ⟨t, fun u hu => Go.upd_other _ _ hu, fun _ _ => ?_⟩
      simp [hp, PC.left, upd_eq]
  · intro tr s t h ht
    have go : ∀ u, (s.thr u).locked = true → ∃ u e s', s.thr u ≠ .idle ∧ Step o s e s' ∧ s'.thr u ≠ s.thr u := by
      intro u hu
      cases hp : s.thr u with
      | inside op rest l =>
        cases rest with
        | nil => exact ⟨u, _, _, by simp [hp], .unlock s u op l hp, by simp [hp, upd_eq]⟩
        | cons f rest => exact ⟨u, _, _, by simp [hp], .access s u op f rest l hp, by simp [hp, upd_eq]⟩
      | _ => simp [hp, PC.locked] at hu
    by_cases hl : s.held = true
    · obtain ⟨u, hu⟩ := owner h hl
      exact go u hu
    · rw [Bool.not_eq_true] at hl
      cases hp : s.thr t with
      | idle => exact absurd hp ht
      | waiting op => exact ⟨t, _, _, ht, .lock s t op hp hl, by simp [hp, upd_eq]⟩
      | inside op rest l => exact go t (by simp [hp, PC.locked])

end Go.Mutex

open Go

namespace Monkit.BoolVal

/-- Steps left. -/
def PC.left : PC → Nat
  | .idle => 0
  | .add _ => 3
  | .store _ => 2
  | .ret _ => 1
  | .ld1 => 4
  | .ld2 _ => 3
  | .ld3 _ _ => 2
  | .rep _ _ _ => 1

/-- **C109** for a BoolVal. -/
theorem C109_boolval {tr s} (h : Exec Step init tr s) : AllReturn Step State.thr (· = .idle) s := by
  refine allReturn (by simp [init]) PC.left ?_ ?_ h
  · intro tr s e s' h st
    cases st with
    | begin t _ hp | ask t hp => exact ⟨t, fun u hu => upd_other _ _ hu, fun hi => absurd hp hi⟩
    | addTrue t hp | addFalse t hp | storeTrue t hp | storeFalse t hp | finish t _ hp | load1 t hp | load2 t _ hp | load3 t _ _ hp | report t _ _ _ hp =>
      refine ⟨t, fun u hu => upd_other _ _ hu, fun _ _ => ?_⟩
      simp [hp, PC.left]
  · intro tr s t h ht
    cases hp : s.thr t with
    | idle => exact absurd hp ht
    | add v =>
      cases v
      · exact ⟨t, _, _, ht, .addFalse s t hp, by simp [hp]⟩
      · exact ⟨t, _, _, ht, .addTrue s t hp, by simp [hp]⟩
    | store v =>
      cases v
      · exact ⟨t, _, _, ht, .storeFalse s t hp, by simp [hp]⟩
      · exact ⟨t, _, _, ht, .storeTrue s t hp, by simp [hp]⟩
    | ret v => exact ⟨t, _, _, ht, .finish s t v hp, by simp [hp]⟩
    | ld1 => exact ⟨t, _, _, ht, .load1 s t hp, by simp [hp]⟩
    | ld2 a => exact ⟨t, _, _, ht, .load2 s t a hp, by simp [hp]⟩
    | ld3 a b => exact ⟨t, _, _, ht, .load3 s t a b hp, by simp [hp]⟩
    | rep a b c => exact ⟨t, _, _, ht, .report s t a b c hp, by simp [hp]⟩

end Monkit.BoolVal

namespace Monkit.Delta
variable {V : Type}

/-- Positions at which the mutex is held. -/
def PC.inLock : PC V → Bool
  | .locked _ | .unlock _ _ => true
  | _ => false

/-- Steps left. -/
def PC.left : PC V → Nat
  | .idle => 0
  | .pass _ => 2
  | .lock _ => 6
  | .locked _ => 5
  | .unlock _ _ => 4
  | .total _ _ => 3
  | .delta _ (some _) => 2
  | .delta _ none => 1

theorem owner' {sub : V → V → V} {wf tr s} (h : Exec (Step sub wf) State.init tr s) : ∀ t, s.lock = some t → (s.pc t).inLock = true := by
  refine h.induct (fun _ s => ∀ t, s.lock = some t → (s.pc t).inLock = true) (by simp [State.init]) ?_
  intro tr s e s' ih st u hu
  cases st <;> simp only [upd] at * <;> grind [PC.inLock]

/-- **C109** for what a DeltaTransformer does with each value. -/
theorem C109_delta {sub : V → V → V} {wf tr s} (h : Exec (Step sub wf) State.init tr s) :
    AllReturn (Step sub wf) State.pc (· = .idle) s := by
  refine allReturn (by simp [State.init]) PC.left ?_ ?_ h
  · intro tr s e s' h st
    cases st with
    | callPass t _ hp | callTotal t _ hp => exact ⟨t, fun u hu => upd_other _ _ hu, fun hi => absurd hp hi⟩
    | total t x o hp =>
      refine ⟨t, fun u hu => upd_other _ _ hu, fun _ _ => ?_⟩
      cases o <;> simp [hp, PC.left]
    | pass t _ hp | lock t _ hp | swap t _ hp | unlock t _ _ hp | delta t _ _ hp | ret t _ hp =>
      refine ⟨t, fun u hu => upd_other _ _ hu, fun _ _ => ?_⟩
      simp [hp, PC.left]
  · intro tr s t h ht
    have go : ∀ u, (s.pc u).inLock = true → ∃ u e s', s.pc u ≠ .idle ∧ Step sub wf s e s' ∧ s'.pc u ≠ s.pc u := by
      intro u hu
      cases hp : s.pc u with
      | locked x => exact ⟨u, _, _, by simp [hp], .swap s u x hp, by simp [hp]⟩
      | unlock x o => exact ⟨u, _, _, by simp [hp], .unlock s u x o hp, by simp [hp]⟩
      | _ => simp [hp, PC.inLock] at hu
    by_cases hl : s.lock = none
    · cases hp : s.pc t with
      | idle => exact absurd hp ht
      | pass x => exact ⟨t, _, _, by simp [hp], .pass s t x hp, by simp [hp]⟩
      | lock x => exact ⟨t, _, _, by simp [hp], .lock s t x hp hl, by simp [hp]⟩
      | total x o => exact ⟨t, _, _, by simp [hp], .total s t x o hp, by simp [hp]⟩
      | delta x o =>
        cases o with
        | none => exact ⟨t, _, _, by simp [hp], .ret s t x hp, by simp [hp]⟩
        | some o => exact ⟨t, _, _, by simp [hp], .delta s t x o hp, by simp [hp]⟩
      | _ => exact go t (by simp [hp, PC.inLock])
    · obtain ⟨u, hu⟩ := Option.ne_none_iff_exists'.1 hl
      exact go u (owner' h u hu)

end Monkit.Delta

namespace Monkit.DiffConc

/-- Steps left. -/
def Pc.left : Pc → Nat
  | .idle => 0
  | .change _ _ => 2
  | .stats _ _ _ => 4
  | .read1 _ _ _ _ => 3
  | .read2 _ _ _ _ _ _ => 2
  | .ret _ _ => 1

/-- **C109** for meters and `Stats` of DiffMeters on them. -/
theorem C109_diffmeter {key born tr s} (h : Exec Step (init key born) tr s) : AllReturn Step State.pc (· = .idle) s := by
  refine allReturn (by simp [init]) Pc.left ?_ ?_ h
  · intro tr s e s' h st
    cases st with
    | time n hn => exact ⟨0, fun u hu => rfl, fun _ hm => absurd rfl hm⟩
    | callChange t _ _ hp | callStats t _ _ _ hp => exact ⟨t, fun u hu => upd_other _ _ hu, fun hi => absurd hp hi⟩
    | change t _ _ _ hp | changePanic t _ _ hp | clock t _ _ _ hp | read1 t _ _ _ _ _ _ hp | read1Panic t _ _ _ _ hp | read2 t _ _ _ _ _ _ _ _ hp
    | read2Panic t _ _ _ _ _ _ hp | ret t _ _ hp =>
      refine ⟨t, fun u hu => upd_other _ _ hu, fun _ _ => ?_⟩
      simp [hp, Pc.left]
  · intro tr s t h ht
    cases hp : s.pc t with
    | idle => exact absurd hp ht
    | change i o =>
      cases hc : (s.meter i).step o with
      | none => exact ⟨t, _, _, ht, .changePanic s t i o hp hc, by simp [hp]⟩
      | some m => exact ⟨t, _, _, ht, .change s t i o m hp hc, by simp [hp]⟩
    | stats k a b => exact ⟨t, _, _, ht, .clock s t k a b hp, by simp [hp]⟩
    | read1 k a b now =>
      cases hc : (s.meter a).statsAt now with
      | none => exact ⟨t, _, _, ht, .read1Panic s t k a b now hp hc, by simp [hp]⟩
      | some m => exact ⟨t, _, _, ht, .read1 s t k a b now m.1 m.2 hp hc, by simp [hp]⟩
    | read2 k a b now r n =>
      cases hc : (s.meter b).statsAt now with
      | none => exact ⟨t, _, _, ht, .read2Panic s t k a b now r n hp hc, by simp [hp]⟩
      | some m => exact ⟨t, _, _, ht, .read2 s t k a b now r n m.1 m.2 hp hc, by simp [hp]⟩
    | ret op res => exact ⟨t, _, _, ht, .ret s t op res hp, by simp [hp]⟩

end Monkit.DiffConc

namespace Monkit.TagsConc

/-- Steps left. -/
def Pc.left : Pc → Nat
  | .idle => 0
  | .check => 6
  | .build => 5
  | .store _ => 4
  | .rest _ _ => 3
  | .load => 2
  | .gotPtr _ | .gotLen _ => 1

/-- **C109** for `String` of a shared tag set. -/
theorem C109_tags {may all tr s} (hm : ∃ h, may h) (h : Exec (Step may) (init all) tr s) : AllReturn (Step may) State.thr (· = .idle) s := by
  refine allReturn (by simp [init]) Pc.left ?_ ?_ h
  · intro tr s e s' h st
    cases st with
    | call t hp => exact ⟨t, fun u hu => upd_other _ _ hu, fun hi => absurd hp hi⟩
    | hit t hp | miss t hp | build t _ hp | store t _ _ hp | rest t _ _ hp | loadPtr t hp | loadLen t hp | retLen t _ hp | retPtr t _ hp =>
      refine ⟨t, fun u hu => upd_other _ _ hu, fun _ _ => ?_⟩
      simp [hp, Pc.left]
  · intro tr s t h ht
    cases hp : s.thr t with
    | idle => exact absurd hp ht
    | check =>
      by_cases hc : s.str.len = 0
      · exact ⟨t, _, _, ht, .miss s t hp hc, by simp [hp]⟩
      · exact ⟨t, _, _, ht, .hit s t hp hc, by simp [hp]⟩
    | build => exact ⟨t, _, _, ht, .build s t s.all hp (List.Perm.refl _), by simp [hp]⟩
    | store v =>
      obtain ⟨x, hx⟩ := hm
      exact ⟨t, _, _, ht, .store s t v x hp hx, by simp [hp]⟩
    | rest x v => exact ⟨t, _, _, ht, .rest s t v x hp, by simp [hp]⟩
    | load => exact ⟨t, _, _, ht, .loadPtr s t hp, by simp [hp]⟩
    | gotPtr p => exact ⟨t, _, _, ht, .retLen s t p hp, by simp [hp]⟩
    | gotLen n => exact ⟨t, _, _, ht, .retPtr s t n hp, by simp [hp]⟩

end Monkit.TagsConc

namespace Monkit.Annotations

/-- Positions at which the mutex is held. -/
def PC.locked : PC → Bool
  | .inside _ | .added | .loaded _ => true
  | _ => false

/-- Steps left, there being at most `M` annotations. -/
def PC.left (M : Nat) : PC → Nat
  | .idle => 0
  | .waiting (.annotate _) => 3
  | .inside (.annotate _) => 2
  | .added => 1
  | .waiting .annotations => M + 5
  | .inside .annotations => M + 4
  | .loaded h => h.len + 3
  | .copying h acc => h.len - acc.length + 1

/-- Annotations that may yet come. -/
def PC.grow : PC → Nat
  | .waiting (.annotate _) | .inside (.annotate _) => 1
  | _ => 0

theorem owner {tr s} (h : Exec Step init tr s) : s.held = true → ∃ t, (s.thr t).locked = true := by
  refine h.induct (fun _ s => s.held = true → ∃ t, (s.thr t).locked = true) (by simp [init]) ?_
  intro tr s e s' ih st
  cases st with
  | uset a i x h => exact ih
  | uget a i h => exact ih
  | _ => exact owner_upd ih (by simp_all [PC.locked])

/-- **C109** for `Annotate` and `Annotations` of a span. -/
theorem C109_annotations {tr s} (h : Exec Step init tr s) : AllReturn Step State.thr (· = .idle) s := by
  refine allReturn_size (by simp [init]) (fun s => s.ann.len) PC.grow PC.left ?_ ?_ ?_ ?_ h
  · intro M M' p hM
    cases p with
    | waiting op => cases op <;> simp [PC.left]; omega
    | inside op => cases op <;> simp [PC.left]; omega
    | _ => simp [PC.left]
  · intro tr s e s' h st
    cases st with
    | uset a i x h => exact ⟨0, fun u hu => rfl, fun _ hm => absurd rfl hm⟩
    | uget a i h => exact ⟨0, fun u hu => rfl, fun _ hm => absurd rfl hm⟩
    | call t _ hp => exact ⟨t, fun u hu => upd_other _ _ hu, fun hi => absurd hp hi⟩
    | lock t op hp =>
      refine ⟨t, fun u hu => upd_other _ _ hu, fun _ _ => ?_⟩
      cases op <;> simp [hp, PC.grow, PC.left]
    | load t hp =>
      refine ⟨t, fun u hu => upd_other _ _ hu, fun _ _ => ?_⟩
      simp [hp, PC.grow, PC.left]
      omega
    | copy t hd acc x hp hm hx =>
      refine ⟨t, fun u hu => upd_other _ _ hu, fun _ _ => ?_⟩
      simp [hp, PC.grow, PC.left]
      omega
    | append t _ hp | grow t _ _ hp | unlock t hp | release t _ hp | ret t _ _ _ hp =>
      refine ⟨t, fun u hu => upd_other _ _ hu, fun _ _ => ?_⟩
      simp [hp, PC.grow, PC.left]
  · intro tr s e s' h st heq
    cases st with
    | append t _ hp => have := congrFun heq t; simp [hp] at this
    | grow t _ _ hp => have := congrFun heq t; simp [hp] at this
    | _ => exact Nat.le_refl _
  · intro tr s t h ht
    have hi := inv_exec h
    have go : ∀ u, (s.thr u).locked = true → ∃ u e s', s.thr u ≠ .idle ∧ Step s e s' ∧ s'.thr u ≠ s.thr u := by
      intro u hu
      cases hp : s.thr u with
      | inside op =>
        cases op with
        | annotate x =>
          rcases Nat.lt_or_eq_of_le hi.hdr.1 with hc | hc
          · exact ⟨u, _, _, by simp [hp], .append s u x hp hc, by simp [hp]⟩
          · exact ⟨u, _, _, by simp [hp], .grow s u x [] hp hc, by simp [hp]⟩
        | annotations => exact ⟨u, _, _, by simp [hp], .load s u hp, by simp [hp]⟩
      | added => exact ⟨u, _, _, by simp [hp], .unlock s u hp, by simp [hp]⟩
      | loaded hd => exact ⟨u, _, _, by simp [hp], .release s u hd hp, by simp [hp]⟩
      | _ => simp [hp, PC.locked] at hu
    by_cases hl : s.held = true
    · obtain ⟨u, hu⟩ := owner h hl
      exact go u hu
    · rw [Bool.not_eq_true] at hl
      cases hp : s.thr t with
      | idle => exact absurd hp ht
      | waiting op => exact ⟨t, _, _, ht, .lock s t op hp hl, by simp [hp]⟩
      | copying hd acc =>
        have := hi.pend t
        rw [hp] at this
        obtain ⟨p, -, ⟨h1, h2, -⟩, -, h3⟩ := this
        rcases Nat.lt_or_eq_of_le h3 with hc | hc
        · have hlen : acc.length < (s.heap hd.arr).length := by
            have := congrArg List.length h2
            rw [List.length_take] at this
            omega
          exact ⟨t, _, _, ht, .copy s t hd acc _ hp hc (List.getElem?_eq_getElem hlen), by simp [hp]⟩
        · exact ⟨t, _, _, ht, .ret s t hd acc [] hp hc, by simp [hp]⟩
      | _ => exact go t (by simp [hp, PC.locked])

end Monkit.Annotations
