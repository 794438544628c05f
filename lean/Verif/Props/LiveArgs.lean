import Verif.Proofs.LiveArgs

/-!
# C121: a span shows the arguments that were given to the call

False of the code for slices and maps that the function goes on to write to.  A listing then shows what is in them when it looks; if it looks while they are being written it may show what they
never held, and if it looks at a map that is being assigned to the program ends.
-/

namespace Monkit.LiveArgs
open Go

variable (given : Nat → List Arg) (owner : Nat → Nat) (b : Nat → List UInt8) (m : Nat → Map Str Nat)

/-- **C121, what is shown**: a call of `Args` shows as many arguments as were given, in their order.  An argument that is not written to during the call is shown as it was when the call began; one
that is written to is shown as a mixture of what it was then and of what was written meanwhile; a string is shown as it was given in any case. -/
theorem C121_args_partial (hm : ∀ a, Map.Ok (m a)) {tr : List Ev} {s : State} {n sp : Nat} {shown : List Shown}
    (h : Exec (Step given owner) (init b m) (tr ++ [.ret n sp shown]) s) :
    ∃ p q, tr = p ++ .call n sp :: q ∧ (∀ sp', .call n sp' ∉ q) ∧ (∀ sp' sh, .ret n sp' sh ∉ q) ∧
      List.Forall₂ (fun x sh => Pieces b m p q x sh ∧ ((∀ e ∈ q, ¬ Touches e x) → Truly b m p x sh)) (given sp) shown := by
  obtain ⟨s1, s2, h1, h2, -⟩ := h.split tr (.ret n sp shown) [] rfl
  cases h2 with
  | ret _ _ _ hd hpc =>
    have hp := (inv given owner b m hm h1).pc n
    rw [hpc] at hp
    obtain ⟨p, q, hin⟩ := hp
    obtain ⟨d, hg, hf⟩ := hin.pre
    rw [List.append_nil] at hg
    exact ⟨p, q, hin.eq, hin.nocall, hin.noret, by rw [hg]; exact hf⟩

/-- **C121, arguments that are left alone**: arguments that are not written to after they have been given are shown as they were given, whenever they are shown. -/
theorem C121_same_partial (hm : ∀ a, Map.Ok (m a)) {tr : List Ev} {s : State} {n sp : Nat} {shown : List Shown}
    (h : Exec (Step given owner) (init b m) (tr ++ [.ret n sp shown]) s)
    (hu : ∀ x ∈ given sp, ∀ e ∈ tr, ¬ Touches e x) : List.Forall₂ (Truly b m []) (given sp) shown := by
  obtain ⟨p, q, rfl, -, -, hf⟩ := C121_args_partial given owner b m hm h
  clear h
  generalize given sp = xs at hf hu
  induction hf with
  | nil => exact .nil
  | @cons x sh xs shs hx _ ih =>
    refine .cons ?_ (ih fun y hy => hu y (List.mem_cons_of_mem _ hy))
    have hx' := hx.2 fun e he => hu x List.mem_cons_self e (by simp [he])
    have hp : ∀ e ∈ p, ¬ Touches e x := fun e he => hu x List.mem_cons_self e (by simp [he])
    cases x <;> cases sh <;> simp only [Truly] at hx' ⊢
    · exact hx'
    · rw [bytesAt_untouched _ _ _ hp] at hx'; exact hx'
    · rw [mapAt_untouched _ _ _ hp] at hx'; exact hx'

/-- **C121, the program goes on**: if the runtime ends the program, some goroutine is looking at a span one of whose arguments is a map, and another is inside an assignment to that map. -/
theorem C121_dead_partial (hm : ∀ a, Map.Ok (m a)) {tr : List Ev} {s : State} (h : Exec (Step given owner) (init b m) tr s)
    (hd : s.dead = true) : ∃ n sp n' a, Arg.map a ∈ given sp ∧ Listing tr n sp ∧ Assigning tr n' a ∧ n ≠ n' :=
  (inv given owner b m hm h).dead hd

/-- **C121, the functions are not to blame**: as long as nobody looks at a span that has a map among its arguments, the program is not ended. -/
theorem C121_alone (hm : ∀ a, Map.Ok (m a)) {tr : List Ev} {s : State} (h : Exec (Step given owner) (init b m) tr s)
    (hc : ∀ n sp a, Arg.map a ∈ given sp → .call n sp ∉ tr) : s.dead = false := by
  by_contra hd
  obtain ⟨n, sp, n', a, ha, ⟨p, q, rfl, -⟩, -⟩ := C121_dead_partial given owner b m hm h (by simpa using hd)
  exact hc n sp a ha (by simp)

/-- A function (goroutine 0) was called with a string, two bytes and a map; goroutine 0 owns the memory. -/
def exArgs : Nat → List Arg := fun _ => [.str b!"x", .bytes 0, .map 0]

/-- The memory at first: the bytes `ab` and the map {"k": 1}. -/
def exBytes : Nat → List UInt8 := fun a => if a = 0 then b!"ab" else []

/-- The same. -/
def exMaps : Nat → Map Str Nat := fun a => if a = 0 then [(b!"k", 1)] else []

theorem exMaps_ok (a : Nat) : Map.Ok (exMaps a) := by
  unfold exMaps Map.Ok; split <;> simp

/-- A state with goroutine 1 at `c` and the others in their own code. -/
def exAt (bs : List UInt8) (mp : GoMap) (c0 c1 : PC) : State :=
  { bytes := upd exBytes 0 bs, maps := upd (fun a => ⟨exMaps a, false⟩) 0 mp, pc := upd (upd (fun _ => .idle) 0 c0) 1 c1, dead := false }

theorem exInit : init exBytes exMaps = exAt b!"ab" ⟨[(b!"k", 1)], false⟩ .idle .idle := by
  unfold init exAt
  congr 1
  · funext a; by_cases h : a = 0
    · subst h; rfl
    · rw [upd_other _ _ h]
  · funext a; by_cases h : a = 0
    · subst h; rfl
    · rw [upd_other _ _ h]
  · funext a; by_cases h : a = 1
    · subst h; rfl
    · rw [upd_other _ _ h]
      by_cases h : a = 0
      · subst h; rfl
      · rw [upd_other _ _ h]

theorem exAt1 (bs mp c0 c1 c) : { exAt bs mp c0 c1 with pc := upd (exAt bs mp c0 c1).pc 1 c } = exAt bs mp c0 c := by
  simp only [exAt, State.mk.injEq, and_true, true_and]
  funext a
  by_cases h : a = 1
  · subst h; rw [upd_same, upd_same]
  · rw [upd_other _ _ h, upd_other _ _ h, upd_other _ _ h]

theorem exAtB (bs mp c0 c1 bs') : { exAt bs mp c0 c1 with bytes := upd (exAt bs mp c0 c1).bytes 0 bs' } = exAt bs' mp c0 c1 := by
  simp only [exAt, State.mk.injEq, and_true, true_and]
  funext a
  by_cases h : a = 0
  · subst h; rw [upd_same, upd_same]
  · rw [upd_other _ _ h, upd_other _ _ h, upd_other _ _ h]

theorem exAtM (bs mp c0 c1 mp' c) : { exAt bs mp c0 c1 with maps := upd (exAt bs mp c0 c1).maps 0 mp', pc := upd (exAt bs mp c0 c1).pc 0 c } = exAt bs mp' c c1 := by
  simp only [exAt, State.mk.injEq, and_true, true_and]
  refine ⟨?_, ?_⟩
  · funext a
    by_cases h : a = 0
    · subst h; rw [upd_same, upd_same]
    · rw [upd_other _ _ h, upd_other _ _ h, upd_other _ _ h]
  · funext a
    by_cases h : a = 1
    · subst h; rfl
    · by_cases h0 : a = 0
      · subst h0; rfl
      · rw [upd_other _ _ h0, upd_other _ _ h, upd_other _ _ h0, upd_other _ _ h, upd_other _ _ h0]

/-- Goroutine 1 takes a step that leaves the memory alone. -/
theorem exStep {tr bs mp c0 c1 c} {e : Option Ev} (h : Exec (Step exArgs fun _ => 0) (init exBytes exMaps) tr (exAt bs mp c0 c1))
    (st : Step exArgs (fun _ => 0) (exAt bs mp c0 c1) e { exAt bs mp c0 c1 with pc := upd (exAt bs mp c0 c1).pc 1 c }) :
    Exec (Step exArgs fun _ => 0) (init exBytes exMaps) (tr ++ e.toList) (exAt bs mp c0 c) := by
  rw [← exAt1 bs mp c0 c1 c]; exact .step e h st

/-- Goroutine 0 writes a byte. -/
theorem exSet {tr bs mp c1} (i : Nat) (v : UInt8) (h : Exec (Step exArgs fun _ => 0) (init exBytes exMaps) tr (exAt bs mp .idle c1)) (hi : i < bs.length) :
    Exec (Step exArgs fun _ => 0) (init exBytes exMaps) (tr ++ [.set 0 0 i v]) (exAt (bs.set i v) mp .idle c1) := by
  rw [← exAtB bs mp .idle c1 (bs.set i v)]; exact .step _ h (.set _ 0 0 i v rfl rfl rfl hi)

theorem exStart : Exec (Step exArgs fun _ => 0) (init exBytes exMaps) [] (exAt b!"ab" ⟨[(b!"k", 1)], false⟩ .idle .idle) := by
  rw [← exInit]; exact .start

/-- Goroutine 1 has read the first byte. -/
theorem exHalf (bs : List UInt8) (x : UInt8) (hx : bs[0]? = some x) {tr} (h : Exec (Step exArgs fun _ => 0) (init exBytes exMaps) tr (exAt bs ⟨[(b!"k", 1)], false⟩ .idle .idle)) :
    Exec (Step exArgs fun _ => 0) (init exBytes exMaps) (tr ++ [.call 1 0]) (exAt bs ⟨[(b!"k", 1)], false⟩ .idle (.bytes 0 0 [x] [.map 0] [.str b!"x"])) := by
  have h := exStep h (.call _ 1 0 rfl rfl)
  have h := exStep h (.str _ 1 0 b!"x" _ _ rfl rfl)
  have h := exStep h (.bytes _ 1 0 0 _ _ rfl rfl)
  have h := exStep h (.byte _ 1 0 0 [] _ _ x rfl rfl hx)
  simpa using h

/-- Goroutine 1 reads the second byte and the map, and returns. -/
theorem exRest (bs : List UInt8) (x y : UInt8) (hx : bs[1]? = some y) (hl : bs.length = 2) {tr}
    (h : Exec (Step exArgs fun _ => 0) (init exBytes exMaps) tr (exAt bs ⟨[(b!"k", 1)], false⟩ .idle (.bytes 0 0 [x] [.map 0] [.str b!"x"]))) :
    Exec (Step exArgs fun _ => 0) (init exBytes exMaps) (tr ++ [.ret 1 0 [.str b!"x", .bytes [x, y], .map [(b!"k", 1)]]]) (exAt bs ⟨[(b!"k", 1)], false⟩ .idle .idle) := by
  have h := exStep h (.byte _ 1 0 0 [x] _ _ y rfl rfl hx)
  have h := exStep h (.bytesEnd _ 1 0 0 [x, y] _ _ rfl rfl hl.symm)
  have h := exStep h (.map _ 1 0 0 _ _ [(b!"k", 1)] rfl rfl (.refl _) (by simp))
  have h := exStep h (.entry _ 1 0 0 b!"k" 1 1 [] [] _ _ rfl rfl rfl rfl)
  have h := exStep h (.mapEnd _ 1 0 0 _ _ _ rfl rfl rfl)
  have h := exStep h (.ret _ 1 0 _ rfl rfl)
  simpa using h

/-- C121 is false of the code: `Args` does not show the arguments that were given.  The function was called with the bytes `ab`; it changes the first; a listing, during which nothing is written, shows
`cb`. -/
theorem C121_later_violated : ∃ given owner b m tr s, (∀ a, Map.Ok (m a)) ∧
    Exec (Step given owner) (init b m) (tr ++ [.call 1 0, .ret 1 0 [.str b!"x", .bytes b!"cb", .map [(b!"k", 1)]]]) s ∧
    .bytes 0 ∈ given 0 ∧ b 0 = b!"ab" := by
  exact ⟨exArgs, fun _ => 0, exBytes, exMaps, [.set 0 0 0 99], _, exMaps_ok,
    exRest _ 99 98 rfl rfl (exHalf _ 99 rfl (exSet 0 99 exStart (by decide))), by simp [exArgs], rfl⟩

/-- C121 is false of the code: what is shown need not be anything the argument ever was.  The function changes `ab` to `cb` and then to `cd`; a listing that goes on meanwhile shows `ad`. -/
theorem C121_torn_violated : ∃ given owner b m tr s, (∀ a, Map.Ok (m a)) ∧
    Exec (Step given owner) (init b m) (tr ++ [.ret 1 0 [.str b!"x", .bytes b!"ad", .map [(b!"k", 1)]]]) s ∧
    given 0 = [.str b!"x", .bytes 0, .map 0] ∧ ∀ p q, tr = p ++ q → bytesAt b 0 p ≠ b!"ad" := by
  refine ⟨exArgs, fun _ => 0, exBytes, exMaps, [.call 1 0, .set 0 0 0 99, .set 0 0 1 100], _, exMaps_ok,
    exRest _ 97 100 rfl rfl (exSet 1 100 (exSet 0 99 (exHalf _ 97 rfl exStart) (by decide)) (by decide)), rfl, fun p q e => ?_⟩
  rcases p with _ | ⟨x, _ | ⟨y, _ | ⟨z, _ | ⟨w, p⟩⟩⟩⟩
  · decide
  · cases e; decide
  · cases e; decide
  · cases e; decide
  · simp at e

/-- C121 is false of the code: looking at the arguments can end the program, although no two goroutines of the user share the map. -/
theorem C121_map_violated : ∃ given owner b m tr s, (∀ a, Map.Ok (m a)) ∧ Exec (Step given owner) (init b m) tr s ∧
    s.dead = true ∧ (∀ e ∈ tr, e = .call 1 0 ∨ e = .putBegin 0 0 b!"j" 2) := by
  have h := exStep exStart (.call _ 1 0 rfl rfl)
  have h := exStep h (.str _ 1 0 b!"x" _ _ rfl rfl)
  have h := exStep h (.bytes _ 1 0 0 _ _ rfl rfl)
  have h := exStep h (.byte _ 1 0 0 [] _ _ 97 rfl rfl rfl)
  have h := exStep h (.byte _ 1 0 0 _ _ _ 98 rfl rfl rfl)
  have h := exStep h (.bytesEnd _ 1 0 0 _ _ _ rfl rfl rfl)
  have h := exStep h (.map _ 1 0 0 _ _ [(b!"k", 1)] rfl rfl (.refl _) (by simp))
  have h := Exec.step _ h (.putBegin _ 0 0 b!"j" 2 rfl rfl rfl rfl)
  rw [exAtM] at h
  have h := Exec.step _ h (.mapFatal _ 1 0 0 _ _ _ _ rfl rfl rfl)
  exact ⟨exArgs, fun _ => 0, exBytes, exMaps, _, _, exMaps_ok, h, rfl, by simp⟩

/-- The hypotheses of `C121_same_partial` can be met: a listing of arguments that nobody writes to. -/
example : ∃ s, Exec (Step exArgs fun _ => 0) (init exBytes exMaps) ([.call 1 0] ++ [.ret 1 0 [.str b!"x", .bytes b!"ab", .map [(b!"k", 1)]]]) s ∧
    ∀ x ∈ exArgs 0, ∀ e ∈ [Ev.call 1 0], ¬ Touches e x :=
  ⟨_, exRest _ 97 98 rfl rfl (exHalf _ 97 rfl exStart), fun x _ e he => by simp at he; subst he; cases x <;> exact id⟩

/-- The hypotheses of `C121_alone` can be met with something written. -/
example : ∃ s, Exec (Step exArgs fun _ => 0) (init exBytes exMaps) [.set 0 0 1 100] s ∧ s.bytes 0 = b!"ad" :=
  ⟨_, exSet 1 100 exStart (by decide), rfl⟩

end Monkit.LiveArgs
