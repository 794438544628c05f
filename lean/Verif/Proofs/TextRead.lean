import Verif.Spec.TextRead
import Verif.Proofs.Present

/-!
# Lemmas about reading the text list of spans (C124)
-/

namespace Monkit.TextRead
open Go
open Monkit.Present (SpanView FuncView split_at num_split num_injective NumByte num_bytes)
open Monkit.Present.Spec (Within commas num walk lines caller errorSum funcText)
open Spec

/-- `k` spaces. -/
abbrev sp (k : Nat) : Str := List.replicate k 32

/-- Begins with fewer than `k` spaces. -/
def Low (k : Nat) (r : Str) : Prop := ∃ j x, j < k ∧ r = sp j ++ x ∧ x.head? ≠ some 32

theorem Low.mono {k l : Nat} {r : Str} (h : Low k r) (hk : k ≤ l) : Low l r := by
  obtain ⟨j, x, hj, e, hx⟩ := h
  exact ⟨j, x, by omega, e, hx⟩

theorem not_low {k : Nat} {t : Str} (h : Low k (sp k ++ t)) : False := by
  obtain ⟨j, x, hj, e, hx⟩ := h
  obtain ⟨m, rfl⟩ : ∃ m, k = j + (m + 1) := ⟨k - j - 1, by omega⟩
  rw [sp, ← List.replicate_append_replicate, List.append_assoc] at e
  have e := List.append_cancel_left e
  rw [List.replicate_succ] at e
  rw [← e] at hx
  exact hx rfl

/-- Lines end at their line breaks. -/
theorem line_split {a b t t' : Str} (ha : 10 ∉ a) (hb : 10 ∉ b) (h : a ++ 10 :: t = b ++ 10 :: t') : a = b ∧ t = t' := by
  obtain ⟨e, -, e'⟩ := split_at (P := fun c => c ≠ 10) (fun c hc e => ha (e ▸ hc)) (fun c hc e => hb (e ▸ hc)) (by simp) (by simp) h
  exact ⟨e, e'⟩

/-! ## The first line of a span -/

/-- The first line without its indentation and its line break. -/
def head (v : SpanView) : Str :=
  b!"[" ++ num v.id ++ b!"," ++ num v.trace ++ b!"] " ++ (v.name ++ b!"(" ++ commas v.args ++ b!")") ++ b!" (elapsed: " ++
    v.elapsed ++ (if v.orphaned then b!", orphaned" else b!"") ++ b!")"

theorem commas_bytes (l : List Str) (h : ∀ a ∈ l, 10 ∉ a) : 10 ∉ commas l := by
  induction l with
  | nil => simp [commas]
  | cons a l ih =>
    have ih := ih fun b hb => h b (List.mem_cons_of_mem _ hb)
    have ha := h a (List.mem_cons_self ..)
    cases l with
    | nil => simpa [commas] using ha
    | cons b l =>
      have e : commas (a :: b :: l) = a ++ (b!", " ++ commas (b :: l)) := by simp [commas]
      rw [e]
      simp only [List.mem_append, not_or]
      exact ⟨ha, by decide, ih⟩

theorem num_line (i : Int64) : 10 ∉ num i := fun h => absurd (num_bytes i 10 h) (by decide)

theorem head_line {v : SpanView} (h : Tidy1 v) : 10 ∉ head v := by
  unfold head
  simp only [List.mem_append, not_or]
  refine ⟨⟨⟨⟨⟨⟨⟨⟨⟨by decide, num_line _⟩, by decide⟩, num_line _⟩, by decide⟩, ⟨⟨h.name, by decide⟩, commas_bytes _ h.args⟩, by decide⟩, by decide⟩,
    fun hc => (h.elapsed _ hc).1 rfl⟩, ?_⟩, by decide⟩
  split <;> decide

/-- What is after the last parenthesis. -/
theorem last_paren {a b s t : Str} (hs : 40 ∉ s) (ht : 40 ∉ t) (h : a ++ 40 :: s = b ++ 40 :: t) : a = b ∧ s = t := by
  have h := congrArg List.reverse h
  simp only [List.reverse_append, List.reverse_cons, List.append_assoc, List.singleton_append] at h
  obtain ⟨e, -, e'⟩ := split_at (P := fun c => c ≠ 40) (fun c hc e => hs (e ▸ List.mem_reverse.1 hc)) (fun c hc e => ht (e ▸ List.mem_reverse.1 hc))
    (by simp) (by simp) h
  exact ⟨List.reverse_inj.1 e', List.reverse_inj.1 e⟩

theorem time_split {e e' : Str} {o o' : Bool} (he : ∀ c ∈ e, c ≠ 44) (he' : ∀ c ∈ e', c ≠ 44)
    (h : e ++ (if o then b!", orphaned" else b!"") = e' ++ (if o' then b!", orphaned" else b!"")) : e = e' ∧ o = o' := by
  cases o <;> cases o'
  · simpa using h
  · exfalso
    have : (44 : UInt8) ∈ e := by
      simp only [Bool.false_eq_true, if_false, if_true, List.append_nil] at h
      rw [h]
      simp
    exact he _ this rfl
  · exfalso
    have : (44 : UInt8) ∈ e' := by
      simp only [Bool.false_eq_true, if_false, if_true, List.append_nil] at h
      rw [← h]
      simp
    exact he' _ this rfl
  · exact ⟨List.append_cancel_right h, rfl⟩

theorem head_injective {u v : SpanView} (hu : Tidy1 u) (hv : Tidy1 v) (h : head u = head v) :
    u.id = v.id ∧ u.trace = v.trace ∧ u.name ++ b!"(" ++ commas u.args ++ b!")" = v.name ++ b!"(" ++ commas v.args ++ b!")" ∧
      u.elapsed = v.elapsed ∧ u.orphaned = v.orphaned := by
  unfold head at h
  generalize hcu : u.name ++ b!"(" ++ commas u.args ++ b!")" = cu at h ⊢
  generalize hcv : v.name ++ b!"(" ++ commas v.args ++ b!")" = cv at h ⊢
  have tu : (40 : UInt8) ∉ b!"elapsed: " ++ (u.elapsed ++ (if u.orphaned then b!", orphaned" else b!"")) := by
    simp only [List.mem_append, not_or]
    refine ⟨by decide, fun hc => (hu.elapsed _ hc).2.1 rfl, ?_⟩
    split <;> decide
  have tv : (40 : UInt8) ∉ b!"elapsed: " ++ (v.elapsed ++ (if v.orphaned then b!", orphaned" else b!"")) := by
    simp only [List.mem_append, not_or]
    refine ⟨by decide, fun hc => (hv.elapsed _ hc).2.1 rfl, ?_⟩
    split <;> decide
  have h : (91 : UInt8) :: (num u.id ++ 44 :: (num u.trace ++ 93 :: (32 :: ((cu ++ [32]) ++ 40 :: (b!"elapsed: " ++ (u.elapsed ++ (if u.orphaned then b!", orphaned" else b!""))))))) ++ b!")" =
      (91 : UInt8) :: (num v.id ++ 44 :: (num v.trace ++ 93 :: (32 :: ((cv ++ [32]) ++ 40 :: (b!"elapsed: " ++ (v.elapsed ++ (if v.orphaned then b!", orphaned" else b!""))))))) ++ b!")" := by
    simpa using h
  have h := (List.cons.inj (List.append_cancel_right h)).2
  obtain ⟨e1, -, h⟩ := num_split (by decide) (by decide) h
  obtain ⟨e2, -, h⟩ := num_split (by decide) (by decide) h
  obtain ⟨e3, h⟩ := last_paren tu tv (List.cons.inj h).2
  obtain ⟨e4, e5⟩ := time_split (fun c hc => (hu.elapsed c hc).2.2) (fun c hc => (hv.elapsed c hc).2.2) (List.append_cancel_left h)
  exact ⟨e1, e2, List.append_cancel_right e3, e4, e5⟩

/-! ## Annotations -/

/-- The lines of annotations. -/
def notesText (k : Nat) (ns : List Str) : Str := ns.flatMap fun n => sp k ++ n ++ [10]

theorem notes_split {k : Nat} {ns ms : List Str} {r r' : Str} (hn : ∀ n ∈ ns, 10 ∉ n) (hm : ∀ n ∈ ms, 10 ∉ n) (hr : Low k r) (hr' : Low k r')
    (h : notesText k ns ++ r = notesText k ms ++ r') : ns = ms ∧ r = r' := by
  induction ns generalizing ms with
  | nil =>
    cases ms with
    | nil => exact ⟨rfl, h⟩
    | cons m ms =>
      exfalso
      simp only [notesText, List.flatMap_nil, List.nil_append, List.flatMap_cons, List.append_assoc] at h
      rw [h] at hr
      exact not_low hr
  | cons n ns ih =>
    cases ms with
    | nil =>
      exfalso
      simp only [notesText, List.flatMap_nil, List.nil_append, List.flatMap_cons, List.append_assoc] at h
      rw [← h] at hr'
      exact not_low hr'
    | cons m ms =>
      simp only [notesText, List.flatMap_cons, List.append_assoc] at h
      obtain ⟨e, h⟩ := line_split (hn n (List.mem_cons_self ..)) (hm m (List.mem_cons_self ..)) (List.append_cancel_left h)
      have h : notesText k ns ++ r = notesText k ms ++ r' := by simpa [notesText] using h
      obtain ⟨e', h⟩ := ih (fun x hx => hn x (List.mem_cons_of_mem _ hx)) (fun x hx => hm x (List.mem_cons_of_mem _ hx)) h
      exact ⟨by rw [e, e'], h⟩

/-! ## Trees -/

/-- What is written of a list of spans at depth `d`. -/
def forest (d : Nat) (cs : List SpanView) : Str := (walk.go d cs).flatMap fun x => lines x.1 x.2

theorem lines_eq (d : Nat) (v : SpanView) :
    lines d v = sp d ++ (head v ++ 10 :: notesText (d + 2) (v.annotations.map fun a => a.1 ++ b!": " ++ a.2)) := by
  unfold lines head notesText
  simp [List.flatMap_map]

theorem tree_eq (d : Nat) (v : SpanView) : ((walk d v).flatMap fun x => lines x.1 x.2) = lines d v ++ forest (d + 1) v.children := by
  cases v
  rfl

theorem forest_cons (d : Nat) (c : SpanView) (cs : List SpanView) (r : Str) : forest d (c :: cs) ++ r =
    sp d ++ (head c ++ 10 :: (notesText (d + 2) (c.annotations.map fun a => a.1 ++ b!": " ++ a.2) ++ (forest (d + 1) c.children ++ (forest d cs ++ r)))) := by
  have e : forest d (c :: cs) = ((walk d c).flatMap fun x => lines x.1 x.2) ++ forest d cs := by
    unfold forest
    rw [walk.go, List.flatMap_append]
  rw [e, tree_eq, lines_eq]
  simp

theorem forest_low {d k : Nat} (cs : List SpanView) {r : Str} (hk : d < k) (hr : Low k r) : Low k (forest d cs ++ r) := by
  cases cs with
  | nil => exact hr
  | cons c cs =>
    rw [forest_cons]
    exact ⟨d, _, hk, rfl, by simp [head]⟩

theorem Tidy.child {v c : SpanView} (h : Tidy v) (hc : c ∈ v.children) : Tidy c := fun u hu => h u (.child hc hu)

theorem notes_line {v : SpanView} (h : Tidy1 v) : ∀ n ∈ (v.annotations.map fun a => a.1 ++ b!": " ++ a.2), 10 ∉ n := by
  intro n hn
  obtain ⟨a, ha, rfl⟩ := List.mem_map.1 hn
  obtain ⟨h1, h2⟩ := h.notes a ha
  simp only [List.mem_append, not_or]
  exact ⟨⟨h1, by decide⟩, h2⟩

theorem reading_of {u v : SpanView} (hu : Tidy1 u) (hv : Tidy1 v) (h : head u = head v)
    (hn : (u.annotations.map fun a => a.1 ++ b!": " ++ a.2) = v.annotations.map fun a => a.1 ++ b!": " ++ a.2)
    (hc : reading.readings u.children = reading.readings v.children) : reading u = reading v := by
  obtain ⟨e1, e2, e3, e4, e5⟩ := head_injective hu hv h
  cases u
  cases v
  simp only [SpanView.id, SpanView.trace, SpanView.name, SpanView.args, SpanView.elapsed, SpanView.orphaned, SpanView.annotations,
    SpanView.children] at *
  simp only [reading, e1, e2, e3, e4, e5, hn, hc]

theorem forest_split (d : Nat) (cs ds : List SpanView) (r r' : Str) (hc : ∀ c ∈ cs, Tidy c) (hd : ∀ c ∈ ds, Tidy c) (hr : Low d r) (hr' : Low d r')
    (h : forest d cs ++ r = forest d ds ++ r') : reading.readings cs = reading.readings ds ∧ r = r' := by
  match cs, ds with
  | [], [] => exact ⟨rfl, h⟩
  | [], v :: vs =>
    exfalso
    rw [forest_cons] at h
    rw [show r = _ from h] at hr
    exact not_low hr
  | v :: vs, [] =>
    exfalso
    rw [forest_cons] at h
    rw [show r' = _ from h.symm] at hr'
    exact not_low hr'
  | u :: us, v :: vs =>
    rw [forest_cons, forest_cons] at h
    have hu := hc u (List.mem_cons_self ..)
    have hv := hd v (List.mem_cons_self ..)
    obtain ⟨e, h⟩ := line_split (head_line (hu u (.self u))) (head_line (hv v (.self v))) (List.append_cancel_left h)
    have low : ∀ (cs : List SpanView) {r : Str}, Low d r → Low (d + 1) (forest d cs ++ r) :=
      fun cs _ hr => forest_low cs (by omega) (hr.mono (by omega))
    obtain ⟨e', h⟩ := notes_split (notes_line (hu u (.self u))) (notes_line (hv v (.self v)))
      (forest_low _ (by omega) ((low us hr).mono (by omega))) (forest_low _ (by omega) ((low vs hr').mono (by omega))) h
    obtain ⟨e'', h⟩ := forest_split (d + 1) u.children v.children _ _ (fun c hc => Tidy.child hu hc) (fun c hc => Tidy.child hv hc) (low us hr) (low vs hr') h
    obtain ⟨e3, h⟩ := forest_split d us vs r r' (fun c h => hc c (List.mem_cons_of_mem _ h)) (fun c h => hd c (List.mem_cons_of_mem _ h)) hr hr' h
    refine ⟨?_, h⟩
    rw [reading.readings, reading.readings, e3, reading_of (hu u (.self u)) (hv v (.self v)) e e' e'']
termination_by sizeOf cs
decreasing_by
  all_goals simp_wf
  · cases u; simp [SpanView.children]; omega
  · omega

/-! ## Functions -/

theorem caller_bytes (c : Option Int64) : ∀ b ∈ caller c, b ≠ 44 ∧ b ≠ 10 := by
  cases c with
  | none => decide
  | some p => exact fun b hb => ⟨fun e => absurd (num_bytes p b hb) (e ▸ by decide), fun e => absurd (num_bytes p b hb) (e ▸ by decide)⟩

theorem num_ne (i : Int64) : num i ≠ [] := by
  unfold num
  split
  · simp
  · intro h
    have := congrArg List.length h
    simp [Present.Spec.digits] at this

theorem caller_ne (c : Option Int64) : caller c ≠ [] := by
  cases c with
  | none => decide
  | some p => exact num_ne p

theorem caller_injective {c d : Option Int64} (h : caller c = caller d) : c = d := by
  have key : ∀ p : Int64, num p ≠ b!"entry" := by
    intro p h
    exact absurd (num_bytes p 101 (by rw [h]; decide)) (by decide)
  cases c <;> cases d
  · rfl
  · exact absurd h.symm (key _)
  · exact absurd h (key _)
  · rw [num_injective h]

theorem callers_line (l : List (Option Int64)) : 10 ∉ commas (l.map caller) :=
  commas_bytes _ (by
    intro a ha
    obtain ⟨c, -, rfl⟩ := List.mem_map.1 ha
    exact fun h => (caller_bytes c _ h).2 rfl)

theorem commas_cons (a b : Str) (l : List Str) : commas (a :: b :: l) = a ++ 44 :: (32 :: commas (b :: l)) := by simp [commas]

theorem callers_injective {l m : List (Option Int64)} (h : commas (l.map caller) = commas (m.map caller)) : l = m := by
  have one : ∀ a : Option Int64, commas ([a].map caller) = caller a := by intro a; simp [commas]
  have no : ∀ (a b : Option Int64) (t : Str), caller a ≠ caller b ++ 44 :: t := by
    intro a b t h
    exact (caller_bytes a 44 (by rw [h]; simp)).1 rfl
  induction l generalizing m with
  | nil =>
    cases m with
    | nil => rfl
    | cons d m =>
      exfalso
      cases m with
      | nil => rw [one] at h; exact caller_ne d h.symm
      | cons e m => rw [List.map_cons, List.map_cons, commas_cons] at h; simp [commas] at h
  | cons c l ih =>
    cases m with
    | nil =>
      exfalso
      cases l with
      | nil => rw [one] at h; exact caller_ne c h
      | cons e m => rw [List.map_cons, List.map_cons, commas_cons] at h; simp [commas] at h
    | cons d m =>
      cases l with
      | nil =>
        cases m with
        | nil => rw [one, one] at h; rw [caller_injective h]
        | cons e m =>
          rw [one, List.map_cons, List.map_cons, commas_cons] at h
          exact absurd h (no _ _ _)
      | cons c' l =>
        cases m with
        | nil =>
          rw [one, List.map_cons, List.map_cons, commas_cons] at h
          exact absurd h.symm (no _ _ _)
        | cons e m =>
          rw [List.map_cons, List.map_cons, commas_cons, List.map_cons, List.map_cons, commas_cons] at h
          obtain ⟨e1, -, h⟩ := split_at (P := fun b => b ≠ 44) (fun b hb => (caller_bytes c b hb).1) (fun b hb => (caller_bytes d b hb).1)
            (by simp) (by simp) h
          rw [caller_injective e1, ih (m := e :: m) (List.cons.inj h).2]

/-- The line of an error without its indentation. -/
def errLine (e : Str × Int64) : Str := b!"error " ++ e.1 ++ b!": " ++ num e.2

theorem errLine_injective {d e : Str × Int64} (h : errLine d = errLine e) : d = e := by
  unfold errLine at h
  have h := congrArg List.reverse h
  have h : (num d.2).reverse ++ 32 :: 58 :: (b!"error " ++ d.1).reverse = (num e.2).reverse ++ 32 :: 58 :: (b!"error " ++ e.1).reverse := by
    simpa using h
  obtain ⟨e1, -, h⟩ := split_at (P := NumByte) (fun b hb => num_bytes _ b (List.mem_reverse.1 hb)) (fun b hb => num_bytes _ b (List.mem_reverse.1 hb))
    (by decide) (by decide) h
  have e2 := List.append_cancel_left (List.reverse_inj.1 (List.cons.inj h).2)
  exact Prod.ext e2 (num_injective (List.reverse_inj.1 e1))

/-- The lines of errors. -/
def errText (es : List (Str × Int64)) : Str := es.flatMap fun e => b!"  " ++ (errLine e ++ [10])

theorem errors_split {es ds : List (Str × Int64)} {r r' : Str} (he : ∀ e ∈ es, 10 ∉ e.1) (hd : ∀ e ∈ ds, 10 ∉ e.1)
    (h : errText es ++ (b!"  success times:\n" ++ r) = errText ds ++ (b!"  success times:\n" ++ r')) : es = ds ∧ r = r' := by
  have line : ∀ e : Str × Int64, 10 ∉ e.1 → 10 ∉ errLine e := by
    intro e he
    unfold errLine
    simp only [List.mem_append, not_or]
    exact ⟨⟨⟨by decide, he⟩, by decide⟩, num_line _⟩
  induction es generalizing ds with
  | nil =>
    cases ds with
    | nil => exact ⟨rfl, List.append_cancel_left h⟩
    | cons d ds => simp [errText, errLine] at h
  | cons e es ih =>
    cases ds with
    | nil => simp [errText, errLine] at h
    | cons d ds =>
      simp only [errText, List.flatMap_cons, List.append_assoc] at h
      obtain ⟨e1, h⟩ := line_split (line e (he e (List.mem_cons_self ..))) (line d (hd d (List.mem_cons_self ..))) (List.append_cancel_left h)
      have h : errText es ++ (b!"  success times:\n" ++ r) = errText ds ++ (b!"  success times:\n" ++ r') := by simpa [errText] using h
      obtain ⟨e2, h⟩ := ih (fun x hx => he x (List.mem_cons_of_mem _ hx)) (fun x hx => hd x (List.mem_cons_of_mem _ hx)) h
      exact ⟨by rw [errLine_injective e1, e2], h⟩

theorem indented_split {t t' r r' : Str} (ht : Indented t) (ht' : Indented t') (hr : Low 4 r) (hr' : Low 4 r') (h : t ++ r = t' ++ r') :
    t = t' ∧ r = r' := by
  obtain ⟨ls, hl, rfl⟩ := ht
  obtain ⟨ms, hm, rfl⟩ := ht'
  obtain ⟨e, h⟩ := notes_split (k := 4) hl hm hr hr' h
  exact ⟨by rw [e], h⟩

theorem funcText_eq (f : FuncView) (r : Str) : funcText f ++ r =
    91 :: (num f.id ++ 93 :: (32 :: (f.name ++ 10 :: (b!"  parents: " ++ (commas (f.parents.map caller) ++ 10 :: (b!"  current: " ++
      (num f.current ++ 44 :: (b!" highwater: " ++ (num f.highwater ++ 44 :: (b!" success: " ++ (num f.success ++ 44 :: (b!" errors: " ++
      (num (errorSum f) ++ 44 :: (b!" panics: " ++ (num f.panics ++ 10 :: (errText f.errors ++ (b!"  success times:\n" ++
      (f.successTimes b!"    " ++ (b!"  failure times:\n" ++ (f.failureTimes b!"    " ++ (10 :: r))))))))))))))))))))) := by
  have e : (f.errors.flatMap fun e => b!"  error " ++ e.1 ++ b!": " ++ num e.2 ++ b!"\n") = errText f.errors := by
    unfold errText errLine
    simp only [List.append_assoc, List.cons_append, List.nil_append]
  unfold funcText
  rw [e]
  generalize errText f.errors = x1
  generalize errorSum f = x2
  generalize commas (f.parents.map caller) = x3
  simp only [List.append_assoc, List.cons_append, List.nil_append]

theorem funcText_split {f g : FuncView} {r r' : Str} (hf : TidyFunc f) (hg : TidyFunc g) (h : funcText f ++ r = funcText g ++ r') :
    funcReading f = funcReading g ∧ r = r' := by
  rw [funcText_eq, funcText_eq] at h
  have nl : ∀ t : Str, Low 4 (10 :: t) := fun t => ⟨0, 10 :: t, by omega, rfl, by simp⟩
  have fl : ∀ t : Str, Low 4 (b!"  failure times:\n" ++ t) := fun t => ⟨2, b!"failure times:\n" ++ t, by omega, by simp [sp], by simp⟩
  obtain ⟨e1, -, h⟩ := num_split (by decide) (by decide) (List.cons.inj h).2
  obtain ⟨e2, h⟩ := line_split hf.name hg.name (List.cons.inj h).2
  obtain ⟨e3, h⟩ := line_split (callers_line _) (callers_line _) (List.append_cancel_left h)
  obtain ⟨e4, -, h⟩ := num_split (by decide) (by decide) (List.append_cancel_left h)
  obtain ⟨e5, -, h⟩ := num_split (by decide) (by decide) (List.append_cancel_left h)
  obtain ⟨e6, -, h⟩ := num_split (by decide) (by decide) (List.append_cancel_left h)
  obtain ⟨e7, -, h⟩ := num_split (by decide) (by decide) (List.append_cancel_left h)
  obtain ⟨e8, -, h⟩ := num_split (by decide) (by decide) (List.append_cancel_left h)
  obtain ⟨e9, h⟩ := errors_split hf.errors hg.errors h
  obtain ⟨e10, h⟩ := indented_split hf.success hg.success (fl _) (fl _) h
  obtain ⟨e11, h⟩ := indented_split hf.failure hg.failure (nl _) (nl _) (List.append_cancel_left h)
  refine ⟨?_, (List.cons.inj h).2⟩
  unfold funcReading
  rw [e1, e2, callers_injective e3, e4, e5, e6, e7, e8, e9, e10, e11]

end Monkit.TextRead
