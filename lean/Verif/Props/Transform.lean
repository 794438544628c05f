import Verif.Proofs.Transform

/-!
# C45: transformers
-/

namespace Monkit.Transform
open Go

variable {σ V : Type}

/-- The transformers of registry `r`. -/
def content (s : State σ V) (r : Nat) : List (Tr σ V) := ((s.regs[r]?).map (·.read s.heap)).getD []

/-- The elements of a caller's slice. -/
def userContent (s : State σ V) (u : Nat) : List (Tr σ V) := ((s.user[u]?).map (·.read s.heap)).getD []

/-- **C45**, no leaks: what a registry has does not change, whatever is derived from it (or from others) afterwards and whatever
callers do to the slices they passed. -/
theorem C45_unaffected (nil : Tr σ V) (ops more : List (Op σ V)) (r : Nat) (hr : r < (run nil ops).regs.length) :
    content (run nil (ops ++ more)) r = content (run nil ops) r ∧ r < (run nil (ops ++ more)).regs.length := by
  generalize hn : more.length = n
  induction n generalizing more with
  | zero => rw [List.length_eq_zero_iff.1 hn, List.append_nil]; exact ⟨rfl, hr⟩
  | succ n ih =>
    rcases List.eq_nil_or_concat more with rfl | ⟨m', op, rfl⟩
    · simp at hn
    · rw [List.concat_eq_append] at hn ⊢
      obtain ⟨e, hlt⟩ := ih m' (by simpa using hn)
      rw [← List.append_assoc, run_snoc]
      obtain ⟨_, hp, hrd⟩ := step_facts nil (inv_run nil (ops ++ m')) op
      generalize run nil (ops ++ m') = s at *
      refine ⟨?_, Nat.lt_of_lt_of_le hlt hp.length_le⟩
      rw [← e]
      unfold content
      have h1 : (step nil s op).regs[r]? = s.regs[r]? := by
        obtain ⟨t, ht⟩ := hp
        rw [← ht, List.getElem?_append_left hlt]
      rw [h1]
      cases hx : s.regs[r]? with
      | none => rfl
      | some x => simp only [Option.map_some, Option.getD_some]; exact hrd x (getMem hx)

/-- **C45**, what a derived registry has: that of the registry it was derived from, followed by the arguments. -/
theorem C45_with (nil : Tr σ V) (ops : List (Op σ V)) (r u g1 g2 : Nat) (hr : r < (run nil ops).regs.length)
    (hu : u < (run nil ops).user.length) :
    (run nil (ops ++ [.with r u g1 g2])).regs.length = (run nil ops).regs.length + 1 ∧
      content (run nil (ops ++ [.with r u g1 g2])) (run nil ops).regs.length =
        content (run nil ops) r ++ userContent (run nil ops) u := by
  rw [run_snoc]
  have hi := inv_run nil ops
  generalize run nil ops = s at *
  have er : s.regs[r]? = some s.regs[r] := List.getElem?_eq_getElem hr
  have eu : s.user[u]? = some s.user[u] := List.getElem?_eq_getElem hu
  simp only [step, er, eu]
  obtain ⟨f1, f2, f3, f4, f5⟩ := with_facts nil s s.regs[r] s.user[u] (hi.rok _ (getMem er)) (hi.uok _ (getMem eu)) g1 g2
  refine ⟨by simp, ?_⟩
  unfold content userContent
  simp only [List.getElem?_append_right (Nat.le_refl _), Nat.sub_self, List.getElem?_cons_zero, Option.map_some, Option.getD_some,
    er, eu]
  exact f1

/-- **C45**, the first registry has none. -/
theorem C45_new (nil : Tr σ V) (ops : List (Op σ V)) : content (run nil ops) 0 = [] := by
  have := (C45_unaffected nil [] ops 0 (by simp [run, State.init])).1
  rw [List.nil_append] at this
  rw [this]
  simp [run, State.init, content, Slice.read, Slice.nil]

/-- A fresh slice holds what was put in it. -/
theorem alloc_content (nil : Tr σ V) (ops : List (Op σ V)) (ts : List (Tr σ V)) (e : Nat) :
    (run nil (ops ++ [.alloc ts e])).user.length = (run nil ops).user.length + 1 ∧
    (run nil (ops ++ [.alloc ts e])).regs = (run nil ops).regs ∧
      userContent (run nil (ops ++ [.alloc ts e])) (run nil ops).user.length = ts := by
  rw [run_snoc]
  generalize run nil ops = s
  refine ⟨by simp [step], rfl, ?_⟩
  unfold userContent
  simp only [step, Arrays.alloc, List.getElem?_append_right (Nat.le_refl _), Nat.sub_self, List.getElem?_cons_zero, Option.map_some,
    Option.getD_some, Slice.read]
  rw [Arrays.array_append, if_pos rfl, List.take_left]

/-- **C45**, composition: `r.WithTransformers(a...).WithTransformers(b...)` reports as `r.WithTransformers(a..., b...)` does, after
any history. -/
theorem C45_compose (nil : Tr σ V) (ops : List (Op σ V)) (r : Nat) (hr : r < (run nil ops).regs.length) (a b : List (Tr σ V))
    (e1 e2 e3 g1 g2 g3 g4 g5 g6 : Nat) (scopes : Source σ V) :
    let k := (run nil ops).regs.length
    let m := (run nil ops).user.length
    let s := run nil (ops ++ [.alloc a e1] ++ [.with r m g1 g2] ++ [.alloc b e2] ++ [.with k (m + 1) g3 g4] ++
      [.alloc (a ++ b) e3] ++ [.with r (m + 2) g5 g6])
    stats s (k + 1) scopes = stats s (k + 2) scopes ∧ content s (k + 1) = content (run nil ops) r ++ (a ++ b) := by
  intro k m s
  obtain ⟨u1, r1, c1⟩ := alloc_content nil ops a e1
  have hr1 : r < (run nil (ops ++ [.alloc a e1])).regs.length := by rw [r1]; exact hr
  obtain ⟨l2, c2⟩ := C45_with nil (ops ++ [.alloc a e1]) r m g1 g2 hr1 (by rw [u1]; omega)
  rw [r1] at l2 c2
  obtain ⟨u3, r3, c3⟩ := alloc_content nil (ops ++ [.alloc a e1] ++ [.with r m g1 g2]) b e2
  have uw : ∀ (o : List (Op σ V)) (x y g g' : Nat), (run nil (o ++ [.with x y g g'])).user = (run nil o).user := by
    intro o x y g g'
    rw [run_snoc]
    simp only [step]
    cases (run nil o).regs[x]? <;> cases (run nil o).user[y]? <;> rfl
  rw [uw, u1] at u3
  rw [uw, u1] at c3
  obtain ⟨l4, c4⟩ := C45_with nil (ops ++ [.alloc a e1] ++ [.with r m g1 g2] ++ [.alloc b e2]) k (m + 1) g3 g4
    (by rw [r3, l2]; omega) (by rw [u3]; omega)
  rw [r3, l2] at l4 c4
  obtain ⟨u5, r5, c5⟩ := alloc_content nil (ops ++ [.alloc a e1] ++ [.with r m g1 g2] ++ [.alloc b e2] ++ [.with k (m + 1) g3 g4])
    (a ++ b) e3
  rw [uw, u3] at u5 c5
  obtain ⟨l6, c6⟩ := C45_with nil (ops ++ [.alloc a e1] ++ [.with r m g1 g2] ++ [.alloc b e2] ++ [.with k (m + 1) g3 g4] ++
    [.alloc (a ++ b) e3]) r (m + 2) g5 g6 (by rw [r5, l4]; omega) (by rw [u5]; omega)
  rw [r5, l4] at l6 c6
  -- what was there stays
  have st : ∀ (o mm : List (Op σ V)) (x : Nat), x < (run nil o).regs.length → content (run nil (o ++ mm)) x = content (run nil o) x :=
    fun o mm x hx => (C45_unaffected nil o mm x hx).1
  have base1 : content (run nil (ops ++ [.alloc a e1])) r = content (run nil ops) r := st _ _ r hr
  have ck : content (run nil (ops ++ [.alloc a e1] ++ [.with r m g1 g2] ++ [.alloc b e2])) k = content (run nil ops) r ++ a := by
    rw [st _ _ k (by rw [l2]; omega), c2, base1, c1]
  have ck1 : content s (k + 1) = content (run nil ops) r ++ (a ++ b) := by
    have h1 := st (ops ++ [.alloc a e1] ++ [.with r m g1 g2] ++ [.alloc b e2] ++ [.with k (m + 1) g3 g4])
      ([.alloc (a ++ b) e3] ++ [.with r (m + 2) g5 g6]) (k + 1) (by rw [l4]; omega)
    rw [← List.append_assoc] at h1
    rw [show content s (k + 1) = _ from h1, c4, ck, c3, List.append_assoc]
  have ck2 : content s (k + 2) = content (run nil ops) r ++ (a ++ b) := by
    rw [show content s (k + 2) = _ from c6, c5]
    congr 1
    have := st ops ([.alloc a e1] ++ [.with r m g1 g2] ++ [.alloc b e2] ++ [.with k (m + 1) g3 g4] ++ [.alloc (a ++ b) e3]) r hr
    simpa only [List.append_assoc] using this
  refine ⟨?_, ck1⟩
  funext cb
  show scopes (applyAll (content s (k + 1)) cb) = scopes (applyAll (content s (k + 2)) cb)
  rw [ck1, ck2]

/-- **C45**, order: the callback that the scopes get is the last transformer around those before it around the given callback, so the
most recently added one sees the raw values first. -/
theorem C45_order (s : State σ V) (r : Nat) (scopes : Source σ V) (ts : List (Tr σ V)) (t : Tr σ V) (hc : content s r = ts ++ [t])
    (cb : Cb σ V) : stats s r scopes cb = scopes (t (applyAll ts cb)) := by
  show scopes (applyAll (content s r) cb) = _
  rw [hc]
  unfold applyAll
  rw [List.foldl_append]
  rfl

/-- A transformer that replaces each value by some values. -/
def each (f : Stat V → List (Stat V)) : Tr σ V := fun cb x s => (f x).foldl (fun s y => cb y s) s

/-- A source that reports a list. -/
def reports (xs : List (Stat V)) : Source σ V := fun cb s => xs.foldl (fun s x => cb x s) s

/-- **C45**, each exactly once: with transformers that replace each value by some values, `Stats` reports what the last one makes of
the raw values, passed through the one before it, and so on to the first. -/
theorem C45_pipeline (s : State σ V) (r : Nat) (fs : List (Stat V → List (Stat V))) (hc : content s r = fs.map each)
    (xs : List (Stat V)) : stats s r (reports xs) = reports (σ := σ) (fs.foldr (fun f ys => ys.flatMap f) xs) := by
  funext cb
  show reports xs (applyAll (content s r) cb) = _
  rw [hc]
  clear hc
  induction fs generalizing cb with
  | nil => rfl
  | cons f fs ih =>
    rw [List.map_cons, List.foldr_cons]
    have : applyAll (each f :: fs.map each) cb = applyAll (fs.map each) (each f cb) := rfl
    rw [this, ih]
    funext w
    unfold reports each
    generalize fs.foldr (fun f ys => ys.flatMap f) xs = ys
    induction ys generalizing w with
    | nil => rfl
    | cons y ys ih2 => rw [List.flatMap_cons, List.foldl_append, List.foldl_cons, ih2]

/-- `TransformStatSource` nests the same way. -/
theorem C45_transform_stat_source (src : Source σ V) (a b : List (Tr σ V)) :
    transformStatSource (transformStatSource src b) a = transformStatSource src (a ++ b) := by
  funext cb
  simp [transformStatSource, applyAll, List.foldl_append]

/-- Non-vacuity: doubling, then adding one, in both orders of being added. -/
example :
    let two : Stat Nat → List (Stat Nat) := fun x => [(x.1, x.2.1, 2 * x.2.2)]
    let one : Stat Nat → List (Stat Nat) := fun x => [(x.1, x.2.1, x.2.2 + 1)]
    let id : Tr (List Nat) Nat := fun cb => cb
    let s := run id [.alloc [each two] 5, .with 0 0 3 3, .alloc [each one] 0, .with 1 1 0 0, .with 0 1 0 0, .with 3 0 0 0]
    stats s 2 (reports [(⟨b!"m", []⟩, b!"f", 5)]) (fun x l => l ++ [x.2.2]) [] = [12] ∧
    stats s 4 (reports [(⟨b!"m", []⟩, b!"f", 5)]) (fun x l => l ++ [x.2.2]) [] = [11] := by
  refine ⟨rfl, rfl⟩

end Monkit.Transform
