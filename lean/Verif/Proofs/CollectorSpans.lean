import Verif.Spec.Collector
import Mathlib.Data.List.Nodup
import Mathlib.Data.List.Perm.Subperm

namespace Monkit.Collector

variable {idOf : Nat → Int} {parentOf : Nat → Option Int} {coll : List Nat}

theorem mem_children {x y : Nat} : y ∈ children idOf parentOf coll x ↔ Child idOf parentOf coll x y := by
  simp [children, Child]

theorem Desc.trans {x y z : Nat} (h1 : Desc idOf parentOf coll x y) (h2 : Desc idOf parentOf coll y z) :
    Desc idOf parentOf coll x z := by
  induction h2 with
  | refl => exact h1
  | child _ c ih => exact .child ih c

/-- First step instead of last. -/
theorem Desc.head {x z : Nat} (h : Desc idOf parentOf coll x z) :
    z = x ∨ ∃ y, Child idOf parentOf coll x y ∧ Desc idOf parentOf coll y z := by
  induction h with
  | refl => exact .inl rfl
  | child h c ih =>
    rcases ih with rfl | ⟨w, h1, h2⟩
    · exact .inr ⟨_, c, .refl⟩
    · exact .inr ⟨w, h1, .child h2 c⟩

theorem mapM_spec {f : Nat → Option (List Nat)} : ∀ {l : List Nat} {r : List (List Nat)}, l.mapM f = some r →
    List.Forall₂ (fun a b => f a = some b) l r := by
  intro l
  induction l with
  | nil => intro r h; simp at h; subst h; exact .nil
  | cons a l ih =>
    intro r h
    rw [List.mapM_cons] at h
    cases hf : f a with
    | none => rw [hf] at h; simp at h
    | some b =>
      rw [hf] at h
      cases hm : l.mapM f with
      | none => rw [hm] at h; simp at h
      | some rs =>
        rw [hm] at h
        simp at h; subst h
        exact .cons hf (ih hm)

theorem mapM_some {f : Nat → Option (List Nat)} : ∀ {l : List Nat}, (∀ a ∈ l, ∃ b, f a = some b) →
    ∃ r, l.mapM f = some r := by
  intro l
  induction l with
  | nil => intro _; exact ⟨[], rfl⟩
  | cons a l ih =>
    intro h
    obtain ⟨b, hb⟩ := h a (by simp)
    obtain ⟨r, hr⟩ := ih (fun x hx => h x (by simp [hx]))
    exact ⟨b :: r, by rw [List.mapM_cons, hb, hr]; rfl⟩

theorem walk_succ {fuel x : Nat} {out : List Nat} (h : walk idOf parentOf coll (fuel + 1) x = some out) :
    ∃ subs, List.Forall₂ (fun a b => walk idOf parentOf coll fuel a = some b)
        (children idOf parentOf coll x) subs ∧ out = x :: subs.flatten := by
  unfold walk at h
  split at h
  · cases h
  · rename_i subs hm
    exact ⟨subs, mapM_spec hm, (Option.some.inj h).symm⟩

theorem forall₂_mem_right {R : Nat → List Nat → Prop} {l : List Nat} {r : List (List Nat)}
    (h : List.Forall₂ R l r) {b : List Nat} (hb : b ∈ r) : ∃ a ∈ l, R a b := by
  induction h with
  | nil => cases hb
  | cons h1 _ ih =>
    rcases List.mem_cons.mp hb with rfl | hb
    · exact ⟨_, by simp, h1⟩
    · obtain ⟨a, ha, hr⟩ := ih hb
      exact ⟨a, by simp [ha], hr⟩

theorem forall₂_mem_left {R : Nat → List Nat → Prop} {l : List Nat} {r : List (List Nat)}
    (h : List.Forall₂ R l r) {a : Nat} (ha : a ∈ l) : ∃ b ∈ r, R a b := by
  induction h with
  | nil => cases ha
  | cons h1 _ ih =>
    rcases List.mem_cons.mp ha with rfl | ha
    · exact ⟨_, by simp, h1⟩
    · obtain ⟨b, hb, hr⟩ := ih ha
      exact ⟨b, by simp [hb], hr⟩

theorem walk_mem {fuel x : Nat} {out : List Nat} (h : walk idOf parentOf coll fuel x = some out) (y : Nat) :
    y ∈ out ↔ Desc idOf parentOf coll x y := by
  induction fuel generalizing x out y with
  | zero => cases h
  | succ fuel ih =>
    obtain ⟨subs, hf, rfl⟩ := walk_succ h
    constructor
    · intro hy
      rcases List.mem_cons.mp hy with rfl | hy
      · exact .refl
      · obtain ⟨sub, hsub, hy⟩ := List.mem_flatten.mp hy
        obtain ⟨c, hc, hw⟩ := forall₂_mem_right hf hsub
        exact Desc.trans (.child .refl (mem_children.mp hc)) ((ih hw y).mp hy)
    · intro hd
      rcases hd.head with rfl | ⟨c, hc, hd⟩
      · simp
      · obtain ⟨sub, hsub, hw⟩ := forall₂_mem_left hf (mem_children.mpr hc)
        exact List.mem_cons_of_mem _ (List.mem_flatten.mpr ⟨sub, hsub, (ih hw y).mpr hd⟩)

/-- Parents before children. -/
theorem walk_order {fuel x : Nat} {out : List Nat} (h : walk idOf parentOf coll fuel x = some out)
    (l1 : List Nat) (y : Nat) (l2 : List Nat) (hs : out = l1 ++ y :: l2) :
    (l1 = [] ∧ y = x) ∨ ∃ p ∈ l1, Child idOf parentOf coll p y := by
  induction fuel generalizing x out l1 y l2 with
  | zero => cases h
  | succ fuel ih =>
    obtain ⟨subs, hf, rfl⟩ := walk_succ h
    cases l1 with
    | nil => simp at hs; exact .inl ⟨rfl, hs.1.symm⟩
    | cons z l1 =>
      right
      simp only [List.cons_append, List.cons.injEq] at hs
      obtain ⟨rfl, hs⟩ := hs
      -- the subtree in which `y` lies
      have key : ∀ (cs : List Nat) (subs : List (List Nat)),
          List.Forall₂ (fun a b => walk idOf parentOf coll fuel a = some b) cs subs →
          ∀ l1, subs.flatten = l1 ++ y :: l2 → (∃ c ∈ cs, y = c) ∨ ∃ p ∈ l1, Child idOf parentOf coll p y := by
        intro cs subs hf
        induction hf with
        | nil => intro l1 h; simp at h
        | @cons c sub cs subs h1 hf ih2 =>
          intro l1 h
          rw [List.flatten_cons] at h
          rcases List.append_eq_append_iff.mp h with ⟨m, e1, e2⟩ | ⟨m, e1, e2⟩
          · -- l1 = sub ++ m
            rcases ih2 m e2 with ⟨c', hc', e⟩ | ⟨p, hp, hc⟩
            · exact .inl ⟨c', by simp [hc'], e⟩
            · exact .inr ⟨p, by rw [e1]; simp [hp], hc⟩
          · -- sub = l1 ++ m
            cases m with
            | nil =>
              simp at e1 e2
              rcases ih2 [] (by simpa using e2.symm) with ⟨c', hc', e⟩ | ⟨p, hp, hc⟩
              · exact .inl ⟨c', by simp [hc'], e⟩
              · cases hp
            | cons w m =>
              simp at e2
              obtain ⟨rfl, e2⟩ := e2
              rcases ih h1 l1 y m e1 with ⟨_, e⟩ | h
              · exact .inl ⟨c, by simp, e⟩
              · exact .inr h
      rcases key _ _ hf l1 hs with ⟨c, hc, rfl⟩ | ⟨p, hp, hc⟩
      · exact ⟨x, by simp, mem_children.mp hc⟩
      · exact ⟨p, by simp [hp], hc⟩

/-! ### Distinct ids -/

/-- `p` leads from `x` up to `x0`. -/
inductive Path (idOf : Nat → Int) (parentOf : Nat → Option Int) (coll : List Nat) (x0 : Nat) :
    List Nat → Nat → Prop where
  | root : Path idOf parentOf coll x0 [x0] x0
  | child {p : List Nat} {x y : Nat} : Path idOf parentOf coll x0 p x → Child idOf parentOf coll x y →
      Path idOf parentOf coll x0 (y :: p) y

variable {x0 : Nat}

theorem Path.mem {p : List Nat} {x : Nat} (h : Path idOf parentOf coll x0 p x) :
    x ∈ x0 :: coll ∧ ∀ y ∈ p, y ∈ x0 :: coll := by
  induction h with
  | root => simp
  | child h c ih =>
    refine ⟨List.mem_cons_of_mem _ c.1, fun y hy => ?_⟩
    rcases List.mem_cons.mp hy with rfl | hy
    · exact List.mem_cons_of_mem _ c.1
    · exact ih.2 y hy

theorem Path.unique (hd : Distinct idOf coll x0) (hx0 : x0 ∉ coll) {p q : List Nat} {x : Nat}
    (h1 : Path idOf parentOf coll x0 p x) (h2 : Path idOf parentOf coll x0 q x) : p = q := by
  induction h1 generalizing q with
  | root =>
    cases h2 with
    | root => rfl
    | child _ c => exact absurd c.1 hx0
  | @child p x y h c ih =>
    cases h2 with
    | root => exact absurd c.1 hx0
    | @child q x' _ h' c' =>
      have e : x' = x := hd x' h'.mem.1 x h.mem.1 (by
        have := c.2.symm.trans c'.2
        exact (Option.some.inj this).symm)
      subst e
      rw [ih h']

theorem Path.desc {p : List Nat} {x y : Nat} (h : Path idOf parentOf coll x0 p x)
    (hd : Desc idOf parentOf coll x y) : ∃ q, Path idOf parentOf coll x0 (q ++ p) y := by
  induction hd with
  | refl => exact ⟨[], h⟩
  | child _ c ih =>
    obtain ⟨q, hq⟩ := ih
    exact ⟨_ :: q, .child hq c⟩

theorem Path.up {p : List Nat} {x y : Nat} (h : Path idOf parentOf coll x0 p x) (hy : y ∈ p) :
    ∃ q r, p = r ++ q ∧ Path idOf parentOf coll x0 q y := by
  induction h with
  | root => simp at hy; subst hy; exact ⟨[y], [], rfl, .root⟩
  | @child p x z h c ih =>
    rcases List.mem_cons.mp hy with rfl | hy
    · exact ⟨_, [], rfl, .child h c⟩
    · obtain ⟨q, r, e, hp⟩ := ih hy
      exact ⟨q, z :: r, by rw [e]; rfl, hp⟩

theorem Path.nodup (hd : Distinct idOf coll x0) (hx0 : x0 ∉ coll) {p : List Nat} {x : Nat}
    (h : Path idOf parentOf coll x0 p x) : p.Nodup := by
  induction h with
  | root => simp
  | @child p x y h c ih =>
    rw [List.nodup_cons]
    refine ⟨fun hy => ?_, ih⟩
    obtain ⟨q, r, e, hq⟩ := h.up hy
    have := (Path.child h c).unique hd hx0 hq
    rw [e] at this
    have := congrArg List.length this
    simp at this; omega

theorem Path.length_le (hd : Distinct idOf coll x0) (hx0 : x0 ∉ coll) {p : List Nat} {x : Nat}
    (h : Path idOf parentOf coll x0 p x) : p.length ≤ coll.length + 1 := by
  have := (List.subperm_of_subset (h.nodup hd hx0) (fun y hy => h.mem.2 y hy)).length_le
  simpa using this

theorem walk_some (hd : Distinct idOf coll x0) (hx0 : x0 ∉ coll) {fuel : Nat} {p : List Nat} {x : Nat}
    (h : Path idOf parentOf coll x0 p x) (hf : coll.length + 2 ≤ fuel + p.length) :
    ∃ out, walk idOf parentOf coll fuel x = some out := by
  induction fuel generalizing p x with
  | zero => have := h.length_le hd hx0; omega
  | succ fuel ih =>
    obtain ⟨r, hr⟩ := mapM_some (f := walk idOf parentOf coll fuel) (l := children idOf parentOf coll x)
      (fun a ha => ih (.child h (mem_children.mp ha)) (by simp; omega))
    exact ⟨_, by unfold walk; rw [hr]⟩

theorem walk_nodup (hd : Distinct idOf coll x0) (hx0 : x0 ∉ coll) (hc : coll.Nodup) {fuel : Nat}
    {p : List Nat} {x : Nat} {out : List Nat} (h : Path idOf parentOf coll x0 p x)
    (hw : walk idOf parentOf coll fuel x = some out) : out.Nodup := by
  induction fuel generalizing p x out with
  | zero => cases hw
  | succ fuel ih =>
    obtain ⟨subs, hf, rfl⟩ := walk_succ hw
    rw [List.nodup_cons]
    constructor
    · intro hx
      obtain ⟨sub, hsub, hx⟩ := List.mem_flatten.mp hx
      obtain ⟨c, hcc, hw⟩ := forall₂_mem_right hf hsub
      obtain ⟨q, hq⟩ := (Path.child h (mem_children.mp hcc)).desc ((walk_mem hw x).mp hx)
      have := congrArg List.length (h.unique hd hx0 hq)
      simp at this; omega
    · have key : ∀ (cs : List Nat) (subs : List (List Nat)),
          List.Forall₂ (fun a b => walk idOf parentOf coll fuel a = some b) cs subs →
          cs.Nodup → (∀ c ∈ cs, Child idOf parentOf coll x c) → subs.flatten.Nodup := by
        intro cs subs hf
        induction hf with
        | nil => intro _ _; simp
        | @cons c sub cs subs h1 hf ih2 =>
          intro hn hch
          rw [List.flatten_cons, List.nodup_append]
          rw [List.nodup_cons] at hn
          refine ⟨ih (.child h (hch c (by simp))) h1, ih2 hn.2 (fun a ha => hch a (by simp [ha])), ?_⟩
          intro a ha b hb e
          subst e
          obtain ⟨sub', hsub', hb⟩ := List.mem_flatten.mp hb
          obtain ⟨c', hc', hw'⟩ := forall₂_mem_right hf hsub'
          obtain ⟨q, hq⟩ := (Path.child h (hch c (by simp))).desc ((walk_mem h1 a).mp ha)
          obtain ⟨q', hq'⟩ := (Path.child h (hch c' (by simp [hc']))).desc ((walk_mem hw' a).mp hb)
          have e := hq.unique hd hx0 hq'
          have el := congrArg List.length e
          simp at el
          have := List.append_inj_right e (by omega)
          simp at this
          subst this
          exact hn.1 hc'
      exact key _ _ hf (hc.filter _) (fun c hcc => mem_children.mp hcc)

end Monkit.Collector
