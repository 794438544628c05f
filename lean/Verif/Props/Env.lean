import Verif.Model.Env
import Mathlib.Data.List.Induction

/-!
# C108: registering the environment
-/

namespace Monkit.Env
open Go

/-- The scope that is used. -/
def path : Str := b!"github.com/spacemonkeygo/monkit/v3/environment"

/-- What one call adds to the scope `n` of registry `r`; `none`: it does not concern it. -/
def adds (r : Nat) (n : Str) : Op → Option (List Src)
  | .register none => if r = 0 ∧ n = path then some [.os, .proc, .process, .runtime, .rusage] else none
  | .register (some r') => if r = r' ∧ n = path then some [.os, .proc, .process, .runtime, .rusage] else none
  | .chain r' n' c => if r = r' ∧ n = n' then some [.other c] else none

/-- All that was added, in order. -/
def added (ops : List Op) (r : Nat) (n : Str) : List Src := (ops.filterMap (adds r n)).flatten

/-- After the calls. -/
def run (ops : List Op) : State := ops.foldl step .init

theorem path_eq : Callers.callerPackage (some frame) = path := by decide +kernel

theorem get_chain (m : Map Str (List Src)) (n : Str) (c : Src) (k : Str) :
    Map.get (chain m n c) k = if n = k then some ((Map.get m n).getD [] ++ [c]) else Map.get m k := by
  unfold chain
  rw [Map.get_set]

theorem get_scopeNamed (m : Map Str (List Src)) (n k : Str) :
    Map.get (scopeNamed m n) k = if n = k then some ((Map.get m n).getD []) else Map.get m k := by
  unfold scopeNamed
  cases h : Map.get m n with
  | none => simp only [Map.get_set, Option.getD_none]
  | some v =>
    simp only [Option.getD_some]
    split
    · next e => rw [← e, h]
    · rfl

theorem get_chains (cs : List Src) (m : Map Str (List Src)) (n : Str) (k : Str) (l : List Src) (hl : Map.get m n = some l) :
    Map.get (cs.foldl (fun m c => chain m n c) m) k = if n = k then some (l ++ cs) else Map.get m k := by
  induction cs generalizing m l with
  | nil =>
    simp only [List.foldl_nil, List.append_nil]
    split
    · next e => rw [← e, hl]
    · rfl
  | cons c cs ih =>
    rw [List.foldl_cons, ih (chain m n c) (l ++ [c]) (by rw [get_chain, if_pos rfl, hl]; rfl)]
    split
    · simp
    · next e => rw [get_chain, if_neg e]

theorem ok_scopeNamed {m : Map Str (List Src)} (h : Map.Ok m) (n : Str) : Map.Ok (scopeNamed m n) := by
  unfold scopeNamed
  split
  · exact h
  · exact Map.ok_set h _ _

theorem ok_chains (cs : List Src) {m : Map Str (List Src)} (h : Map.Ok m) (n : Str) : Map.Ok (cs.foldl (fun m c => chain m n c) m) := by
  induction cs generalizing m with
  | nil => exact h
  | cons c cs ih => exact ih (Map.ok_set h _ _)

/-- One call. -/
theorem step_spec (s : State) (op : Op) (r : Nat) (hs : Map.Ok (s.regs r)) :
    Map.Ok ((step s op).regs r) ∧ ∀ n, Map.get ((step s op).regs r) n =
      match adds r n op with | some l => some ((Map.get (s.regs r) n).getD [] ++ l) | none => Map.get (s.regs r) n := by
  have reg : ∀ r' : Nat, r = r' → Map.Ok (registrations.foldl (fun m c => chain m path c) (scopeNamed (s.regs r') path)) ∧ ∀ n,
      Map.get (registrations.foldl (fun m c => chain m path c) (scopeNamed (s.regs r') path)) n =
        if path = n then some ((Map.get (s.regs r') n).getD [] ++ registrations) else Map.get (s.regs r') n := by
    rintro r' rfl
    refine ⟨ok_chains _ (ok_scopeNamed hs _) _, fun n => ?_⟩
    rw [get_chains _ _ _ _ ((Map.get (s.regs r) path).getD []) (by rw [get_scopeNamed, if_pos rfl])]
    split
    · next e => rw [e]
    · next e => rw [get_scopeNamed, if_neg e]
  cases op with
  | register r' =>
    cases r' with
    | none =>
      simp only [step, path_eq, adds]
      by_cases hr : r = 0
      · simp only [hr, if_true, true_and]
        obtain ⟨a, b⟩ := reg 0 hr
        refine ⟨a, fun n => ?_⟩
        rw [b n]
        by_cases e : n = path
        · rw [if_pos e.symm]; simp [e, registrations]
        · rw [if_neg (fun h => e h.symm)]; simp [e]
      · simp only [hr, if_false, false_and]
        exact ⟨hs, fun n => trivial⟩
    | some r' =>
      simp only [step, path_eq, adds]
      by_cases hr : r = r'
      · simp only [hr, if_true, true_and]
        obtain ⟨a, b⟩ := reg r' hr
        refine ⟨a, fun n => ?_⟩
        rw [b n]
        by_cases e : n = path
        · rw [if_pos e.symm]; simp [e, registrations]
        · rw [if_neg (fun h => e h.symm)]; simp [e]
      · simp only [hr, if_false, false_and]
        exact ⟨hs, fun n => trivial⟩
  | chain r' n' c =>
    simp only [step, adds]
    by_cases hr : r = r'
    · subst hr
      simp only [if_true, true_and]
      refine ⟨Map.ok_set (ok_scopeNamed hs _) _ _, fun n => ?_⟩
      rw [get_chain, get_scopeNamed, get_scopeNamed]
      by_cases e : n = n'
      · subst e; simp
      · simp [e, Ne.symm e]
    · simp only [hr, if_false, false_and]
      exact ⟨hs, fun n => trivial⟩

theorem run_spec (ops : List Op) (r : Nat) : Map.Ok ((run ops).regs r) ∧ ∀ n, Map.get ((run ops).regs r) n =
    if ∃ op ∈ ops, (adds r n op).isSome = true then some (added ops r n) else none := by
  induction ops using List.reverseRecOn with
  | nil => exact ⟨Map.ok_nil, fun n => by simp [run, State.init]⟩
  | append_singleton ops op ih =>
    obtain ⟨h1, h2⟩ := ih
    have e : run (ops ++ [op]) = step (run ops) op := by simp [run]
    obtain ⟨s1, s2⟩ := step_spec (run ops) op r h1
    rw [e]
    refine ⟨s1, fun n => ?_⟩
    rw [s2 n, h2 n]
    have ha : added (ops ++ [op]) r n = added ops r n ++ (adds r n op).getD [] := by
      unfold added
      rw [List.filterMap_append, List.flatten_append]
      cases ho : adds r n op <;> simp [List.filterMap, ho]
    rw [ha]
    have hnone : (¬ ∃ op ∈ ops, (adds r n op).isSome = true) → added ops r n = [] := by
      intro hn
      unfold added
      rw [List.filterMap_eq_nil_iff.2 (fun x hx => ?_)]
      · rfl
      · cases hx' : adds r n x with
        | none => rfl
        | some l => exact absurd ⟨x, hx, by rw [hx']; rfl⟩ hn
    by_cases hx : ∃ op ∈ ops, (adds r n op).isSome = true
    · have hy : ∃ o ∈ ops ++ [op], (adds r n o).isSome = true := by
        obtain ⟨o, ho, hh⟩ := hx
        exact ⟨o, List.mem_append_left _ ho, hh⟩
      rw [if_pos hx, if_pos hy]
      cases adds r n op <;> simp
    · rw [if_neg hx, hnone hx]
      cases ho : adds r n op with
      | none =>
        rw [if_neg]
        rintro ⟨o, hm, hh⟩
        rcases List.mem_append.1 hm with hm | hm
        · exact hx ⟨o, hm, hh⟩
        · rw [List.mem_singleton.1 hm, ho] at hh; cases hh
      | some l =>
        rw [if_pos ⟨op, by simp, by rw [ho]; rfl⟩]
        simp

/-- **C108.** After any calls of `Register` and `Chain` a report of a registry lists the scopes mentioned in calls that concern it – and `Register` concerns the registry it was given,
the default one if none, and the scope named like the package –, each once and in the order of their names; and under each what the sources say that were attached to
it, as often and in the order as they were attached. -/
theorem C108_report_partial {V : Type} (tells : Src → List (Key × Str × V)) (ops : List Op) (r : Nat) :
    ∃ names : List Str, names.Nodup ∧ names.Pairwise (fun a b => strLe a b = true) ∧ (∀ n, n ∈ names ↔ ∃ op ∈ ops, (adds r n op).isSome = true) ∧
      report tells (run ops) r = names.flatMap fun n => (added ops r n).flatMap fun c => (tells c).map fun y => (y.1.withTag b!"scope" n, y.2.1, y.2.2) := by
  obtain ⟨h1, h2⟩ := run_spec ops r
  have hp := sortBy_perm (fun a b => !strLt b.1 a.1) ((run ops).regs r)
  have hs : (sortBy (fun a b => !strLt b.1 a.1) ((run ops).regs r)).Pairwise (fun a b => strLe a.1 b.1 = true) := by
    have := sortBy_sorted (le := fun a b : Str × List Src => !strLt b.1 a.1) (by
      intro a b c; simp only [strLt, Bool.not_not]; exact strLe_trans _ _ _) (by
      intro a b; simp only [strLt, Bool.not_not]; exact strLe_total _ _) ((run ops).regs r)
    refine this.imp ?_
    intro a b h
    simpa [strLt] using h
  have hok := Map.ok_perm hp.symm h1
  refine ⟨(sortBy (fun a b : Str × List Src => !strLt b.1 a.1) ((run ops).regs r)).map (fun x : Str × List Src => x.1), ?_, ?_, fun n => ?_, ?_⟩
  · exact hok
  · rw [List.pairwise_map]; exact hs
  · rw [Map.mem_keys_iff, ← Map.get_perm hp.symm h1 n, h2 n]
    by_cases hx : ∃ op ∈ ops, (adds r n op).isSome = true
    · simp [hx]
    · simp [hx]
  · unfold report
    rw [List.flatMap_map]
    refine List.flatMap_congr ?_
    intro x hx
    have hx := (mem_sortBy _).1 hx
    have := (Map.mem_iff_get h1 x.1 x.2).1 hx
    rw [h2 x.1] at this
    split at this
    · rw [Option.some.inj this]
    · cases this

/-- The documentation is wrong about the scope: nothing is attached to one called `env`. -/
theorem C108_env_violated {V : Type} (tells : Src → List (Key × Str × V)) :
    ∀ x ∈ report tells (run [.register none]) 0, Map.get x.1.tags b!"scope" = some path ∧ path ≠ b!"env" := by
  intro x hx
  obtain ⟨names, -, -, h3, h4⟩ := C108_report_partial tells [.register none] 0
  rw [h4] at hx
  simp only [List.mem_flatMap, List.mem_map] at hx
  obtain ⟨n, hn, c, -, y, -, rfl⟩ := hx
  obtain ⟨op, ho, hh⟩ := (h3 n).1 hn
  rw [List.mem_singleton.1 ho] at hh
  have : n = path := by
    by_contra hc
    simp [adds, hc] at hh
  subst this
  exact ⟨by simp [Key.withTag, Map.get_set], by decide +kernel⟩

/-- … and a second `Register` makes everything be reported twice. -/
theorem C108_twice_violated {V : Type} (tells : Src → List (Key × Str × V)) :
    report tells (run [.register none, .register (some 0)]) 0 = report tells (run [.register none]) 0 ++ report tells (run [.register none]) 0 := by
  have h1 : (run [.register none]).regs 0 = [(path, registrations)] := by decide +kernel
  have h2 : (run [.register none, .register (some 0)]).regs 0 = [(path, registrations ++ registrations)] := by decide +kernel
  unfold report
  rw [h1, h2]
  simp [sortBy, ins]

/-- Two registries and a scope of the program's own. -/
example : added [.register (some 1), .chain 1 path 7, .register none, .chain 1 b!"db" 8] 1 path = [.os, .proc, .process, .runtime, .rusage, .other 7] ∧
    added [.register (some 1), .chain 1 path 7, .register none, .chain 1 b!"db" 8] 0 path = [.os, .proc, .process, .runtime, .rusage] := by decide +kernel

end Monkit.Env
