import Verif.Model.ProcStats

/-!
# C95: the statistics of the process and its descriptors
-/

namespace Monkit.ProcStats
open Go

theorem upd_apply {α : Type} (f : Nat → α) (t : Nat) (v : α) (t' : Nat) : upd f t v t' = if t' = t then v else f t' := rfl

/-- How the executable was read, each time. -/
def reads : List Event → List Exe
  | [] => []
  | .read _ x :: tr => x :: reads tr
  | _ :: tr => reads tr

theorem reads_append (a b : List Event) : reads (a ++ b) = reads a ++ reads b := by
  induction a with
  | nil => rfl
  | cons e a ih => cases e <;> simp [reads, ih]

/-- What is to be reported when the executable was read like this: it is there, how long the process has been up and, if all of the
executable could be read, its checksum. -/
def Expected (crc32 : Str → UInt32) (x : Exe) (out : List (Str × FVal)) : Prop :=
  ∃ uptime, (∃ content, x = .bytes content false ∧
      out = [(b!"control", .int 1), (b!"crc", .flt (Float.rn 53 ((crc32 content).toNat : ℚ))), (b!"uptime", .secs uptime)]) ∨
    ((∀ content, x ≠ .bytes content false) ∧ out = [(b!"control", .int 1), (b!"uptime", .secs uptime)])

theorem expected_stats (crc32 : Str → UInt32) (x : Exe) (u : Int64) :
    Expected crc32 x (processStats (getProcessCRC crc32 x).1 (getProcessCRC crc32 x).2 u) := by
  refine ⟨u, ?_⟩
  cases x with
  | cannotOpen => exact .inr ⟨by simp, rfl⟩
  | bytes b f => cases f with
    | false => exact .inl ⟨b, rfl, rfl⟩
    | true => exact .inr ⟨by simp, rfl⟩

structure Inv (crc32 : Str → UInt32) (tr : List Event) (s : State) : Prop where
  running : ∀ t, s.thr t = .reading → s.once = .running t
  fresh : s.once ≠ .complete → reads tr = []
  after : ∀ t, s.thr t = .after → s.once = .complete
  done : s.once = .complete → ∃ x, reads tr = [x] ∧ (s.crc, s.err) = getProcessCRC crc32 x
  report : ∀ t out, Event.report t out ∈ tr → ∃ x, reads tr = [x] ∧ Expected crc32 x out
  order : ∀ a b t out, tr = a ++ Event.report t out :: b → reads a ≠ []

theorem inv_step (crc32 : Str → UInt32) (tr s e s') (h : Inv crc32 tr s) (st : Step crc32 s e s') : Inv crc32 (tr ++ e.toList) s' := by
  obtain ⟨h1, h2, h3, h4, h5, h6⟩ := h
  have hord : ∀ e', (∀ t out, e' = Event.report t out → reads tr ≠ []) → ∀ a b t out, tr ++ [e'] = a ++ Event.report t out :: b → reads a ≠ [] := by
    intro e' he a b t out e
    rcases List.eq_nil_or_concat b with rfl | ⟨b, y, rfl⟩
    · obtain ⟨rfl, e2⟩ := List.append_inj' e rfl
      injection e2 with e2
      exact he t out e2
    · rw [List.concat_eq_append, ← List.cons_append, ← List.append_assoc] at e
      obtain ⟨e, _⟩ := List.append_inj' e rfl
      exact h6 a b t out e
  cases st with
  | call t h =>
    refine ⟨?_, ?_, ?_, ?_, ?_, hord _ (by simp)⟩
    all_goals simp only [upd_apply, Option.toList_some, reads_append, reads, List.append_nil, List.mem_append, List.mem_singleton] at *
    all_goals grind
  | onceFirst t h ho =>
    refine ⟨?_, ?_, ?_, ?_, ?_, ?_⟩
    all_goals simp only [upd_apply, Option.toList_none, List.append_nil] at *
    all_goals grind
  | onceDone t h ho =>
    refine ⟨?_, ?_, ?_, ?_, ?_, ?_⟩
    all_goals simp only [upd_apply, Option.toList_none, List.append_nil] at *
    all_goals grind
  | read t x h =>
    have hr : reads tr = [] := h2 (by rw [h1 t h]; simp)
    refine ⟨?_, by simp, by simp, ?_, ?_, hord _ (by simp)⟩
    · intro t' ht'
      simp only [upd_apply] at ht'
      split at ht'
      · cases ht'
      · have e1 := h1 t h
        have e2 := h1 t' ht'
        rw [e1] at e2
        injection e2 with e2
        exact absurd e2.symm ‹_›
    · intro _
      exact ⟨x, by rw [Option.toList_some, reads_append, hr]; rfl, rfl⟩
    · intro t' out hm
      rw [Option.toList_some, List.mem_append, List.mem_singleton] at hm
      rcases hm with hm | hm
      · obtain ⟨y, e, _⟩ := h5 t' out hm
        rw [hr] at e; cases e
      · cases hm
  | report t u h =>
    obtain ⟨x, e, hx⟩ := h4 (h3 t h)
    have e' : reads (tr ++ [Event.report t (processStats s.crc s.err u)]) = [x] := by rw [reads_append, e]; rfl
    refine ⟨?_, ?_, ?_, ?_, ?_, hord _ fun _ _ _ => by rw [e]; simp⟩
    · simp only [upd_apply]; grind
    · intro hc; exact absurd (h3 t h) hc
    · simp only [upd_apply]; grind
    · intro _; exact ⟨x, e', hx⟩
    · intro t' out hm
      rw [Option.toList_some, List.mem_append, List.mem_singleton] at hm
      refine ⟨x, e', ?_⟩
      rcases hm with hm | hm
      · obtain ⟨y, ey, hy⟩ := h5 t' out hm
        rw [e] at ey
        injection ey with ey
        exact ey ▸ hy
      · injection hm with _ hm
        have hc : s.crc = (getProcessCRC crc32 x).1 := congrArg Prod.fst hx
        have he : s.err = (getProcessCRC crc32 x).2 := congrArg Prod.snd hx
        rw [hm, hc, he]
        exact expected_stats crc32 x u

theorem inv {crc32 : Str → UInt32} {tr : List Event} {s : State} (h : Exec (Step crc32) init tr s) : Inv crc32 tr s :=
  h.induct (Inv crc32) ⟨by simp [init], by simp [reads], by simp [init], by simp [init], by simp, by simp⟩ fun tr s e s' h st => inv_step crc32 tr s e s' h st

/-- C95.  However many goroutines read the statistics of the process, at whatever times, the executable is read at most once, and before
anything is reported. -/
theorem C95_read_once {crc32 : Str → UInt32} {tr : List Event} {s : State} (h : Exec (Step crc32) init tr s) :
    (reads tr).length ≤ 1 ∧ ∀ a b t out, tr = a ++ Event.report t out :: b → (reads a).length = 1 := by
  have key : ∀ {tr s}, Exec (Step crc32) init tr s → (reads tr).length ≤ 1 := by
    intro tr s h
    by_cases hc : s.once = .complete
    · obtain ⟨x, e, _⟩ := (inv h).done hc; rw [e]; simp
    · rw [(inv h).fresh hc]; simp
  refine ⟨key h, ?_⟩
  intro a b t out e
  have h0 := (inv h).order a b t out e
  obtain ⟨s', h'⟩ := h.pref a _ e
  have := key h'
  have : (reads a).length ≠ 0 := fun hh => h0 (List.length_eq_zero_iff.1 hh)
  omega

/-- C95.  Every report says that the process is there, once, how long it has been up and, if all of the executable could be read that one
time, its checksum. -/
theorem C95_reports {crc32 : Str → UInt32} {tr : List Event} {s : State} (h : Exec (Step crc32) init tr s) (t : Nat) (out)
    (hm : Event.report t out ∈ tr) : ∃ x, reads tr = [x] ∧ Expected crc32 x out := (inv h).report t out hm

/-- C95.  So all reports of all goroutines give the same checksum, or none gives one. -/
theorem C95_same_checksum {crc32 : Str → UInt32} {tr : List Event} {s : State} (h : Exec (Step crc32) init tr s) (t t' : Nat) (out out')
    (hm : Event.report t out ∈ tr) (hm' : Event.report t' out' ∈ tr) :
    out.filter (·.1 = b!"crc") = out'.filter (·.1 = b!"crc") := by
  obtain ⟨x, e, u, hx⟩ := C95_reports h t out hm
  obtain ⟨x', e', u', hx'⟩ := C95_reports h t' out' hm'
  rw [e] at e'
  injection e' with e'
  subst e'
  rcases hx with ⟨c, hc, rfl⟩ | ⟨hc, rfl⟩ <;> rcases hx' with ⟨c', hc', rfl⟩ | ⟨hc', rfl⟩
  · rw [hc] at hc'; injection hc' with hc' _; subst hc'; rfl
  · exact absurd hc (hc' c)
  · exact absurd hc' (hc c')
  · rfl

/-- How a directory is delivered by `Readdirnames(n)`: some names and no error, again and again, then the end, or an error. -/
inductive Delivers : Nat → DirErr → List (Nat × DirErr) → Prop
  | last {n e as} : e ≠ .none → Delivers n e ((n, e) :: as)
  | more {n m e as} : Delivers m e as → Delivers (n + m) e ((n, .none) :: as)

theorem fdLoop_delivers {n e as} (h : Delivers n e as) (c : Nat) : fdLoop c as = some (c + n, decide (e = .other)) := by
  induction h generalizing c with
  | @last n e as h => cases e <;> simp_all [fdLoop]
  | more _ ih => rw [fdLoop, ih]; simp [Nat.add_assoc]

/-- C95.  The number of descriptors that is reported is that of all names in the directory, in however many parts it is delivered. -/
theorem C95_fds {n as} (h : Delivers n .eof as) : osStats true as = some [(b!"count", .flt (Float.rn 53 (n : ℚ)))] := by
  rw [osStats, fdCount, if_pos rfl, fdLoop_delivers h]
  simp

/-- C95.  If the directory cannot be opened or not all of it can be read, no number is reported. -/
theorem C95_fds_error {n as} (h : Delivers n .other as) : osStats true as = some [] ∧ ∀ as, osStats false as = some [] := by
  refine ⟨?_, fun _ => rfl⟩
  rw [osStats, fdCount, if_pos rfl, fdLoop_delivers h]
  simp

/-- Two goroutines, the executable read by the second of them: both report its checksum. -/
example : ∃ s, Exec (Step fun _ => 5) init
    [.call 0, .call 1, .read 1 (.bytes b!"ELF" false), .report 0 (processStats 5 false 7), .report 1 (processStats 5 false 9)] s := by
  have e := Exec.start (step := Step fun _ => (5 : UInt32)) (s₀ := init)
  have e := e.step _ (.call _ 0 rfl)
  have e := e.step _ (.call _ 1 rfl)
  have e := e.step _ (.onceFirst _ 1 rfl rfl)
  have e := e.step _ (.read _ 1 (.bytes b!"ELF" false) rfl)
  have e := e.step _ (.onceDone _ 0 rfl rfl)
  have e := e.step _ (.report _ 0 7 rfl)
  exact ⟨_, e.step _ (.report _ 1 9 rfl)⟩

/-- 4100 descriptors, delivered in two parts. -/
example : Delivers 4100 .eof [(4096, .none), (4, .none), (0, .eof)] :=
  .more (n := 4096) (m := 4) (.more (n := 4) (m := 0) (.last (e := .eof) (by simp)))

end Monkit.ProcStats
