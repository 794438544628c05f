import Verif.Proofs.ProcFs

/-!
# C94: the statistics of the process are those of the kernel
-/

namespace Monkit.ProcFs
open Go Spec

theorem fileStats_some (key : Str) (decl : List (Str × Kind)) (args : List Str) (format : Str) (file : Option (List Nat)) :
    ∃ out, fileStats key decl args format file = some out ∧ ∀ x ∈ out, x.1 = ⟨key, []⟩ := by
  rw [fileStats]
  split
  · exact ⟨[], rfl, by simp⟩
  · rw [Struct.stats, Struct.stats, toStruct_stats]
    refine ⟨_, rfl, ?_⟩
    intro x hx
    obtain ⟨y, _, rfl⟩ := List.mem_map.1 hx
    rfl

theorem stat_decl : statDecl =
    (b!"Pid", .int64) :: (b!"Comm", .string) :: (b!"State", .byte) :: (fields.map (·.1)).zip ((fields.map (·.2)).map kind) := by decide +kernel

/-- C94.  Whatever the files hold, the statistics are read without a panic; what is reported under `proc_stat` depends on /proc/self/stat
only, and what is reported under `proc_statm` on /proc/self/statm only. -/
theorem C94_no_panic (stat statm : Option (List Nat)) : ∃ a b, proc stat statm = some (a ++ b) ∧
    (∀ x ∈ a, x.1 = ⟨b!"proc_stat", []⟩) ∧ (∀ x ∈ b, x.1 = ⟨b!"proc_statm", []⟩) ∧
    (∀ statm', ∃ b', proc stat statm' = some (a ++ b')) ∧ (∀ stat', ∃ a', proc stat' statm = some (a' ++ b)) := by
  obtain ⟨a, ea, ha⟩ := fileStats_some b!"proc_stat" statDecl statArgs statFormat stat
  obtain ⟨b, eb, hb⟩ := fileStats_some b!"proc_statm" statmDecl statmArgs statmFormat statm
  refine ⟨a, b, by rw [proc, ea, eb]; rfl, ha, hb, fun m => ?_, fun m => ?_⟩
  · obtain ⟨b', eb', _⟩ := fileStats_some b!"proc_statm" statmDecl statmArgs statmFormat m
    exact ⟨b', by rw [proc, ea, eb']; rfl⟩
  · obtain ⟨a', ea', _⟩ := fileStats_some b!"proc_stat" statDecl statArgs statFormat m
    exact ⟨a', by rw [proc, ea', eb]; rfl⟩

/-- C94, for a process whose name has no white space in it: under `proc_stat` every field of /proc/self/stat is reported, under its own
name, with its own value, and nothing else is. -/
theorem C94_stat_partial (p : Proc) (h : p.Ok) (hc : ∀ r ∈ p.comm, ¬ Space r) (statm : Option (List Nat)) :
    ∃ b, proc (some p.file) statm = some (p.stats ++ b) ∧ ∀ x ∈ b, x.1 = ⟨b!"proc_statm", []⟩ := by
  obtain ⟨b, eb, hb⟩ := fileStats_some b!"proc_statm" statmDecl statmArgs statmFormat statm
  refine ⟨b, ?_, hb⟩
  have e : fileStats b!"proc_stat" statDecl statArgs statFormat (some p.file) = some p.stats := by
    rw [fileStats, scan_comm h hc]
    simp only [Struct.stats]
    rw [toStruct_stats, stat_decl]
    have hz := reported_zip (fields.map (·.1)) p.vals (fields.map (·.2))
      (by rw [written_length h.nums]; simp) (by simp) (by decide +kernel)
      [(b!"Pid", .num p.pidV), (b!"Comm", .str (40 :: p.comm ++ [41])), (b!"State", .num p.state)] (by
        intro x hx
        simp only [List.mem_cons, List.not_mem_nil, or_false] at hx
        rcases hx with rfl | rfl | rfl
        · exact (by decide +kernel : b!"Pid" ∉ fields.map (·.1))
        · exact (by decide +kernel : b!"Comm" ∉ fields.map (·.1))
        · exact (by decide +kernel : b!"State" ∉ fields.map (·.1)))
    simp only [List.cons_append, List.nil_append] at hz
    rw [List.cons_append]
    generalize hgot : (b!"Pid", Got.num p.pidV) :: (b!"Comm", Got.str (40 :: (p.comm ++ [41]))) :: (b!"State", Got.num p.state) ::
      (fields.map (·.1)).zip (p.vals.map Got.num) = got at hz ⊢
    have h1 : reported got (b!"Pid", .int64) = some (b!"Pid", .flt (Float.rn 53 p.pidV)) := by rw [← hgot]; rfl
    have h2 : reported got (b!"Comm", .string) = none := rfl
    have h3 : reported got (b!"State", .byte) = some (b!"State", .flt (Float.rn 53 (p.state : Int))) := by rw [← hgot]; rfl
    rw [List.filterMap_cons, h1, List.filterMap_cons, h2, List.filterMap_cons, h3]
    simp only
    have hz : List.filterMap (reported got) ((fields.map (·.1)).zip ((fields.map (·.2)).map kind)) = _ := hz
    rw [hz]
    have hv : (fields.map (·.1)).zip p.vals = (fields.zip p.vals).map fun x => (x.1.1, x.2) := by
      rw [List.zip_map_left]; rfl
    simp only [Proc.stats, hv, Option.map_some, List.map_cons, List.map_map]
    rfl
  rw [proc, e, eb]
  rfl

/-- C94.  In every case what is reported about a process is right or absent: with white space in the name nothing is reported under
`proc_stat`.  (The kernel's names have at most 64 characters.) -/
theorem C94_right_or_absent (p : Proc) (h : p.Ok) (hl : p.comm.length ≤ 64) (statm : Option (List Nat)) :
    ∃ a b, proc (some p.file) statm = some (a ++ b) ∧ (∀ x ∈ b, x.1 = ⟨b!"proc_statm", []⟩) ∧
      (a = p.stats ∧ (∀ r ∈ p.comm, ¬ Space r) ∨ a = [] ∧ ∃ r ∈ p.comm, Space r) := by
  by_cases hc : ∃ r ∈ p.comm, Space r
  · obtain ⟨b, eb, hb⟩ := fileStats_some b!"proc_statm" statmDecl statmArgs statmFormat statm
    refine ⟨[], b, ?_, hb, .inr ⟨rfl, hc⟩⟩
    rw [proc, fileStats, scan_fails h hc hl, eb]
    rfl
  · have hc : ∀ r ∈ p.comm, ¬ Space r := fun r hr hs => hc ⟨r, hr, hs⟩
    obtain ⟨b, eb, hb⟩ := C94_stat_partial p h hc statm
    exact ⟨_, b, eb, hb, .inl ⟨rfl, hc⟩⟩

/-- C94.  Under `proc_statm` every number of /proc/self/statm is reported, under the name of its place, and nothing else is. -/
theorem C94_statm (ts : List (List Nat)) (vals : List Int) (rest : List Nat) (hw : Written (memFields.map fun _ => true) ts vals)
    (hr : ∀ r s, rest = r :: s → Space r) (stat : Option (List Nat)) :
    ∃ a, proc stat (some (memFile ts rest)) = some (a ++ memStats vals) ∧ ∀ x ∈ a, x.1 = ⟨b!"proc_stat", []⟩ := by
  obtain ⟨a, ea, ha⟩ := fileStats_some b!"proc_stat" statDecl statArgs statFormat stat
  refine ⟨a, ?_, ha⟩
  have e : fileStats b!"proc_statm" statmDecl statmArgs statmFormat (some (memFile ts rest)) = some (memStats vals) := by
    have hlen := written_length hw
    have hg : readFile statmDecl statmArgs statmFormat (some (memFile ts rest)) = some (memFields.zip (vals.map Got.num)) := by
      cases hw with
      | cons ht hf hw =>
        rename_i t ts v vs
        have hends : Ends rest := fun r t e => (isSpace_iff r).2 (hr r t e)
        have := scanf_nums (x := b!"Size") (names := memFields.tail) hends ht hf hw rfl
        rw [readFile, Option.bind_some, memFile, List.append_assoc]
        exact this
    rw [fileStats, hg]
    simp only [Struct.stats]
    have hd : statmDecl = memFields.zip ((memFields.map fun _ => true).map kind) := by decide +kernel
    have hz := reported_zip memFields vals (memFields.map fun _ => true) (by simpa using hlen) (by simp) (by decide +kernel) [] (by simp)
    rw [toStruct_stats, hd]
    simp only [List.nil_append] at hz
    rw [hz]
    simp only [Option.map_some, List.map_map, memStats]
    rfl
  rw [proc, ea, e]
  rfl

/-- A process called `name`. -/
def sample (name : List Nat) : Proc :=
  ⟨[55], 7, name, 83, List.replicate 41 [49], List.replicate 41 1, [10]⟩

theorem sample_ok (name : List Nat) : (sample name).Ok := by
  have t1 : Text [49] 1 := .pos (n := 1) (.one (d := 1) (by decide))
  refine ⟨.cons (.pos (n := 7) (.one (d := 7) (by decide))) (by simp [Fits, sample]) .nil, .inl (by simp [sample]), ?_, ?_⟩
  · have : ∀ l : List Bool, Written l (List.replicate l.length [49]) (List.replicate l.length 1) := by
      intro l
      induction l with
      | nil => exact .nil
      | cons b l ih => exact .cons t1 (by cases b <;> simp [Fits]) ih
    exact this _
  · intro r s e
    injection e with e _
    subst e
    exact .inl (by decide)

/-- C94 is false of the code: of a process that is called `a b` nothing at all is reported under `proc_stat`, although the file can be
read and is complete. -/
theorem C94_name_violated : ∃ p : Proc, p.Ok ∧ p.comm.length ≤ 64 ∧
    ∀ statm, ∃ b, proc (some p.file) statm = some b ∧ ∀ x ∈ b, x.1 ≠ ⟨b!"proc_stat", []⟩ := by
  refine ⟨sample [97, 32, 98], sample_ok _, by decide, fun statm => ?_⟩
  obtain ⟨a, b, e, hb, h | h⟩ := C94_right_or_absent (sample [97, 32, 98]) (sample_ok _) (by decide) statm
  · exact absurd (.inr (.inl (by decide))) (h.2 32 (by decide))
  · rw [h.1] at e
    exact ⟨b, e, fun x hx => by rw [hb x hx]; decide⟩

/-- A process called `sshd`: the hypotheses of `C94_stat_partial` hold, and 43 statistics are reported. -/
example : (sample [115, 115, 104, 100]).Ok ∧ (∀ r ∈ (sample [115, 115, 104, 100]).comm, ¬ Space r) ∧
    (sample [115, 115, 104, 100]).stats.length = 43 :=
  ⟨sample_ok _, by intro r hr; rw [← isSpace_iff]; revert r; decide, by decide⟩

/-- A memory file: `12 3 3 3 3 3 3`. -/
example : Written (memFields.map fun _ => true) [[49, 50], [51], [51], [51], [51], [51], [51]] [12, 3, 3, 3, 3, 3, 3] := by
  have t3 : Text [51] 3 := .pos (n := 3) (.one (d := 3) (by decide))
  have t12 : Text [49, 50] 12 := .pos (n := 12) (.more (ds := [49]) (n := 1) (.one (d := 1) (by decide)) (d := 2) (by decide))
  have f3 : Fits true 3 := by simp [Fits]
  have f12 : Fits true 12 := by simp [Fits]
  exact .cons t12 f12 (.cons t3 f3 (.cons t3 f3 (.cons t3 f3 (.cons t3 f3 (.cons t3 f3 (.cons t3 f3 .nil))))))

end Monkit.ProcFs
