import Verif.Spec.JsonDocs
import Verif.Proofs.Json
import Verif.Props.ListWriter

/-!
# C90: JSON documents about spans and functions
-/

namespace Monkit.JsonDocs
open Go Go.JsonEnc
open Monkit.JsonSpec
open Monkit.ListWriter (Writer)

theorem fix_ascii {s : Str} (h : ∀ c ∈ s, c.toNat < 0x80) : fixUtf8 s = s := fix_utf8 (utf8_ascii h)

theorem list_ok {α : Type} (f : α → Value) (w : Writer) (hw : ∀ i, w i = .ok) (l : List α) :
    (ListWriter.writeList (fun x => .ok (marshal (f x))) w l).2 = none ∧ IsUtf8 (ListWriter.writeList (fun x => .ok (marshal (f x))) w l).1 ∧
      read (ListWriter.writeList (fun x => .ok (marshal (f x))) w l).1 = some (.arr (l.map fun x => meaning (f x))) := by
  rw [ListWriter.C55_succeeds (fun x => .ok (marshal (f x))) w l ((l.map f).map marshal) (by simp) hw]
  refine ⟨rfl, utf8_document _, ?_⟩
  rw [read_document]
  simp

theorem meaning_obj (l : List (Str × Value)) : meaning (.obj l) = .obj (l.map fun m => (fixUtf8 m.1, meaning m.2)) := by rw [meaning, mems_eq]

theorem meaning_arr (l : List Value) : meaning (.arr l) = .arr (l.map meaning) := by rw [meaning, elems_eq]

theorem meaning_args (quote : Str → Str) (v : SpanView) : meaning (argsValue quote v) = .arr (v.args.map fun a => Spec.text (quote a)) := by
  rw [argsValue, meaning_arr, List.map_map]
  congr 1

theorem meaning_annotations (v : SpanView) : meaning (annotationsValue v) = .arr (v.annotations.map fun a => .arr [Spec.text a.1, Spec.text a.2]) := by
  rw [annotationsValue, meaning_arr, List.map_map]
  congr 1

theorem meaning_span (quote : Str → Str) (v : SpanView × Int64) : meaning (formatSpan quote v.1 v.2) = Spec.span quote v := by
  obtain ⟨v, e⟩ := v
  unfold formatSpan Spec.span
  rw [meaning_obj]
  have h : ∀ k ∈ [b!"id", b!"parent_id", b!"func", b!"package", b!"name", b!"trace", b!"start", b!"elapsed", b!"orphaned", b!"args", b!"annotations"], fixUtf8 k = k :=
    fun k hk => fix_ascii (by revert k; decide +kernel)
  simp only [List.forall_mem_cons] at h
  obtain ⟨h1, h2, h3, h4, h5, h6, h7, h8, h9, h10, h11, -⟩ := h
  cases hp : v.parentId <;>
    simp only [parentField, hp, List.map_append, List.map_cons, List.map_nil, h1, h2, h3, h4, h5, h6, h7, h8, h9, h10, h11, meaning_args, meaning_annotations,
      meaning_obj] <;> rfl

theorem meaning_finished (quote : Str → Str) (v : FinishedView) : meaning (formatFinishedSpan quote v) = Spec.finished quote v := by
  unfold formatFinishedSpan Spec.finished
  rw [meaning_obj]
  have h : ∀ k ∈ [b!"id", b!"parent_id", b!"func", b!"package", b!"name", b!"trace", b!"start", b!"finish", b!"orphaned", b!"args", b!"annotations", b!"err",
      b!"panicked"], fixUtf8 k = k :=
    fun k hk => fix_ascii (by revert k; decide +kernel)
  simp only [List.forall_mem_cons] at h
  obtain ⟨h1, h2, h3, h4, h5, h6, h7, h8, h9, h10, h11, h12, h13, -⟩ := h
  cases hp : v.span.parentId <;> cases he : v.err <;>
    simp only [parentField, hp, List.map_append, List.map_cons, List.map_nil, h1, h2, h3, h4, h5, h6, h7, h8, h9, h10, h11, h12, h13, meaning_args,
      meaning_annotations, meaning_obj] <;> rfl

theorem meaning_times (d : DurView) : meaning (formatDuration d) = Spec.times d := by
  unfold formatDuration Spec.times
  have hs : map (observedQuantiles.map fun h => (quantileName h, .int (d.query h))) =
      .obj [(b!"0.00", .int (d.query 0)), (b!"0.10", .int (d.query 10)), (b!"0.25", .int (d.query 25)), (b!"0.50", .int (d.query 50)),
      (b!"0.75", .int (d.query 75)), (b!"0.90", .int (d.query 90)), (b!"0.95", .int (d.query 95)), (b!"1.00", .int (d.query 100))] := by
    have hq : observedQuantiles.map quantileName = [b!"0.00", b!"0.10", b!"0.25", b!"0.50", b!"0.75", b!"0.90", b!"0.95", b!"1.00"] := by decide +kernel
    simp only [observedQuantiles, List.map_cons, List.map_nil, List.cons.injEq, and_true] at hq ⊢
    obtain ⟨h1, h2, h3, h4, h5, h6, h7, h8⟩ := hq
    rw [h1, h2, h3, h4, h5, h6, h7, h8]
    rfl
  rw [hs, meaning_obj]
  have h : ∀ k ∈ [b!"average", b!"reservoir_average", b!"full_average", b!"max", b!"min", b!"recent", b!"quantiles", b!"0.00", b!"0.10", b!"0.25", b!"0.50",
      b!"0.75", b!"0.90", b!"0.95", b!"1.00"], fixUtf8 k = k :=
    fun k hk => fix_ascii (by revert k; decide +kernel)
  simp only [List.forall_mem_cons] at h
  obtain ⟨h1, h2, h3, h4, h5, h6, h7, h8, h9, h10, h11, h12, h13, h14, h15, -⟩ := h
  simp only [List.map_cons, List.map_nil, h1, h2, h3, h4, h5, h6, h7, h8, h9, h10, h11, h12, h13, h14, h15, meaning_obj]
  rfl

theorem meaning_func (f : FuncView) : Spec.Func f (meaning (formatFunc f)) := by
  have hp : (sortBy (fun a b => strLe a.1 b.1) (f.errors.map fun e => (e.1, Value.int e.2))).Perm (f.errors.map fun e => (e.1, Value.int e.2)) := sortBy_perm _ _
  obtain ⟨es, he1, he2⟩ : ∃ es : List (Str × Int64), es.Perm f.errors ∧
      sortBy (fun a b => strLe a.1 b.1) (f.errors.map fun e => (e.1, Value.int e.2)) = es.map fun e => (e.1, Value.int e.2) := by
    refine ⟨sortBy (fun a b => strLe a.1 b.1) f.errors, sortBy_perm _ _, ?_⟩
    have hins : ∀ (x : Str × Int64) l, ins (fun a b => strLe a.1 b.1) (x.1, Value.int x.2) (l.map fun e : Str × Int64 => (e.1, Value.int e.2)) =
        (ins (fun a b => strLe a.1 b.1) x l).map fun e => (e.1, Value.int e.2) := by
      intro x l
      induction l with
      | nil => rfl
      | cons y l ih =>
        simp only [List.map_cons, ins]
        split
        · rfl
        · rw [ih]; rfl
    have : ∀ l : List (Str × Int64), sortBy (fun a b => strLe a.1 b.1) (l.map fun e => (e.1, Value.int e.2)) =
        (sortBy (fun a b => strLe a.1 b.1) l).map fun e => (e.1, Value.int e.2) := by
      intro l
      induction l with
      | nil => rfl
      | cons x l ih => rw [List.map_cons, sortBy, ih, sortBy, ← hins]
    exact this _
  refine ⟨es, he1, ?_⟩
  have hpar : meaning (parentIds f.parents) = if f.parents.filterMap id = [] then .null else .arr ((f.parents.filterMap id).map Spec.num) := by
    unfold parentIds
    generalize f.parents.filterMap id = l
    cases l with
    | nil => rfl
    | cons x l => rw [if_neg (by simp), meaning_arr, List.map_map]; rfl
  have hentry : (f.parents.any fun p => p.isNone) = decide (none ∈ f.parents) := by
    rw [Bool.eq_iff_iff]
    simp
  unfold formatFunc
  rw [meaning_obj]
  have h : ∀ k ∈ [b!"id", b!"parent_ids", b!"package", b!"name", b!"current", b!"highwater", b!"success", b!"panics", b!"entry", b!"errors", b!"success_times",
      b!"failure_times"], fixUtf8 k = k :=
    fun k hk => fix_ascii (by revert k; decide +kernel)
  simp only [List.forall_mem_cons] at h
  obtain ⟨h1, h2, h3, h4, h5, h6, h7, h8, h9, h10, h11, h12, -⟩ := h
  simp only [List.map_cons, List.map_nil, h1, h2, h3, h4, h5, h6, h7, h8, h9, h10, h11, h12, hpar, hentry, meaning_times, map, he2, meaning_obj, List.map_map]
  rfl

/-- **C90**.  With a writer that does not fail, `SpansJSON` succeeds and writes a JSON text in UTF-8 that says about each span, in order, its id, its
parent's id if it has one, its function, trace, start, elapsed time, whether it is an orphan, its arguments and annotations, and nothing else. -/
theorem C90_spans (quote : Str → Str) (w : Writer) (hw : ∀ i, w i = .ok) (l : List (SpanView × Int64)) :
    (spansJSON quote w l).2 = none ∧ IsUtf8 (spansJSON quote w l).1 ∧ read (spansJSON quote w l).1 = some (.arr (l.map (Spec.span quote))) := by
  obtain ⟨h1, h2, h3⟩ := list_ok (fun v : SpanView × Int64 => formatSpan quote v.1 v.2) w hw l
  refine ⟨h1, h2, h3.trans ?_⟩
  simp only [meaning_span]

/-- **C90**.  The same for `SpansToJSON` of finished spans, which have a finishing time, an error text and a panic mark instead of an elapsed time. -/
theorem C90_finished (quote : Str → Str) (w : Writer) (hw : ∀ i, w i = .ok) (l : List FinishedView) :
    (spansToJSON quote w l).2 = none ∧ IsUtf8 (spansToJSON quote w l).1 ∧ read (spansToJSON quote w l).1 = some (.arr (l.map (Spec.finished quote))) := by
  obtain ⟨h1, h2, h3⟩ := list_ok (formatFinishedSpan quote) w hw l
  refine ⟨h1, h2, h3.trans ?_⟩
  simp only [meaning_finished]

/-- **C90**.  The same for `FuncsJSON`; the errors may be in any order. -/
theorem C90_funcs (w : Writer) (hw : ∀ i, w i = .ok) (l : List FuncView) :
    (funcsJSON w l).2 = none ∧ IsUtf8 (funcsJSON w l).1 ∧ ∃ js, read (funcsJSON w l).1 = some (.arr js) ∧ js.length = l.length ∧ ∀ (i : Nat) f j, l[i]? = some f → js[i]? = some j → Spec.Func f j := by
  obtain ⟨h1, h2, h3⟩ := list_ok formatFunc w hw l
  refine ⟨h1, h2, _, h3, by simp, ?_⟩
  intro i f j hf hj
  rw [List.getElem?_map, hf] at hj
  cases hj
  exact meaning_func f

/-- **C90**.  The newlines that a trace query writes while it waits do not change what its answer says. -/
theorem C90_after_newlines (n : Nat) (s : Str) (j : Json) (h : read s = some j) (hs : IsUtf8 s) :
    read (List.replicate n 10 ++ s) = some j ∧ IsUtf8 (List.replicate n 10 ++ s) := by
  refine ⟨?_, utf8_append (utf8_ascii (by intro c hc; rw [List.eq_of_mem_replicate hc]; decide)) hs⟩
  have hv : ∀ m, value m (List.replicate n 10 ++ s) = value m s := by
    intro m
    induction n with
    | zero => rfl
    | succ n ih =>
      rw [← ih, List.replicate_succ, List.cons_append]
      cases m with
      | zero => rfl
      | succ m => rw [value, value]; rfl
  unfold JsonSpec.read at h ⊢
  split at h
  · rename_i v t hvt
    rw [hv, value_mono (2 * s.length + 2) _ (by simp <;> omega) s _ hvt]
    exact h
  · simp at h

/-- **C90**.  Strings that are UTF-8 are shown as they are. -/
theorem C90_text (s : Str) (h : IsUtf8 s) : Spec.text s = .str s := by rw [Spec.text, fix_utf8 h]

/-- A span without parent, with an argument that has a quote and an annotation that is not UTF-8; the writer takes everything. -/
example : (spansJSON (fun a => a) (fun _ => .ok) [(⟨-1, none, b!"p", b!"f", 2, 3, true, [b!"\"<"], [(b!"k", [255])]⟩, 4)]).1 =
    b!"[\n {\"id\":-1,\"func\":{\"package\":\"p\",\"name\":\"f\"},\"trace\":{\"id\":2},\"start\":3,\"elapsed\":4,\"orphaned\":true,\"args\":[\"\\\"\\u003c\"],\"annotations\":[[\"k\",\"\\ufffd\"]]}]\n" := by
  decide +kernel

end Monkit.JsonDocs
