import Verif.Proofs.Times
import Verif.Props.TextRead

/-!
# C126: the times shown as text are exact

Durations in the text lists are written by `%s`, that is `time.Duration.String`; the times of a function by `formatDist`
(present/funcs.go:25-34).
-/

namespace Monkit.Times
open Go Go.DurText
open Monkit.Present (SpanView FuncView spansText funcsText takesAll)
open Monkit.Present.Spec (Within)
open Monkit.TextRead.Spec (Tidy Tidy1 TidyFunc Indented)
open Spec

/-- **C126**: the text of every duration stands for exactly that number of nanoseconds. -/
theorem C126_duration (d : Int64) : nanoseconds (duration d) = some (d.toInt : ℚ) := nanoseconds_duration d

example : duration 0 = b!"0s" ∧ duration 999 = b!"999ns" ∧ duration 1050 = 49 :: 46 :: 48 :: 53 :: 0xC2 :: 0xB5 :: b!"s" ∧ duration 20000000 = b!"20ms" ∧
    duration (-1500000000) = b!"-1.5s" ∧ duration 3600000000000 = b!"1h0m0s" ∧ duration Int64.minValue = b!"-2562047h47m16.854775808s" := by
  decide +kernel

example : nanoseconds b!"1h0m0.25s" = some 3600250000000 ∧ nanoseconds b!"-2.5ms" = some (-2500000) ∧ nanoseconds b!"5" = none := by
  decide +kernel

/-- **C126**: two durations with the same text are the same. -/
theorem C126_equal (d e : Int64) (h : duration d = duration e) : d = e := duration_inj h

/-- **C126**: the times of a function are twelve lines, each with its label, in this order, and the text after the label stands for
exactly the value. -/
theorem C126_lines (t : TimesView) (indent : Str) : ∃ texts : List Str,
    texts.map nanoseconds = (shown t).map (fun d => some (d.toInt : ℚ)) ∧
      formatDist t indent = (labels.zip texts).flatMap fun x => indent ++ x.1 ++ b!": " ++ x.2 ++ b!"\n" := by
  refine ⟨(shown t).map duration, ?_, ?_⟩
  · rw [List.map_map]
    exact List.map_congr_left fun d _ => nanoseconds_duration d
  · exact formatDist_eq t indent

/-- **C126**: two texts of times, with the same indentation, are equal only if all twelve values are equal. -/
theorem C126_times (t t' : TimesView) (indent : Str) (h : formatDist t indent = formatDist t' indent) : shown t = shown t' := by
  unfold formatDist at h
  simp only [JsonDocs.observedQuantiles, List.flatMap_cons, List.flatMap_nil, List.append_nil, List.append_assoc] at h
  obtain ⟨e1, h⟩ := line_split h
  obtain ⟨e2, h⟩ := line_split h
  obtain ⟨e3, h⟩ := line_split h
  obtain ⟨e4, h⟩ := line_split h
  obtain ⟨e5, h⟩ := line_split h
  obtain ⟨e6, h⟩ := line_split h
  obtain ⟨e7, h⟩ := line_split h
  obtain ⟨e8, h⟩ := line_split h
  obtain ⟨e9, h⟩ := line_split h
  obtain ⟨e10, h⟩ := line_split h
  obtain ⟨e11, h⟩ := line_split h
  have e12 := (line_split (congrArg (· ++ ([] : Str)) h)).1
  simp only [shown, e1, e2, e3, e4, e5, e6, e7, e8, e9, e10, e11, e12]

/-- The times of a function called a few times. -/
def exTimes : TimesView := ⟨⟨1500, 1500, 2000, 1000, 2000, fun q => if q < 50 then 1000 else 2000⟩, 3000⟩

example : (shown exTimes).length = labels.length ∧ shown exTimes ≠ shown { exTimes with sum := 3001 } := by decide

/-- **C126**, functions: two lists of functions with the same text have the same numbers, names, callers, counters and errors, and the
same times to the nanosecond, provided that the names of functions and errors have no line breaks. -/
theorem C126_funcs (fs gs : List TimedFunc) (hf : ∀ f ∈ fs, 10 ∉ f.view.name ∧ ∀ e ∈ f.view.errors, 10 ∉ e.1)
    (hg : ∀ g ∈ gs, 10 ∉ g.view.name ∧ ∀ e ∈ g.view.errors, 10 ∉ e.1)
    (h : (funcsText takesAll (fs.map (·.view))).out = (funcsText takesAll (gs.map (·.view))).out) : fs.map reading = gs.map reading := by
  have tidy : ∀ f : TimedFunc, (10 ∉ f.view.name ∧ ∀ e ∈ f.view.errors, 10 ∉ e.1) → TidyFunc f.view := by
    intro f h
    exact ⟨h.1, h.2, by rw [f.hs]; exact indented _, by rw [f.hf]; exact indented _⟩
  have key := TextRead.C124_funcs_partial (fs.map (·.view)) (gs.map (·.view))
    (by intro v hv; obtain ⟨f, hm, rfl⟩ := List.mem_map.1 hv; exact tidy f (hf f hm))
    (by intro v hv; obtain ⟨g, hm, rfl⟩ := List.mem_map.1 hv; exact tidy g (hg g hm)) h
  clear h hf hg
  induction fs generalizing gs with
  | nil =>
    cases gs with
    | nil => rfl
    | cons g gs => cases key
  | cons f fs ih =>
    cases gs with
    | nil => cases key
    | cons g gs =>
      simp only [List.map_cons, List.cons.injEq, TextRead.Spec.funcReading, TextRead.Spec.FuncReading.mk.injEq, Prod.mk.injEq] at key ⊢
      obtain ⟨⟨h1, h2, h3, ⟨h4, h5, h6, h7, h8⟩, h9, h10, h11⟩, hr⟩ := key
      rw [f.hs, g.hs] at h10
      rw [f.hf, g.hf] at h11
      refine ⟨?_, ih gs hr⟩
      simp only [reading, h1, h2, h3, h4, h5, h6, h7, h8, h9, C126_times _ _ _ h10, C126_times _ _ _ h11]

/-- A function with its times. -/
def exFunc : TimedFunc :=
  ⟨⟨1, b!"main.f", 0, 1, 2, 0, [(b!"E", 1)], [none], formatDist exTimes, formatDist { exTimes with sum := 7 }⟩, exTimes, { exTimes with sum := 7 }, rfl, rfl⟩

example : 10 ∉ exFunc.view.name ∧ (∀ e ∈ exFunc.view.errors, 10 ∉ e.1) ∧ (shown exFunc.failure).getLast? = some 7 := by decide

/-- The time since each span started, in nanoseconds, as `elapsed` says it. -/
def Clocked (v : SpanView) : Prop := ∀ u, Within u v → ∃ d : Int64, u.elapsed = duration d

/-- No text of the spans of the tree has a line break. -/
def Plain (v : SpanView) : Prop := ∀ u, Within u v → 10 ∉ u.name ∧ (∀ a ∈ u.args, 10 ∉ a) ∧ ∀ a ∈ u.annotations, 10 ∉ a.1 ∧ 10 ∉ a.2

/-- **C126**, spans: two lists of trees of spans with the same text are, to a reader, the same if only their texts have no line breaks;
nothing needs to be asked of the times (and equal texts of times are equal times, `C126_equal`). -/
theorem C126_spans (roots roots' : List SpanView) (hc : ∀ v ∈ roots, Clocked v) (hc' : ∀ v ∈ roots', Clocked v)
    (hp : ∀ v ∈ roots, Plain v) (hp' : ∀ v ∈ roots', Plain v) (h : (spansText takesAll roots).out = (spansText takesAll roots').out) :
    roots.map TextRead.Spec.reading = roots'.map TextRead.Spec.reading := by
  have tidy : ∀ v, Clocked v → Plain v → Tidy v := by
    intro v h1 h2 u hu
    obtain ⟨d, hd⟩ := h1 u hu
    obtain ⟨p1, p2, p3⟩ := h2 u hu
    refine ⟨p1, p2, p3, ?_⟩
    rw [hd]
    intro c h
    obtain ⟨n1, n2, -, n3⟩ := fine_ne (duration_fine d c h)
    exact ⟨n1, n2, n3⟩
  exact TextRead.C124_text_partial roots roots' (fun v hv => tidy v (hc v hv) (hp v hv)) (fun v hv => tidy v (hc' v hv) (hp' v hv)) h

example : Clocked (.mk 1 7 b!"main.f" [b!"1"] (duration 1500) false [(b!"k", b!"v")] []) ∧
    Plain (.mk 1 7 b!"main.f" [b!"1"] (duration 1500) false [(b!"k", b!"v")] []) := by
  constructor
  · intro u hu
    cases hu with
    | self => exact ⟨1500, rfl⟩
    | child hc _ => cases hc
  · intro u hu
    cases hu with
    | self => exact ⟨by decide, by decide, by decide⟩
    | child hc _ => cases hc

end Monkit.Times
