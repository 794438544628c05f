import Verif.Model.SvgBar
import Verif.Props.SvgText
import Verif.Proofs.Times
import Verif.Proofs.Present

/-!
# C78: the bars that are drawn
-/

namespace Monkit.SvgText
open Go Go.Utf8
open Spec
open Monkit.Present.Spec (num)

theorem fine_xml {c : UInt8} (h : Times.Fine c) : c ≠ 38 ∧ c ≠ 60 ∧ c ≠ 62 ∧ c ≠ 34 ∧ c ≠ 39 ∧ c ≠ 10 ∧ c ≠ 13 ∧ c ≠ 92 := by
  rcases h with h | h
  · refine ⟨?_, ?_, ?_, ?_, ?_, ?_, ?_, ?_⟩ <;> (rintro rfl; cases h)
  · refine ⟨?_, ?_, ?_, ?_, ?_, ?_, ?_, ?_⟩ <;> (rintro rfl; revert h; decide)

theorem decimal_same (n : Nat) : Dot.decimal n = JsonEnc.decimal n := by
  induction n using Nat.strongRecOn with
  | _ n ih =>
    rw [Dot.decimal, JsonEnc.decimal]
    split
    · rfl
    · rw [ih (n / 10) (by omega)]

theorem fmtInt_fine (i : Int64) : ∀ c ∈ Present.fmtInt i, Times.Fine c := by
  have hd : ∀ n, ∀ c ∈ Dot.decimal n, Times.Fine c := fun n c hc => .inl (JsonSpec.digit_decimal n c (decimal_same n ▸ hc))
  intro c hc
  unfold Present.fmtInt at hc
  split at hc
  · rcases List.mem_append.1 hc with hc | hc
    · exact .inr (by revert hc; simp; rintro rfl; decide)
    · exact hd _ c hc
  · exact hd _ c hc

theorem fine_harmless {s : Str} (h : ∀ c ∈ s, Times.Fine c) : Harmless s := fun c hc => by
  obtain ⟨a, b, -, d, e, f, g, i⟩ := fine_xml (h c hc)
  exact ⟨a, b, d, e, f, g, i⟩

/-- **C78**, the text beside the bar of any span: it is character data whatever the function and the arguments are called; if they are made of
characters that XML allows, it reads as the name, the arguments with spaces between them and the time taken. -/
theorem C78_drawn (id : Int64) (parent : Option Int64) (name : Str) (args : List Str) (took since : Int64) :
    (∃ x, readText none (text (barOf id parent name args took since)) = some x) ∧
    ∀ ns as : List Nat, name = ns.flatMap encode → (args.intersperse b!" ").flatten = as.flatMap encode → (∀ r ∈ ns, XmlChar r) → (∀ r ∈ as, XmlChar r) →
      readText none (text (barOf id parent name args took since)) =
        some (name ++ b!"(" ++ (args.intersperse b!" ").flatten ++ b!") (" ++ DurText.duration took ++ b!")") := by
  have j : ∀ l : List Str, Args.joinSpace l = (l.intersperse b!" ").flatten := by
    intro l
    induction l with
    | nil => rfl
    | cons a l ih =>
      cases l with
      | nil => simp [Args.joinSpace]
      | cons b l => rw [Args.joinSpace, ih]; simp; simp
  obtain ⟨h1, h2⟩ := C78_text (barOf id parent name args took since) fun c hc => by
    obtain ⟨a, b, d, e, f, -⟩ := fine_xml (Times.duration_fine took c hc)
    exact ⟨a, b, d, e, f⟩
  refine ⟨h1, fun ns as en ea hn ha => ?_⟩
  rw [h2 ns as en ((j args).trans ea) hn ha, ← j]
  rfl

/-- **C78**, the handler of the bar of any span, partial: if the name and the arguments have no apostrophe, backslash or line break, it is a call of
`mouseover` with three string literals: the number of the span, the number of the parent (0 if that is not drawn) and a text.  What is missing:
other names and arguments (`C78_script_violated`). -/
theorem C78_drawn_script_partial (id : Int64) (parent : Option Int64) (name : Str) (args : List Str) (took since : Int64)
    (hn : NoScript name) (ha : NoScript (Args.joinSpace args)) :
    ∃ js, readAttr none (onmouseover (barOf id parent name args took since)) = some js ∧ outside false js = some b!"mouseover(, , );" ∧
      js = b!"mouseover('" ++ num id ++ b!"', '" ++ num (parent.getD 0) ++ b!"', '" ++ name ++ b!"(" ++ Args.joinSpace args ++ b!") Duration:" ++
        DurText.duration took ++ b!" Started:" ++ DurText.duration since ++ b!"');" := by
  obtain ⟨js, h1, h2, h3⟩ := C78_script_partial (barOf id parent name args took since) (fine_harmless (fmtInt_fine _)) (fine_harmless (fmtInt_fine _))
    (fine_harmless (Times.duration_fine _)) (fine_harmless (Times.duration_fine _)) hn ha
  refine ⟨js, h1, h2, h3.trans ?_⟩
  simp only [barOf, Present.fmtInt_eq]

/-- A span of a function `f` with two arguments, one of which has a character that must be escaped. -/
example : NoScript b!"f" ∧ NoScript (Args.joinSpace [b!"1", b!"<"]) ∧
    readText none (text (barOf 5 (some 3) b!"f" [b!"1", b!"<"] 2000000000 0)) = some b!"f(1 <) (2s)" := by
  have x1 : ∀ r ∈ [102], XmlChar r := by simp [XmlChar]
  have x2 : ∀ r ∈ [49, 32, 60], XmlChar r := by simp [XmlChar]
  refine ⟨⟨[102], by decide, x1, by decide⟩, ⟨[49, 32, 60], by decide, x2, by decide⟩, ?_⟩
  rw [(C78_drawn 5 (some 3) b!"f" [b!"1", b!"<"] 2000000000 0).2 [102] [49, 32, 60] (by decide) (by decide) x1 x2]
  decide +kernel

end Monkit.SvgText
