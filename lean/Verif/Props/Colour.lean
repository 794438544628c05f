import Verif.Model.Colour

/-!
# C96: the colour of a bar tells how the span ended
-/

namespace Monkit.Colour
open Go

/-- The error at the bottom of a chain of wrappers. -/
inductive Root (wrapped : Wrapping) : Nat → Nat → Prop
  | plain {e} : wrapped e = none → Root wrapped e e
  | empty {e} : wrapped e = some none → Root wrapped e e
  | wraps {e e' r} : wrapped e = some (some e') → Root wrapped e' r → Root wrapped e r

/-- How a span ended, and its colour: red for a panic, yellow for a cancelled context, orange for any other error, else blue. -/
inductive Shown (wrapped : Wrapping) (canceled : Nat) : Bool → Option Nat → Str → Prop
  | panicked {e} : Shown wrapped canceled true e b!"rgb(255,0,0)"
  | canceled {e} : Root wrapped e canceled → Shown wrapped canceled false (some e) b!"rgb(255,255,0)"
  | failed {e r} : Root wrapped e r → r ≠ canceled → Shown wrapped canceled false (some e) b!"rgb(255,144,0)"
  | fine : Shown wrapped canceled false none b!"rgb(128,128,255)"

theorem root_of_unwrap {wrapped : Wrapping} {n e r : Nat} (h : unwrapError wrapped n e = some r) : Root wrapped e r := by
  induction n generalizing e with
  | zero => cases h
  | succ n ih =>
    rw [unwrapError] at h
    split at h
    · cases h; exact .plain ‹_›
    · cases h; exact .empty ‹_›
    · exact .wraps ‹_› (ih h)

theorem unwrap_of_root {wrapped : Wrapping} {e r : Nat} (h : Root wrapped e r) : ∃ m, ∀ n, m ≤ n → unwrapError wrapped n e = some r := by
  induction h with
  | plain h => exact ⟨1, fun n hn => by obtain ⟨k, rfl⟩ := Nat.exists_eq_add_of_le' hn; simp [unwrapError, h]⟩
  | empty h => exact ⟨1, fun n hn => by obtain ⟨k, rfl⟩ := Nat.exists_eq_add_of_le' hn; simp [unwrapError, h]⟩
  | wraps h _ ih =>
    obtain ⟨m, ih⟩ := ih
    refine ⟨m + 1, fun n hn => ?_⟩
    cases n with
    | zero => omega
    | succ k => simp only [unwrapError, h]; exact ih k (by omega)

/-- C96.  A colour that is chosen is the right one, however long the chain of wrapped errors. -/
theorem C96_right (wrapped : Wrapping) (canceled n : Nat) (panicked : Bool) (err : Option Nat) (c : Str)
    (h : colour wrapped canceled n panicked err = some c) : Shown wrapped canceled panicked err c := by
  cases panicked with
  | true => cases h; exact .panicked
  | false =>
    cases err with
    | none => cases h; exact .fine
    | some e =>
      obtain ⟨r, hr, rfl⟩ := Option.map_eq_some_iff.1 h
      have hr := root_of_unwrap hr
      by_cases e : r = canceled
      · subst e; rw [if_pos rfl]; exact .canceled hr
      · rw [if_neg e]; exact .failed hr e

/-- C96, for chains of wrapped errors that end, and for panics: a colour is chosen. -/
theorem C96_chosen_partial (wrapped : Wrapping) (canceled : Nat) (panicked : Bool) (err : Option Nat)
    (hw : panicked = true ∨ ∀ e, err = some e → ∃ r, Root wrapped e r) :
    ∃ m c, ∀ n, m ≤ n → colour wrapped canceled n panicked err = some c := by
  cases panicked with
  | true => exact ⟨0, _, fun _ _ => rfl⟩
  | false =>
    cases err with
    | none => exact ⟨0, _, fun _ _ => rfl⟩
    | some e =>
      rcases hw with h | h
      · cases h
      · obtain ⟨r, hr⟩ := h e rfl
        obtain ⟨m, hm⟩ := unwrap_of_root hr
        exact ⟨m, if r = canceled then _ else _, fun n hn => by simp only [colour, hm n hn]; rfl⟩

/-- How a span ended has one colour. -/
theorem C96_one_colour (wrapped : Wrapping) (canceled : Nat) (panicked : Bool) (err : Option Nat) (c c' : Str)
    (h : Shown wrapped canceled panicked err c) (h' : Shown wrapped canceled panicked err c') : c = c' := by
  have uniq : ∀ {e r r'}, Root wrapped e r → Root wrapped e r' → r = r' := by
    intro e r r' h
    induction h with
    | plain h => intro h'; cases h' with | plain => rfl | empty => rfl | wraps h2 _ => rw [h] at h2; cases h2
    | empty h => intro h'; cases h' with | plain => rfl | empty => rfl | wraps h2 _ => rw [h] at h2; cases h2
    | wraps h _ ih =>
      intro h'
      cases h' with
      | plain h2 => rw [h] at h2; cases h2
      | empty h2 => rw [h] at h2; cases h2
      | wraps h2 h3 => rw [h] at h2; cases h2; exact ih h3
  cases h with
  | panicked => cases h'; rfl
  | fine => cases h'; rfl
  | canceled h1 =>
    cases h' with
    | canceled => rfl
    | failed h2 hn => exact absurd (uniq h2 h1) hn
  | failed h1 hn =>
    cases h' with
    | canceled h2 => exact absurd (uniq h1 h2) hn
    | failed => rfl

/-- C96 is false of the code: an error that wraps itself, or two that wrap each other, are unwrapped for ever, and the picture is never drawn. -/
theorem C96_cycle_violated : ∃ wrapped : Wrapping, ∃ e, ∀ n canceled, colour wrapped canceled n false (some e) = none := by
  refine ⟨fun e => some (some (1 - e)), 0, fun n canceled => ?_⟩
  have : ∀ n e, unwrapError (fun e => some (some (1 - e))) n e = none := by
    intro n
    induction n with
    | zero => intro e; rfl
    | succ n ih => intro e; exact ih (1 - e)
  simp [colour, this]

/-- C96 is false of the code in another way: an error that `errors.Is` takes for `context.Canceled` because its method `Unwrap` gives that, as `fmt.Errorf`
with `%w` makes it, is shown as any other error.  (`wrapped` is about the method `WrappedErr`, which it does not have.) -/
theorem C96_standard_wrapping_violated : ∃ (wrapped : Wrapping) (unwrap : Nat → Option Nat) (e canceled : Nat),
    unwrap e = some canceled ∧ ∀ n, 0 < n → colour wrapped canceled n false (some e) = some b!"rgb(255,144,0)" := by
  refine ⟨fun _ => none, fun e => if e = 1 then some 0 else none, 1, 0, rfl, fun n hn => ?_⟩
  obtain ⟨k, rfl⟩ := Nat.exists_eq_add_of_le' hn
  rfl

/-- An error wrapped twice around `context.Canceled` (error 0). -/
example : Root (fun e => if e = 0 then none else some (some (e - 1))) 2 0 := .wraps rfl (.wraps rfl (.plain rfl))

end Monkit.Colour
