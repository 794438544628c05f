import Verif.Model.ListWriter

/-!
# Specification: written lists
-/

namespace Monkit.ListWriter.Spec
open Go Monkit.ListWriter

/-- The beginning of a list with elements `es`: not yet closed. -/
def opening (es : List Str) : Str :=
  b!"[" ++ (match es with | [] => [] | _ => b!"\n " ++ b!",\n ".intercalate es)

/-- The text of a list. -/
def document (es : List Str) : Str := opening es ++ b!"]\n"

/-- What follows `opening es` if there is an element `e` more. -/
def more (es : List Str) (e : Str) : Str := (match es with | [] => b!"\n " | _ => b!",\n ") ++ e

/-- `Written marshal w l out r`: writing list `l` to `w` may leave the bytes `out` and return `r`: everything went well, or the first thing to go
wrong was: the opening bracket; the encoding of an element; the writing of an element; the closing bracket. -/
inductive Written {α : Type} (marshal : α → Except Nat Str) (w : Writer) (l : List α) : Str → Option Err → Prop where
  | ok (es : List Str) : l.map marshal = es.map .ok → (∀ i, i ≤ l.length + 1 → w i = .ok) → Written marshal w l (document es) none
  | bracket (n e : Nat) : w 0 = .fail n e → Written marshal w l (b!"[".take n) (some (.write e))
  | encoding (l1 : List α) (x : α) (l2 : List α) (es : List Str) (e : Nat) : l = l1 ++ x :: l2 → l1.map marshal = es.map .ok →
      (∀ i, i ≤ l1.length → w i = .ok) → marshal x = .error e → Written marshal w l (opening es) (some (.marshal e))
  | element (l1 : List α) (x : α) (l2 : List α) (es : List Str) (y : Str) (n e : Nat) : l = l1 ++ x :: l2 → l1.map marshal = es.map .ok →
      (∀ i, i ≤ l1.length → w i = .ok) → marshal x = .ok y → w (l1.length + 1) = .fail n e →
      Written marshal w l (opening es ++ (more es y).take n) (some (.write e))
  | closing (es : List Str) (n e : Nat) : l.map marshal = es.map .ok → (∀ i, i ≤ l.length → w i = .ok) → w (l.length + 1) = .fail n e →
      Written marshal w l (opening es ++ b!"]\n".take n) (some (.write e))

end Monkit.ListWriter.Spec
