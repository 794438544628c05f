import Verif.Proofs.Args
import Verif.Props.JsonDocs

/-!
# C110: the arguments of a span can be read back
-/

namespace Monkit.Args
open Go Go.Quote Monkit.ArgSpec Monkit.Present

/-- The texts joined with `sep` between them. -/
theorem list_text (wide : Nat → Bool) (sep : Str) (hs : sep ≠ []) (join : List Str → Str) (h1 : ∀ a, join [a] = a)
    (h2 : ∀ a b l, join (a :: b :: l) = a ++ sep ++ join (b :: l)) (a : Arg) (l : List Arg) (h : ∀ x ∈ a :: l, Plain x) (n : Nat) (hn : l.length < n) :
    list sep n (join (args wide (a :: l))) = some (a :: l) := by
  induction l generalizing a n with
  | nil =>
    obtain ⟨n, rfl⟩ : ∃ k, n = k + 1 := ⟨n - 1, by omega⟩
    have := arg_text wide a (h a (by simp)) []
    rw [List.append_nil] at this
    rw [args, List.map_cons, List.map_nil, h1, list, this]
  | cons b l ih =>
    obtain ⟨n, rfl⟩ : ∃ k, n = k + 1 := ⟨n - 1, by omega⟩
    have := arg_text wide a (h a (by simp)) (sep ++ join (args wide (b :: l)))
    have i := ih b (fun x hx => h x (by simp at hx ⊢; tauto)) n (by simp at hn; omega)
    rw [args, List.map_cons, List.map_cons, h2, List.append_assoc, ← List.map_cons, ← args, list, this]
    obtain ⟨c, s, rfl⟩ := List.exists_cons_of_ne_nil hs
    simp only [List.cons_append]
    rw [if_pos (by rw [← List.cons_append, List.isPrefixOf_iff_prefix]; exact List.prefix_append _ _), ← List.cons_append, List.drop_left, i]
    rfl

theorem join_length (wide : Nat → Bool) (sep : Str) (join : List Str → Str) (h0 : join [] = []) (h1 : ∀ a, join [a] = a)
    (h2 : ∀ a b l, join (a :: b :: l) = a ++ sep ++ join (b :: l)) (l : List Arg) (h : ∀ x ∈ l, Plain x) : l.length ≤ (join (args wide l)).length := by
  induction l with
  | nil => simp
  | cons a l ih =>
    have ha := List.length_pos_iff.2 (argText_ne wide a (h a (by simp)))
    have i := ih fun x hx => h x (by simp [hx])
    cases l with
    | nil => rw [args, List.map_cons, List.map_nil, h1]; simp only [List.length_cons, List.length_nil]; omega
    | cons b l =>
      rw [args, List.map_cons, List.map_cons, h2, ← List.map_cons, ← args]
      simp only [List.length_append, List.length_cons] at i ⊢
      omega

theorem read_join (wide : Nat → Bool) (sep : Str) (hs : sep ≠ []) (join : List Str → Str) (h0 : join [] = []) (h1 : ∀ a, join [a] = a)
    (h2 : ∀ a b l, join (a :: b :: l) = a ++ sep ++ join (b :: l)) (l : List Arg) (h : ∀ x ∈ l, Plain x) : readArgs sep (join (args wide l)) = some l := by
  unfold readArgs
  have hl := join_length wide sep join h0 h1 h2 l h
  cases l with
  | nil => rw [args, List.map_nil, h0]; rfl
  | cons a l =>
    rw [if_neg (by intro e; rw [e] at hl; simp at hl)]
    exact list_text wide sep hs join h1 h2 a l h _ (by simp only [List.length_cons] at hl; omega)

/-- **C110**.  The text between the parentheses in listings of spans determines the arguments, if they are strings, byte slices or lists of these. -/
theorem C110_listing (wide : Nat → Bool) (l : List Arg) (h : ∀ a ∈ l, Plain a) : readArgs b!", " (joinComma (args wide l)) = some l :=
  read_join wide _ (by decide) joinComma rfl (fun _ => rfl) (fun _ _ _ => rfl) l h

/-- **C110**.  So does the text beside a bar of the SVG. -/
theorem C110_svg (wide : Nat → Bool) (l : List Arg) (h : ∀ a ∈ l, Plain a) : readArgs b!" " (joinSpace (args wide l)) = some l :=
  read_join wide _ (by decide) joinSpace rfl (fun _ => rfl) (fun _ _ _ => rfl) l h

/-- **C110**.  In the JSON documents each argument is a JSON string that is a Go string literal – also if the argument is not UTF-8 –
whose contents are the text of the argument, from which it can be read back. -/
theorem C110_json (wide : Nat → Bool) (a : Arg) (h : Plain a) : ∃ x, JsonDocs.Spec.text (quote wide (argText wide a)) = .str (34 :: x) ∧
    ∃ y, chars x = some (y, []) ∧ arg y = some (a, []) := by
  refine ⟨body wide (argText wide a) ++ [34], ?_, argText wide a, chars_body wide _ [], ?_⟩
  · rw [JsonDocs.C90_text _ (utf8_quote wide _)]; rfl
  · have := arg_text wide a h []
    rwa [List.append_nil] at this

/-- **C110**.  Different arguments have different texts. -/
theorem C110_injective (wide : Nat → Bool) (l l' : List Arg) (h : ∀ a ∈ l, Plain a) (h' : ∀ a ∈ l', Plain a) (e : args wide l = args wide l') : l = l' := by
  have h1 := C110_listing wide l h
  rw [e, C110_listing wide l' h'] at h1
  exact (Option.some.inj h1).symm

/-- **C110**.  Such arguments cannot add lines to a listing: their texts have no control characters. -/
theorem C110_one_line (wide : Nat → Bool) (l : List Arg) (h : ∀ a ∈ l, Plain a) : ∀ s ∈ args wide l, OneLine s := by
  intro s hs
  obtain ⟨a, ha, rfl⟩ := List.mem_map.1 hs
  have hp := h a ha
  cases a with
  | str s => exact oneLine_quote wide s
  | bytes b => exact oneLine_bytes b
  | list l => exact oneLine_append (oneLine_append (by unfold OneLine; decide) (oneLine_elems wide l hp 0)) (by unfold OneLine; decide)
  | time t => exact absurd hp id
  | other t => exact absurd hp id

/-- Arguments of all three kinds, with a quote, a line break, a byte that is not UTF-8 and a rune that is not printable. -/
example : (∀ a ∈ [Arg.str [34, 10, 255, 0xE2, 0x80, 0xA8], .bytes [0, 255], .list [.str b!"a, b", .bytes []], .list []], Plain a) ∧
    joinComma (args (fun _ => false) [Arg.str [34, 10, 255, 0xE2, 0x80, 0xA8], .bytes [0, 255], .list [.str b!"a, b", .bytes []], .list []]) =
      b!"\"\\\"\\n\\xff\\u2028\", []uint8(0x00ff), {\"a, b\", []uint8(0x)}, {}" := by
  refine ⟨?_, by decide +kernel⟩
  intro a ha
  simp only [List.mem_cons, List.not_mem_nil, or_false] at ha
  rcases ha with rfl | rfl | rfl | rfl <;> simp [Plain]

end Monkit.Args
