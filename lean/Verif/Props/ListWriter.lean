import Verif.Spec.ListWriter
import Verif.Model.Counter
import Verif.Model.Units

/-!
# C55, C56: JSON lists
-/

namespace Monkit.ListWriter
open Go Spec

variable {α : Type}

theorem opening_snoc (es : List Str) (e : Str) : opening (es ++ [e]) = opening es ++ more es e := by
  have inter : ∀ (sep : Str) (es : List Str) (e : Str), es ≠ [] → sep.intercalate (es ++ [e]) = sep.intercalate es ++ sep ++ e := by
    intro sep es e h
    induction es with
    | nil => exact absurd rfl h
    | cons x es ih =>
      cases es with
      | nil => simp [List.intercalate, List.intersperse]
      | cons y es =>
        have := ih (by simp)
        simp only [List.intercalate, List.cons_append, List.intersperse, List.flatten_cons] at this ⊢
        rw [this]
        simp
  cases es with
  | nil => simp [opening, more, List.intercalate, List.intersperse]
  | cons x es =>
    have := inter b!",\n " (x :: es) e (by simp)
    simp only [opening, more, List.cons_append] at this ⊢
    rw [this]
    simp

/-- Where the writer is after `l1`, if nothing has failed. -/
def Fine (marshal : α → Except Nat Str) (w : Writer) (l1 : List α) (s : State) : Prop :=
  ∃ es : List Str, l1.map marshal = es.map .ok ∧ (∀ i, i ≤ l1.length → w i = .ok) ∧
    s = ⟨opening es, l1.length + 1, none, if l1.length = 0 then b!"\n" else b!",\n"⟩

/-- The state if something has failed: what has been written and the error no longer change. -/
def Failed (marshal : α → Except Nat Str) (w : Writer) (l1 : List α) (s : State) : Prop :=
  ∃ e, s.err = some e ∧ ∀ l2, Written marshal w (l1 ++ l2) s.out (some e)

theorem fold_spec (marshal : α → Except Nat Str) (w : Writer) (l : List α) :
    Fine marshal w l (l.foldl (elem marshal w) (new w)) ∨ Failed marshal w l (l.foldl (elem marshal w) (new w)) := by
  generalize hn : l.length = n
  induction n generalizing l with
  | zero =>
    have : l = [] := List.length_eq_zero_iff.1 hn
    subst this
    simp only [List.foldl_nil]
    cases h0 : w 0 with
    | ok =>
      left
      refine ⟨[], rfl, ?_, ?_⟩
      · intro i hi
        have : i = 0 := by simpa using hi
        rw [this, h0]
      · simp [new, fprint, h0, opening]
    | fail n e =>
      right
      refine ⟨.write e, by simp [new, fprint, h0], fun l2 => ?_⟩
      have := Written.bracket (marshal := marshal) (l := [] ++ l2) n e h0
      simpa [new, fprint, h0] using this
  | succ n ih =>
    rcases List.eq_nil_or_concat l with rfl | ⟨l1, x, rfl⟩
    · simp at hn
    · rw [List.concat_eq_append] at hn ⊢
      rw [List.foldl_append, List.foldl_cons, List.foldl_nil]
      rcases ih l1 (by simpa using hn) with ⟨es, h1, h2, h3⟩ | ⟨e, h1, h2⟩
      · rw [h3]
        have hlen : es.length = l1.length := by
          have := congrArg List.length h1
          simpa using this.symm
        have hmore : ∀ y, (if l1.length = 0 then b!"\n" else b!",\n") ++ b!" " ++ y = more es y := by
          intro y
          cases es with
          | nil => simp at hlen; simp [more, ← hlen]
          | cons _ _ =>
            have : l1.length ≠ 0 := by rw [← hlen]; simp
            simp [more, this]
        cases hm : marshal x with
        | error e =>
          right
          refine ⟨.marshal e, by simp [elem, hm], fun l2 => ?_⟩
          have := Written.encoding (l := l1 ++ [x] ++ l2) (w := w) l1 x l2 es e (by simp) h1 h2 hm
          simpa [elem, hm] using this
        | ok y =>
          cases hw : w (l1.length + 1) with
          | ok =>
            left
            refine ⟨es ++ [y], by simp [h1, hm], ?_, ?_⟩
            · intro i hi
              by_cases hlt : i ≤ l1.length
              · exact h2 i hlt
              · have : i = l1.length + 1 := by simp at hi; omega
                rw [this, hw]
            · have e1 : elem marshal w ⟨opening es, l1.length + 1, none, if l1.length = 0 then b!"\n" else b!",\n"⟩ x =
                  ⟨opening es ++ ((if l1.length = 0 then b!"\n" else b!",\n") ++ b!" " ++ y), l1.length + 1 + 1, none, b!",\n"⟩ := by
                simp only [elem, hm, fprint, hw]
              rw [e1, hmore, opening_snoc]
              simp
          | fail n e =>
            right
            have e1 : elem marshal w ⟨opening es, l1.length + 1, none, if l1.length = 0 then b!"\n" else b!",\n"⟩ x =
                ⟨opening es ++ ((if l1.length = 0 then b!"\n" else b!",\n") ++ b!" " ++ y).take n, l1.length + 1 + 1, some (.write e), b!",\n"⟩ := by
              simp only [elem, hm, fprint, hw]
            rw [e1, hmore]
            refine ⟨.write e, rfl, fun l2 => ?_⟩
            exact Written.element l1 x l2 es y n e (by simp) h1 h2 hm hw
      · right
        have : elem marshal w (l1.foldl (elem marshal w) (new w)) x = l1.foldl (elem marshal w) (new w) := by
          simp only [elem, h1]
        rw [this]
        exact ⟨e, h1, fun l2 => by have := h2 ([x] ++ l2); simpa using this⟩

/-- **C55**.  What a list writer leaves behind and returns, for every list, encoding and writer: the complete list and no error; or everything
before the first failure, as much of the failing piece as the writer took, nothing after it, and that failure. -/
theorem C55_list_writer (marshal : α → Except Nat Str) (w : Writer) (l : List α) :
    Written marshal w l (writeList marshal w l).1 (writeList marshal w l).2 := by
  rcases fold_spec marshal w l with ⟨es, h1, h2, h3⟩ | ⟨e, h1, h2⟩
  · unfold writeList
    rw [h3]
    cases hw : w (l.length + 1) with
    | ok =>
      have e1 : done w ⟨opening es, l.length + 1, none, if l.length = 0 then b!"\n" else b!",\n"⟩ = (document es, none) := by
        simp only [done, fprint, hw]; rfl
      rw [e1]
      refine .ok es h1 ?_
      intro i hi
      by_cases hlt : i ≤ l.length
      · exact h2 i hlt
      · have : i = l.length + 1 := by omega
        rw [this, hw]
    | fail n e =>
      have e1 : done w ⟨opening es, l.length + 1, none, if l.length = 0 then b!"\n" else b!",\n"⟩ = (opening es ++ b!"]\n".take n, some (.write e)) := by
        simp only [done, fprint, hw]
      rw [e1]
      exact .closing es n e h1 h2 hw
  · unfold writeList done
    rw [h1]
    have := h2 []
    simpa using this

/-- **C55**: success means a complete list of all elements, in order. -/
theorem C55_success (marshal : α → Except Nat Str) (w : Writer) (l : List α) (h : (writeList marshal w l).2 = none) :
    ∃ es : List Str, l.map marshal = es.map .ok ∧ (writeList marshal w l).1 = document es := by
  have := C55_list_writer marshal w l
  generalize (writeList marshal w l).1 = out at *
  rw [h] at this
  cases this with
  | ok es h1 h2 => exact ⟨es, h1, rfl⟩

/-- **C55**: with a writer that does not fail and elements that can be encoded it succeeds. -/
theorem C55_succeeds (marshal : α → Except Nat Str) (w : Writer) (l : List α) (es : List Str) (h : l.map marshal = es.map .ok) (hw : ∀ i, w i = .ok) :
    writeList marshal w l = (document es, none) := by
  have inj : ∀ {es es' : List Str}, es.map (Except.ok (ε := Nat)) = es'.map .ok → es = es' := by
    intro es es' he
    exact (List.map_inj_right (fun a b h => by cases h; rfl)).1 he
  have := C55_list_writer marshal w l
  generalize ho : (writeList marshal w l).1 = out at *
  generalize hr : (writeList marshal w l).2 = r at *
  have eq : writeList marshal w l = (out, r) := by rw [← ho, ← hr]
  rw [eq]
  cases this with
  | ok es' h1 => rw [inj (h.symm.trans h1)]
  | bracket n e h0 => rw [hw 0] at h0; cases h0
  | encoding l1 x l2 es' e hl h1 h2 h3 =>
    exfalso
    have : (Except.error e : Except Nat Str) ∈ l.map marshal := by rw [hl]; simp [h3]
    rw [h] at this
    simp at this
  | element l1 x l2 es' y n e hl h1 h2 h3 h4 => rw [hw] at h4; cases h4
  | closing es' n e h1 h2 h3 => rw [hw] at h3; cases h3

/-- JSON can express the value: it is a number, neither infinite nor NaN. -/
def Number (v : FVal) : Prop := ∃ x, v.float = .fin x

/-- What is assumed of `json.Marshal` here: it fails exactly on the values JSON cannot express. -/
def Marshals (marshal : Key × Str × FVal → Except Nat Str) : Prop := ∀ x, (∃ e, marshal x = .error e) ↔ ¬Number x.2.2

/-- **C56**.  With a writer that does not fail, `StatsJSON` writes the complete list if every statistic is a number.

Partial: the full statement has no such condition; see `C56_unused_counter_violated`. -/
theorem C56_stats_json_partial (marshal : Key × Str × FVal → Except Nat Str) (hm : Marshals marshal) (w : Writer) (hw : ∀ i, w i = .ok)
    (stats : List (Key × Str × FVal)) (hs : ∀ x ∈ stats, Number x.2.2) :
    ∃ es : List Str, stats.map marshal = es.map .ok ∧ statsJSON marshal w stats = (document es, none) := by
  have : ∃ es : List Str, stats.map marshal = es.map .ok := by
    induction stats with
    | nil => exact ⟨[], rfl⟩
    | cons x l ih =>
      obtain ⟨es, he⟩ := ih (fun y hy => hs y (by simp [hy]))
      cases hx : marshal x with
      | error e => exact absurd (hs x (by simp)) ((hm x).1 ⟨e, hx⟩)
      | ok y => exact ⟨y :: es, by simp [hx, he]⟩
  obtain ⟨es, he⟩ := this
  exact ⟨es, he, C55_succeeds marshal w stats es he hw⟩

/-- C56 fails whenever a statistic is NaN or infinite: the text stops there and an error is returned. -/
theorem C56_nan_violated (marshal : Key × Str × FVal → Except Nat Str) (hm : Marshals marshal) (w : Writer) (hw : ∀ i, w i = .ok)
    (before after : List (Key × Str × FVal)) (x : Key × Str × FVal) (hb : ∀ y ∈ before, Number y.2.2) (hx : ¬Number x.2.2) :
    ∃ (es : List Str) (e : Nat), before.map marshal = es.map .ok ∧
      statsJSON marshal w (before ++ x :: after) = (opening es, some (.marshal e)) := by
  have inj : ∀ {es es' : List Str}, es.map (Except.ok (ε := Nat)) = es'.map .ok → es = es' := by
    intro es es' he
    exact (List.map_inj_right (fun a b h => by cases h; rfl)).1 he
  obtain ⟨es, he, _⟩ := C56_stats_json_partial marshal hm w hw before hb
  obtain ⟨e, hex⟩ := (hm x).2 hx
  refine ⟨es, e, he, ?_⟩
  have := C55_list_writer marshal w (before ++ x :: after)
  unfold statsJSON
  generalize ho : (writeList marshal w (before ++ x :: after)).1 = out at *
  generalize hr : (writeList marshal w (before ++ x :: after)).2 = r at *
  have e' : writeList marshal w (before ++ x :: after) = (out, r) := by rw [← ho, ← hr]
  rw [e']
  cases this with
  | ok es' h1 =>
    exfalso
    have : (Except.error e : Except Nat Str) ∈ (before ++ x :: after).map marshal := by simp [hex]
    rw [h1] at this
    simp at this
  | bracket n e h0 => rw [hw 0] at h0; cases h0
  | encoding l1 x' l2 es' e2 hl h1 h2 h3 =>
    have hcut : l1 = before ∧ x' = x := by
      rw [List.append_eq_append_iff] at hl
      rcases hl with ⟨m, g1, g2⟩ | ⟨m, g1, g2⟩
      · cases m with
        | nil => simp at g1 g2; exact ⟨g1, g2.1.symm⟩
        | cons z m =>
          simp at g2
          exfalso
          have : (Except.error e : Except Nat Str) ∈ l1.map marshal := by rw [g1, ← g2.1]; simp [hex]
          rw [h1] at this
          simp at this
      · cases m with
        | nil => simp at g1 g2; exact ⟨g1.symm, g2.1⟩
        | cons z m =>
          simp at g2
          exfalso
          have hz : x' ∈ before := by rw [g1, ← g2.1]; simp
          exact ((hm x').1 ⟨e2, h3⟩) (hb x' hz)
    obtain ⟨rfl, rfl⟩ := hcut
    rw [hex] at h3
    cases h3
    rw [inj (he.symm.trans h1)]
  | element l1 x l2 es' y n e hl h1 h2 h3 h4 => rw [hw] at h4; cases h4
  | closing es' n e h1 h2 h3 => rw [hw] at h3; cases h3

/-- C56 fails for a registry in which some counter has not been used yet: `Counter` reports NaN as its highest value. -/
theorem C56_unused_counter_violated (marshal : Key × Str × FVal → Except Nat Str) (hm : Marshals marshal) (w : Writer) (hw : ∀ i, w i = .ok)
    (key : Key) : (statsJSON marshal w (Counter.new key).Stats).2 ≠ none := by
  have h : (Counter.new key).Stats = [] ++ (key, b!"high", FVal.nan) :: [(key, b!"low", FVal.nan), (key, b!"value", FVal.int 0)] := rfl
  rw [h]
  obtain ⟨es, e, _, he⟩ := C56_nan_violated marshal hm w hw [] [(key, b!"low", FVal.nan), (key, b!"value", FVal.int 0)] (key, b!"high", FVal.nan) (by simp) (by rintro ⟨x, hx⟩; cases hx)
  rw [he]; simp

/-! ## Examples -/

def exMarshal : Nat → Except Nat Str := fun n => if n = 13 then .error 7 else .ok [UInt8.ofNat (48 + n)]

example : writeList exMarshal (fun _ => .ok) [1, 2, 3] = (b!"[\n 1,\n 2,\n 3]\n", none) := by decide +kernel
example : writeList exMarshal (fun _ => .ok) [1, 13, 3] = (b!"[\n 1", some (.marshal 7)) := by decide +kernel
example : writeList exMarshal (fun i => if i = 2 then .fail 2 5 else .ok) [1, 2, 3] = (b!"[\n 1,\n", some (.write 5)) := by decide +kernel
example : Marshals (fun x => match x.2.2 with | .nan | .inf _ => .error 1 | _ => .ok b!"1") := by
  intro x; cases hx : x.2.2 <;> simp [hx, Number, FVal.float]

end Monkit.ListWriter
