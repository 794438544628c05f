import Verif.Spec.StructNames
import Mathlib.Data.List.TakeWhile
import Mathlib.Data.List.Nodup

/-!
# C47: names of struct statistics
-/

namespace Monkit.Struct
open Go Spec

/-- What comes before the first dot. -/
def top (s : Str) : Str := s.takeWhile (· ≠ 46)

theorem top_plain {n : Str} (h : 46 ∉ n) : top n = n := by
  unfold top
  rw [List.takeWhile_eq_self_iff]
  intro x hx
  simp only [ne_eq, decide_eq_true_eq]
  rintro rfl
  exact h hx

theorem top_dot {n : Str} (h : 46 ∉ n) (s : Str) : top (n ++ [46] ++ s) = n := by
  have e := top_plain h
  unfold top at e ⊢
  rw [List.append_assoc, List.takeWhile_append, e]
  simp

mutual
theorem field_names (name : Str) (ex : Bool) (hn : 46 ∉ name) : ∀ (v : Val) (l : List (Str × FVal)), Named v → fieldStats name ex v = some l →
    (l.map (·.1)).Nodup ∧ ∀ x ∈ l, top x.1 = name
  | .ptr v, l, hv, h => by
    rw [Named] at hv; rw [fieldStats] at h
    exact field_names name ex hn v l hv h
  | .nilPtr, l, _, h => by rw [fieldStats] at h; cases h
  | .struct fs, l, hv, h => by
    rw [Named] at hv; rw [fieldStats] at h
    cases ex with
    | false => cases h; exact ⟨List.nodup_nil, by simp⟩
    | true =>
      rw [if_pos rfl, Option.map_eq_some_iff] at h
      obtain ⟨a, ha, rfl⟩ := h
      have := (fields_names fs a hv ha).1
      refine ⟨?_, ?_⟩
      · rw [List.map_map]
        have e : ((fun x : Str × FVal => x.1) ∘ fun x : Str × FVal => (name ++ [46] ++ x.1, x.2)) = (fun s => name ++ [46] ++ s) ∘ (fun x : Str × FVal => x.1) := rfl
        rw [e, ← List.map_map]
        rw [List.nodup_map_iff (fun a b h => List.append_cancel_left h)]
        exact this
      · intro x hx
        obtain ⟨y, _, rfl⟩ := List.mem_map.1 hx
        exact top_dot hn _
  | .num x, l, _, h => by rw [fieldStats] at h; cases h; exact ⟨by simp, by simp [top_plain hn]⟩
  | .bool b, l, _, h => by rw [fieldStats] at h; cases h; exact ⟨by simp, by simp [top_plain hn]⟩
  | .other, l, _, h => by rw [fieldStats] at h; cases h; exact ⟨List.nodup_nil, by simp⟩
theorem fields_names : ∀ (fs : Fields) (l : List (Str × FVal)), NamedFields fs → fieldsStats fs = some l →
    (l.map (·.1)).Nodup ∧ ∀ x ∈ l, top x.1 ∈ names fs
  | .nil, l, _, h => by rw [fieldsStats] at h; cases h; exact ⟨List.nodup_nil, by simp⟩
  | .cons name tag ex v rest, l, hv, h => by
    rw [NamedFields] at hv
    obtain ⟨h1, h2, h3, h4⟩ := hv
    rw [fieldsStats] at h
    cases hd : deref v with
    | none => rw [hd] at h; cases h
    | some w =>
      rw [hd] at h
      simp only at h
      by_cases hi : ignored tag = true
      · rw [if_pos hi] at h
        obtain ⟨a, b⟩ := fields_names rest l h4 h
        exact ⟨a, fun x hx => .tail _ (b x hx)⟩
      · rw [if_neg hi] at h
        cases ha : fieldStats name ex v with
        | none => rw [ha] at h; cases h
        | some a =>
          cases hb : fieldsStats rest with
          | none => rw [ha, hb] at h; cases h
          | some b =>
            rw [ha, hb] at h
            cases h
            obtain ⟨a1, a2⟩ := field_names name ex h1 v a h3 ha
            obtain ⟨b1, b2⟩ := fields_names rest b h4 hb
            refine ⟨?_, ?_⟩
            · rw [List.map_append, List.nodup_append]
              refine ⟨a1, b1, ?_⟩
              rintro s hs t ht rfl
              obtain ⟨x, hx, rfl⟩ := List.mem_map.1 hs
              obtain ⟨y, hy, e⟩ := List.mem_map.1 ht
              have := b2 y hy
              rw [e, a2 x hx] at this
              exact h2 this
            · intro x hx
              rcases List.mem_append.1 hx with hx | hx
              · rw [a2 x hx]; exact .head _
              · exact .tail _ (b2 x hx)
end

theorem val_names : ∀ (v : Val) (l : List (Str × FVal)), Named v → stats v = some l → (l.map (·.1)).Nodup
  | .ptr v, l, hv, h => by
    rw [Named] at hv; rw [stats] at h
    exact val_names v l hv h
  | .nilPtr, l, _, h => by rw [stats] at h; cases h
  | .struct fs, l, hv, h => by
    rw [Named] at hv; rw [stats] at h
    exact (fields_names fs l hv h).1
  | .num x, l, _, h => by simp [stats] at h; subst h; exact List.nodup_nil
  | .bool b, l, _, h => by simp [stats] at h; subst h; exact List.nodup_nil
  | .other, l, _, h => by simp [stats] at h; subst h; exact List.nodup_nil

/-- **C47**, one name each: no two fields are reported under the same name, however structs are nested.

Partial: not for structs with several fields called "_", see `C47_blank_violated`. -/
theorem C47_names_partial (v : Val) (l : List (Str × FVal)) (hv : Named v) (h : stats v = some l) : (l.map (·.1)).Nodup := val_names v l hv h

/-- C47, one name each, is false of structs with several fields called "_", as used for padding: all are reported, under that name. -/
theorem C47_blank_violated : stats (.struct (.cons b!"_" b!"" false (.num (.int 1)) (.cons b!"A" b!"" true (.num (.int 3))
    (.cons b!"_" b!"" false (.num (.int 2)) .nil)))) = some [(b!"_", .int 1), (b!"A", .int 3), (b!"_", .int 2)] := by decide +kernel

/-- A struct with a struct in it that has a field of the same name. -/
example : Named (.ptr (.struct (.cons b!"A" b!"" true (.struct (.cons b!"A" b!"" true (.num (.int 1)) .nil)) (.cons b!"B" b!"" true (.bool true) .nil)))) ∧
    stats (.ptr (.struct (.cons b!"A" b!"" true (.struct (.cons b!"A" b!"" true (.num (.int 1)) .nil)) (.cons b!"B" b!"" true (.bool true) .nil)))) =
      some [(b!"A.A", .int 1), (b!"B", .int 1)] := by
  refine ⟨?_, by decide +kernel⟩
  simp [Named, NamedFields, names]

end Monkit.Struct
