import Verif.Spec.Struct

namespace Monkit.Struct
open Go Spec

theorem first_comma {x y s t : Str} (hx : (44 : UInt8) ∉ x) (hy : (44 : UInt8) ∉ y) (h : x ++ 44 :: s = y ++ 44 :: t) : x = y ∧ s = t := by
  induction x generalizing y with
  | nil => cases y with
    | nil => simpa using h
    | cons c y => simp at h hy; exact absurd h.1 hy.1
  | cons c x ih => cases y with
    | nil => simp at h hx; exact absurd h.1.symm hx.1
    | cons d y =>
      simp at h hx hy
      have := ih hx.2 hy.2 h.2
      exact ⟨by rw [h.1, this.1], this.2⟩

theorem mem_splitComma (cur s p : Str) (hc : (44 : UInt8) ∉ cur) (hp : (44 : UInt8) ∉ p) : p ∈ splitComma cur s ↔
    ∃ a b : Str, cur.reverse ++ s = a ++ p ++ b ∧ (a = [] ∨ ∃ a' : Str, a = a' ++ [44]) ∧ (b = [] ∨ ∃ b' : Str, b = [44] ++ b') := by
  induction s generalizing cur with
  | nil =>
    simp only [splitComma, List.mem_singleton, List.append_nil]
    constructor
    · rintro rfl; exact ⟨[], [], by simp, .inl rfl, .inl rfl⟩
    · rintro ⟨a, b, h, ha, hb⟩
      have hcr : (44 : UInt8) ∉ cur.reverse := by simpa using hc
      rcases ha with rfl | ⟨a', rfl⟩
      · rcases hb with rfl | ⟨b', rfl⟩
        · simpa using h.symm
        · exact absurd (by rw [h]; simp) hcr
      · exact absurd (by rw [h]; simp) hcr
  | cons c s ih =>
    have hcr : (44 : UInt8) ∉ cur.reverse := by simpa using hc
    unfold splitComma
    by_cases h44 : c = 44
    · subst h44
      rw [if_pos rfl, List.mem_cons, ih [] (by simp)]
      constructor
      · rintro (rfl | ⟨a, b, h, ha, hb⟩)
        · exact ⟨[], 44 :: s, by simp, .inl rfl, .inr ⟨s, rfl⟩⟩
        · refine ⟨cur.reverse ++ 44 :: a, b, ?_, ?_, hb⟩
          · simp at h; simp [h]
          · rcases ha with rfl | ⟨a', rfl⟩
            · exact .inr ⟨cur.reverse, rfl⟩
            · exact .inr ⟨cur.reverse ++ 44 :: a', by simp⟩
      · rintro ⟨a, b, h, ha, hb⟩
        rcases ha with rfl | ⟨a', rfl⟩
        · rcases hb with rfl | ⟨b', rfl⟩
          · exact absurd (by simp at h; simp [← h]) hp
          · left
            simp at h
            exact (first_comma hcr hp h).1.symm
        · right
          simp only [List.append_assoc] at h
          rw [List.append_eq_append_iff] at h
          rcases h with ⟨l, h1, h2⟩ | ⟨l, h1, h2⟩
          · cases l with
            | nil => exact ⟨[], b, by simpa using h2, .inl rfl, hb⟩
            | cons d l =>
              simp at h2
              exact ⟨l ++ [44], b, by simp [h2.2], .inr ⟨l, rfl⟩, hb⟩
          · cases l with
            | nil => exact ⟨[], b, by simpa using h2.symm, .inl rfl, hb⟩
            | cons d l =>
              simp at h2
              refine absurd ?_ hcr
              rw [h1, ← h2.1]; simp
    · rw [if_neg h44, ih (c :: cur) (by simp [hc, Ne.symm h44])]
      simp

theorem ignored_iff (tag : Str) : ignored tag = true ↔ Ignored tag := by
  have := mem_splitComma [] tag b!"ignore" (by simp) (by decide)
  simp only [ignored, List.any_eq_true, decide_eq_true_eq]
  constructor
  · rintro ⟨p, h, rfl⟩
    obtain ⟨a, b, h1, h2, h3⟩ := this.1 h
    exact ⟨a, b, h1, h2, h3⟩
  · rintro ⟨a, b, h1, h2, h3⟩
    exact ⟨_, this.2 ⟨a, b, h1, h2, h3⟩, rfl⟩

theorem deref_follows : ∀ {v w : Val}, Follows v w ↔ deref v = some w
  | .ptr v, w => by
    rw [deref]
    constructor
    · rintro (_ | ⟨_, _, h⟩)
      · rename_i h _; exact absurd rfl (h v)
      · exact deref_follows.1 h
    · exact fun h => .there _ _ (deref_follows.2 h)
  | .nilPtr, w => by
    simp only [deref]
    constructor
    · rintro (_ | _); rename_i h; exact absurd rfl h
    · simp
  | .num x, w => by
    simp only [deref, Option.some.injEq]
    exact ⟨fun h => by cases h; rfl, fun h => h ▸ .here _ (by simp) (by simp)⟩
  | .bool x, w => by
    simp only [deref, Option.some.injEq]
    exact ⟨fun h => by cases h; rfl, fun h => h ▸ .here _ (by simp) (by simp)⟩
  | .struct x, w => by
    simp only [deref, Option.some.injEq]
    exact ⟨fun h => by cases h; rfl, fun h => h ▸ .here _ (by simp) (by simp)⟩
  | .other, w => by
    simp only [deref, Option.some.injEq]
    exact ⟨fun h => by cases h; rfl, fun h => h ▸ .here _ (by simp) (by simp)⟩

theorem deref_shape : ∀ {v w : Val}, deref v = some w → (∀ u, w ≠ .ptr u) ∧ w ≠ .nilPtr
  | .ptr v, w, h => deref_shape (v := v) (by simpa [deref] using h)
  | .nilPtr, w, h => by simp [deref] at h
  | .num x, w, h => by simp [deref] at h; subst h; simp
  | .bool x, w, h => by simp [deref] at h; subst h; simp
  | .struct x, w, h => by simp [deref] at h; subst h; simp
  | .other, w, h => by simp [deref] at h; subst h; simp

theorem stats_deref : ∀ {v w : Val}, deref v = some w → stats v = stats w
  | .ptr v, w, h => by rw [stats]; exact stats_deref (by simpa [deref] using h)
  | .nilPtr, w, h => by simp [deref] at h
  | .num x, w, h => by simp [deref] at h; subst h; rfl
  | .bool x, w, h => by simp [deref] at h; subst h; rfl
  | .struct x, w, h => by simp [deref] at h; subst h; rfl
  | .other, w, h => by simp [deref] at h; subst h; rfl

theorem fieldStats_deref {name ex} : ∀ {v w : Val}, deref v = some w → fieldStats name ex v = fieldStats name ex w
  | .ptr v, w, h => by rw [fieldStats]; exact fieldStats_deref (by simpa [deref] using h)
  | .nilPtr, w, h => by simp [deref] at h
  | .num x, w, h => by simp [deref] at h; subst h; rfl
  | .bool x, w, h => by simp [deref] at h; subst h; rfl
  | .struct x, w, h => by simp [deref] at h; subst h; rfl
  | .other, w, h => by simp [deref] at h; subst h; rfl

/-- What a finished call reported, with the paths dotted. -/
def dot (l : List (List Str × FVal)) : List (Str × FVal) := l.map fun x => (dotted x.1, x.2)

theorem dot_cons (name : Str) (l : List (List Str × FVal)) (h : ∀ x ∈ l, x.1 ≠ []) :
    (dot l).map (fun x => (name ++ [46] ++ x.1, x.2)) = dot (l.map fun x => (name :: x.1, x.2)) := by
  simp only [dot, List.map_map]
  apply List.map_congr_left
  intro x hx
  obtain ⟨p, v⟩ := x
  cases p with
  | nil => exact absurd rfl (h _ hx)
  | cons a p => rfl

theorem shows_ne : ∀ {fs l}, Shows fs l → ∀ x ∈ l, x.1 ≠ [] := by
  intro fs l h
  induction h with
  | nil => simp
  | ignored _ _ ih => exact ih
  | num _ _ _ ih => simpa using ih
  | bool _ _ _ ih => simpa using ih
  | struct _ _ _ _ ih1 ih2 =>
    intro x hx
    simp only [List.mem_append, List.mem_map] at hx
    rcases hx with ⟨y, hy, rfl⟩ | hx
    · simp
    · exact ih2 x hx
  | hidden _ _ _ ih => exact ih
  | other _ _ _ ih => exact ih

mutual
theorem val_shows : ∀ v : Val, Clean v → ∀ fs, deref v = some (.struct fs) → ∃ l, fieldsStats fs = some (dot l) ∧ Shows fs l
  | .ptr v, h, fs, hd => val_shows v (by simpa [Clean] using h) fs (by simpa [deref] using hd)
  | .nilPtr, _, fs, hd => by simp [deref] at hd
  | .num x, _, fs, hd => by simp [deref] at hd
  | .bool x, _, fs, hd => by simp [deref] at hd
  | .other, _, fs, hd => by simp [deref] at hd
  | .struct gs, h, fs, hd => by
    have : gs = fs := by simpa [deref] using hd
    subst this
    exact fields_shows gs (by simpa [Clean] using h)
theorem fields_shows : ∀ fs : Fields, CleanFields fs → ∃ l, fieldsStats fs = some (dot l) ∧ Shows fs l
  | .nil, _ => ⟨[], rfl, .nil⟩
  | .cons name tag ex v rest, h => by
    have h' : (∃ w, Follows v w) ∧ (¬ Ignored tag → ex = true → Clean v) ∧ CleanFields rest := by simpa only [CleanFields] using h
    obtain ⟨l, e, sh⟩ := fields_shows rest h'.2.2
    obtain ⟨w, fol⟩ := h'.1
    have hw := deref_follows.1 fol
    unfold fieldsStats
    rw [hw]
    by_cases hi : Ignored tag
    · simp only [(ignored_iff tag).2 hi, if_true]
      exact ⟨l, e, .ignored hi sh⟩
    · have hi' : ignored tag = false := by
        cases hh : ignored tag with
        | false => rfl
        | true => exact absurd ((ignored_iff tag).1 hh) hi
      simp only [hi', fieldStats_deref hw, e]
      have := deref_shape hw
      cases w with
      | ptr u => exact absurd rfl (this.1 u)
      | nilPtr => exact absurd rfl this.2
      | num x => exact ⟨_ :: l, by simp [fieldStats, dot, dotted], .num hi fol sh⟩
      | bool b => exact ⟨_ :: l, by cases b <;> simp [fieldStats, dot, dotted], .bool (b := b) hi fol sh⟩
      | other => exact ⟨l, by simp [fieldStats], .other hi fol sh⟩
      | struct gs =>
        cases ex with
        | true =>
          obtain ⟨k, e2, sh2⟩ := val_shows v (h'.2.1 hi rfl) gs hw
          refine ⟨k.map (fun x => (name :: x.1, x.2)) ++ l, ?_, .struct hi fol sh2 sh⟩
          simp only [fieldStats, e2, if_true, Option.map_some, dot_cons name k (shows_ne sh2)]
          simp [dot]
        | false =>
          exact ⟨l, by simp [fieldStats], .hidden hi fol sh⟩
end

theorem clean_deref : ∀ {v w : Val}, deref v = some w → (Clean v ↔ Clean w)
  | .ptr v, w, h => by rw [Clean]; exact clean_deref (v := v) (by simpa [deref] using h)
  | .nilPtr, w, h => by simp [deref] at h
  | .num x, w, h => by simp [deref] at h; subst h; rfl
  | .bool x, w, h => by simp [deref] at h; subst h; rfl
  | .struct x, w, h => by simp [deref] at h; subst h; rfl
  | .other, w, h => by simp [deref] at h; subst h; rfl

theorem clean_some : ∀ {v : Val}, Clean v → ∃ w, deref v = some w
  | .ptr v, h => by rw [deref]; exact clean_some (v := v) (by simpa only [Clean] using h)
  | .nilPtr, h => by simp [Clean] at h
  | .num x, h => ⟨_, rfl⟩
  | .bool x, h => ⟨_, rfl⟩
  | .struct x, h => ⟨_, rfl⟩
  | .other, h => ⟨_, rfl⟩

mutual
theorem stats_clean : ∀ v : Val, (stats v ≠ none → Clean v) ∧ (∀ name, fieldStats name true v ≠ none → Clean v)
  | .ptr v => by
    have := stats_clean v
    rw [Clean, stats]
    refine ⟨this.1, fun name h => this.2 name ?_⟩
    rwa [fieldStats] at h
  | .nilPtr => ⟨fun h => absurd rfl h, fun _ h => absurd rfl h⟩
  | .num x => by simp [Clean]
  | .bool x => by simp [Clean]
  | .other => by simp [Clean]
  | .struct gs => by
    have := fields_clean gs
    rw [Clean, stats]
    refine ⟨this, fun name h => this ?_⟩
    intro e
    simp [fieldStats, e] at h
theorem fields_clean : ∀ fs : Fields, fieldsStats fs ≠ none → CleanFields fs
  | .nil => by simp [CleanFields]
  | .cons name tag ex v rest => by
    intro h
    unfold fieldsStats at h
    rw [CleanFields]
    cases hd : deref v with
    | none => rw [hd] at h; exact absurd rfl h
    | some w =>
      rw [hd] at h
      refine ⟨⟨w, deref_follows.2 hd⟩, ?_, ?_⟩
      · intro hi hex
        have hi' : ignored tag = false := by
          cases hh : ignored tag with
          | false => rfl
          | true => exact absurd ((ignored_iff tag).1 hh) hi
        subst hex
        refine (stats_clean v).2 name ?_
        intro e
        rw [hi', e] at h
        exact absurd rfl h
      · apply fields_clean rest
        intro e
        rw [e] at h
        cases hh : ignored tag <;> simp only [hh] at h
        · cases hf : fieldStats name ex v <;> simp [hf] at h
        · simp at h
end

/-- There is only one thing a struct shows. -/
theorem shows_unique {fs l k} (h1 : Shows fs l) (h2 : Shows fs k) : l = k := by
  have fu : ∀ {v w w'}, Follows v w → Follows v w' → w = w' := fun a b => by
    rw [deref_follows] at a b; rw [a] at b; exact Option.some.inj b
  induction h1 generalizing k with
  | nil => cases h2; rfl
  | ignored hi _ ih => cases h2 with
    | ignored _ s => exact ih s
    | num h => exact absurd hi h
    | bool h => exact absurd hi h
    | struct h => exact absurd hi h
    | hidden h => exact absurd hi h
    | other h => exact absurd hi h
  | num hi f _ ih => cases h2 with
    | ignored h => exact absurd h hi
    | num _ f' s => cases fu f f'; rw [ih s]
    | bool _ f' s => cases fu f f'
    | struct _ f' s => cases fu f f'
    | hidden _ f' s => cases fu f f'
    | other _ f' s => cases fu f f'
  | bool hi f _ ih => cases h2 with
    | ignored h => exact absurd h hi
    | num _ f' s => cases fu f f'
    | bool _ f' s => cases fu f f'; rw [ih s]
    | struct _ f' s => cases fu f f'
    | hidden _ f' s => cases fu f f'
    | other _ f' s => cases fu f f'
  | struct hi f _ _ ih1 ih2 => cases h2 with
    | ignored h => exact absurd h hi
    | num _ f' s => cases fu f f'
    | bool _ f' s => cases fu f f'
    | struct _ f' s s' => cases fu f f'; rw [ih1 s, ih2 s']
    | other _ f' s => cases fu f f'
  | hidden hi f _ ih => cases h2 with
    | ignored h => exact absurd h hi
    | num _ f' s => cases fu f f'
    | bool _ f' s => cases fu f f'
    | hidden _ f' s => exact ih s
    | other _ f' s => cases fu f f'
  | other hi f _ ih => cases h2 with
    | ignored h => exact absurd h hi
    | num _ f' s => cases fu f f'
    | bool _ f' s => cases fu f f'
    | struct _ f' s => cases fu f f'
    | hidden _ f' s => cases fu f f'
    | other _ f' s => exact ih s

end Monkit.Struct
