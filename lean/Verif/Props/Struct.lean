import Verif.Proofs.Struct

/-!
# C47: statistics from a struct
-/

namespace Monkit.Struct
open Go Spec

/-- C47.  `StatSourceFromStruct` on a struct, or pointers to one, reports exactly what the struct shows — the numbers and truth values of
the fields that are not ignored, in order of declaration, nested ones under dotted paths — provided no nil pointer is met.

Partial: the full statement has no proviso (see `C47_nil_ignored_violated`), and nested structs in unexported fields show nothing. -/
theorem C47_reports_partial (v : Val) (fs : Fields) (hv : Follows v (.struct fs)) (hc : Clean v) :
    ∃ l, Shows fs l ∧ (∀ l', Shows fs l' → l' = l) ∧ stats v = some (l.map fun x => (dotted x.1, x.2)) := by
  obtain ⟨l, e, sh⟩ := val_shows v hc fs (deref_follows.1 hv)
  refine ⟨l, sh, fun l' h => shows_unique h sh, ?_⟩
  rw [stats_deref (deref_follows.1 hv), stats, e]; rfl

/-- C47.  On anything else than a struct or pointers to one it reports nothing. -/
theorem C47_not_struct (v w : Val) (hv : Follows v w) (hw : ∀ fs, w ≠ .struct fs) : stats v = some [] := by
  have hd := deref_follows.1 hv
  rw [stats_deref hd]
  have := deref_shape hd
  cases w with
  | ptr u => exact absurd rfl (this.1 u)
  | nilPtr => exact absurd rfl this.2
  | struct fs => exact absurd rfl (hw fs)
  | num _ => rfl
  | bool _ => rfl
  | other => rfl

/-- C47.  It panics exactly if a nil pointer is met. -/
theorem C47_panics_iff (v : Val) : stats v = none ↔ ¬ Clean v := by
  constructor
  · intro h hc
    by_cases hn : ∃ w, deref v = some w
    · obtain ⟨w, hw⟩ := hn
      have hs := deref_shape hw
      rw [stats_deref hw] at h
      cases w with
      | ptr u => exact absurd rfl (hs.1 u)
      | nilPtr => exact absurd rfl hs.2
      | struct fs =>
        obtain ⟨l, e, _⟩ := val_shows v hc fs hw
        rw [stats, e] at h; cases h
      | num _ => cases h
      | bool _ => cases h
      | other => cases h
    · exact hn (clean_some hc)
  · intro h
    cases e : stats v with
    | none => rfl
    | some r => exact absurd ((stats_clean v).1 (by rw [e]; simp)) h

/-- C47 fails when a pointer is nil: even a field tagged ignore makes the report panic. -/
theorem C47_nil_ignored_violated : ∃ fs, (∃ l, Shows fs l) ∧ stats (.struct fs) = none :=
  ⟨.cons b!"A" b!"" true (.num (.int 1)) (.cons b!"P" b!"ignore" true .nilPtr .nil),
    ⟨_, .num (x := .int 1) (fun h => absurd ((ignored_iff _).2 h) (by decide)) (.here _ (by simp) (by simp))
      (.ignored ((ignored_iff _).1 (by decide)) .nil)⟩, by decide⟩

/-- A struct with a number, an ignored field, a pointer to a struct with a boolean, an unexported struct and a string. -/
def exampleStruct : Val := .ptr (.struct
  (.cons b!"Count" b!"" true (.num (.int 7)) (.cons b!"Skip" b!"x,ignore" true (.num (.int 8))
  (.cons b!"Sub" b!"" true (.ptr (.struct (.cons b!"On" b!"" true (.bool true) (.cons b!"off" b!"ignored" false (.ptr (.bool false)) .nil))))
  (.cons b!"hidden" b!"" false (.struct (.cons b!"X" b!"" true (.num (.int 9)) .nil)) (.cons b!"S" b!"" true .other .nil))))))

example : Clean exampleStruct := by
  apply (stats_clean _).1; decide
example : stats exampleStruct = some [(b!"Count", .int 7), (b!"Sub.On", .int 1), (b!"Sub.off", .int 0)] := by decide
example : stats (.ptr (.num (.int 3))) = some [] := C47_not_struct _ (.num (.int 3)) (.there _ _ (.here _ (by simp) (by simp))) (by simp)

end Monkit.Struct
