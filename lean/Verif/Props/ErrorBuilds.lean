import Verif.Props.ErrorNames
import Verif.Model.ErrorBuilds

/-!
# C48 for other builds
-/

namespace Monkit.ErrorNames
open Go Spec

/-- The types of package net that TinyGo lacks. -/
def Lacking : List Dyn := [.unknownNetworkError, .invalidAddrError, .dnsError, .dnsConfigError]

/-- **C48 (builds).**  In the ordinary build the built-in name is the table's.  On App Engine and with TinyGo it is the same, except for an error number of the system on App Engine, and for
an error of a type that TinyGo lacks: unless it equals one of the variables of the table, such an error is a Network Error if it is one for package net and else a System Error. -/
theorem C48_builds (b : Build) (e : Err) :
    (b.tinygo = false → b.appengine = false → InTable e (b.builtin e)) ∧
    ((e.value ≠ none ∨ ¬ ((b.appengine = true ∧ e.dyn = .errno) ∨ (b.tinygo = true ∧ e.dyn ∈ Lacking))) → InTable e (b.builtin e)) ∧
    ((e.value = none ∧ ((b.appengine = true ∧ e.dyn = .errno) ∨ (b.tinygo = true ∧ e.dyn ∈ Lacking))) →
      b.builtin e = if e.netError then b!"Network Error" else b!"System Error") := by
  have h0 : InTable e (builtin e) := inTable_builtin e
  obtain ⟨tg, ae⟩ := b
  obtain ⟨nm, v, d, ne, i⟩ := e
  have key : (v ≠ none ∨ ¬ ((ae = true ∧ d = .errno) ∨ (tg = true ∧ d ∈ Lacking))) → (Build.builtin ⟨tg, ae⟩ ⟨nm, v, d, ne, i⟩) = builtin ⟨nm, v, d, ne, i⟩ := by
    intro h
    cases v with
    | some v => cases v <;> rfl
    | none => cases tg <;> cases ae <;> cases d <;> cases ne <;> simp [Lacking, Build.builtin, builtin, Build.isErrno, Build.netErrorName, netErrorNameTiny, netErrorName] at h ⊢
  refine ⟨fun h1 h2 => ?_, fun h => by rw [key h]; exact h0, ?_⟩
  · rw [key (.inr (by rintro (⟨h, -⟩ | ⟨h, -⟩) <;> simp_all))]
    exact h0
  · rintro ⟨hv, h⟩
    dsimp only at hv
    subst hv
    cases tg <;> cases ae <;> cases d <;> cases ne <;> simp [Lacking, Build.builtin, Build.isErrno, Build.netErrorName, netErrorNameTiny, netErrorName] at h ⊢

/-- Both cases occur: with TinyGo a DNS error is a Network Error, an Addr Error is what it is. -/
example : (⟨true, false⟩ : Build).builtin dns = b!"Network Error" ∧ (⟨true, true⟩ : Build).builtin ⟨none, none, .addrError, true, 0⟩ = b!"Addr Error" := ⟨rfl, rfl⟩

end Monkit.ErrorNames
