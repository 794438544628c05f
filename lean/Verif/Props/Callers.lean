import Verif.Proofs.Callers

/-!
# C49: names derived from the caller
-/

namespace Monkit.Callers
open Go Spec

/-- C49.  The name derived for a function is its name within its package, for every import path and function name; a function name
is not empty and has no slash. -/
theorem C49_func_name (path f : Str) (hf : f ≠ []) (hs : (47 : UInt8) ∉ f) (fn : Option Str) :
    callerFunc (some ⟨fullName path f, fn⟩) = f := by
  have key : extractFuncName (fullName path f) = some f := by
    rcases path_cases path with hp | ⟨d, b, rfl, hb⟩
    · have := prefix_noslash hp
      refine extract_tail (q := pathToPrefix path) this.2 hf _ (.inl ⟨by simp [fullName], ?_⟩)
      simp [fullName, this.1, hs]
    · obtain ⟨d', e⟩ := prefix_slash d b hb
      have := prefix_noslash hb
      refine extract_tail (q := pathToPrefix b) this.2 hf _ (.inr ⟨d', by simp [fullName, e], ?_⟩)
      simp [this.1, hs]
  have hne : fullName path f ≠ [] := by simp [fullName]
  simp [callerFunc, hne, key]

/-- C49.  In general: the part after the first dot that follows the last slash. -/
theorem C49_func_name_general (dir q f : Str) (hdir : dir = [] ∨ ∃ d, dir = d ++ b!"/") (hq : (46 : UInt8) ∉ q) (hs : (47 : UInt8) ∉ q ++ b!"." ++ f)
    (hf : f ≠ []) (fn : Option Str) : callerFunc (some ⟨dir ++ q ++ b!"." ++ f, fn⟩) = f := by
  have hs' : (47 : UInt8) ∉ q ++ 46 :: f := by simpa using hs
  have key : extractFuncName (dir ++ q ++ b!"." ++ f) = some f := by
    rcases hdir with rfl | ⟨d, rfl⟩
    · exact extract_tail hq hf _ (.inl ⟨by simp, by simpa using hs⟩)
    · exact extract_tail hq hf _ (.inr ⟨d, by simp, hs'⟩)
  have hne : dir ++ q ++ b!"." ++ f ≠ [] := by simp
  simp only [callerFunc, hne, if_false, key, Option.getD_some]

/-- C49.  The name of the package scope is the import path as it appears in names, if that has a slash. -/
theorem C49_package_name (path f fn : Str) (hp : (47 : UInt8) ∈ path) (hs : (47 : UInt8) ∉ f) :
    callerPackage (some ⟨fn, some (fullName path f)⟩) = pathToPrefix path := by
  rcases path_cases path with h | ⟨d, b, rfl, hb⟩
  · exact absurd hp h
  · obtain ⟨d', e⟩ := prefix_slash d b hb
    have hb' := prefix_noslash hb
    have hn : (47 : UInt8) ∉ pathToPrefix b ++ 46 :: f := by simp [hb'.1, hs]
    have hfull : fullName (d ++ 47 :: b) f = d' ++ 47 :: (pathToPrefix b ++ 46 :: f) := by simp [fullName, e]
    obtain ⟨g1, g2⟩ := split_last d' _ [] hn
    simp only [callerPackage, hfull, g1, g2, Option.getD_some, cut_dot _ f hb'.2, e]
    simp

/-- C49.  So it is the import path itself if that has a slash and appears unchanged in names.

Partial: the full statement is for every import path (see the two violations below). -/
theorem C49_package_is_import_path_partial (path f fn : Str) (hp : (47 : UInt8) ∈ path) (hplain : Plain path) (hs : (47 : UInt8) ∉ f) :
    callerPackage (some ⟨fn, some (fullName path f)⟩) = path := by
  rw [C49_package_name path f fn hp hs, hplain]

/-- C49 fails for import paths without a slash, such as `main`, whose scope is named `/main`: a slash is put in front of every one. -/
theorem C49_package_slash_violated (path f fn : Str) (hp : (47 : UInt8) ∉ path) (hs : (47 : UInt8) ∉ f) :
    callerPackage (some ⟨fn, some (fullName path f)⟩) = b!"/" ++ pathToPrefix path ∧
      callerPackage (some ⟨fn, some (fullName path f)⟩) ≠ path := by
  have hb' := prefix_noslash hp
  have hn : (47 : UInt8) ∉ fullName path f := by simp [fullName, hb'.1, hs]
  have key : callerPackage (some ⟨fn, some (fullName path f)⟩) = b!"/" ++ pathToPrefix path := by
    have : split 47 [] (fullName path f) = [fullName path f] := by rw [split_nosep [] hn]; simp
    have hfull : fullName path f = pathToPrefix path ++ 46 :: f := by simp [fullName]
    simp only [callerPackage, this]
    simp [hfull, join, cut_dot _ f hb'.2]
  refine ⟨key, ?_⟩
  rw [key]
  intro e
  exact hp (by rw [← e]; simp)

/-- C49 fails for import paths with a dot in their last element: it appears escaped. -/
theorem C49_package_dot_violated :
    callerPackage (some ⟨[], some (fullName b!"gopkg.in/yaml.v2" b!"Unmarshal")⟩) = b!"gopkg.in/yaml%2ev2" := by decide +kernel

/-- C49.  A frame without a function value (an inlined function) gives the scope "unknown". -/
theorem C49_inlined_unknown (fn : Str) : callerPackage (some ⟨fn, none⟩) = b!"unknown" := rfl

/-- C49.  Different packages (with a slash in the path) get different scopes. -/
theorem C49_package_injective (p p' f f' fn fn' : Str) (hp : (47 : UInt8) ∈ p) (hp' : (47 : UInt8) ∈ p') (h : Plain p) (h' : Plain p')
    (hs : (47 : UInt8) ∉ f) (hs' : (47 : UInt8) ∉ f')
    (e : callerPackage (some ⟨fn, some (fullName p f)⟩) = callerPackage (some ⟨fn', some (fullName p' f')⟩)) : p = p' := by
  rwa [C49_package_is_import_path_partial p f fn hp h hs, C49_package_is_import_path_partial p' f' fn' hp' h' hs'] at e

/-- The example in the source. -/
example : callerFunc (some ⟨b!"github.com/spacemonkeygo/monkit/v3.BenchmarkTask.func1", none⟩) = b!"BenchmarkTask.func1" :=
  C49_func_name b!"github.com/spacemonkeygo/monkit/v3" b!"BenchmarkTask.func1" (by decide) (by decide) none
example : callerFunc (some ⟨b!"main.DoThings", none⟩) = b!"DoThings" := C49_func_name b!"main" b!"DoThings" (by decide) (by decide) none
example : Plain b!"github.com/spacemonkeygo/monkit/v3" := by unfold Plain; decide +kernel
example : callerPackage (some ⟨[], some b!"github.com/spacemonkeygo/monkit/v3.(*Scope).Func"⟩) = b!"github.com/spacemonkeygo/monkit/v3" :=
  C49_package_is_import_path_partial b!"github.com/spacemonkeygo/monkit/v3" b!"(*Scope).Func" [] (by decide) (by unfold Plain; decide +kernel) (by decide)
example : callerPackage (some ⟨[], some b!"main.main"⟩) = b!"/main" := by decide +kernel

end Monkit.Callers
