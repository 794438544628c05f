import Verif.Proofs.ErrorNames

/-!
# C48: the names of errors
-/

namespace Monkit.ErrorNames
open Go Spec

/-- C48.  Whatever handlers are being added by whichever goroutines meanwhile, a call that names error `e` has loaded the list of
handlers at some moment during the call, and the name it returns is the one given by the last of the handlers added up to that moment
that accepts it; else its own if it names itself; else the table's. -/
theorem C48_precedence {tr : List Ev} {s : State} (h : Exec Step State.init tr s) (a b : List Ev) (t : Nat) (e : Err) (n : Str)
    (hab : tr = a ++ .named t e n :: b) :
    ∃ a1 a2 a3, a = a1 ++ .call t e :: a2 ++ .loaded t :: a3 ∧ NoCall t (a2 ++ a3) ∧ Names (addedIn (a1 ++ .call t e :: a2)) e n := by
  obtain ⟨s1, s2, h1, h2, h3⟩ := h.split a _ b hab
  clear h3
  have inv := Exec.induct Inv inv_init inv_step h1
  cases h2 with
  | nRet =>
    rename_i hp
    obtain ⟨a1, a2, a3, g1, g2, g3, g4⟩ := inv.returning t e n hp
    refine ⟨a1, a2, a3, g1, ?_, g4⟩
    intro e' hm
    rcases List.mem_append.1 hm with hm | hm
    · exact g2 e' hm
    · exact g3 e' hm

/-- C48.  Names are unambiguous: with given handlers, an error has exactly one name. -/
theorem C48_one_name (hs : List Handler) (e : Err) : ∃ n, Names hs e n ∧ ∀ n', Names hs e n' → n' = n := by
  have : ∃ n, Names hs e n := by
    by_cases hr : ∀ h ∈ hs, ¬ Accepts h e
    · exact ⟨_, names_fallback hr⟩
    · induction hs with
      | nil => simp at hr
      | cons h hs ih =>
        by_cases hr' : ∀ h ∈ hs, ¬ Accepts h e
        · refine ⟨_, .handler [] h hs rfl ?_ hr'⟩
          apply Classical.byContradiction
          intro hn
          apply hr
          intro x hx
          rcases List.mem_cons.1 hx with rfl | hx
          · exact hn
          · exact hr' x hx
        · obtain ⟨n, hn⟩ := ih hr'
          cases hn with
          | handler o g w e1 a1 n1 => exact ⟨_, .handler (h :: o) g w (by rw [e1]; rfl) a1 n1⟩
          | self _ r => exact absurd r hr'
          | table _ r => exact absurd r hr'
  obtain ⟨n, hn⟩ := this
  exact ⟨n, hn, fun n' h' => names_unique h' hn⟩

/-- C48.  Adding handlers that reject an error does not change its name. -/
theorem C48_rejecting_handlers (hs more : List Handler) (e : Err) (n : Str) (hr : ∀ h ∈ more, ¬ Accepts h e) :
    Names (hs ++ more) e n ↔ Names hs e n := by
  have fwd : ∀ n, Names hs e n → Names (hs ++ more) e n := by
    intro n
    have hall : (∀ h ∈ hs, ¬ Accepts h e) → ∀ h ∈ hs ++ more, ¬ Accepts h e := by
      intro h1 h hm
      rcases List.mem_append.1 hm with hm | hm
      · exact h1 h hm
      · exact hr h hm
    intro h
    cases h with
    | handler o g w e1 a1 n1 =>
      refine .handler o g (w ++ more) (by rw [e1]; simp) a1 ?_
      intro x hx
      rcases List.mem_append.1 hx with hx | hx
      · exact n1 x hx
      · exact hr x hx
    | self _ r hn => exact .self _ (hall r) hn
    | table _ r hn it => exact .table _ (hall r) hn it
  refine ⟨fun h => ?_, fwd n⟩
  obtain ⟨n', h1, _⟩ := C48_one_name hs e
  rw [names_unique h (fwd n' h1)]
  exact h1

/-- C48.  An added handler that accepts an error names it from then on, until another that accepts it is added. -/
theorem C48_newest_wins (hs more : List Handler) (f : Handler) (e : Err) (n : Str) (hf : f e = (n, true)) (hr : ∀ h ∈ more, ¬ Accepts h e) :
    Names (hs ++ f :: more) e n := by
  have : n = (f e).1 := by rw [hf]
  rw [this]
  exact .handler hs f more rfl (by simp [Accepts, hf]) hr

/-- C48.  Handlers added by different goroutines at the same time are all kept: every completed `AddErrorNameHandler` is in the list from
then on (`addedIn` only grows, in the order of the stores), and no call ever reads a missing handler. -/
theorem C48_no_panic {tr : List Ev} {s : State} (h : Exec Step State.init tr s) (t : Nat) :
    s.pc t ≠ .panicked ∧ s.value.read s.heap = (addedIn tr).map some :=
  have inv := Exec.induct Inv inv_init inv_step h
  ⟨inv.fine t, inv.cur.2.1⟩

/-- C48.  A goroutine that is naming an error is never blocked, not even by one that is adding a handler. -/
theorem C48_naming_never_waits {tr : List Ev} {s : State} (h : Exec Step State.init tr s) (t : Nat)
    (ht : (∃ e, s.pc t = .nLoad e) ∨ (∃ e sl i, s.pc t = .nLoop e sl i) ∨ (∃ e n, s.pc t = .nRet e n)) :
    ∃ x s', Step s x s' ∧ s'.pc t ≠ s.pc t := by
  have inv := Exec.induct Inv inv_init inv_step h
  rcases ht with ⟨e, hp⟩ | ⟨e, sl, i, hp⟩ | ⟨e, n, hp⟩
  · exact ⟨_, _, .nLoad s t e hp, by simp [hp]⟩
  · cases i with
    | zero => exact ⟨_, _, .nEnd s t e sl hp, by simp [hp]⟩
    | succ i =>
      obtain ⟨f, hf⟩ := (inv.looping t e sl _ hp).get
      cases hr : (f e).2 with
      | true => exact ⟨_, _, .nAccept s t e sl i f hp hf hr, by simp [hp]⟩
      | false => exact ⟨_, _, .nReject s t e sl i f hp hf hr, by simp [hp]⟩
  · exact ⟨_, _, .nRet s t e n hp, by simp [hp]⟩

/-! ## Examples -/

/-- A DNS error; a handler that takes it, one that takes nothing. -/
def dns : Err := ⟨none, none, .dnsError, true, 5⟩
def taker : Handler := fun e => if e.info = 5 then (b!"Lookup", true) else (b!"", false)
def refuser : Handler := fun _ => (b!"x", false)

example : Names [refuser] dns b!"DNS Error" := names_fallback (e := dns) (by simp [Accepts, refuser])
example : Names [taker, refuser] dns b!"Lookup" := C48_newest_wins [] [refuser] taker dns _ rfl (by simp [Accepts, refuser])
example : Names [] ⟨some (b!"Mine", true), none, .other, true, 0⟩ b!"Mine" := names_fallback (by simp)
example : Names [] ⟨some (b!"Mine", false), none, .errno, true, 0⟩ b!"Errno" := names_fallback (hs := []) (e := ⟨some (b!"Mine", false), none, .errno, true, 0⟩) (by simp)

/-- Goroutine 1 names an error while goroutine 0 adds a handler for it: it had loaded the list before. -/
example : ∃ s, Exec Step State.init [.add 0 taker, .call 1 dns, .loaded 1, .added 0 taker, .named 1 dns b!"DNS Error"] s := by
  have h0 := Exec.start (step := Step) (s₀ := State.init)
  have h1 := Exec.step _ h0 (.add _ 0 taker rfl)
  have h2 := Exec.step _ h1 (.call _ 1 dns rfl)
  have h3 := Exec.step _ h2 (.aLock _ 0 taker rfl rfl)
  have h4 := Exec.step _ h3 (.aLoad _ 0 taker rfl)
  have h5 := Exec.step _ h4 (.nLoad _ 1 dns rfl)
  have h6 := Exec.step _ h5 (.aAppend _ 0 taker _ 3 rfl)
  have h7 := Exec.step _ h6 (.aStore _ 0 taker _ rfl)
  have h8 := Exec.step _ h7 (.nEnd _ 1 dns _ rfl)
  have h9 := Exec.step _ h8 (.nRet _ 1 dns _ rfl)
  exact ⟨_, h9⟩

end Monkit.ErrorNames
