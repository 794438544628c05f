import Verif.Spec.LiveArgs

/-! # Lemmas about the arguments of spans -/

namespace Monkit.LiveArgs
open Go

theorem bytesAt_append (b : Nat → List UInt8) (a : Nat) (p q : List Ev) :
    bytesAt b a (p ++ q) = bytesAt (fun a' => bytesAt b a' p) a q := by
  induction p generalizing b with
  | nil => rfl
  | cons e p ih => exact ih _

theorem mapAt_append (m : Nat → Map Str Nat) (a : Nat) (p q : List Ev) :
    mapAt m a (p ++ q) = mapAt (fun a' => mapAt m a' p) a q := by
  induction p generalizing m with
  | nil => rfl
  | cons e p ih => exact ih _

theorem bytesAt_length (b : Nat → List UInt8) (a : Nat) (q : List Ev) : (bytesAt b a q).length = (b a).length := by
  induction q generalizing b with
  | nil => rfl
  | cons e q ih =>
    rw [bytesAt, ih]
    cases e with
    | set n a' i v =>
      simp only [setBytes]
      by_cases h : a = a'
      · subst h; simp
      · rw [upd_other _ _ h]
    | _ => rfl

theorem bytesAt_get (b : Nat → List UInt8) (a : Nat) (q : List Ev) (i : Nat) (v : UInt8)
    (h : (bytesAt b a q)[i]? = some v) : (b a)[i]? = some v ∨ ∃ n, Ev.set n a i v ∈ q := by
  induction q generalizing b with
  | nil => exact .inl h
  | cons e q ih =>
    rw [bytesAt] at h
    rcases ih _ h with h | ⟨n, h⟩
    · cases e with
      | set n a' j w =>
        simp only [setBytes] at h
        by_cases ha : a = a'
        · subst ha
          rw [upd_same, List.getElem?_set] at h
          by_cases hj : j = i
          · subst hj
            rw [if_pos rfl] at h
            by_cases hl : j < (b a).length
            · rw [if_pos hl] at h; cases h
              exact .inr ⟨n, List.mem_cons_self⟩
            · rw [if_neg hl] at h; cases h
          · rw [if_neg hj] at h; exact .inl h
        · rw [upd_other _ _ ha] at h; exact .inl h
      | _ => exact .inl h
    · exact .inr ⟨n, List.mem_cons_of_mem _ h⟩

theorem bytesAt_untouched (b : Nat → List UInt8) (a : Nat) (q : List Ev) (h : ∀ e ∈ q, ¬ Touches e (.bytes a)) :
    bytesAt b a q = b a := by
  induction q generalizing b with
  | nil => rfl
  | cons e q ih =>
    rw [bytesAt, ih _ fun e he => h e (List.mem_cons_of_mem _ he)]
    have := h e List.mem_cons_self
    cases e with
    | set n a' j w => exact upd_other _ _ fun hh => this hh.symm
    | _ => rfl

theorem mapAt_untouched (m : Nat → Map Str Nat) (a : Nat) (q : List Ev) (h : ∀ e ∈ q, ¬ Touches e (.map a)) :
    mapAt m a q = m a := by
  induction q generalizing m with
  | nil => rfl
  | cons e q ih =>
    rw [mapAt, ih _ fun e he => h e (List.mem_cons_of_mem _ he)]
    have := h e List.mem_cons_self
    cases e with
    | putEnd n a' j w => exact upd_other _ _ fun hh => this hh.symm
    | _ => rfl

theorem mapAt_ok (m : Nat → Map Str Nat) (hm : ∀ a, Map.Ok (m a)) (a : Nat) (q : List Ev) : Map.Ok (mapAt m a q) := by
  induction q generalizing m with
  | nil => exact hm a
  | cons e q ih =>
    refine ih _ fun a => ?_
    cases e with
    | putEnd n a' j w =>
      by_cases h : a = a'
      · subst h; simp only [setMap, upd_same]; exact Map.ok_set (hm a) _ _
      · simp only [setMap, upd_other _ _ h]; exact hm a
    | _ => exact hm a

theorem mapAt_get (m : Nat → Map Str Nat) (a : Nat) (q : List Ev) (k : Str) (v : Nat)
    (h : Map.get (mapAt m a q) k = some v) : Map.get (m a) k = some v ∨ ∃ n, Ev.putEnd n a k v ∈ q := by
  induction q generalizing m with
  | nil => exact .inl h
  | cons e q ih =>
    rw [mapAt] at h
    rcases ih _ h with h | ⟨n, h⟩
    · cases e with
      | putEnd n a' j w =>
        simp only [setMap] at h
        by_cases ha : a = a'
        · subst ha
          rw [upd_same, Map.get_set] at h
          by_cases hj : j = k
          · subst hj
            rw [if_pos rfl] at h; cases h
            exact .inr ⟨n, List.mem_cons_self⟩
          · rw [if_neg hj] at h; exact .inl h
        · rw [upd_other _ _ ha] at h; exact .inl h
      | _ => exact .inl h
    · exact .inr ⟨n, List.mem_cons_of_mem _ h⟩

section
variable (given : Nat → List Arg) (owner : Nat → Nat) (b : Nat → List UInt8) (m : Nat → Map Str Nat)

/-- What is known of an argument that has been formatted. -/
def Good (p q : List Ev) (x : Arg) (sh : Shown) : Prop :=
  Pieces b m p q x sh ∧ ((∀ e ∈ q, ¬ Touches e x) → Truly b m p x sh)

theorem Good.more {p q : List Ev} {x : Arg} {sh : Shown} (e : List Ev) (h : Good b m p q x sh) : Good b m p (q ++ e) x sh := by
  refine ⟨?_, fun ht => h.2 fun e' he => ht e' (List.mem_append_left _ he)⟩
  have h := h.1
  cases x <;> cases sh <;> simp only [Pieces] at h ⊢
  · exact h
  · refine ⟨h.1, fun i v hv => (h.2 i v hv).imp id fun ⟨n, hn⟩ => ⟨n, List.mem_append_left _ hn⟩⟩
  · refine ⟨h.1, fun i v hv => (h.2 i v hv).imp id fun ⟨n, hn⟩ => ⟨n, List.mem_append_left _ hn⟩⟩

/-- The call of `Args` that goroutine `n` is in began after `p`; the arguments before `rest` have been formatted. -/
structure In (tr : List Ev) (n sp : Nat) (p q : List Ev) (rest : List Arg) (acc : List Shown) : Prop where
  eq : tr = p ++ .call n sp :: q
  nocall : ∀ sp', .call n sp' ∉ q
  noret : ∀ sp' sh, .ret n sp' sh ∉ q
  pre : ∃ done, given sp = done ++ rest ∧ List.Forall₂ (Good b m p q) done acc

variable {given b m} in
theorem In.more {tr n sp p q rest acc} (h : In given b m tr n sp p q rest acc) (e : Option Ev)
    (h1 : ∀ sp', e ≠ some (.call n sp')) (h2 : ∀ sp' sh, e ≠ some (.ret n sp' sh)) :
    In given b m (tr ++ e.toList) n sp p (q ++ e.toList) rest acc := by
  obtain ⟨d, hd, hf⟩ := h.pre
  refine ⟨by rw [h.eq]; simp, fun sp' hh => ?_, fun sp' sh hh => ?_, d, hd, hf.imp fun x y => Good.more b m _⟩
  · rcases List.mem_append.1 hh with hh | hh
    · exact h.nocall _ hh
    · exact h1 sp' (by simpa using hh)
  · rcases List.mem_append.1 hh with hh | hh
    · exact h.noret _ _ hh
    · exact h2 sp' sh (by simpa using hh)

variable {given b m} in
theorem In.done {tr n sp p q x rest acc} (h : In given b m tr n sp p q (x :: rest) acc) {sh : Shown} (g : Good b m p q x sh) :
    In given b m tr n sp p q rest (acc ++ [sh]) := by
  obtain ⟨d, hd, hf⟩ := h.pre
  exact ⟨h.eq, h.nocall, h.noret, d ++ [x], by rw [hd]; simp, List.rel_append hf (.cons g .nil)⟩

/-- What is known of a goroutine. -/
def PCok (tr : List Ev) (n : Nat) : PC → Prop
  | .idle => True
  | .assign a k v => owner a = n ∧ ∃ p q, tr = p ++ .putBegin n a k v :: q ∧ ∀ k v, .putEnd n a k v ∉ q
  | .next sp rest acc => ∃ p q, In given b m tr n sp p q rest acc
  | .bytes sp a got rest acc => ∃ p q, In given b m tr n sp p q (.bytes a :: rest) acc ∧
      (∀ i v, got[i]? = some v → (bytesAt b a p)[i]? = some v ∨ ∃ n, Ev.set n a i v ∈ q) ∧
      ((∀ e ∈ q, ¬ Touches e (.bytes a)) → got <+: bytesAt b a p)
  | .map sp a todo got rest acc => ∃ p q, In given b m tr n sp p q (.map a :: rest) acc ∧
      ((got ++ todo).map (·.1)).Nodup ∧
      (∀ k v, (k, v) ∈ got → (k, v) ∈ mapAt m a p ∨ ∃ n, Ev.putEnd n a k v ∈ q) ∧
      ((∀ e ∈ q, ¬ Touches e (.map a)) → (got ++ todo).Perm (mapAt m a p))

/-- A map argument of a span is being looked at and assigned to. -/
def Doom (tr : List Ev) : Prop :=
  ∃ n sp n' a, Arg.map a ∈ given sp ∧ Listing tr n sp ∧ Assigning tr n' a ∧ n ≠ n'

/-- What holds at any time. -/
structure Inv (tr : List Ev) (s : State) : Prop where
  bytes : ∀ a, s.bytes a = bytesAt b a tr
  maps : ∀ a, (s.maps a).entries = mapAt m a tr
  writing : ∀ a, (s.maps a).writing = true → ∃ k v, s.pc (owner a) = .assign a k v
  pc : ∀ n, PCok given owner b m tr n (s.pc n)
  dead : s.dead = true → Doom given tr

variable {given owner b m} in
theorem PCok.more {tr n c} (h : PCok given owner b m tr n c) (e : Option Ev)
    (h1 : ∀ sp', e ≠ some (.call n sp')) (h2 : ∀ sp' sh, e ≠ some (.ret n sp' sh)) (h3 : ∀ a k v, e ≠ some (.putEnd n a k v)) :
    PCok given owner b m (tr ++ e.toList) n c := by
  cases c with
  | idle => trivial
  | assign a k v =>
    obtain ⟨ho, p, q, rfl, hq⟩ := h
    refine ⟨ho, p, q ++ e.toList, by simp, fun k v hh => ?_⟩
    rcases List.mem_append.1 hh with hh | hh
    · exact hq _ _ hh
    · exact h3 a k v (by simpa using hh)
  | next sp rest acc =>
    obtain ⟨p, q, h⟩ := h
    exact ⟨p, _, h.more e h1 h2⟩
  | bytes sp a got rest acc =>
    obtain ⟨p, q, h, hg, hu⟩ := h
    exact ⟨p, _, h.more e h1 h2, fun i v hv => (hg i v hv).imp id fun ⟨n, hn⟩ => ⟨n, List.mem_append_left _ hn⟩,
      fun ht => hu fun e' he => ht e' (List.mem_append_left _ he)⟩
  | map sp a todo got rest acc =>
    obtain ⟨p, q, h, hn, hg, hu⟩ := h
    exact ⟨p, _, h.more e h1 h2, hn, fun i v hv => (hg i v hv).imp id fun ⟨n, hn⟩ => ⟨n, List.mem_append_left _ hn⟩,
      fun ht => hu fun e' he => ht e' (List.mem_append_left _ he)⟩

/-- The events of a step are those of the goroutine that takes it. -/
def Ev.by : Ev → Nat
  | .set n _ _ _ => n
  | .putBegin n _ _ _ => n
  | .putEnd n _ _ _ => n
  | .call n _ => n
  | .ret n _ _ => n

variable {given owner b m} in
theorem PCok.other {tr n c} (h : PCok given owner b m tr n c) (e : Option Ev) (he : ∀ x, e = some x → x.by ≠ n) :
    PCok given owner b m (tr ++ e.toList) n c :=
  h.more e (fun _ hh => he _ hh rfl) (fun _ _ hh => he _ hh rfl) (fun _ _ _ hh => he _ hh rfl)

variable {given owner b m} in
/-- The goroutines after a step of goroutine `n`. -/
theorem pc_upd {tr : List Ev} {f : Nat → PC} (h : ∀ n, PCok given owner b m tr n (f n)) (e : Option Ev) (n : Nat) (c : PC)
    (he : ∀ x, e = some x → x.by = n) (hc : PCok given owner b m (tr ++ e.toList) n c) (k : Nat) :
    PCok given owner b m (tr ++ e.toList) k (upd f n c k) := by
  by_cases hk : k = n
  · subst hk; rw [upd_same]; exact hc
  · rw [upd_other _ _ hk]; exact (h k).other e fun x hx hh => hk (by rw [← hh]; exact he x hx)

variable {given owner b m} in
theorem writing_upd {s : State} {n : Nat} {c : PC} (h : ∀ a, (s.maps a).writing = true → ∃ k v, s.pc (owner a) = .assign a k v)
    (hn : ∀ a k v, s.pc n ≠ .assign a k v) (a : Nat) (hw : (s.maps a).writing = true) :
    ∃ k v, upd s.pc n c (owner a) = .assign a k v := by
  obtain ⟨k, v, e⟩ := h a hw
  refine ⟨k, v, ?_⟩
  rw [upd_other _ _ (fun hh => hn a k v (by rw [← hh]; exact e))]
  exact e

variable (hm : ∀ a, Map.Ok (m a))
include hm

theorem inv_step (tr : List Ev) (s : State) (e : Option Ev) (s' : State) (h : Inv given owner b m tr s)
    (st : Step given owner s e s') : Inv given owner b m (tr ++ e.toList) s' := by
  have nodead : s.dead = false → s.dead = true → Doom given (tr ++ e.toList) := fun h1 h2 => by simp [h1] at h2
  cases st with
  | set n a i v hd hpc ho hi =>
    refine ⟨fun a' => ?_, fun a' => ?_, h.writing, fun k => ?_, nodead hd⟩
    · rw [bytesAt_append]
      simp only [bytesAt, setBytes, Option.toList]
      by_cases ha : a' = a
      · subst ha; rw [upd_same, upd_same, h.bytes]
      · rw [upd_other _ _ ha, upd_other _ _ ha, h.bytes]
    · rw [mapAt_append]; exact h.maps a'
    · by_cases hk : k = n
      · subst hk; simp only [hpc]; trivial
      · exact (h.pc k).other _ fun x hx hh => by cases hx; exact hk hh.symm
  | putBegin n a k v hd hpc ho hw =>
    refine ⟨fun a' => ?_, fun a' => ?_, fun a' hw' => ?_, pc_upd h.pc _ n _ (fun x hx => by cases hx; rfl) ?_, nodead hd⟩
    · rw [bytesAt_append]; exact h.bytes a'
    · rw [mapAt_append]
      simp only [mapAt, setMap, Option.toList]
      by_cases ha : a' = a
      · subst ha; rw [upd_same]; exact h.maps a'
      · rw [upd_other _ _ ha]; exact h.maps a'
    · by_cases ha : a' = a
      · subst ha; exact ⟨k, v, by simp only [ho, upd_same]⟩
      · simp only [upd_other _ _ ha] at hw'
        exact writing_upd h.writing (fun a k v => by rw [hpc]; simp) a' hw'
    · exact ⟨ho, tr, [], rfl, by simp⟩
  | putFatal n a hd hpc ho hw =>
    obtain ⟨k, v, e⟩ := h.writing a hw
    rw [ho, hpc] at e; cases e
  | putEnd n a k v hd hpc =>
    have hp := h.pc n
    rw [hpc] at hp
    refine ⟨fun a' => ?_, fun a' => ?_, fun a' hw' => ?_, pc_upd h.pc _ n _ (fun x hx => by cases hx; rfl) trivial, nodead hd⟩
    · rw [bytesAt_append]; exact h.bytes a'
    · rw [mapAt_append]
      simp only [mapAt, setMap, Option.toList]
      by_cases ha : a' = a
      · subst ha; rw [upd_same, upd_same, h.maps]
      · rw [upd_other _ _ ha, upd_other _ _ ha]; exact h.maps a'
    · by_cases ha : a' = a
      · subst ha; simp only [upd_same] at hw'; cases hw'
      · simp only [upd_other _ _ ha] at hw'
        obtain ⟨k', v', e⟩ := h.writing a' hw'
        refine ⟨k', v', ?_⟩
        dsimp only
        rw [upd_other]
        · exact e
        · intro hh; rw [hh, hpc] at e; cases e; exact ha rfl
  | call n sp hd hpc =>
    refine ⟨fun a' => ?_, fun a' => ?_, writing_upd h.writing (fun a k v => by rw [hpc]; simp), pc_upd h.pc _ n _ (fun x hx => by cases hx; rfl) ?_, nodead hd⟩
    · rw [bytesAt_append]; exact h.bytes a'
    · rw [mapAt_append]; exact h.maps a'
    · exact ⟨tr, [], ⟨rfl, by simp, by simp, [], rfl, .nil⟩⟩
  | ret n sp acc hd hpc =>
    refine ⟨fun a' => ?_, fun a' => ?_, writing_upd h.writing (fun a k v => by rw [hpc]; simp), pc_upd h.pc _ n _ (fun x hx => by cases hx; rfl) trivial, nodead hd⟩
    · rw [bytesAt_append]; exact h.bytes a'
    · rw [mapAt_append]; exact h.maps a'
  | mapFatal n sp a todo got rest acc hd hpc hw =>
    have hp := h.pc n
    rw [hpc] at hp
    obtain ⟨p, q, hin, -⟩ := hp
    obtain ⟨k, v, e⟩ := h.writing a hw
    have ha := h.pc (owner a)
    rw [e] at ha
    obtain ⟨-, p', q', e', hq'⟩ := ha
    simp only [Option.toList, List.append_nil]
    obtain ⟨d, hg, -⟩ := hin.pre
    exact ⟨h.bytes, h.maps, h.writing, h.pc, fun _ => ⟨n, sp, owner a, a, by rw [hg]; simp, ⟨p, q, hin.eq, fun sh => hin.noret sp sh⟩,
      ⟨p', q', k, v, e', hq' k v⟩, fun hh => by rw [← hh, hpc] at e; cases e⟩⟩
  | str n sp x rest acc hd hpc =>
    have hp := h.pc n
    rw [hpc] at hp
    refine ⟨by simpa using h.bytes, by simpa using h.maps, writing_upd h.writing (fun a k v => by rw [hpc]; simp), pc_upd h.pc _ n _ (fun x hx => by cases hx) ?_, nodead hd⟩
    simp only [Option.toList, List.append_nil]
    obtain ⟨p, q, hin⟩ := hp
    exact ⟨p, q, hin.done ⟨rfl, fun _ => rfl⟩⟩
  | bytes n sp a rest acc hd hpc =>
    have hp := h.pc n
    rw [hpc] at hp
    refine ⟨by simpa using h.bytes, by simpa using h.maps, writing_upd h.writing (fun a k v => by rw [hpc]; simp), pc_upd h.pc _ n _ (fun x hx => by cases hx) ?_, nodead hd⟩
    simp only [Option.toList, List.append_nil]
    obtain ⟨p, q, hin⟩ := hp
    exact ⟨p, q, hin, by simp, fun _ => List.nil_prefix⟩
  | byte n sp a got rest acc x hd hpc hx =>
    have hp := h.pc n
    rw [hpc] at hp
    refine ⟨by simpa using h.bytes, by simpa using h.maps, writing_upd h.writing (fun a k v => by rw [hpc]; simp), pc_upd h.pc _ n _ (fun x hx => by cases hx) ?_, nodead hd⟩
    simp only [Option.toList, List.append_nil]
    obtain ⟨p, q, hin, hg, hu⟩ := hp
    have hb : s.bytes a = bytesAt (fun a' => bytesAt b a' p) a q := by
      rw [h.bytes, hin.eq, bytesAt_append]; rfl
    refine ⟨p, q, hin, fun i v hv => ?_, fun ht => ?_⟩
    · by_cases hi : i < got.length
      · rw [List.getElem?_append_left hi] at hv; exact hg i v hv
      · have : i = got.length := by
          have := (List.getElem?_eq_some_iff.1 hv).1
          simp at this; omega
        subst this
        simp at hv; subst hv
        rw [hb] at hx
        exact bytesAt_get _ _ _ _ _ hx
    · rw [hb, bytesAt_untouched _ _ _ ht] at hx
      obtain ⟨r, hr⟩ := hu ht
      rw [← hr] at hx ⊢
      cases r with
      | nil => simp at hx
      | cons y r =>
        simp at hx; subst hx
        exact ⟨r, by simp⟩
  | bytesEnd n sp a got rest acc hd hpc hl =>
    have hp := h.pc n
    rw [hpc] at hp
    refine ⟨by simpa using h.bytes, by simpa using h.maps, writing_upd h.writing (fun a k v => by rw [hpc]; simp), pc_upd h.pc _ n _ (fun x hx => by cases hx) ?_, nodead hd⟩
    simp only [Option.toList, List.append_nil]
    obtain ⟨p, q, hin, hg, hu⟩ := hp
    have hlen : got.length = (bytesAt b a p).length := by
      rw [hl, h.bytes, bytesAt_length, bytesAt_length]
    exact ⟨p, q, hin.done ⟨⟨hlen, hg⟩, fun ht => (hu ht).eq_of_length hlen⟩⟩
  | map n sp a rest acc todo hd hpc hperm hne =>
    have hp := h.pc n
    rw [hpc] at hp
    refine ⟨by simpa using h.bytes, by simpa using h.maps, writing_upd h.writing (fun a k v => by rw [hpc]; simp), pc_upd h.pc _ n _ (fun x hx => by cases hx) ?_, nodead hd⟩
    simp only [Option.toList, List.append_nil]
    obtain ⟨p, q, hin⟩ := hp
    have hb : (s.maps a).entries = mapAt (fun a' => mapAt m a' p) a q := by
      rw [h.maps, hin.eq, mapAt_append]; rfl
    refine ⟨p, q, hin, ?_, by simp, fun ht => ?_⟩
    · rw [List.nil_append]
      have : Map.Ok (s.maps a).entries := by rw [h.maps]; exact mapAt_ok m hm a _
      exact Map.ok_perm hperm.symm this
    · rw [hb, mapAt_untouched _ _ _ ht] at hperm
      exact hperm
  | mapEmpty n sp a rest acc hd hpc he =>
    have hp := h.pc n
    rw [hpc] at hp
    refine ⟨by simpa using h.bytes, by simpa using h.maps, writing_upd h.writing (fun a k v => by rw [hpc]; simp), pc_upd h.pc _ n _ (fun x hx => by cases hx) ?_, nodead hd⟩
    simp only [Option.toList, List.append_nil]
    obtain ⟨p, q, hin⟩ := hp
    have hb : (s.maps a).entries = mapAt (fun a' => mapAt m a' p) a q := by
      rw [h.maps, hin.eq, mapAt_append]; rfl
    refine ⟨p, q, hin.done ⟨⟨by simp, by simp⟩, fun ht => ?_⟩⟩
    rw [he, mapAt_untouched _ _ _ ht] at hb
    show List.Perm [] (mapAt m a p)
    rw [← hb]
  | entry n sp a k v v' todo got rest acc hd hpc hw hv =>
    have hp := h.pc n
    rw [hpc] at hp
    refine ⟨by simpa using h.bytes, by simpa using h.maps, writing_upd h.writing (fun a k v => by rw [hpc]; simp), pc_upd h.pc _ n _ (fun x hx => by cases hx) ?_, nodead hd⟩
    simp only [Option.toList, List.append_nil]
    obtain ⟨p, q, hin, hn, hg, hu⟩ := hp
    have hb : (s.maps a).entries = mapAt (fun a' => mapAt m a' p) a q := by
      rw [h.maps, hin.eq, mapAt_append]; rfl
    have hok : Map.Ok (mapAt m a p) := mapAt_ok m hm a p
    refine ⟨p, q, hin, by simpa using hn, fun k' w hk => ?_, fun ht => ?_⟩
    · rcases List.mem_append.1 hk with hk | hk
      · exact hg k' w hk
      · simp at hk
        obtain ⟨rfl, rfl⟩ := hk
        rw [hb] at hv
        rcases mapAt_get _ _ _ _ _ hv with hv | hv
        · exact .inl ((Map.mem_iff_get hok _ _).2 hv)
        · exact .inr hv
    · have hp := hu ht
      rw [hb, mapAt_untouched _ _ _ ht] at hv
      have hmem : (k, v) ∈ mapAt m a p := hp.subset (by simp)
      have := (Map.mem_iff_get hok _ _).1 hmem
      rw [hv] at this
      cases this
      simpa using hp
  | mapEnd n sp a got rest acc hd hpc hw =>
    have hp := h.pc n
    rw [hpc] at hp
    refine ⟨by simpa using h.bytes, by simpa using h.maps, writing_upd h.writing (fun a k v => by rw [hpc]; simp), pc_upd h.pc _ n _ (fun x hx => by cases hx) ?_, nodead hd⟩
    simp only [Option.toList, List.append_nil]
    obtain ⟨p, q, hin, hn, hg, hu⟩ := hp
    rw [List.append_nil] at hn hu
    exact ⟨p, q, hin.done ⟨⟨hn, hg⟩, hu⟩⟩

theorem inv {tr : List Ev} {s : State} (h : Exec (Step given owner) (init b m) tr s) : Inv given owner b m tr s :=
  h.induct (Inv given owner b m)
    { bytes := fun _ => rfl, maps := fun _ => rfl, writing := fun _ h => by simp [init] at h, pc := fun _ => by simp only [init, PCok], dead := fun h => by simp [init] at h }
    (inv_step given owner b m hm)

end

end Monkit.LiveArgs
