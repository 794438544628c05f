import Verif.Spec.ErrorNames

namespace Monkit.ErrorNames
open Go Spec

theorem upd_apply {α : Type} (f : Nat → α) (t : Nat) (v : α) (t' : Nat) : upd f t v t' = if t' = t then v else f t' := rfl

theorem inTable_builtin (e : Err) : InTable e (builtin e) := by
  have aux : ∀ (l : List ((Err → Bool) × Str)) (n : Str), (l.find? (fun x => x.1 e)).map (·.2) = some n →
      ∃ above line below, l = above ++ line :: below ∧ (∀ l ∈ above, l.1 e = false) ∧ line.1 e = true ∧ line.2 = n := by
    intro l n
    induction l with
    | nil => simp
    | cons x l ih =>
      intro h
      rw [List.find?_cons] at h
      cases hx : x.1 e with
      | true =>
        rw [hx] at h
        exact ⟨[], x, l, rfl, by simp, hx, by simpa using h⟩
      | false =>
        rw [hx] at h
        obtain ⟨a, y, b, rfl, h1, h2, h3⟩ := ih h
        refine ⟨x :: a, y, b, rfl, ?_, h2, h3⟩
        intro z hz
        rcases List.mem_cons.1 hz with rfl | hz
        · exact hx
        · exact h1 z hz
  apply aux
  obtain ⟨namer, value, dyn, ne, info⟩ := e
  unfold table builtin netErrorName
  cases value with
  | some v => cases v <;> rfl
  | none => cases dyn <;> cases ne <;> rfl

theorem inTable_unique {e : Err} {n n' : Str} (h : InTable e n) (h' : InTable e n') : n = n' := by
  obtain ⟨a, x, b, h1, h2, h3, h4⟩ := h
  obtain ⟨a', x', b', h1', h2', h3', h4'⟩ := h'
  have aux : ∀ (l a b a' b' : List ((Err → Bool) × Str)) (x x'), l = a ++ x :: b → l = a' ++ x' :: b' → (∀ l ∈ a, l.1 e = false) →
      (∀ l ∈ a', l.1 e = false) → x.1 e = true → x'.1 e = true → x = x' := by
    intro l
    induction l with
    | nil => intro a; cases a <;> simp
    | cons y l ih =>
      intro a b a' b' x x' e1 e2 g1 g2 g3 g4
      cases a with
      | nil =>
        cases a' with
        | nil => simp at e1 e2; rw [← e1.1, ← e2.1]
        | cons z a' =>
          simp at e1 e2
          have := g2 z (by simp)
          rw [← e2.1, e1.1, g3] at this; cases this
      | cons z a =>
        cases a' with
        | nil =>
          simp at e1 e2
          have := g1 z (by simp)
          rw [← e1.1, e2.1, g4] at this; cases this
        | cons z' a' =>
          simp at e1 e2
          exact ih a b a' b' x x' e1.2 e2.2 (fun l hl => g1 l (by simp [hl])) (fun l hl => g2 l (by simp [hl])) g3 g4
  have := aux _ _ _ _ _ _ _ h1 h1' h2 h2' h3 h3'
  rw [← h4, ← h4', this]

theorem names_fallback {hs : List Handler} {e : Err} (h : ∀ h ∈ hs, ¬ Accepts h e) : Names hs e (fallback e) := by
  unfold fallback
  split
  · rename_i n hn; exact .self _ h hn
  · rename_i hn; exact .table _ h (fun n' => hn n') (inTable_builtin e)

theorem names_unique {hs : List Handler} {e : Err} {n n' : Str} (h : Names hs e n) (h' : Names hs e n') : n = n' := by
  have last : ∀ {o h w o' h' w'}, hs = o ++ h :: w → hs = o' ++ h' :: w' → Accepts h e → Accepts h' e → (∀ x ∈ w, ¬ Accepts x e) →
      (∀ x ∈ w', ¬ Accepts x e) → h = h' := by
    intro o h w o' h' w' e1 e2 a1 a2 n1 n2
    rw [e1, List.append_eq_append_iff] at e2
    rcases e2 with ⟨l, e3, e4⟩ | ⟨l, e3, e4⟩
    · cases l with
      | nil => simp at e4; exact e4.1
      | cons y l =>
        simp at e4
        exact absurd a2 (n1 h' (by rw [e4.2]; simp))
    · cases l with
      | nil => simp at e4; exact e4.1.symm
      | cons y l =>
        simp at e4
        exact absurd a1 (n2 h (by rw [e4.2]; simp))
  cases h with
  | handler o g w e1 a1 n1 => cases h' with
    | handler o' g' w' e2 a2 n2 => rw [last e1 e2 a1 a2 n1 n2]
    | self _ r => exact absurd a1 (r g (by rw [e1]; simp))
    | table _ r => exact absurd a1 (r g (by rw [e1]; simp))
  | self _ r hn => cases h' with
    | handler o' g' w' e2 a2 => exact absurd a2 (r g' (by rw [e2]; simp))
    | self _ _ hn' => rw [hn] at hn'; simpa using hn'
    | table _ _ hn' => exact absurd hn (hn' _)
  | table _ r hn it => cases h' with
    | handler o' g' w' e2 a2 => exact absurd a2 (r g' (by rw [e2]; simp))
    | self _ _ hn' => exact absurd hn' (hn _)
    | table _ _ _ it' => exact inTable_unique it it'

/-! ## The slices in use -/

/-- `sl` shows the handlers `hs`. -/
def Seen (heap : Arrays (Option Handler)) (sl : Slice) (hs : List Handler) : Prop :=
  sl.len = hs.length ∧ sl.read heap = hs.map some ∧ (0 < sl.len → sl.arr < heap.length)

theorem append_seen {heap : Arrays (Option Handler)} {c sl : Slice} {hs : List Handler} {xs : List (Option Handler)} {grow : Nat}
    (hc : c.Ok heap) (hs' : Seen heap sl hs) (hl : sl.arr = c.arr → sl.len ≤ c.len) :
    Seen (Arrays.append none heap c xs grow).1 sl hs := by
  obtain ⟨h1, h2, h3⟩ := hs'
  refine ⟨h1, ?_, fun h0 => Nat.lt_of_lt_of_le (h3 h0) (Arrays.length_append ..)⟩
  rw [← h2]
  by_cases h0 : 0 < sl.len
  · unfold Slice.read
    by_cases ha : sl.arr = c.arr
    · have hcap : 0 < c.cap := by have := hl ha; have := hc.1; omega
      obtain ⟨g1, g2⟩ := hc.2 hcap
      unfold Arrays.append
      split
      · unfold Arrays.write
        rw [Arrays.array_set _ _ _ _ g1, if_pos ha.symm, ha]
        have := hl ha
        rw [List.append_assoc, List.take_append_of_le_length (by rw [List.length_take, g2]; have := hc.1; omega), List.take_take,
          Nat.min_eq_left this]
      · unfold Arrays.alloc
        rw [Arrays.array_append, if_neg (by omega)]
    · rw [(Arrays.append_array heap c xs grow sl.arr (h3 h0) (Or.inl ha) hc).1]
  · have : sl.len = 0 := by omega
    simp [Slice.read, this]

theorem append_grows {heap : Arrays (Option Handler)} {c : Slice} {x : Option Handler} {grow : Nat} :
    (Arrays.append none heap c [x] grow).2.len = c.len + 1 ∨
      (Arrays.append none heap c [x] grow).2.arr = heap.length := by
  unfold Arrays.append
  split
  · exact .inl rfl
  · exact .inr rfl

/-! ## The invariant -/

/-- `t` has begun to name `e`. -/
def Loading (tr : List Ev) (t : Nat) (e : Err) : Prop := ∃ a1 a2, tr = a1 ++ .call t e :: a2 ∧ NoCall t a2

/-- `t` has loaded `sl`, and the handlers from index `i` on reject `e`. -/
def Looping (tr : List Ev) (heap : Arrays (Option Handler)) (t : Nat) (e : Err) (sl : Slice) (i : Nat) : Prop :=
  ∃ a1 a2 a3, tr = a1 ++ .call t e :: a2 ++ .loaded t :: a3 ∧ NoCall t a2 ∧ NoCall t a3 ∧
    Seen heap sl (addedIn (a1 ++ .call t e :: a2)) ∧ i ≤ sl.len ∧ ∀ h ∈ (addedIn (a1 ++ .call t e :: a2)).drop i, ¬ Accepts h e

/-- `t` is about to return `n`. -/
def Returning (tr : List Ev) (t : Nat) (e : Err) (n : Str) : Prop :=
  ∃ a1 a2 a3, tr = a1 ++ .call t e :: a2 ++ .loaded t :: a3 ∧ NoCall t a2 ∧ NoCall t a3 ∧ Names (addedIn (a1 ++ .call t e :: a2)) e n

theorem noCall_snoc {t : Nat} {a : List Ev} {x : Ev} (h : NoCall t a) (hx : ∀ e, x ≠ .call t e) : NoCall t (a ++ [x]) := by
  intro e hm
  rcases List.mem_append.1 hm with hm | hm
  · exact h e hm
  · exact hx e (List.mem_singleton.1 hm).symm

theorem Loading.mono {tr t e x} (h : Loading tr t e) (hx : ∀ e, x ≠ .call t e) : Loading (tr ++ [x]) t e := by
  obtain ⟨a1, a2, rfl, h2⟩ := h
  exact ⟨a1, a2 ++ [x], by simp, noCall_snoc h2 hx⟩

theorem Looping.mono {tr heap t e sl i x} (h : Looping tr heap t e sl i) (hx : ∀ e, x ≠ .call t e) :
    Looping (tr ++ [x]) heap t e sl i := by
  obtain ⟨a1, a2, a3, rfl, h2, h3, h4⟩ := h
  exact ⟨a1, a2, a3 ++ [x], by simp, h2, noCall_snoc h3 hx, h4⟩

theorem Returning.mono {tr t e n x} (h : Returning tr t e n) (hx : ∀ e, x ≠ .call t e) : Returning (tr ++ [x]) t e n := by
  obtain ⟨a1, a2, a3, rfl, h2, h3, h4⟩ := h
  exact ⟨a1, a2, a3 ++ [x], by simp, h2, noCall_snoc h3 hx, h4⟩

theorem Looping.append {tr heap t e sl i c xs grow} (h : Looping tr heap t e sl i) (hc : c.Ok heap)
    (hl : sl.arr = c.arr → sl.len ≤ c.len) : Looping tr (Arrays.append none heap c xs grow).1 t e sl i := by
  obtain ⟨a1, a2, a3, h1, h2, h3, h4, h5⟩ := h
  exact ⟨a1, a2, a3, h1, h2, h3, append_seen hc h4 hl, h5⟩

theorem Looping.lt {tr heap t e sl i} (h : Looping tr heap t e sl i) (h0 : 0 < sl.len) : sl.arr < heap.length := by
  obtain ⟨a1, a2, a3, h1, h2, h3, h4, h5⟩ := h
  exact h4.2.2 h0

theorem Loading.loop {tr heap t e sl} (h : Loading tr t e) (hs : Seen heap sl (addedIn tr)) :
    Looping (tr ++ [.loaded t]) heap t e sl sl.len := by
  obtain ⟨a1, a2, rfl, h2⟩ := h
  refine ⟨a1, a2, [], by simp, h2, by simp [NoCall], hs, Nat.le_refl _, ?_⟩
  rw [hs.1, List.drop_length]; simp

theorem seen_get {heap sl hs i} (h : Seen heap sl hs) (hi : i < sl.len) :
    ∃ f, hs[i]? = some f ∧ (heap.array sl.arr)[i]? = some (some f) := by
  obtain ⟨h1, h2, h3⟩ := h
  have hlt : i < hs.length := by omega
  refine ⟨hs[i], by simp [hlt], ?_⟩
  have : (sl.read heap)[i]? = some (some hs[i]) := by rw [h2]; simp [hlt]
  unfold Slice.read at this
  rw [List.getElem?_take] at this
  simpa [hi] using this

theorem Looping.get {tr heap t e sl i} (h : Looping tr heap t e sl (i + 1)) : ∃ f, (heap.array sl.arr)[i]? = some (some f) := by
  obtain ⟨a1, a2, a3, h1, h2, h3, h4, h5, _⟩ := h
  obtain ⟨f, _, hf⟩ := seen_get h4 (i := i) (by omega)
  exact ⟨f, hf⟩

theorem drop_get {hs : List Handler} {i f} (h : hs[i]? = some f) : hs.drop i = f :: hs.drop (i + 1) := by
  obtain ⟨hlt, rfl⟩ := List.getElem?_eq_some_iff.1 h
  exact List.drop_eq_getElem_cons hlt

theorem Looping.reject {tr heap t e sl i f} (h : Looping tr heap t e sl (i + 1)) (hf : (heap.array sl.arr)[i]? = some (some f))
    (hr : (f e).2 = false) : Looping tr heap t e sl i := by
  obtain ⟨a1, a2, a3, h1, h2, h3, h4, h5, h6⟩ := h
  refine ⟨a1, a2, a3, h1, h2, h3, h4, by omega, ?_⟩
  obtain ⟨g, hg, hg'⟩ := seen_get h4 (i := i) (by omega)
  rw [hf] at hg'
  cases hg'
  rw [drop_get hg]
  intro x hx
  rcases List.mem_cons.1 hx with rfl | hx
  · simp [Accepts, hr]
  · exact h6 x hx

theorem Looping.accept {tr heap t e sl i f} (h : Looping tr heap t e sl (i + 1)) (hf : (heap.array sl.arr)[i]? = some (some f))
    (hr : (f e).2 = true) : Returning tr t e (f e).1 := by
  obtain ⟨a1, a2, a3, h1, h2, h3, h4, h5, h6⟩ := h
  refine ⟨a1, a2, a3, h1, h2, h3, ?_⟩
  obtain ⟨g, hg, hg'⟩ := seen_get h4 (i := i) (by omega)
  rw [hf] at hg'
  cases hg'
  refine .handler ((addedIn (a1 ++ .call t e :: a2)).take i) f _ ?_ hr h6
  rw [← drop_get hg, List.take_append_drop]

theorem Looping.over {tr heap t e sl} (h : Looping tr heap t e sl 0) : Returning tr t e (fallback e) := by
  obtain ⟨a1, a2, a3, h1, h2, h3, h4, h5, h6⟩ := h
  exact ⟨a1, a2, a3, h1, h2, h3, names_fallback (by simpa using h6)⟩

/-- Inside the critical section. -/
def PC.inside : PC → Bool
  | .aLoad _ | .aAppend .. | .aStore .. | .aUnlock => true
  | _ => false

structure Inv (tr : List Ev) (s : State) : Prop where
  cur : Seen s.heap s.value (addedIn tr)
  ok : s.value.Ok s.heap
  lock : ∀ t, (s.pc t).inside = true → s.lock = some t
  app : ∀ t f sl, s.pc t = .aAppend f sl → sl = s.value
  sto : ∀ t f sl, s.pc t = .aStore f sl → Seen s.heap sl (addedIn tr ++ [f]) ∧ sl.Ok s.heap ∧ (s.value.arr = sl.arr → s.value.len ≤ sl.len)
  sto2 : ∀ t f sl t' e sl' i, s.pc t = .aStore f sl → s.pc t' = .nLoop e sl' i → sl'.arr = sl.arr → sl'.len ≤ sl.len
  loading : ∀ t e, s.pc t = .nLoad e → Loading tr t e
  below : ∀ t e sl i, s.pc t = .nLoop e sl i → sl.arr = s.value.arr → sl.len ≤ s.value.len
  looping : ∀ t e sl i, s.pc t = .nLoop e sl i → Looping tr s.heap t e sl i
  returning : ∀ t e n, s.pc t = .nRet e n → Returning tr t e n
  fine : ∀ t, s.pc t ≠ .panicked

theorem inv_init : Inv [] State.init := by
  constructor <;> simp [State.init, Seen, Slice.nil, Slice.read, addedIn, Slice.Ok, PC.inside]

theorem addedIn_snoc (tr : List Ev) (x : Ev) : addedIn (tr ++ [x]) = addedIn tr ++ (match x with | .added _ f => [f] | _ => []) := by
  unfold addedIn
  rw [List.filterMap_append]
  cases x <;> rfl

theorem inv_append {tr s t f sl grow} (h : Inv tr s) (hp : s.pc t = .aAppend f sl) :
    Inv tr { s with heap := (Arrays.append none s.heap sl [some f] grow).1, pc := upd s.pc t (.aStore f (Arrays.append none s.heap sl [some f] grow).2) } := by
  obtain ⟨cur, ok, lock, app, sto, sto2, loading, below, looping, returning, fine⟩ := h
  have e := app t f sl hp
  subst e
  have hlock := lock t (by rw [hp]; rfl)
  have hoth : ∀ t', t' ≠ t → (s.pc t').inside = false := by
    intro t' hne
    cases hh : (s.pc t').inside with
    | false => rfl
    | true => have := lock t' hh; rw [hlock] at this; exact absurd (Option.some.inj this).symm hne
  obtain ⟨rd, rok⟩ := Arrays.read_append (zero := none) s.heap s.value ok [some f] grow
  have hlen : (Arrays.append none s.heap s.value [some f] grow).2.len = s.value.len + 1 := by
    unfold Arrays.append
    split
    · rfl
    · simp [Arrays.alloc, cur.2.1, cur.1]
  have hpend : ∀ sl' : Slice, (0 < sl'.len → sl'.arr < s.heap.length) → (sl'.arr = s.value.arr → sl'.len ≤ s.value.len) →
      sl'.arr = (Arrays.append none s.heap s.value [some f] grow).2.arr → sl'.len ≤ (Arrays.append none s.heap s.value [some f] grow).2.len := by
    intro sl' h1 h2 h3
    rcases Arrays.append_arr (zero := none) s.heap s.value [some f] grow with ⟨g, _⟩ | g
    · rw [g] at h3; have := h2 h3; omega
    · by_cases h0 : 0 < sl'.len
      · have := h1 h0; omega
      · omega
  constructor
  · exact append_seen ok cur (fun _ => Nat.le_refl _)
  · -- the value itself stays fine
    refine ⟨ok.1, fun h0 => ?_⟩
    obtain ⟨g1, g2⟩ := ok.2 h0
    refine ⟨Nat.lt_of_lt_of_le g1 (Arrays.length_append ..), ?_⟩
    show (Arrays.array (Arrays.append none s.heap s.value [some f] grow).1 s.value.arr).length = _
    unfold Arrays.append
    split
    · rename_i hle
      simp only [List.length_singleton] at hle
      unfold Arrays.write
      rw [Arrays.array_set _ _ _ _ g1, if_pos rfl]
      simp only [List.length_append, List.length_take, List.length_drop, List.length_singleton]
      omega
    · unfold Arrays.alloc
      rw [Arrays.array_append, if_neg (by omega), g2]
  · intro t' h'
    simp only [upd_apply] at h'
    split at h'
    · rename_i e; subst e; exact hlock
    · exact lock t' h'
  · intro t' f' sl' h'
    simp only [upd_apply] at h'
    split at h'
    · cases h'
    · exact app t' f' sl' h'
  · intro t' f' sl' h'
    simp only [upd_apply] at h'
    split at h'
    · cases h'
      refine ⟨⟨?_, ?_, ?_⟩, rok, ?_⟩
      · rw [hlen, cur.1]; simp
      · rw [rd, cur.2.1]; simp
      · intro _; exact (rok.2 (by have := rok.1; omega)).1
      · intro _; show s.value.len ≤ _; omega
    · rename_i hne
      have := hoth t' hne
      rw [h'] at this; cases this
  · intro t' f' sl' t2 e2 sl2 i2 h' h2
    simp only [upd_apply] at h' h2
    split at h'
    · cases h'
      split at h2
      · cases h2
      · exact hpend sl2 (looping t2 e2 sl2 i2 h2).lt (below t2 e2 sl2 i2 h2)
    · rename_i hne
      have := hoth t' hne
      rw [h'] at this; cases this
  · intro t' e' h'
    simp only [upd_apply] at h'
    split at h'
    · cases h'
    · exact loading t' e' h'
  · intro t' e' sl' i' h'
    simp only [upd_apply] at h'
    split at h'
    · cases h'
    · exact below t' e' sl' i' h'
  · intro t' e' sl' i' h'
    simp only [upd_apply] at h'
    split at h'
    · cases h'
    · exact (looping t' e' sl' i' h').append ok (below t' e' sl' i' h')
  · intro t' e' n h'
    simp only [upd_apply] at h'
    split at h'
    · cases h'
    · exact returning t' e' n h'
  · intro t' h'
    simp only [upd_apply] at h'
    split at h'
    · cases h'
    · exact fine t' h'

set_option maxHeartbeats 1000000 in
theorem inv_step (tr : List Ev) (s : State) (x : Option Ev) (s' : State) (h : Inv tr s) (st : Step s x s') : Inv (tr ++ x.toList) s' := by
  cases st
  case aAppend hp => simpa using inv_append h hp
  all_goals obtain ⟨cur, ok, lock, app, sto, sto2, loading, below, looping, returning, fine⟩ := h
  all_goals constructor
  all_goals simp only [upd_apply, Option.toList_some, Option.toList_none, List.append_nil, addedIn_snoc]
  all_goals grind [Loading.mono, Looping.mono, Returning.mono, Looping.reject, Looping.accept, Looping.over, Loading.loop, Looping.get, PC.inside, Loading, NoCall]

end Monkit.ErrorNames
