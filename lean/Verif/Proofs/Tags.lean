import Verif.Spec.Tags

namespace Monkit.Tags
open Go Spec

/-! ## Writing -/

theorem escape_eq_flatMap (S : List UInt8) (s : Str) : escape S s = s.flatMap fun c => if c ∈ S then [92, c] else [c] := by
  induction s with
  | nil => rfl
  | cons c s ih => by_cases h : c ∈ S <;> simp [escape, h, ih]

theorem escape_none {S : List UInt8} {s : Str} (h : ∀ c ∈ S, c ∉ s) : escape S s = s := by
  induction s with
  | nil => rfl
  | cons c s ih =>
    have hc : c ∉ S := fun hc => h c hc List.mem_cons_self
    rw [escape, if_neg hc, ih (fun d hd hm => h d hd (List.mem_cons_of_mem _ hm))]

theorem writeTag_eq (s : Str) : writeTag s = escape tagSpecial s := by
  unfold writeTag
  split
  · next h =>
    simp [noByte] at h
    symm; apply escape_none
    simp [tagSpecial]; exact ⟨h.1.1, h.1.2, h.2⟩
  · rw [escape_eq_flatMap]
    congr 1; funext c; simp [tagSpecial]

theorem writeMeasurement_eq (s : Str) : writeMeasurement s = escape measurementSpecial s := by
  unfold writeMeasurement
  split
  · next h =>
    simp [noByte] at h
    symm; apply escape_none
    simp [measurementSpecial]; exact h
  · rw [escape_eq_flatMap]
    congr 1; funext c; simp [measurementSpecial]

theorem writeKvs_succ (n : Nat) (l : List (Str × Str)) :
    writeKvs (n + 1) l = if l = [] then [] else 44 :: tagsText l := by
  induction l generalizing n with
  | nil => rfl
  | cons x xs ih =>
    simp only [writeKvs, ih, writeTag_eq]
    cases xs with
    | nil => simp [tagsText, tagText]
    | cons y ys => simp [tagsText, tagText]

theorem writeKvs_eq (l : List (Str × Str)) : writeKvs 0 l = tagsText l := by
  cases l with
  | nil => rfl
  | cons x xs =>
    simp only [writeKvs, writeKvs_succ, writeTag_eq]
    cases xs with
    | nil => simp [tagsText, tagText]
    | cons y ys => simp [tagsText, tagText]

theorem tagsText_ne_nil {l : List (Str × Str)} (h : l ≠ []) : tagsText l ≠ [] := by
  cases l with
  | nil => exact absurd rfl h
  | cons x xs => cases xs <;> simp [tagsText, tagText]

/-! ## Sorted lists of a map -/

abbrev leKey (a b : Str × Str) : Bool := strLe a.1 b.1

/-- Whatever algorithm sorts a map's pairs by key, the result is the same. -/
theorem sort_unique {ord l : List (Str × Str)} (ok : Map.Ok ord) (p : l.Perm ord)
    (s : l.Pairwise fun a b => strLt b.1 a.1 = false) : l = sortBy leKey ord := by
  have s1 : l.Pairwise (fun a b => leKey a b) := s.imp (fun h => by simpa [strLt] using h)
  have s2 := sortBy_sorted (le := leKey) (fun a b c => strLe_trans _ _ _) (fun a b => strLe_total _ _) ord
  refine List.Perm.eq_of_pairwise (le := fun a b => leKey a b) ?_ s1 s2 (p.trans (sortBy_perm _ _).symm)
  intro a b ha hb h1 h2
  have e := strLe_antisymm _ _ h1 h2
  have ha' := p.mem_iff.mp ha
  have hb' := (mem_sortBy _).mp hb
  obtain ⟨k, v⟩ := a; obtain ⟨k', v'⟩ := b
  simp only at e; subst e
  have := (Map.mem_iff_get ok k v).mp ha'
  have h3 := (Map.mem_iff_get ok k v').mp hb'
  rw [this] at h3; cases h3; rfl

theorem lists_sortBy {m ord : Map Str Str} (ok : Map.Ok m) (p : ord.Perm m) : Lists (Map.get m) (sortBy leKey ord) := by
  have ok' := Map.ok_perm p.symm ok
  refine ⟨fun k v => ?_, ?_⟩
  · rw [mem_sortBy, p.mem_iff, Map.mem_iff_get ok]
  · have s2 := sortBy_sorted (le := leKey) (fun a b c => strLe_trans _ _ _) (fun a b => strLe_total _ _) ord
    have nd : (sortBy leKey ord).Pairwise (fun a b => a.1 ≠ b.1) := by
      have := Map.ok_perm (sortBy_perm leKey ord).symm ok'
      exact List.pairwise_map.mp this
    refine (s2.and nd).imp ?_
    rintro a b ⟨h1, h2⟩
    simp only [strLt, Bool.not_eq_true']
    cases h : strLe b.1 a.1 with
    | false => rfl
    | true => exact absurd (strLe_antisymm _ _ h1 h) h2

theorem lists_unique {c : Str → Option Str} {l l' : List (Str × Str)} (h : Lists c l) (h' : Lists c l') : l = l' := by
  have nd : ∀ {l : List (Str × Str)}, Lists c l → l.Nodup := fun h => h.sorted.imp (fun {a b} hlt e => by
    subst e; simp [strLt, strLe_refl] at hlt)
  have p : l.Perm l' := by
    rw [List.perm_ext_iff_of_nodup (nd h) (nd h')]
    rintro ⟨k, v⟩
    rw [h.mem, h'.mem]
  refine List.Perm.eq_of_pairwise (le := fun a b => strLt a.1 b.1 = true) ?_ h.sorted h'.sorted p
  intro a b _ _ h1 h2
  simp only [strLt, Bool.not_eq_true'] at h1 h2
  have := strLe_total a.1 b.1
  rw [h1, h2] at this; cases this

theorem writeTags_eq {m ord tags : Map Str Str} (ok : Map.Ok m) (p : ord.Perm m) (h : Lists (Map.get m) tags) :
    writeTags ord = tagsText tags := by
  unfold writeTags
  rw [writeKvs_eq, lists_unique (lists_sortBy ok p) h]

/-! ## Setting -/

theorem lastFor_append (a b : List (Str × Str)) (k : Str) : lastFor (a ++ b) k = (lastFor b k).or (lastFor a k) := by
  unfold lastFor
  rw [List.reverse_append, List.find?_append]
  cases h : b.reverse.find? (fun x => x.1 = k) <;> simp

theorem get_setAllFrom (kvs : List (Str × Str)) (m : Map Str Str) (k : Str) :
    Map.get (setAllFrom m kvs) k = (lastFor kvs k).or (Map.get m k) := by
  induction kvs generalizing m with
  | nil => simp [setAllFrom, lastFor]
  | cons x xs ih =>
    have : setAllFrom m (x :: xs) = setAllFrom (Map.set m x.1 x.2) xs := rfl
    rw [this, ih, Map.get_set, show x :: xs = [x] ++ xs from rfl, lastFor_append]
    cases lastFor xs k with
    | some v => simp
    | none =>
      by_cases h : x.1 = k <;> simp [lastFor, h]

theorem ok_setAllFrom (kvs : List (Str × Str)) {m : Map Str Str} (h : Map.Ok m) : Map.Ok (setAllFrom m kvs) := by
  induction kvs generalizing m with
  | nil => exact h
  | cons x xs ih => exact ih (Map.ok_set h x.1 x.2)

/-- Of a map's own pairs the last with a key is the only one. -/
theorem lastFor_map {m : Map Str Str} (ok : Map.Ok m) (k : Str) : lastFor m k = Map.get m k := by
  unfold lastFor
  have p : m.reverse.Perm m := List.reverse_perm m
  cases h : m.reverse.find? (fun x => x.1 = k) with
  | some x =>
    have h1 := List.mem_of_find?_eq_some h
    have h2 := List.find?_some h
    simp at h2
    rw [Option.map_some, ← h2]
    exact ((Map.mem_iff_get ok x.1 x.2).mp (p.mem_iff.mp h1)).symm
  | none =>
    rw [List.find?_eq_none] at h
    cases hg : Map.get m k with
    | none => rfl
    | some v =>
      have := (Map.mem_iff_get ok k v).mpr hg
      exact absurd (decide_eq_true rfl) (h (k, v) (p.mem_iff.mpr this))

/-! ## Reachable heaps -/

structure Inv (h : Heap) : Prop where
  ok : ∀ t ∈ h, Map.Ok t.all
  str : ∀ t ∈ h, ∀ tags, Lists (Map.get t.all) tags → t.str = [] ∨ t.str = tagsText tags

theorem ok_allOf {h : Heap} (hi : Inv h) (p : Ptr) : Map.Ok (allOf h p) := by
  cases p with
  | none => exact Map.ok_nil
  | some i =>
    simp only [allOf]
    cases hx : h[i]? with
    | none => exact Map.ok_nil
    | some t => exact hi.ok t (List.mem_of_getElem? hx)

theorem string_eq {h : Heap} (hi : Inv h) (p : Ptr) {ord tags : List (Str × Str)} (hp : ord.Perm (allOf h p))
    (ht : Lists (Map.get (allOf h p)) tags) : (string h p ord).2 = tagsText tags := by
  cases p with
  | none =>
    have : tags = [] := by
      cases tags with
      | nil => rfl
      | cons x xs => have := (ht.mem x.1 x.2).mp List.mem_cons_self; simp [allOf] at this
    subst this; rfl
  | some i =>
    simp only [string]
    simp only [allOf] at hp ht
    cases hx : h[i]? with
    | none =>
      simp only [hx, Option.map_none, Option.getD_none] at ht ⊢
      have : tags = [] := by
        cases tags with
        | nil => rfl
        | cons x xs => have := (ht.mem x.1 x.2).mp List.mem_cons_self; simp at this
      subst this; rfl
    | some t =>
      simp only [hx, Option.map_some, Option.getD_some] at hp ht ⊢
      have htm := List.mem_of_getElem? hx
      have ok := hi.ok t htm
      split
      · exact writeTags_eq ok hp ht
      · next hne => exact (hi.str t htm tags ht).resolve_left hne

theorem allOf_string (h : Heap) (p : Ptr) (ord : List (Str × Str)) (q : Ptr) : allOf (string h p ord).1 q = allOf h q := by
  cases p with
  | none => rfl
  | some i =>
    simp only [string]
    cases hx : h[i]? with
    | none => rfl
    | some t =>
      cases q with
      | none => rfl
      | some j =>
        simp only [allOf]
        by_cases hj : i = j
        · subst hj
          have hl := (List.getElem?_eq_some_iff.mp hx).1
          rw [List.getElem?_set_self hl, hx]
          simp only [Option.map_some, Option.getD_some]
          split <;> rfl
        · rw [List.getElem?_set_ne hj]

theorem length_string (h : Heap) (p : Ptr) (ord : List (Str × Str)) : (string h p ord).1.length = h.length := by
  cases p with
  | none => rfl
  | some i =>
    simp only [string]
    cases hx : h[i]? <;> simp

theorem inv_string {h : Heap} (hi : Inv h) (p : Ptr) {ord : List (Str × Str)} (hp : ord.Perm (allOf h p)) :
    Inv (string h p ord).1 := by
  cases p with
  | none => exact hi
  | some i =>
    simp only [string]
    cases hx : h[i]? with
    | none => exact hi
    | some t =>
      simp only [allOf, hx, Option.map_some, Option.getD_some] at hp
      have htm := List.mem_of_getElem? hx
      constructor
      · intro u hu
        rcases List.mem_or_eq_of_mem_set hu with hu | hu
        · exact hi.ok u hu
        · subst hu; split <;> exact hi.ok t htm
      · intro u hu tags ht
        rcases List.mem_or_eq_of_mem_set hu with hu | hu
        · exact hi.str u hu tags ht
        · subst hu
          split at ht
          · next h0 => rw [if_pos h0]; exact .inr (writeTags_eq (hi.ok t htm) hp ht)
          · next h0 => rw [if_neg h0]; exact hi.str t htm tags ht

theorem inv_setTags {h : Heap} (hi : Inv h) (ord kvs : List (Str × Str)) : Inv (setTags h ord kvs).1 := by
  have ok := ok_setAllFrom kvs (ok_setAllFrom ord Map.ok_nil)
  constructor
  · intro u hu
    rcases List.mem_append.mp hu with hu | hu
    · exact hi.ok u hu
    · simp at hu; subst hu; exact ok
  · intro u hu tags ht
    rcases List.mem_append.mp hu with hu | hu
    · exact hi.str u hu tags ht
    · simp at hu; subst hu; exact .inl rfl

theorem inv_step {h h' : Heap} (hi : Inv h) (st : Step h h') : Inv h' := by
  cases st with
  | setTags p ord kvs _ => exact inv_setTags hi ord kvs
  | string p ord hp => exact inv_string hi p hp

theorem inv_steps {h h' : Heap} (hi : Inv h) (st : Steps h h') : Inv h' := by
  induction st with
  | refl => exact hi
  | step _ st ih => exact inv_step ih st

theorem inv_reach {h : Heap} (st : Steps [] h) : Inv h := inv_steps ⟨by simp, by simp⟩ st

/-- A pointer into the heap, or nil. -/
def Valid (h : Heap) (p : Ptr) : Prop := ∀ i, p = some i → i < h.length

theorem allOf_step {h h' : Heap} (st : Step h h') {p : Ptr} (hv : Valid h p) : allOf h' p = allOf h p ∧ Valid h' p := by
  cases st with
  | setTags q ord kvs _ =>
    constructor
    · cases p with
      | none => rfl
      | some i =>
        simp only [allOf, setTags]
        rw [List.getElem?_append_left (hv i rfl)]
    · intro i e
      simp only [setTags, List.length_append]
      exact Nat.lt_of_lt_of_le (hv i e) (Nat.le_add_right _ _)
  | string q ord _ =>
    refine ⟨allOf_string _ _ _ _, ?_⟩
    intro i e
    rw [length_string]; exact hv i e

theorem allOf_steps {h h' : Heap} (st : Steps h h') {p : Ptr} (hv : Valid h p) : allOf h' p = allOf h p ∧ Valid h' p := by
  induction st with
  | refl => exact ⟨rfl, hv⟩
  | step _ st ih =>
    obtain ⟨h1, h2⟩ := ih
    obtain ⟨h3, h4⟩ := allOf_step st h2
    exact ⟨h3.trans h1, h4⟩

theorem keyString_eq {h : Heap} (hi : Inv h) (m : Str) (p : Ptr) {ord tags : List (Str × Str)} (hp : ord.Perm (allOf h p))
    (ht : Lists (Map.get (allOf h p)) tags) : (keyString h m p ord).2 = seriesText m tags := by
  have key : tags = [] ↔ ¬ len h p > 0 := by
    have := lists_unique ht (lists_sortBy (ok_allOf hi p) hp)
    rw [this]
    have hl := (sortBy_perm leKey ord).length_eq.trans hp.length_eq
    rw [← List.length_eq_zero_iff, hl]
    simp only [len]; omega
  unfold keyString seriesText
  rw [writeMeasurement_eq]
  by_cases h0 : len h p > 0
  · rw [if_pos h0, if_neg (fun e => (key.mp e) h0)]
    simp only
    rw [string_eq hi p hp ht]
    simp
  · rw [if_neg h0, if_pos (key.mpr h0)]
    simp

/-! ## Reading back -/

/-- Reads an escaped string up to a special byte without backslash. -/
def unescape (S : List UInt8) : Str → Str × Str
  | [] => ([], [])
  | [c] => if c ∈ S then ([], [c]) else ([c], [])
  | c :: d :: t =>
    if c ∈ S then ([], c :: d :: t)
    else if c = 92 ∧ d ∈ S then
      let r := unescape S t
      (d :: r.1, r.2)
    else
      let r := unescape S (d :: t)
      (c :: r.1, r.2)

theorem clean_tail {S : List UInt8} {c : UInt8} {s : Str} (h : Clean S (c :: s)) : Clean S s := by
  constructor
  · intro a b d e; exact h.1 (c :: a) b d (by rw [e]; simp)
  · intro a e; exact h.2 (c :: a) (by rw [e]; simp)

theorem unescape_escape {S : List UInt8} (h92 : (92 : UInt8) ∉ S) {s r : Str} (hs : Clean S s)
    (hr : r = [] ∨ ∃ d t, r = d :: t ∧ d ∈ S) : unescape S (escape S s ++ r) = (s, r) := by
  induction s with
  | nil =>
    rcases hr with rfl | ⟨d, t, rfl, hd⟩
    · rfl
    · cases t with
      | nil => simp [escape, unescape, hd]
      | cons e t => simp [escape, unescape, hd]
  | cons c s ih =>
    have ih := ih (clean_tail hs)
    by_cases hc : c ∈ S
    · rw [escape, if_pos hc]
      show unescape S (92 :: c :: (escape S s ++ r)) = _
      rw [unescape, if_neg h92, if_pos ⟨rfl, hc⟩, ih]
    · rw [escape, if_neg hc]
      show unescape S (c :: (escape S s ++ r)) = _
      cases hx : escape S s ++ r with
      | nil =>
        rw [hx] at ih
        have h0 : s = [] ∧ r = [] := by
          have : ([], []) = (s, r) := ih
          cases this; exact ⟨rfl, rfl⟩
        rw [unescape, if_neg hc, h0.1, h0.2]
      | cons d t =>
        rw [hx] at ih
        rw [unescape, if_neg hc, if_neg, ih]
        rintro ⟨h1, h2⟩
        subst h1
        cases s with
        | nil => exact hs.2 [] rfl
        | cons e s =>
          have : e ∉ S := hs.1 [] s e rfl
          rw [escape, if_neg this] at hx
          cases hx
          exact this h2

theorem escape_inj {S : List UInt8} (h92 : (92 : UInt8) ∉ S) {s s' r r' : Str} (hs : Clean S s) (hs' : Clean S s')
    (hr : r = [] ∨ ∃ d t, r = d :: t ∧ d ∈ S) (hr' : r' = [] ∨ ∃ d t, r' = d :: t ∧ d ∈ S)
    (e : escape S s ++ r = escape S s' ++ r') : s = s' ∧ r = r' := by
  have h1 := unescape_escape h92 hs hr
  have h2 := unescape_escape h92 hs' hr'
  rw [e, h2] at h1
  exact ⟨(congrArg Prod.fst h1).symm, (congrArg Prod.snd h1).symm⟩

theorem tagsText_cons (x : Str × Str) (xs : List (Str × Str)) (f : Str) :
    tagsText (x :: xs) ++ 32 :: f =
      escape tagSpecial x.1 ++ 61 :: (escape tagSpecial x.2 ++ (if xs = [] then 32 :: f else 44 :: (tagsText xs ++ 32 :: f))) := by
  cases xs <;> simp [tagsText, tagText]

theorem tags_inj : ∀ {a b : List (Str × Str)} {f f' : Str}, a ≠ [] → b ≠ [] →
    (∀ x ∈ a, Clean tagSpecial x.1 ∧ Clean tagSpecial x.2) → (∀ x ∈ b, Clean tagSpecial x.1 ∧ Clean tagSpecial x.2) →
    tagsText a ++ 32 :: f = tagsText b ++ 32 :: f' → a = b ∧ f = f'
  | [], _, _, _, h, _, _, _, _ => absurd rfl h
  | _, [], _, _, _, h, _, _, _ => absurd rfl h
  | x :: xs, y :: ys, f, f', _, _, hx, hy, e => by
    rw [tagsText_cons, tagsText_cons] at e
    obtain ⟨x1, x2⟩ := hx x List.mem_cons_self
    obtain ⟨y1, y2⟩ := hy y List.mem_cons_self
    obtain ⟨e1, e⟩ := escape_inj (by decide) x1 y1 (.inr ⟨61, _, rfl, by decide⟩) (.inr ⟨61, _, rfl, by decide⟩) e
    obtain ⟨e2, e⟩ := escape_inj (S := tagSpecial) (by decide) x2 y2
      (by split
          · exact .inr ⟨32, _, rfl, by decide⟩
          · exact .inr ⟨44, _, rfl, by decide⟩)
      (by split
          · exact .inr ⟨32, _, rfl, by decide⟩
          · exact .inr ⟨44, _, rfl, by decide⟩) (List.cons.inj e).2
    have exy : x = y := Prod.ext e1 e2
    by_cases hxs : xs = []
    · by_cases hys : ys = []
      · rw [if_pos hxs, if_pos hys] at e
        exact ⟨by rw [exy, hxs, hys], (List.cons.inj e).2⟩
      · rw [if_pos hxs, if_neg hys] at e; exact absurd (List.cons.inj e).1 (by decide)
    · by_cases hys : ys = []
      · rw [if_neg hxs, if_pos hys] at e; exact absurd (List.cons.inj e).1 (by decide)
      · rw [if_neg hxs, if_neg hys] at e
        obtain ⟨h1, h2⟩ := tags_inj hxs hys (fun z hz => hx z (List.mem_cons_of_mem _ hz))
          (fun z hz => hy z (List.mem_cons_of_mem _ hz)) (List.cons.inj e).2
        exact ⟨by rw [exy, h1], h2⟩

theorem fieldText_inj {m m' f f' : Str} {a b : List (Str × Str)} (hm : Clean measurementSpecial m)
    (hm' : Clean measurementSpecial m') (hf : Clean tagSpecial f) (hf' : Clean tagSpecial f')
    (ha : ∀ x ∈ a, Clean tagSpecial x.1 ∧ Clean tagSpecial x.2) (hb : ∀ x ∈ b, Clean tagSpecial x.1 ∧ Clean tagSpecial x.2)
    (e : fieldText m a f = fieldText m' b f') : m = m' ∧ a = b ∧ f = f' := by
  have form : ∀ (m f : Str) (a : List (Str × Str)), fieldText m a f =
      escape measurementSpecial m ++ (if a = [] then 32 :: escape tagSpecial f
        else 44 :: (tagsText a ++ 32 :: escape tagSpecial f)) := by
    intro m f a
    unfold fieldText seriesText
    split <;> simp
  rw [form, form] at e
  obtain ⟨e1, e⟩ := escape_inj (S := measurementSpecial) (by decide) hm hm'
    (by split
        · exact .inr ⟨32, _, rfl, by decide⟩
        · exact .inr ⟨44, _, rfl, by decide⟩)
    (by split
        · exact .inr ⟨32, _, rfl, by decide⟩
        · exact .inr ⟨44, _, rfl, by decide⟩) e
  have ff : escape tagSpecial f = escape tagSpecial f' → f = f' := by
    intro h
    exact (escape_inj (S := tagSpecial) (by decide) hf hf' (.inl rfl) (.inl rfl) (by rw [h])).1
  by_cases h0 : a = []
  · by_cases h1 : b = []
    · rw [if_pos h0, if_pos h1] at e
      exact ⟨e1, by rw [h0, h1], ff (List.cons.inj e).2⟩
    · rw [if_pos h0, if_neg h1] at e; exact absurd (List.cons.inj e).1 (by decide)
  · by_cases h1 : b = []
    · rw [if_neg h0, if_pos h1] at e; exact absurd (List.cons.inj e).1 (by decide)
    · rw [if_neg h0, if_neg h1] at e
      obtain ⟨h2, h3⟩ := tags_inj h0 h1 ha hb (List.cons.inj e).2
      exact ⟨e1, h2, ff h3⟩

end Monkit.Tags
