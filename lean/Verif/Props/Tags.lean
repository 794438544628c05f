import Verif.Proofs.Tags

/-! # C38, C39, C40: tag sets and series names -/

namespace Monkit.Tags
open Go Spec

/-- What a tag set assigns to a key (`All()[key]`). -/
def content (h : Heap) (p : Ptr) : Str → Option Str := Map.get (allOf h p)

/-- C38, what `Set`, `SetTags` and `SetAll` return, in every reachable state and whatever the order in which maps are visited:
the old set, a nil one included, updated with the given pairs, of which the last with a key counts. -/
theorem C38_set (h : Heap) (hr : Steps [] h) (p : Ptr) (ord kvs : List (Str × Str)) (hp : ord.Perm (allOf h p)) :
    let r := setTags h ord kvs
    (∀ k, content r.1 r.2 k = (lastFor kvs k).or (content h p k)) ∧
    (∀ k, get r.1 r.2 k = (lastFor kvs k).getD (get h p k)) ∧
    Valid r.1 r.2 := by
  intro r
  have e : allOf r.1 r.2 = setAllFrom (setAllFrom [] ord) kvs := by
    simp [r, setTags, allOf]
  have ok := ok_allOf (inv_reach hr) p
  have c : ∀ k, content r.1 r.2 k = (lastFor kvs k).or (content h p k) := by
    intro k
    unfold content
    rw [e, get_setAllFrom, get_setAllFrom, lastFor_map (Map.ok_perm hp.symm ok), Map.get_perm hp (Map.ok_perm hp.symm ok)]
    simp
  refine ⟨c, fun k => ?_, ?_⟩
  · have := c k
    unfold content at this
    unfold get
    rw [this]
    cases lastFor kvs k <;> simp
  · intro i hi
    simp only [r, setTags, Option.some.injEq] at hi
    subst hi; simp [r, setTags]

/-- C38, `Len` is the number of keys. -/
theorem C38_len (h : Heap) (hr : Steps [] h) (p : Ptr) (keys : List Str) (hn : keys.Nodup)
    (hk : ∀ k, k ∈ keys ↔ (content h p k).isSome) : len h p = keys.length := by
  have ok : (((allOf h p).map (·.1)).Nodup) := ok_allOf (inv_reach hr) p
  have : ((allOf h p).map (·.1)).Perm keys := by
    rw [List.perm_ext_iff_of_nodup ok hn]
    intro k
    rw [hk, Map.mem_keys_iff]; rfl
  have := this.length_eq
  rwa [List.length_map] at this

/-- C38, whatever happens later – new sets made from this one or others, strings asked for – a tag set stays what it is: the
same pairs, and the same string. -/
theorem C38_immutable (h h' : Heap) (hr : Steps [] h) (hs : Steps h h') (p : Ptr) (hv : Valid h p)
    (ord ord' : List (Str × Str)) (hp : ord.Perm (allOf h p)) (hp' : ord'.Perm (allOf h' p)) :
    (∀ k, content h' p k = content h p k) ∧ (∀ k, get h' p k = get h p k) ∧ len h' p = len h p ∧
      (string h' p ord').2 = (string h p ord).2 := by
  obtain ⟨e, -⟩ := allOf_steps hs hv
  have i := inv_reach hr
  have i' := inv_steps i hs
  refine ⟨fun k => by simp [content, e], fun k => by simp [get, e], by simp [len, e], ?_⟩
  have ht := lists_sortBy (ok_allOf i p) hp
  rw [string_eq i p hp ht, string_eq i' p hp' (by rw [e]; exact ht)]

/-- C39, a series name is determined by the measurement, the pairs of the tag set and the field: tags are listed in increasing
order of keys, whatever the order in which they were added, the order in which maps are visited and the calls made before. -/
theorem C39_series_name (h : Heap) (hr : Steps [] h) (m : Str) (p : Ptr) (field : Str) :
    ∃ tags, Lists (content h p) tags ∧ ∀ ord, ord.Perm (allOf h p) →
      (keyString h m p ord).2 = seriesText m tags ∧ (withField h m p field ord).2 = fieldText m tags field := by
  have i := inv_reach hr
  refine ⟨_, lists_sortBy (ok_allOf i p) (List.Perm.refl _), fun ord hp => ?_⟩
  have ht := lists_sortBy (ok_allOf i p) (List.Perm.refl (allOf h p))
  have := keyString_eq i m p hp ht
  refine ⟨this, ?_⟩
  unfold withField fieldText
  simp only
  rw [this, writeTag_eq]

/-- C39, two series keys with the same measurement and pairs have the same name. -/
theorem C39_deterministic (h h' : Heap) (hr : Steps [] h) (hr' : Steps [] h') (m : Str) (p p' : Ptr) (field : Str)
    (hc : ∀ k, content h p k = content h' p' k) (ord ord' : List (Str × Str)) (hp : ord.Perm (allOf h p))
    (hp' : ord'.Perm (allOf h' p')) :
    (keyString h m p ord).2 = (keyString h' m p' ord').2 ∧ (withField h m p field ord).2 = (withField h' m p' field ord').2 := by
  obtain ⟨t, h1, h2⟩ := C39_series_name h hr m p field
  obtain ⟨t', h1', h2'⟩ := C39_series_name h' hr' m p' field
  have : t = t' := lists_unique h1 (by rw [show content h p = content h' p' from funext hc]; exact h1')
  subst this
  exact ⟨(h2 ord hp).1.trans (h2' ord' hp').1.symm, (h2 ord hp).2.trans (h2' ord' hp').2.symm⟩

/-- A series as `Stats` reports it, in a given state of the heap. -/
structure Series where
  measurement : Str
  tags : Ptr
  field : Str

/-- No backslash in it stands right before a comma, an equals sign or a space, or at an end. -/
def CleanSeries (h : Heap) (s : Series) : Prop :=
  Clean measurementSpecial s.measurement ∧ Clean tagSpecial s.field ∧
    ∀ k v, content h s.tags k = some v → Clean tagSpecial k ∧ Clean tagSpecial v

/-- C40, as far as it is true: without such backslashes, series with the same `WithField` string are the same: same
measurement, same tags, same field. -/
theorem C40_injective_partial (h : Heap) (hr : Steps [] h) (s s' : Series) (hc : CleanSeries h s) (hc' : CleanSeries h s')
    (ord ord' : List (Str × Str)) (hp : ord.Perm (allOf h s.tags)) (hp' : ord'.Perm (allOf h s'.tags))
    (e : (withField h s.measurement s.tags s.field ord).2 = (withField h s'.measurement s'.tags s'.field ord').2) :
    s.measurement = s'.measurement ∧ (∀ k, content h s.tags k = content h s'.tags k) ∧ s.field = s'.field := by
  obtain ⟨t, h1, h2⟩ := C39_series_name h hr s.measurement s.tags s.field
  obtain ⟨t', h1', h2'⟩ := C39_series_name h hr s'.measurement s'.tags s'.field
  rw [(h2 ord hp).2, (h2' ord' hp').2] at e
  obtain ⟨e1, e2, e3⟩ := fieldText_inj hc.1 hc'.1 hc.2.1 hc'.2.1
    (fun x hx => hc.2.2 x.1 x.2 ((h1.mem x.1 x.2).mp hx)) (fun x hx => hc'.2.2 x.1 x.2 ((h1'.mem x.1 x.2).mp hx)) e
  refine ⟨e1, fun k => ?_, e3⟩
  subst e2
  cases hk : content h s'.tags k with
  | some v => exact (h1.mem k v).mp ((h1'.mem k v).mpr hk)
  | none =>
    cases hk2 : content h s.tags k with
    | none => rfl
    | some v => have := (h1'.mem k v).mp ((h1.mem k v).mpr hk2); rw [hk] at this; cases this

theorem get_collect {V S : Type} (str : S → Str) (l : List (S × V)) (n : Str) :
    Map.get (collect str l) n = (l.reverse.find? (fun x => str x.1 = n)).map (·.2) := by
  have key : ∀ (l : List (S × V)) (m : Map Str V), Map.get (l.foldl (fun m x => Map.set m (str x.1) x.2) m) n =
      ((l.reverse.find? (fun x => str x.1 = n)).map (·.2)).or (Map.get m n) := by
    intro l
    induction l with
    | nil => intro m; simp
    | cons x xs ih =>
      intro m
      rw [List.foldl_cons, ih, Map.get_set, List.reverse_cons, List.find?_append]
      cases hf : xs.reverse.find? (fun x => str x.1 = n) with
      | some y => simp
      | none => by_cases hx : str x.1 = n <;> simp [hx]
  unfold collect
  rw [key]; simp

/-- C40, `Collect` (whose callback asks each key for its string, in any visiting order `ord`): under the same hypothesis
on everything reported, the entry of a series is the value last reported for that very series. -/
theorem C40_collect_partial {V : Type} (h : Heap) (hr : Steps [] h) (ord : Ptr → List (Str × Str))
    (hp : ∀ p, (ord p).Perm (allOf h p)) (l : List (Series × V)) (hc : ∀ x ∈ l, CleanSeries h x.1) (s : Series)
    (hs : CleanSeries h s) (v : V) :
    let str := fun s : Series => (withField h s.measurement s.tags s.field (ord s.tags)).2
    Map.get (collect str l) (str s) = some v ↔
      ∃ a b s', l = a ++ (s', v) :: b ∧
        (s'.measurement = s.measurement ∧ (∀ k, content h s'.tags k = content h s.tags k) ∧ s'.field = s.field) ∧
        ∀ x ∈ b, ¬(x.1.measurement = s.measurement ∧ (∀ k, content h x.1.tags k = content h s.tags k) ∧ x.1.field = s.field) := by
  intro str
  have same : ∀ x, CleanSeries h x → (str x = str s ↔
      (x.measurement = s.measurement ∧ (∀ k, content h x.tags k = content h s.tags k) ∧ x.field = s.field)) := by
    intro x hx
    constructor
    · exact C40_injective_partial h hr x s hx hs _ _ (hp _) (hp _)
    · rintro ⟨h1, h2, h3⟩
      have := (C39_deterministic h h hr hr x.measurement x.tags s.tags x.field h2 _ _ (hp _) (hp _)).2
      simp only [str]
      rw [this, h1, h3]
  rw [get_collect]
  constructor
  · intro hf
    obtain ⟨y, hy, hv⟩ := Option.map_eq_some_iff.mp hf
    rw [List.find?_eq_some_iff_append] at hy
    obtain ⟨hy1, as, bs, e, hb⟩ := hy
    have e' : l = bs.reverse ++ y :: as.reverse := by
      have := congrArg List.reverse e
      simpa using this
    have hmem : y ∈ l := by rw [e']; simp
    refine ⟨bs.reverse, as.reverse, y.1, ?_, ?_, ?_⟩
    · rw [e', ← hv]
    · exact (same y.1 (hc y hmem)).mp (by simpa using hy1)
    · intro x hx hh
      have hxl : x ∈ l := by rw [e']; simp at hx ⊢; exact .inr (.inr hx)
      have := hb x (by simpa using hx)
      simp at this
      exact this ((same x.1 (hc x hxl)).mpr hh)
  · rintro ⟨a, b, s', e, h1, h2⟩
    have hf : l.reverse.find? (fun x => str x.1 = str s) = some (s', v) := by
      rw [List.find?_eq_some_iff_append]
      refine ⟨?_, b.reverse, a.reverse, by rw [e]; simp, ?_⟩
      · have := (same s' (hc (s', v) (by rw [e]; simp))).mpr h1
        simpa using this
      · intro x hx
        have hxl : x ∈ l := by rw [e]; simp at hx ⊢; exact .inr (.inr hx)
        have := fun hh => h2 x (by simpa using hx) ((same x.1 (hc x hxl)).mp hh)
        simpa using this
    rw [hf]; rfl

/-- Two tag sets: `{b: "x", a: "y z"}` made tag by tag, and asked for its string; and one made from it. -/
def sampleHeap : Heap :=
  let h1 := (setTags [] [] [(b!"b", b!"x")]).1
  let h2 := (setTags h1 [(b!"b", b!"x")] [(b!"a", b!"y z")]).1
  let h3 := (string h2 (some 1) [(b!"b", b!"x"), (b!"a", b!"y z")]).1
  (setTags h3 [(b!"a", b!"y z"), (b!"b", b!"x")] [(b!"b", b!"1"), (b!"b", b!"2")]).1

theorem sample_reachable : Steps [] sampleHeap :=
  have h1 : Steps [] _ := .step (.refl _) (.setTags [] none [] [(b!"b", b!"x")] (List.Perm.refl _))
  have h2 : Steps [] _ := .step h1 (.setTags _ (some 0) [(b!"b", b!"x")] [(b!"a", b!"y z")] (List.Perm.refl _))
  have h3 : Steps [] _ := .step h2 (.string _ (some 1) [(b!"b", b!"x"), (b!"a", b!"y z")] (List.Perm.refl _))
  .step h3 (.setTags _ (some 1) [(b!"a", b!"y z"), (b!"b", b!"x")] [(b!"b", b!"1"), (b!"b", b!"2")] (List.Perm.swap _ _ _))

example : (withField sampleHeap b!"m,1" (some 1) b!"f" [(b!"b", b!"x"), (b!"a", b!"y z")]).2 = b!"m\\,1,a=y\\ z,b=x f" ∧
    (withField sampleHeap b!"m" (some 2) b!"f" [(b!"b", b!"2"), (b!"a", b!"y z")]).2 = b!"m,a=y\\ z,b=2 f" ∧
    len sampleHeap (some 2) = 2 := by decide +kernel

/-- The hypothesis of C40's partial theorems is met by ordinary series, with a backslash even. -/
example : CleanSeries sampleHeap ⟨b!"m,1 a\\b", some 2, b!"f=1"⟩ := by
  have key : ∀ (S : List UInt8) (s : Str), (∀ i, i < s.length → s[i]? = some 92 → ∃ c, s[i + 1]? = some c ∧ c ∉ S) → Clean S s := by
    intro S s h
    constructor
    · rintro a b c rfl hc
      obtain ⟨d, hd, hn⟩ := h a.length (by simp) (by simp)
      simp [List.getElem?_append] at hd
      subst hd; exact hn hc
    · rintro a rfl
      obtain ⟨d, hd, -⟩ := h a.length (by simp) (by simp)
      simp at hd
  refine ⟨key _ _ (by decide +kernel), key _ _ (by decide +kernel), ?_⟩
  intro k v hk
  have ok := ok_allOf (inv_reach sample_reachable) (some 2)
  have hm := (Map.mem_iff_get ok k v).mpr hk
  have e : allOf sampleHeap (some 2) = [(b!"a", b!"y z"), (b!"b", b!"2")] := by decide +kernel
  rw [e] at hm
  simp only [List.mem_cons, List.not_mem_nil, or_false, Prod.mk.injEq] at hm
  rcases hm with ⟨rfl, rfl⟩ | ⟨rfl, rfl⟩ <;> exact ⟨key _ _ (by decide +kernel), key _ _ (by decide +kernel)⟩

/-- **C40 is false of the code**: the series with measurement `a\` and tag `b=c`, and the series with measurement `a,b=c`
and no tags, have the same name, since backslashes are not escaped. -/
theorem C40_injective_violated :
    ∃ (h : Heap) (s s' : Series) (ord : List (Str × Str)), Steps [] h ∧ ord.Perm (allOf h s.tags) ∧
      s.measurement ≠ s'.measurement ∧
      (withField h s.measurement s.tags s.field ord).2 = (withField h s'.measurement s'.tags s'.field []).2 ∧
      s'.tags = none := by
  refine ⟨(setTags [] [] [(b!"b", b!"c")]).1, ⟨b!"a\\", some 0, b!"f"⟩, ⟨b!"a,b=c", none, b!"f"⟩, [(b!"b", b!"c")], ?_, ?_, ?_,
    ?_, rfl⟩
  · exact .step (.refl _) (.setTags [] none [] _ (List.Perm.refl _))
  · exact List.Perm.refl _
  · decide
  · decide +kernel

end Monkit.Tags
