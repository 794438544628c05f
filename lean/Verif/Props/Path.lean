import Verif.Spec.Path
import Verif.Proofs.Headers

/-!
# C57: choosing a presenter
-/

namespace Monkit.Path
open Go Spec

theorem trimLeft_spec (p : Str) : ∃ sl, p = sl ++ trimLeft p ∧ (∀ c ∈ sl, c = 47) ∧ (trimLeft p).head? ≠ some 47 := by
  induction p with
  | nil => exact ⟨[], rfl, by simp, by simp [trimLeft]⟩
  | cons c s ih =>
    by_cases h : c = 47
    · obtain ⟨sl, h1, h2, h3⟩ := ih
      refine ⟨c :: sl, ?_, ?_, ?_⟩
      · simp only [trimLeft, h, if_true, List.cons_append, ← h1]
      · intro x hx; rcases List.mem_cons.1 hx with rfl | hx
        · exact h
        · exact h2 x hx
      · simpa [trimLeft, h] using h3
    · exact ⟨[], by simp [trimLeft, h], by simp, by simp [trimLeft, h]⟩

theorem cutAt_spec (p : Str) : p = (cutAt p).1 ++ (cutAt p).2 ∧ (47 : UInt8) ∉ (cutAt p).1 ∧ (cutAt p).2.take 1 ∈ [b!"", b!"/"] := by
  induction p with
  | nil => simp [cutAt]
  | cons c s ih =>
    by_cases h : c = 47
    · simp [cutAt, h]
    · obtain ⟨h1, h2, h3⟩ := ih
      refine ⟨?_, ?_, ?_⟩
      · simp only [cutAt, h, if_false, List.cons_append, ← h1]
      · simp only [cutAt, h, if_false]
        simp [h2, Ne.symm h]
      · simpa only [cutAt, h, if_false] using h3

theorem trimLeft_slashes {sl s : Str} (h : ∀ c ∈ sl, c = 47) : trimLeft (sl ++ s) = trimLeft s := by
  induction sl with
  | nil => rfl
  | cons c sl ih =>
    have hc : c = 47 := h c (by simp)
    simp only [List.cons_append, trimLeft, hc, if_true]
    exact ih (fun x hx => h x (by simp [hx]))

theorem cutAt_seg {seg rest : Str} (h : (47 : UInt8) ∉ seg) (hr : rest.take 1 ∈ [b!"", b!"/"]) : cutAt (seg ++ rest) = (seg, rest) := by
  induction seg with
  | nil =>
    cases rest with
    | nil => rfl
    | cons c r =>
      have : c = 47 := by simpa using hr
      simp [cutAt, this]
  | cons c seg ih =>
    have h1 : c ≠ 47 := fun e => h (by simp [e])
    have h2 : (47 : UInt8) ∉ seg := fun e => h (by simp [e])
    simp only [List.cons_append, cutAt, h1, if_false, ih h2]

theorem shift_none {path : Str} (h : ∀ c ∈ path, c = 47) : shift path = ([], []) := by
  have := trimLeft_slashes (s := []) h
  simp only [List.append_nil] at this
  simp [shift, this, trimLeft, cutAt]

theorem shift_seg {slashes seg rest : Str} (h : ∀ c ∈ slashes, c = 47) (hs : seg ≠ []) (hn : (47 : UInt8) ∉ seg) (hr : rest.take 1 ∈ [b!"", b!"/"]) :
    shift (slashes ++ seg ++ rest) = (seg, rest) := by
  unfold shift
  rw [List.append_assoc, trimLeft_slashes h]
  have : trimLeft (seg ++ rest) = seg ++ rest := by
    cases seg with
    | nil => exact absurd rfl hs
    | cons c seg =>
      have h1 : c ≠ 47 := fun e => hn (by simp [e])
      simp [trimLeft, h1]
  rw [this, cutAt_seg hn hr]

theorem shift_segments {path segs} (h : Segments path segs) :
    (shift path).1 = segs[0]?.getD [] ∧ (shift (shift path).2).1 = segs[1]?.getD [] := by
  cases h with
  | none h =>
    have e : shift ([] : Str) = ([], []) := rfl
    rw [shift_none h]; simp [e]
  | seg h hs hn hr hrest =>
    rw [shift_seg h hs hn hr]
    refine ⟨rfl, ?_⟩
    cases hrest with
    | none h => simp [shift_none h]
    | seg h hs hn hr' hrest => simp only; rw [shift_seg h hs hn hr']; rfl

/-- Every path has segments, and only one list of them. -/
theorem segments_exists (path : Str) : ∃ segs, Segments path segs := by
  generalize hn : path.length = n
  induction n using Nat.strongRecOn generalizing path with
  | _ n ih =>
    obtain ⟨sl, h1, h2, h3⟩ := trimLeft_spec path
    obtain ⟨g1, g2, g3⟩ := cutAt_spec (trimLeft path)
    by_cases he : (cutAt (trimLeft path)).1 = []
    · refine ⟨[], .none ?_⟩
      rw [he] at g1
      simp only [List.nil_append] at g1
      rw [← g1] at g3
      have : trimLeft path = [] := by
        cases ht : trimLeft path with
        | nil => rfl
        | cons c r =>
          rw [ht] at g3 h3
          exfalso; apply h3
          have : c = 47 := by simpa using g3
          simp [this]
      rw [this, List.append_nil] at h1
      rw [h1]; exact h2
    · have hlen : ((cutAt (trimLeft path)).2).length < n := by
        have e1 := congrArg List.length h1
        have e2 := congrArg List.length g1
        have : 0 < (cutAt (trimLeft path)).1.length := List.length_pos_iff.2 he
        simp only [List.length_append] at e1 e2
        omega
      obtain ⟨segs, hs⟩ := ih _ hlen _ rfl
      refine ⟨(cutAt (trimLeft path)).1 :: segs, ?_⟩
      have e : path = sl ++ (cutAt (trimLeft path)).1 ++ (cutAt (trimLeft path)).2 := by
        rw [List.append_assoc, ← g1, ← h1]
      rw [e]
      have := Segments.seg h2 he g2 g3 hs
      rw [← e]
      rw [← e] at this
      exact this

theorem segments_unique {path segs segs'} (h : Segments path segs) (h' : Segments path segs') : segs = segs' := by
  induction h generalizing segs' with
  | @none path h =>
    cases h' with
    | none _ => rfl
    | @seg sl sg rest ss h1 h2 h3 h4 h5 =>
      exfalso
      cases sg with
      | nil => exact h2 rfl
      | cons c sg => exact h3 (by rw [← h c (by simp)]; simp)
  | @seg sl sg rest ss h1 h2 h3 h4 _ ih =>
    generalize hp : sl ++ sg ++ rest = path at h'
    have e1 : shift path = (sg, rest) := by rw [← hp]; exact shift_seg h1 h2 h3 h4
    cases h' with
    | none h =>
      exfalso
      rw [shift_none h] at e1
      exact h2 (congrArg Prod.fst e1).symm
    | seg g1 g2 g3 g4 g5 =>
      rw [shift_seg g1 g2 g3 g4] at e1
      injection e1 with e1 e2
      subst e1; subst e2
      rw [ih g5]

theorem parseBool_iff {s b} : parseBool s = some b ↔ (s, b) ∈ Bools := by
  unfold parseBool Bools
  cases b
  · split <;> rename_i h
    · rcases h with h | h | h | h | h | h <;> subst h <;> simp
    · split <;> rename_i h'
      · simp only [true_iff]
        rcases h' with h | h | h | h | h | h <;> subst h <;> simp
      · simp only [List.mem_cons, Prod.mk.injEq]; simp; simp at h'; tauto
  · split <;> rename_i h
    · simp only [true_iff]
      rcases h with h | h | h | h | h | h <;> subst h <;> simp
    · split <;> rename_i h'
      · rcases h' with h | h | h | h | h | h <;> subst h <;> simp
      · simp only [List.mem_cons, Prod.mk.injEq]; simp; simp at h; tauto

theorem preselect_iff {q : Query} {b} : (if q.preselect ≠ [] then parseBool q.preselect else some true) = some b ↔ Preselect q b := by
  unfold Preselect
  have nb : ∀ b, (([] : Str), b) ∉ Bools := by decide
  split
  · rename_i h; rw [parseBool_iff]; simp [h]
  · rename_i h
    simp at h
    simp [h, nb, eq_comm]

theorem preselect_unique {q : Query} {b b'} (h : Preselect q b) (h' : Preselect q b') : b = b' := by
  have h1 := preselect_iff.2 h
  rw [preselect_iff.2 h'] at h1
  exact (Option.some.inj h1).symm

theorem fnMatcher_spec (env : Env) (q : Query) :
    (fnMatcher env q = none ∧ q.regex ≠ [] ∧ BadQuery env q) ∨
    (∃ fm, fnMatcher env q = some fm ∧
      ¬ (q.regex ≠ [] ∧ (env.compile q.regex = none ∨ (∀ b, ¬ Preselect q b) ∨
          ∃ re, env.compile q.regex = some re ∧ Preselect q true ∧ ∀ f ∈ env.funcs, re f.name = false)) ∧
      ∀ f, fm f = true ↔ (q.regex ≠ [] → ∃ re, env.compile q.regex = some re ∧ re f.name = true ∧ (Preselect q true → f ∈ env.funcs))) := by
  unfold fnMatcher
  by_cases hr : q.regex = []
  · right; exact ⟨fun _ => true, by simp [hr], by simp [hr], by simp [hr]⟩
  · rw [if_pos hr]
    cases hc : env.compile q.regex with
    | none => left; exact ⟨rfl, hr, .regex hr hc⟩
    | some re =>
      cases hp : (if q.preselect ≠ [] then parseBool q.preselect else some true) with
      | none =>
        left
        refine ⟨rfl, hr, .preselect hr fun b hb => ?_⟩
        rw [preselect_iff.2 hb] at hp; cases hp
      | some b =>
        have hb := preselect_iff.1 hp
        cases b with
        | true =>
          simp only
          by_cases hl : (env.funcs.filter fun f => re f.name) = []
          · left
            refine ⟨by simp [hl], hr, .noFunc hr hc hb ?_⟩
            intro f hf
            have := List.filter_eq_nil_iff.1 hl f hf
            simpa using this
          · right
            have : ¬ (env.funcs.filter fun f => re f.name).length ≤ 0 := by
              have := List.length_pos_iff.2 hl; omega
            rw [if_neg this]
            refine ⟨_, rfl, ?_, ?_⟩
            · rintro ⟨_, h | h | ⟨re', h, _, h'⟩⟩
              · cases h
              · exact h true hb
              · cases h
                apply hl
                rw [List.filter_eq_nil_iff]
                intro f hf; simp [h' f hf]
            · intro f
              simp [hr, hb]
              exact and_comm
        | false =>
          right
          refine ⟨_, rfl, ?_, ?_⟩
          · rintro ⟨_, h | h | ⟨re', h, h', _⟩⟩
            · cases h
            · exact h false hb
            · cases preselect_unique hb h'
          · intro f
            have : ¬ Preselect q true := fun h => by cases preselect_unique hb h
            simp [hr, this]

theorem spanMatcher_spec (env : Env) (q : Query) :
    (spanMatcher env q = none ∧ BadQuery env q) ∨
    (∃ m, spanMatcher env q = some m ∧ ¬ BadQuery env q ∧ ∀ s, m s = true ↔ Wanted env q s) := by
  unfold spanMatcher
  by_cases h0 : q.regex = [] ∧ q.traceId = []
  · left; exact ⟨by simp [h0], .neither h0.1 h0.2⟩
  · rw [if_neg h0]
    rcases fnMatcher_spec env q with ⟨h1, h2, h3⟩ | ⟨fm, h1, h2, h3⟩
    · left; simp [h1, h3]
    · simp only [h1]
      by_cases ht : q.traceId = []
      · right
        refine ⟨fun s => fm s.func, by simp [ht], ?_, ?_⟩
        · intro hb
          cases hb with
          | neither a b => exact h0 ⟨a, b⟩
          | regex a b => exact h2 ⟨a, .inl b⟩
          | preselect a b => exact h2 ⟨a, .inr (.inl b)⟩
          | noFunc a b c d => exact h2 ⟨a, .inr (.inr ⟨_, b, c, d⟩)⟩
          | traceId a b => exact a ht
        · intro s
          simp only [h3, Wanted]
          exact ⟨fun h => ⟨h, fun h' => absurd ht h'⟩, fun h => h.1⟩
      · rw [if_pos ht]
        cases hx : Headers.hexToUint64 q.traceId with
        | none =>
          left
          refine ⟨rfl, .traceId ht fun n hn => ?_⟩
          rw [Headers.hex_some.2 ⟨n, hn, rfl⟩] at hx; cases hx
        | some id =>
          obtain ⟨n, hn, e⟩ := Headers.hex_some.1 hx
          right
          refine ⟨_, rfl, ?_, ?_⟩
          · intro hb
            cases hb with
            | neither a b => exact h0 ⟨a, b⟩
            | regex a b => exact h2 ⟨a, .inl b⟩
            | preselect a b => exact h2 ⟨a, .inr (.inl b)⟩
            | noFunc a b c d => exact h2 ⟨a, .inr (.inr ⟨_, b, c, d⟩)⟩
            | traceId a b => exact b n hn
          · intro s
            simp only [Bool.and_eq_true, beq_iff_eq, h3, Wanted]
            constructor
            · rintro ⟨g1, g2⟩
              exact ⟨g2, fun _ => ⟨n, hn, by rw [g1, e]⟩⟩
            · rintro ⟨g1, g2⟩
              obtain ⟨n', hn', e'⟩ := g2 ht
              rw [Headers.hexNum_unique hn' hn] at e'
              exact ⟨by rw [e', e], g1⟩

theorem remote_spec (env : Env) (q : Query) (m : SpanInfo → Bool) :
    TraceRow env q m b!"remote" (.traceRemote m (!sendJson env q)) (if sendJson env q then json else b!"text/html; charset=utf-8") := by
  have key : ∀ b, sendJson env q = b → TraceRow env q m b!"remote" (.traceRemote m (!b)) (if b then json else b!"text/html; charset=utf-8") := by
    intro b hb
    unfold sendJson at hb
    by_cases hv : q.viz = []
    · have : b = true := by rw [← hb]; simp [hv]
      subst this; exact .noViz hv
    · by_cases h1 : b!"http:" <+: q.viz ∨ b!"https:" <+: q.viz
      · have h1' : ¬ (q.viz ≠ [] ∧ (¬ b!"http:".isPrefixOf q.viz ∧ ¬ b!"https:".isPrefixOf q.viz)) := by
          simp only [List.isPrefixOf_iff_prefix]; tauto
        rw [if_neg h1'] at hb
        have hv' : (q.viz == []) = false := by simpa using hv
        simp only [hv', Bool.false_or] at hb
        cases b
        · exact .viz hv h1 (by simpa using hb)
        · exact .badViz hv h1 (by simpa using hb)
      · have h1' : (q.viz ≠ [] ∧ (¬ b!"http:".isPrefixOf q.viz ∧ ¬ b!"https:".isPrefixOf q.viz)) := by
          simp only [List.isPrefixOf_iff_prefix]; tauto
        have h2 : ¬ b!"http:" <+: q.viz := fun h => h1 (.inl h)
        have h3 : ¬ b!"https:" <+: q.viz := fun h => h1 (.inr h)
        rw [if_pos h1'] at hb
        have hv' : (b!"http://" ++ q.viz == []) = false := rfl
        simp only [hv', Bool.false_or] at hb
        cases b
        · exact .vizHost hv h2 h3 (by simpa using hb)
        · exact .badVizHost hv h2 h3 (by simpa using hb)
  exact key _ rfl

/-- **C57**.  For every registry, path and query the answer is the one the table gives for the first two segments of the path. -/
theorem C57_answer (env : Env) (path : Str) (q : Query) (segs : List Str) (h : Segments path segs) :
    Answers env q (segs[0]?.getD []) (segs[1]?.getD []) (fromRequest env path q) := by
  obtain ⟨e1, e2⟩ := shift_segments h
  unfold fromRequest
  rw [← e1, ← e2]
  generalize (shift path).1 = first
  generalize (shift (shift path).2).1 = second
  simp only
  split
  · rename_i h; subst h; exact .row (.index _)
  rename_i n0
  split
  · rename_i h; subst h
    split
    · rename_i h; rcases h with rfl | rfl
      · exact .row .ps
      · exact .row .psText
    rename_i n1
    split
    · rename_i h; subst h; exact .row .psDot
    rename_i n2
    split
    · rename_i h; subst h; exact .row .psJson
    rename_i n3
    refine .unknown (by decide) ?_
    intro p ct hr; cases hr <;> simp_all
  rename_i n1
  split
  · rename_i h; subst h
    split
    · rename_i h; rcases h with rfl | rfl
      · exact .row .funcs
      · exact .row .funcsText
    rename_i n1
    split
    · rename_i h; subst h; exact .row .funcsDot
    rename_i n2
    split
    · rename_i h; subst h; exact .row .funcsJson
    rename_i n3
    refine .unknown (by decide) ?_
    intro p ct hr; cases hr <;> simp_all
  rename_i n2
  split
  · rename_i h; subst h
    split
    · rename_i h; rcases h with rfl | rfl | rfl
      · exact .row .stats
      · exact .row .statsText
      · exact .row .statsOld
    rename_i n1
    split
    · rename_i h; subst h; exact .row .statsJson
    rename_i n3
    refine .unknown (by decide) ?_
    intro p ct hr; cases hr <;> simp_all
  rename_i n3
  split
  · rename_i h; subst h
    rcases spanMatcher_spec env q with ⟨h1, h2⟩ | ⟨m, h1, h2, h3⟩
    · simp only [h1]; exact .bad h2
    · simp only [h1]
      split
      · rename_i h; subst h; exact .trace h2 h3 .svg
      split
      · rename_i h; subst h; exact .trace h2 h3 .json
      split
      · rename_i h; subst h; exact .trace h2 h3 (remote_spec env q m)
      · exact .unknownTrace h2 (by simp_all)
  rename_i n4
  refine .unknown n4 ?_
  intro p ct hr; cases hr <;> simp_all

/-- **C57**: each path has exactly one list of segments, so `C57_answer` says something about every path. -/
theorem C57_segments (path : Str) : ∃ segs, Segments path segs ∧ ∀ segs', Segments path segs' → segs' = segs := by
  obtain ⟨segs, h⟩ := segments_exists path
  exact ⟨segs, h, fun _ h' => segments_unique h' h⟩

/-- **C57**: only the first two segments matter. -/
theorem C57_only_two (env : Env) (q : Query) {path path' segs segs'} (h : Segments path segs) (h' : Segments path' segs') (he : segs.take 2 = segs'.take 2) :
    fromRequest env path q = fromRequest env path' q := by
  obtain ⟨e1, e2⟩ := shift_segments h
  obtain ⟨g1, g2⟩ := shift_segments h'
  have t : ∀ (l : List Str) i, i < 2 → l[i]? = (l.take 2)[i]? := fun l i hi => by simp [hi]
  unfold fromRequest
  rw [e1, e2, g1, g2, t segs 0 (by omega), t segs 1 (by omega), t segs' 0 (by omega), t segs' 1 (by omega), he]

/-- **C57**: the requests that are answered with bad request: traces asked for with an unusable query. -/
theorem C57_bad_request_iff (env : Env) (q : Query) {path segs} (h : Segments path segs) :
    fromRequest env path q = .badRequest ↔ segs[0]? = some b!"trace" ∧ BadQuery env q := by
  have ha := C57_answer env path q segs h
  have hs : segs[0]?.getD [] = b!"trace" ↔ segs[0]? = some b!"trace" := by cases segs[0]? <;> simp
  rw [← hs]
  generalize fromRequest env path q = a at ha
  generalize segs[0]?.getD [] = x at ha
  generalize segs[1]?.getD [] = y at ha
  cases ha with
  | row r => constructor
             · intro h; cases h
             · rintro ⟨rfl, _⟩; cases r
  | bad hb => simp [hb]
  | trace hb _ _ => simp [hb]
  | unknownTrace hb _ => simp [hb]
  | unknown hn _ => simp [hn]

/-! ## Examples -/

def exEnv : Env := ⟨fun s => if s = b!"(" then none else some fun n => s.isPrefixOf n, [⟨1, b!"pkg.F"⟩], fun _ => true⟩

example : Segments b!"//ps//json/x" [b!"ps", b!"json", b!"x"] :=
  .seg (slashes := b!"//") (seg := b!"ps") (rest := b!"//json/x") (by decide) (by decide) (by decide) (by decide)
    (.seg (slashes := b!"//") (seg := b!"json") (rest := b!"/x") (by decide) (by decide) (by decide) (by decide)
      (.seg (slashes := b!"/") (seg := b!"x") (rest := b!"") (by decide) (by decide) (by decide) (by decide) (.none (by decide))))
example : fromRequest exEnv b!"//ps//json/x" ⟨[], [], [], []⟩ = .found .spansJSON json := rfl
example : fromRequest exEnv b!"/" ⟨[], [], [], []⟩ = .found .index b!"text/html" := rfl
example : fromRequest exEnv b!"/trace/svg" ⟨[], [], [], []⟩ = .badRequest := rfl
example : fromRequest exEnv b!"/trace/svg" ⟨b!"(", [], [], []⟩ = .badRequest := rfl
example : fromRequest exEnv b!"/trace/svg" ⟨b!"other", [], [], []⟩ = .badRequest := rfl
example : ∃ m, fromRequest exEnv b!"/trace/svg" ⟨b!"pkg", b!"1f", [], []⟩ = .found (.traceSVG m) b!"image/svg+xml; charset=utf-8" ∧
    m ⟨⟨1, b!"pkg.F"⟩, 31⟩ = true ∧ m ⟨⟨1, b!"pkg.F"⟩, 32⟩ = false ∧ m ⟨⟨2, b!"pkg.G"⟩, 31⟩ = false := ⟨_, rfl, rfl, rfl, rfl⟩
example : fromRequest exEnv b!"/stats/xml" ⟨[], [], [], []⟩ = .notFound := rfl

end Monkit.Path
