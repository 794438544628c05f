import Verif.Spec.TraceHttp
import Verif.Props.Headers
import Verif.Props.Wrap
import Verif.Props.Ctx
import Verif.Proofs.Present

/-! # Helper lemmas for C99 and C100 -/

namespace Monkit.TraceHttp
open Go Monkit.Headers Spec

/-- What happens before the handler is called. -/
def before (allowed : List Str) (e : Env) (r : Request) : List Eff :=
  (serverStart allowed e r).1 ++ (serverStart allowed e r).2.cb.toList.map .callback ++
    (e.order ((serverInfo allowed r).baggage.getD [])).map (fun kv => Eff.annotate e.s kv.1 kv.2) ++ [.annotate e.s b!"http.uri" r.uri] ++
    (if (serverInfo allowed r).parentId = none ∧ (serverInfo allowed r).sampled = true then
      [.header b!"Trace-Id" (fmtX 0 ((serverInfo allowed r).traceId.getD e.traceId)), .header b!"Child-Id" (fmtX 0 e.id)] else [])

/-- What the handler is given. -/
def given (e : Env) (r : Request) : Ctx × (Cap → Bool) := (r.ctx.push e.s, wrapCaps e.caps)

/-- What the handler does. -/
def did (e : Env) (h : Handler) (r : Request) : List Eff :=
  (h (given e r).1 (given e r).2).1.flatMap (actEff e.s (given e r).2)

/-- What happens after it, but for the end of the span. -/
def after (e : Env) (h : Handler) (r : Request) : List Eff :=
  match (h (given e r).1 (given e r).2).2 with
  | some _ => []
  | none => [.annotate e.s b!"http.responsecode" (fmtCode (Wrap.recorded (opsOf (did e h r))))]

/-- How the deferred function ends things. -/
def ending (e : Env) (h : Handler) (r : Request) : (Option Nat × Bool) × Calls.Out Nat :=
  Calls.exit e.nilErr false none ((h (given e r).1 (given e r).2).2.map (Calls.raise e.nilErr))

theorem task_span {obs : List (Ctx → Ctx)} (ho : ∀ o ∈ obs, KeepsSpan o) (c : Ctx) (s : Nat) : (Ctx.task obs c s).spanFrom = some s := by
  have : ∀ c, (Ctx.observe obs c).spanFrom = c.spanFrom := by
    induction obs with
    | nil => intro c; rfl
    | cons o os ih => intro c; exact (ih (fun o h => ho o (by simp [h])) (o c)).trans (ho o (by simp) c)
  exact (this _).trans rfl

theorem serve_eq (allowed : List Str) (e : Env) (h : Handler) (r : Request) (ho : ∀ o ∈ e.obs, KeepsSpan o) :
    serveHTTP allowed e h r = (before allowed e r ++ .handle (given e r).1 (given e r).2 ::
      (did e h r ++ after e h r ++ [.finish e.s (ending e h r).1.1 (ending e h r).1.2]), (ending e h r).2) := by
  have hs := task_span ho r.ctx e.s
  unfold serveHTTP
  simp only [hs, if_true]
  unfold serverBody before after ending did given
  cases hh : (h (r.ctx.push e.s) (wrapCaps e.caps)).2 with
  | none => simp [hh]
  | some v => simp [hh]

theorem split_unique {α} {p : α → Bool} {a b A B : List α} {x X : α} (h : a ++ x :: b = A ++ X :: B) (hx : p x = true)
    (hn : ∀ y ∈ A ++ B, p y = false) : a = A ∧ x = X ∧ b = B := by
  induction a generalizing A with
  | nil =>
    cases A with
    | nil => simp at h; exact ⟨rfl, h⟩
    | cons y A =>
      simp at h
      have := hn y (by simp)
      rw [← h.1] at this
      rw [hx] at this; cases this
  | cons y a ih =>
    cases A with
    | nil =>
      simp at h
      have := hn x (by rw [← h.2]; simp)
      rw [hx] at this; cases this
    | cons z A =>
      simp at h
      obtain ⟨rfl, h⟩ := h
      obtain ⟨h1, h2, h3⟩ := ih h (fun y hy => hn y (by simp at hy ⊢; rcases hy with hy | hy <;> simp [hy]))
      exact ⟨by rw [h1], h2, h3⟩

theorem actEff_cases {s : Nat} {caps : Cap → Bool} {a : Act} {x : Eff} (h : x ∈ actEff s caps a) :
    (∃ o, x = .op o) ∨ (∃ k v, x = .header k v) ∨ ∃ n v, x = .annotate s n v := by
  cases a with
  | op o =>
    cases o with
    | flush =>
      rw [actEff] at h
      split at h
      · simp at h; exact .inl ⟨_, h⟩
      · simp at h
    | write => rw [actEff] at h <;> simp at h ⊢; simp [h]
    | writeHeader c => rw [actEff] at h <;> simp at h ⊢; simp [h]
  | header k v => rw [actEff] at h; simp at h; exact .inr (.inl ⟨_, _, h⟩)
  | annotate n v => rw [actEff] at h; simp at h; exact .inr (.inr ⟨_, _, h⟩)

theorem did_cases {e : Env} {h : Handler} {r : Request} {x : Eff} (hx : x ∈ did e h r) :
    (∃ o, x = .op o) ∨ (∃ k v, x = .header k v) ∨ ∃ n v, x = .annotate e.s n v := by
  unfold did at hx
  rw [List.mem_flatMap] at hx
  obtain ⟨a, _, ha⟩ := hx
  exact actEff_cases ha

theorem after_cases {e : Env} {h : Handler} {r : Request} {x : Eff} (hx : x ∈ after e h r) : ∃ n v, x = .annotate e.s n v := by
  unfold after at hx
  split at hx
  · simp at hx
  · simp at hx; exact ⟨_, _, hx⟩

theorem start_cases {allowed : List Str} {e : Env} {r : Request} {x : Eff} (hx : x ∈ (serverStart allowed e r).1) :
    (∃ t b, x = .announce t b) ∨ (∃ v, x = .start e.s v) ∨ ∃ c, x = .callback c := by
  unfold serverStart at hx
  dsimp only at hx
  split at hx
  · simp at hx
    rcases hx with h | h | ⟨c, _, h⟩
    · exact .inl ⟨_, _, h⟩
    · exact .inr (.inl ⟨_, h⟩)
    · exact .inr (.inr ⟨_, h.symm⟩)
  · simp at hx
    rcases hx with h | h
    · exact .inl ⟨_, _, h⟩
    · exact .inr (.inl ⟨_, h⟩)

theorem before_cases {allowed : List Str} {e : Env} {r : Request} {x : Eff} (hx : x ∈ before allowed e r) :
    (∃ t b, x = .announce t b) ∨ (∃ v, x = .start e.s v) ∨ (∃ c, x = .callback c) ∨ (∃ n v, x = .annotate e.s n v) ∨
      ∃ k v, x = .header k v := by
  unfold before at hx
  simp only [List.mem_append] at hx
  rcases hx with (((h | h) | h) | h) | h
  · rcases start_cases h with h | h | h
    · exact .inl h
    · exact .inr (.inl h)
    · exact .inr (.inr (.inl h))
  · simp at h; obtain ⟨c, _, h⟩ := h; simp [← h]
  · simp at h; obtain ⟨c, d, _, h⟩ := h; simp [← h]
  · simp at h; simp [h]
  · split at h
    · simp at h; rcases h with h | h <;> simp [h]
    · simp at h

theorem not_handle {allowed : List Str} {e : Env} {h : Handler} {r : Request} :
    ∀ y ∈ before allowed e r ++ (did e h r ++ after e h r ++ [.finish e.s (ending e h r).1.1 (ending e h r).1.2]), isHandle y = false := by
  intro y hy
  simp only [List.mem_append, List.mem_singleton] at hy
  rcases hy with hy | (hy | hy) | hy
  · rcases before_cases hy with ⟨_, _, rfl⟩ | ⟨_, rfl⟩ | ⟨_, rfl⟩ | ⟨_, _, rfl⟩ | ⟨_, _, rfl⟩ <;> rfl
  · rcases did_cases hy with ⟨_, rfl⟩ | ⟨_, _, rfl⟩ | ⟨_, _, rfl⟩ <;> rfl
  · obtain ⟨_, _, rfl⟩ := after_cases hy; rfl
  · subst hy; rfl

/-- Wherever the handler is called, that is the place. -/
theorem at_handle {allowed : List Str} {e : Env} {h : Handler} {r : Request} (ho : ∀ o ∈ e.obs, KeepsSpan o) {a b : List Eff} {c : Ctx}
    {caps : Cap → Bool} (hl : (serveHTTP allowed e h r).1 = a ++ .handle c caps :: b) :
    a = before allowed e r ∧ c = (given e r).1 ∧ caps = (given e r).2 ∧
      b = did e h r ++ after e h r ++ [.finish e.s (ending e h r).1.1 (ending e h r).1.2] := by
  rw [serve_eq allowed e h r ho] at hl
  obtain ⟨h1, h2, h3⟩ := split_unique (p := isHandle) hl.symm rfl not_handle
  injection h2 with h4 h5
  exact ⟨h1, h4, h5, h3⟩

theorem notes_append (s : Nat) (a b : List Eff) : notes s (a ++ b) = notes s a ++ notes s b := by simp [notes]

theorem notes_none {s : Nat} {l : List Eff} (h : ∀ x ∈ l, ∀ s' n v, x ≠ .annotate s' n v) : notes s l = [] := by
  unfold notes
  rw [List.filterMap_eq_nil_iff]
  intro x hx
  split
  · rename_i s' n v; exact absurd rfl (h _ hx s' n v)
  · rfl

theorem notes_map (s : Nat) (l : List (Str × Str)) : notes s (l.map fun kv => Eff.annotate s kv.1 kv.2) = l := by
  induction l with
  | nil => rfl
  | cons x l ih =>
    have : notes s (((x :: l).map fun kv => Eff.annotate s kv.1 kv.2)) = (x.1, x.2) :: notes s (l.map fun kv => Eff.annotate s kv.1 kv.2) := by
      simp [notes]
    rw [this, ih]

theorem notes_before (allowed : List Str) (e : Env) (r : Request) :
    notes e.s (before allowed e r) = e.order ((serverInfo allowed r).baggage.getD []) ++ [(b!"http.uri", r.uri)] := by
  unfold before
  simp only [notes_append]
  rw [notes_none (l := (serverStart allowed e r).1), notes_none (l := List.map _ _), notes_map]
  · have : ∀ (c : Prop) [Decidable c] (a b : Eff), (∀ s n v, a ≠ .annotate s n v) → (∀ s n v, b ≠ .annotate s n v) →
        notes e.s (if c then [a, b] else []) = [] := by
      intro c _ a b h1 h2
      split
      · exact notes_none (by simp; exact ⟨h1, h2⟩)
      · rfl
    rw [this _ _ _ (by simp) (by simp)]
    simp [notes]
  · intro x hx; simp at hx; obtain ⟨_, _, rfl⟩ := hx; simp
  · intro x hx; rcases start_cases hx with ⟨_, _, rfl⟩ | ⟨_, rfl⟩ | ⟨_, rfl⟩ <;> simp

theorem notes_did (e : Env) (h : Handler) (r : Request) : notes e.s (did e h r) = actNotes (h (given e r).1 (given e r).2).1 := by
  unfold did
  generalize (given e r).2 = caps
  generalize (h (given e r).1 caps).1 = l
  induction l with
  | nil => rfl
  | cons a l ih =>
    rw [List.flatMap_cons, notes_append, ih]
    cases a with
    | op o =>
      cases o with
      | flush => rw [actEff]; split <;> simp [notes, actNotes]
      | write => rw [actEff] <;> simp [notes, actNotes]
      | writeHeader c => rw [actEff] <;> simp [notes, actNotes]
    | header k v => simp [actEff, notes, actNotes]
    | annotate n v => simp [actEff, notes, actNotes]

theorem ops_append (a b : List Eff) : ops (a ++ b) = ops a ++ ops b := by simp [ops]

theorem ops_did (e : Env) (h : Handler) (r : Request) : ops (did e h r) = actOps (e.caps .flush) (h (given e r).1 (given e r).2).1 := by
  unfold did
  have hc : (given e r).2 .flush = e.caps .flush := rfl
  rw [← hc]
  generalize (given e r).2 = caps
  generalize (h (given e r).1 caps).1 = l
  induction l with
  | nil => rfl
  | cons a l ih =>
    rw [List.flatMap_cons, ops_append, ih]
    cases a with
    | op o =>
      cases o with
      | flush => rw [actEff]; split <;> rename_i hf <;> simp [ops, actOps, hf]
      | write => rw [actEff] <;> simp [ops, actOps]
      | writeHeader c => rw [actEff] <;> simp [ops, actOps]
    | header k v => simp [actEff, ops, actOps]
    | annotate n v => simp [actEff, ops, actOps]

theorem ops_after (e : Env) (h : Handler) (r : Request) : ops (after e h r) = [] := by
  unfold after; split <;> simp [ops]

theorem ops_before (allowed : List Str) (e : Env) (r : Request) : ops (before allowed e r) = [] := by
  unfold ops
  rw [List.filterMap_eq_nil_iff]
  intro x hx
  rcases before_cases hx with ⟨_, _, rfl⟩ | ⟨_, rfl⟩ | ⟨_, rfl⟩ | ⟨_, _, rfl⟩ | ⟨_, _, rfl⟩ <;> rfl

theorem fmtCode_eq (i : Int) : fmtCode i = num i := by
  unfold fmtCode num
  rw [Present.decimal_eq]
  by_cases h : i < 0
  · rw [if_pos h, if_pos h, show i.natAbs = (-i).toNat by omega]
  · rw [if_neg h, if_neg h, show i.natAbs = i.toNat by omega]

theorem fmtX_hexInt (v : Int64) : HexInt (fmtX 0 v) v := by
  by_cases h : v < 0
  · have h' : v.toInt < 0 := by simpa using Int64.lt_iff_toInt_lt.1 h
    have := Int64.le_toInt v
    refine .inr ⟨h', _, by rw [fmtX, if_pos h], pad_ne _ (hexNat_ne _), ?_, by omega⟩
    rw [show v.toInt.natAbs = (-v.toInt).toNat by omega]
    exact pad_digits _ (hexNat_digits _)
  · have h' : 0 ≤ v.toInt := by
      have := mt Int64.lt_iff_toInt_lt.2 h
      simpa using this
    exact .inl ⟨h', (fmtX_num 0 v (by simpa using h)).1⟩

theorem sent_append (k : Str) (a b : List Eff) (h : ∀ x ∈ a, commits x = false) :
    sentHeader k (a ++ b) = (sentHeader k b).or (sentHeader k a) := by
  unfold sentHeader
  have h1 : List.takeWhile (fun x => !commits x) (a ++ b) = a ++ List.takeWhile (fun x => !commits x) b := by
    rw [List.takeWhile_append_of_pos]
    intro x hx; simp [h x hx]
  have h2 : List.takeWhile (fun x => !commits x) a = a := by
    have := List.takeWhile_append_of_pos (p := fun x => !commits x) (l₁ := a) (l₂ := []) (by intro x hx; simp [h x hx])
    simpa using this
  rw [h1, h2, List.filterMap_append, List.getLast?_append]

theorem sent_none (k : Str) (l : List Eff) (h : ∀ x ∈ l, ∀ v, x ≠ .header k v) : sentHeader k l = none := by
  unfold sentHeader
  rw [List.getLast?_eq_none_iff, List.filterMap_eq_nil_iff]
  intro x hx
  have hx := List.takeWhile_subset _ hx
  cases x with
  | header k' v =>
    dsimp only
    split
    · rename_i e; subst e; exact absurd rfl (h _ hx v)
    · rfl
  | _ => rfl

theorem import_ok (allowed : List Str) (bm : Map Str Str) (h : Map.Ok bm) (l : List Str) : Map.Ok (importBaggage allowed bm l) := by
  induction l generalizing bm with
  | nil => exact h
  | cons kv l ih =>
    rw [importBaggage]
    split
    · exact ih _ h
    · split
      · exact ih _ (Map.ok_set h _ _)
      · exact ih _ h

theorem fromHeader_ok {h : Header} {allowed : List Str} {bm : Map Str Str} (hb : (fromHeader h allowed).baggage = some bm) : Map.Ok bm := by
  have hv : ∃ t p f, Headers.Spec.Valid h.traceparent t p f := by
    apply Classical.byContradiction
    intro hn
    by_cases he : h.traceparent = b!""
    · rw [(C51_absent h allowed he).2.2.1] at hb; cases hb
    · rw [C51_rejected h allowed he (fun t p f hv' => hn ⟨t, p, f, hv'⟩)] at hb; cases hb
  obtain ⟨t, p, f, hv⟩ := hv
  rw [fromHeader_valid hv] at hb
  simp only [Option.some.injEq] at hb
  rw [← hb]
  split
  · exact import_ok _ _ Map.ok_nil _
  · exact Map.ok_nil

end Monkit.TraceHttp
