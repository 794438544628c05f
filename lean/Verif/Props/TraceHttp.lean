import Verif.Proofs.TraceHttp

/-!
# C99, C100: traced handlers and traced requests
-/

namespace Monkit.TraceHttp
open Go Monkit.Headers Spec

/-- **C99**, the handler: it is called exactly once, while the span of the request runs, with that span's context – in which the request's values,
deadline and cancellation are as they were – and with a writer that can flush if the given one can; what it does to the
status and the body is done to the given writer, in the same order, and nothing else is.

Holds whatever the trace watchers do, and for span observers that leave the current span of a context alone. -/
theorem C99_handler (allowed : List Str) (e : Env) (h : Handler) (r : Request) (ho : ∀ o ∈ e.obs, KeepsSpan o) :
    ∃ a c caps b, (serveHTTP allowed e h r).1 = a ++ .handle c caps :: b ∧ (∀ x ∈ a ++ b, isHandle x = false) ∧
      c.spanFrom = some e.s ∧ (∀ k, c.value (.user k) = r.ctx.value (.user k)) ∧ c.sig = r.ctx.sig ∧ caps .flush = e.caps .flush ∧
      ops a = [] ∧ ops b = actOps (e.caps .flush) (h c caps).1 ∧
      (∃ v, .start e.s v ∈ a) ∧ (∀ x ∈ a, isFinish x = false) ∧
      ∃ err p, b.getLast? = some (.finish e.s err p) ∧ ∀ x ∈ b.dropLast, isFinish x = false := by
  have hc := Ctx.C28_task_context r.ctx e.s [] (by simp)
  have ha : ∀ x ∈ before allowed e r, isFinish x = false := by
    intro x hx
    rcases before_cases hx with ⟨_, _, rfl⟩ | ⟨_, rfl⟩ | ⟨_, rfl⟩ | ⟨_, _, rfl⟩ | ⟨_, _, rfl⟩ <;> rfl
  have hb : ∀ x ∈ did e h r ++ after e h r, isFinish x = false := by
    intro x hx
    rw [List.mem_append] at hx
    rcases hx with hx | hx
    · rcases did_cases hx with ⟨_, rfl⟩ | ⟨_, _, rfl⟩ | ⟨_, _, rfl⟩ <;> rfl
    · obtain ⟨_, _, rfl⟩ := after_cases hx; rfl
  refine ⟨before allowed e r, (given e r).1, (given e r).2, did e h r ++ after e h r ++ [.finish e.s (ending e h r).1.1 (ending e h r).1.2],
    by rw [serve_eq allowed e h r ho], not_handle, hc.1, hc.2.1, hc.2.2, rfl, ops_before _ _ _, ?_, ?_, ha, ?_⟩
  · rw [ops_append, ops_append, ops_did, ops_after]; simp [ops]
  · have : ∃ v, Eff.start e.s v ∈ (serverStart allowed e r).1 := by
      unfold serverStart
      dsimp only
      split <;> simp
    obtain ⟨v, hv⟩ := this
    exact ⟨v, by unfold before; simp [hv]⟩
  · refine ⟨(ending e h r).1.1, (ending e h r).1.2, by simp, ?_⟩
    rw [List.dropLast_concat]
    exact hb

/-- **C99**, whose span: with a valid traceparent the span belongs to the trace and to the parent it names; without, to a new trace with the parent
id 0.  Nothing else starts.  The watchers hear of the trace once, before that, sampled exactly if the request says so. -/
theorem C99_span (allowed : List Str) (e : Env) (h : Handler) (r : Request) (ho : ∀ o ∈ e.obs, KeepsSpan o) :
    ∃ tid pid sm sm' rest, (serveHTTP allowed e h r).1 = .announce tid sm :: .start e.s ⟨e.id, tid, some pid, sm'⟩ :: rest ∧
      (∀ x ∈ rest, isStart x = false ∧ ∀ t b, x ≠ .announce t b) ∧
      (∀ t p f, Headers.Spec.Valid r.header.traceparent t p f → tid = Headers.Spec.asInt64 t ∧ pid = Headers.Spec.asInt64 p ∧ (sm = true ↔ f % 2 = 1)) ∧
      ((∀ t p f, ¬ Headers.Spec.Valid r.header.traceparent t p f) → tid = e.traceId ∧ pid = 0 ∧ (sm = true ↔ AsksAlone r.header)) := by
  have hrest : ∃ rest, (serveHTTP allowed e h r).1 = .announce ((serverInfo allowed r).traceId.getD e.traceId) (serverInfo allowed r).sampled ::
      .start e.s ⟨e.id, (serverInfo allowed r).traceId.getD e.traceId, some ((serverInfo allowed r).parentId.getD 0),
        (e.watch ⟨(serverInfo allowed r).sampled, none⟩).sampled⟩ :: rest ∧ ∀ x ∈ rest, isStart x = false ∧ ∀ t b, x ≠ .announce t b := by
    rw [serve_eq allowed e h r ho]
    unfold before serverStart
    dsimp only
    have hb : ∀ x ∈ did e h r ++ after e h r ++ [.finish e.s (ending e h r).1.1 (ending e h r).1.2], isStart x = false ∧ ∀ t b, x ≠ .announce t b := by
      intro x hx
      rw [List.mem_append, List.mem_append, List.mem_singleton] at hx
      rcases hx with (hx | hx) | hx
      · rcases did_cases hx with ⟨_, rfl⟩ | ⟨_, _, rfl⟩ | ⟨_, _, rfl⟩ <;> exact ⟨rfl, by simp⟩
      · obtain ⟨_, _, rfl⟩ := after_cases hx; exact ⟨rfl, by simp⟩
      · subst hx; exact ⟨rfl, by simp⟩
    have hcb : ∀ (o : Option Nat), ∀ x ∈ o.toList.map Eff.callback, isStart x = false ∧ ∀ t b, x ≠ .announce t b := by
      intro o x hx; simp at hx; obtain ⟨_, _, rfl⟩ := hx; exact ⟨rfl, by simp⟩
    have hbag : ∀ (l : List (Str × Str)), ∀ x ∈ l.map (fun kv => Eff.annotate e.s kv.1 kv.2), isStart x = false ∧ ∀ t b, x ≠ .announce t b := by
      intro l x hx; simp at hx; obtain ⟨_, _, _, rfl⟩ := hx; exact ⟨rfl, by simp⟩
    have htold : ∀ (c : Prop) [Decidable c] (k v k' v' : Str), ∀ x ∈ (if c then [Eff.header k v, .header k' v'] else []),
        isStart x = false ∧ ∀ t b, x ≠ .announce t b := by
      intro c _ k v k' v' x hx
      split at hx
      · simp at hx; rcases hx with rfl | rfl <;> exact ⟨rfl, by simp⟩
      · simp at hx
    cases e.remote with
    | true =>
      simp only [if_true, List.cons_append, List.nil_append]
      refine ⟨_, rfl, ?_⟩
      intro x hx
      simp only [List.mem_append, List.mem_cons, List.not_mem_nil, or_false] at hx
      rcases hx with ((((hx | hx) | hx) | hx) | hx) | hx | hx
      · exact hcb _ _ hx
      · exact hcb _ _ hx
      · exact hbag _ _ hx
      · subst hx; exact ⟨rfl, by simp⟩
      · exact htold _ _ _ _ _ _ hx
      · subst hx; exact ⟨rfl, by simp⟩
      · exact hb x (by simpa [or_assoc] using hx)
    | false =>
      simp only [Bool.false_eq_true, if_false, List.cons_append, List.nil_append]
      refine ⟨_, rfl, ?_⟩
      intro x hx
      simp only [List.mem_append, List.mem_cons, List.not_mem_nil, or_false] at hx
      rcases hx with (((hx | hx) | hx) | hx) | hx | hx
      · exact hcb _ _ hx
      · exact hbag _ _ hx
      · subst hx; exact ⟨rfl, by simp⟩
      · exact htold _ _ _ _ _ _ hx
      · subst hx; exact ⟨rfl, by simp⟩
      · exact hb x (by simpa [or_assoc] using hx)
  obtain ⟨rest, hl, hr⟩ := hrest
  refine ⟨_, _, _, _, rest, hl, hr, ?_, ?_⟩
  · intro t p f hv
    obtain ⟨h1, h2, h3⟩ := C51_accepted r.header allowed t p f hv
    rw [serverInfo, h1, h2]
    exact ⟨rfl, rfl, h3⟩
  · intro hv
    by_cases he : r.header.traceparent = b!""
    · obtain ⟨h1, h2, _, h4⟩ := C51_absent r.header allowed he
      rw [serverInfo, h1, h2]
      refine ⟨rfl, rfl, h4.trans ⟨fun h => ⟨he, h⟩, fun h => h.2⟩⟩
    · have := C51_rejected r.header allowed he hv
      rw [serverInfo, this]
      refine ⟨rfl, rfl, ?_⟩
      simp [TraceInfo.empty, AsksAlone]
      intro h; exact absurd h he

/-- **C99**, annotations: before the handler is called the span has been annotated with the baggage of every allowed key, each key once and with
the value it was last given, and then with the URI; afterwards come the annotations of the handler, and, if it returned, the
status code; nothing else. -/
theorem C99_annotations (allowed : List Str) (e : Env) (h : Handler) (r : Request) (ho : ∀ o ∈ e.obs, KeepsSpan o)
    (hord : ∀ m, (e.order m).Perm m) (a b : List Eff) (c : Ctx) (caps : Cap → Bool)
    (hl : (serveHTTP allowed e h r).1 = a ++ .handle c caps :: b) :
    (∃ bag, notes e.s a = bag ++ [(b!"http.uri", r.uri)] ∧ (bag.map (·.1)).Nodup ∧
      (∀ t p f, Headers.Spec.Valid r.header.traceparent t p f → ∀ k v, (k, v) ∈ bag ↔
        k ∈ allowed ∧ ∃ ps, Headers.Spec.Pieces 44 r.header.baggage ps ∧ Headers.Spec.LastValue ps k v) ∧
      ((∀ t p f, ¬ Headers.Spec.Valid r.header.traceparent t p f) → bag = [])) ∧
    ∃ code, notes e.s b = actNotes (h c caps).1 ++ (if (h c caps).2 = none then [(b!"http.responsecode", num code)] else []) ∧
      (Wrap.Orderly (ops b) → code = Wrap.sentCode (ops b)) := by
  obtain ⟨rfl, rfl, rfl, rfl⟩ := at_handle ho hl
  refine ⟨⟨e.order ((serverInfo allowed r).baggage.getD []), notes_before _ _ _, ?_, ?_, ?_⟩, ?_⟩
  · have hok : Map.Ok ((serverInfo allowed r).baggage.getD []) := by
      cases hb : (serverInfo allowed r).baggage with
      | none => exact Map.ok_nil
      | some bm => exact fromHeader_ok hb
    exact ((hord _).map _).nodup_iff.2 hok
  · intro t p f hv k v
    have hb : ∃ bm, (serverInfo allowed r).baggage = some bm := by rw [serverInfo, fromHeader_valid hv]; exact ⟨_, rfl⟩
    obtain ⟨bm, hb⟩ := hb
    rw [(hord _).mem_iff, hb, Option.getD_some, ← C52_imported r.header allowed bm hb]
    exact Map.mem_iff_get (fromHeader_ok hb) k v
  · intro hv
    have : (serverInfo allowed r).baggage = none := by
      by_cases he : r.header.traceparent = b!""
      · exact (C51_absent r.header allowed he).2.2.1
      · rw [serverInfo, C51_rejected r.header allowed he hv]; rfl
    rw [this]
    exact List.perm_nil.1 (hord _)
  · refine ⟨Wrap.recorded (opsOf (did e h r)), ?_, ?_⟩
    · rw [notes_append, notes_append, notes_did]
      unfold after
      cases (h (given e r).1 (given e r).2).2 with
      | none => simp [notes, fmtCode_eq]
      | some v => simp [notes]
    · have : ops (did e h r ++ after e h r ++ [.finish e.s (ending e h r).1.1 (ending e h r).1.2]) = opsOf (did e h r) := by
        rw [ops_append, ops_append, ops_after]
        simp [ops, opsOf]
        rfl
      rw [this]
      exact Wrap.C53_recorded_partial _

/-- **C99**, what the client is told: unless the handler sets these headers itself, the response carries the ids of trace and span, in hexadecimal,
exactly if the request asked for sampling without saying whose trace it belongs to. -/
theorem C99_told (allowed : List Str) (e : Env) (h : Handler) (r : Request) (ho : ∀ o ∈ e.obs, KeepsSpan o)
    (hh : ∀ c caps v, Act.header b!"Trace-Id" v ∉ (h c caps).1 ∧ Act.header b!"Child-Id" v ∉ (h c caps).1) :
    (AsksAlone r.header → ∃ t c, sentHeader b!"Trace-Id" (serveHTTP allowed e h r).1 = some t ∧ HexInt t e.traceId ∧
      sentHeader b!"Child-Id" (serveHTTP allowed e h r).1 = some c ∧ HexInt c e.id) ∧
    (¬ AsksAlone r.header → sentHeader b!"Trace-Id" (serveHTTP allowed e h r).1 = none ∧ sentHeader b!"Child-Id" (serveHTTP allowed e h r).1 = none) := by
  have hdid : ∀ k v, Eff.header k v ∈ did e h r → Act.header k v ∈ (h (given e r).1 (given e r).2).1 := by
    intro k v hx
    unfold did at hx
    rw [List.mem_flatMap] at hx
    obtain ⟨a, ha, hx⟩ := hx
    cases a with
    | op o =>
      cases o with
      | flush => rw [actEff] at hx; split at hx <;> simp at hx
      | write => simp [actEff] at hx
      | writeHeader c => simp [actEff] at hx
    | header k' v' => simp [actEff] at hx; obtain ⟨rfl, rfl⟩ := hx; exact ha
    | annotate n v => simp [actEff] at hx
  have hpost : ∀ k, (∀ c caps v, Act.header k v ∉ (h c caps).1) → sentHeader k (.handle (given e r).1 (given e r).2 ::
      (did e h r ++ after e h r ++ [.finish e.s (ending e h r).1.1 (ending e h r).1.2])) = none := by
    intro k hk
    apply sent_none
    intro x hx v
    rw [List.mem_cons, List.mem_append, List.mem_append, List.mem_singleton] at hx
    rintro rfl
    rcases hx with hx | (hx | hx) | hx
    · cases hx
    · exact hk _ _ _ (hdid _ _ hx)
    · obtain ⟨_, _, hx⟩ := after_cases hx; cases hx
    · cases hx
  have hcomm : ∀ x ∈ before allowed e r, commits x = false := by
    intro x hx
    rcases before_cases hx with ⟨_, _, rfl⟩ | ⟨_, rfl⟩ | ⟨_, rfl⟩ | ⟨_, _, rfl⟩ | ⟨_, _, rfl⟩ <;> rfl
  have hval : ∀ k, (∀ c caps v, Act.header k v ∉ (h c caps).1) → sentHeader k (serveHTTP allowed e h r).1 = sentHeader k (before allowed e r) := by
    intro k hk
    rw [serve_eq allowed e h r ho]
    dsimp only
    rw [sent_append _ _ _ hcomm, hpost k hk, Option.none_or]
  have hpre : ∀ k, sentHeader k (before allowed e r) = sentHeader k (if (serverInfo allowed r).parentId = none ∧ (serverInfo allowed r).sampled = true then
      [Eff.header b!"Trace-Id" (fmtX 0 ((serverInfo allowed r).traceId.getD e.traceId)), .header b!"Child-Id" (fmtX 0 e.id)] else []) := by
    intro k
    unfold before
    rw [sent_append, sent_none k (_ ++ _), Option.or_none]
    · intro x hx v
      simp only [List.mem_append] at hx
      rintro rfl
      rcases hx with ((hx | hx) | hx) | hx
      · rcases start_cases hx with ⟨_, _, h⟩ | ⟨_, h⟩ | ⟨_, h⟩ <;> cases h
      · simp at hx
      · simp at hx
      · simp at hx
    · intro x hx
      exact hcomm x (by unfold before; rw [List.mem_append]; exact .inl hx)
  rw [hval _ (fun c caps v => (hh c caps v).1), hval _ (fun c caps v => (hh c caps v).2), hpre, hpre]
  have hiff : ((serverInfo allowed r).parentId = none ∧ (serverInfo allowed r).sampled = true) ↔ AsksAlone r.header := by
    by_cases he : r.header.traceparent = b!""
    · obtain ⟨h1, h2, _, h4⟩ := C51_absent r.header allowed he
      rw [serverInfo, h2, h4]
      exact ⟨fun h => ⟨he, h.2⟩, fun h => ⟨rfl, h.2⟩⟩
    · refine ⟨fun ⟨h1, h2⟩ => ?_, fun h => absurd h.1 he⟩
      have hv : ∀ t p f, ¬ Headers.Spec.Valid r.header.traceparent t p f := by
        intro t p f hv
        rw [serverInfo, (C51_accepted r.header allowed t p f hv).2.1] at h1
        cases h1
      rw [serverInfo, C51_rejected r.header allowed he hv] at h2
      cases h2
  constructor
  · intro ha
    have hn : (serverInfo allowed r).traceId = none := (C51_absent r.header allowed ha.1).1
    rw [if_pos (hiff.2 ha), hn]
    exact ⟨fmtX 0 e.traceId, fmtX 0 e.id, rfl, fmtX_hexInt _, rfl, fmtX_hexInt _⟩
  · intro ha
    rw [if_neg (fun h => ha (hiff.1 h))]
    exact ⟨rfl, rfl⟩

/-- **C99**, the end: the span's finish is the last thing that happens; it is told of a panic exactly if the handler panicked, and then the panic goes
on to the server.

Partial: not for `panic(nil)` where that panics with nil; see `C99_panic_nil_violated`. -/
theorem C99_end_partial (allowed : List Str) (e : Env) (h : Handler) (r : Request) (ho : ∀ o ∈ e.obs, KeepsSpan o)
    (a b : List Eff) (c : Ctx) (caps : Cap → Bool) (hl : (serveHTTP allowed e h r).1 = a ++ .handle c caps :: b)
    (hn : e.nilErr = true ∨ (h c caps).2 ≠ some none) :
    (∀ v, (h c caps).2 = some v → (serveHTTP allowed e h r).1.getLast? = some (.finish e.s none true) ∧
      (serveHTTP allowed e h r).2 = .panic (Calls.raise e.nilErr v)) ∧
    ((h c caps).2 = none → (serveHTTP allowed e h r).1.getLast? = some (.finish e.s none false) ∧ (serveHTTP allowed e h r).2 = .ret none) := by
  obtain ⟨rfl, rfl, rfl, rfl⟩ := at_handle ho hl
  rw [hl]
  have h2 : (serveHTTP allowed e h r).2 = (ending e h r).2 := by rw [serve_eq allowed e h r ho]
  have hlast : (before allowed e r ++ .handle (given e r).1 (given e r).2 ::
      (did e h r ++ after e h r ++ [Eff.finish e.s (ending e h r).1.1 (ending e h r).1.2])).getLast? =
      some (.finish e.s (ending e h r).1.1 (ending e h r).1.2) := by
    rw [← List.cons_append, ← List.append_assoc, List.getLast?_concat]
  rw [hlast, h2]
  constructor
  · intro v hv
    have : ending e h r = ((none, true), .panic (Calls.raise e.nilErr v)) := by
      unfold ending
      rw [hv]
      rcases hn with hn | hn
      · rw [hn]; cases v <;> rfl
      · cases v with
        | none => exact absurd hv hn
        | some v => cases e.nilErr <;> rfl
    rw [this]
    exact ⟨rfl, rfl⟩
  · intro hv
    have : ending e h r = ((none, false), .ret none) := by unfold ending; rw [hv]; rfl
    rw [this]
    exact ⟨rfl, rfl⟩

/-- A request without trace headers. -/
def plainReq : Request := ⟨⟨b!"", b!"", b!""⟩, b!"/", .background⟩

/-- Nobody is watching. -/
def plainEnv : Env := ⟨7, 8, 0, id, [], false, id, fun _ => true, false⟩

/-- A watcher that leaves a callback with every trace. -/
def callbackEnv (remote : Bool) : Env := { plainEnv with watch := fun v => { v with cb := some 3 }, remote := remote }

/-- **C99**, the callback: the one the trace watchers left with the trace, if any, is called once, before the handler, and no other is.

Partial: not if somebody is waiting at `/trace/remote` for just this span; see `C99_callback_violated`. -/
theorem C99_callback_partial (allowed : List Str) (e : Env) (h : Handler) (r : Request) (ho : ∀ o ∈ e.obs, KeepsSpan o) (hr : e.remote = false)
    (a b : List Eff) (c : Ctx) (caps : Cap → Bool) (hl : (serveHTTP allowed e h r).1 = a ++ .handle c caps :: b) :
    ∃ tid sm rest, a = .announce tid sm :: rest ∧ callbacks a = (e.watch ⟨sm, none⟩).cb.toList ∧ callbacks b = [] := by
  obtain ⟨rfl, _, _, rfl⟩ := at_handle ho hl
  have hb : before allowed e r = .announce ((serverInfo allowed r).traceId.getD e.traceId) (serverInfo allowed r).sampled ::
      (before allowed e r).tail := by
    unfold before serverStart
    simp [hr]
  refine ⟨_, _, _, hb, ?_, ?_⟩
  · unfold before serverStart
    simp only [hr, Bool.false_eq_true, if_false]
    have h0 : ∀ a b : List Eff, callbacks (a ++ b) = callbacks a ++ callbacks b := by intro a b; simp [callbacks]
    have h1 : ∀ o : Option Nat, callbacks (o.toList.map Eff.callback) = o.toList := by intro o; cases o <;> rfl
    have h2 : ∀ l : List (Str × Str), callbacks (l.map fun kv => Eff.annotate e.s kv.1 kv.2) = [] := by
      intro l; unfold callbacks; rw [List.filterMap_eq_nil_iff]; intro x hx; simp at hx; obtain ⟨_, _, _, rfl⟩ := hx; rfl
    rw [h0, h0, h0, h0, h1, h2]
    split <;> simp [callbacks]
  · unfold callbacks
    rw [List.filterMap_eq_nil_iff]
    intro x hx
    rw [List.mem_append, List.mem_append, List.mem_singleton] at hx
    rcases hx with (hx | hx) | hx
    · rcases did_cases hx with ⟨_, rfl⟩ | ⟨_, _, rfl⟩ | ⟨_, _, rfl⟩ <;> rfl
    · obtain ⟨_, _, rfl⟩ := after_cases hx; rfl
    · subst hx; rfl

/-- C99 fails for callbacks: with somebody waiting at `/trace/remote` for the span, the callback is called twice for one trace; and it
is called for traces that are not sampled. -/
theorem C99_callback_violated :
    callbacks ((serveHTTP [] (callbackEnv true) (fun _ _ => ([], none)) plainReq).1) = [3, 3] ∧
    callbacks ((serveHTTP [] (callbackEnv false) (fun _ _ => ([], none)) plainReq).1) = [3] ∧
    .start 0 ⟨8, 7, some 0, false⟩ ∈ (serveHTTP [] (callbackEnv false) (fun _ _ => ([], none)) plainReq).1 :=
  ⟨rfl, rfl, .tail _ (.head _)⟩

/-- C99 fails for `panic(nil)` in Go modules of before Go 1.21: the panic is swallowed, the span counts as a success, and no status code is recorded. -/
theorem C99_panic_nil_violated :
    (serveHTTP [] plainEnv (fun _ _ => ([.op (.writeHeader 500)], some none)) plainReq).2 = .ret none ∧
    (serveHTTP [] plainEnv (fun _ _ => ([.op (.writeHeader 500)], some none)) plainReq).1.getLast? = some (.finish 0 none false) ∧
    notes 0 (serveHTTP [] plainEnv (fun _ _ => ([.op (.writeHeader 500)], some none)) plainReq).1 = [(b!"http.uri", b!"/")] :=
  ⟨rfl, rfl, rfl⟩

/-- C99 fails for handlers that panic: the status code the client may have got already is not recorded.  (net/http logs the panic and closes the connection.) -/
theorem C99_panic_code_violated :
    Wrap.sentCode (ops (serveHTTP [] plainEnv (fun _ _ => ([.op (.writeHeader 404), .op .write, .op .flush], some (some 5))) plainReq).1) = 404 ∧
    notes 0 (serveHTTP [] plainEnv (fun _ _ => ([.op (.writeHeader 404), .op .write, .op .flush], some (some 5))) plainReq).1 = [(b!"http.uri", b!"/")] :=
  ⟨rfl, rfl⟩

/-- C99 fails for values that span observers add to the context: the context of the Task has them, the handler's has not. -/
theorem C99_observer_value_violated (allowed : List Str) (e : Env) (h : Handler) (r : Request) (k v : Nat)
    (ho : e.obs = [fun c => c.withValue k v]) (hr : r.ctx.value (.user k) = none) :
    (Ctx.task e.obs r.ctx e.s).value (.user k) = some (.user v) ∧
    ∃ a c caps b, (serveHTTP allowed e h r).1 = a ++ .handle c caps :: b ∧ c.value (.user k) = none := by
  have hk : ∀ o ∈ e.obs, KeepsSpan o := by
    rw [ho]
    intro o h c
    simp only [List.mem_singleton] at h
    subst h
    cases c <;> simp [Ctx.withValue, Ctx.spanFrom, Ctx.value]
  constructor
  · rw [ho]
    simp [Ctx.task, Ctx.observe, Ctx.withValue, Ctx.value]
  · obtain ⟨a, c, caps, b, h1, _, _, h2, _⟩ := C99_handler allowed e h r hk
    exact ⟨a, c, caps, b, h1, (h2 k).trans hr⟩

/-- C99 fails for writers that can be hijacked: the handler's cannot. -/
theorem C99_hijack_violated (allowed : List Str) (e : Env) (h : Handler) (r : Request) (ho : ∀ o ∈ e.obs, KeepsSpan o)
    (a b : List Eff) (c : Ctx) (caps : Cap → Bool) (hl : (serveHTTP allowed e h r).1 = a ++ .handle c caps :: b) : caps .hijack = false := by
  obtain ⟨_, _, rfl, _⟩ := at_handle ho hl
  rfl

/-! ## C100: `TraceRequest` -/

/-- **C100**, the request: it is sent exactly once, within a span of its own, which got the URL as annotation before and the status code of the response,
if there is one, after; what the client answers – a response, an error, a panic – is the result; and the span finishes last, with
the error or panic.

Partial: not for a request with a nil header in a sampled trace (`C100_nil_header_violated`), and not for `panic(nil)` where that panics with nil
(`C100_panic_nil_violated`). -/
theorem C100_once_partial (nilErr : Bool) (s : Nat) (view : SpanView) (cl : Header → DoRes) (req : OutReq)
    (hh : req.header ≠ none ∨ view.sampled = false) (hn : nilErr = true ∨ ∀ h, cl h ≠ .panic none) :
    ∃ hd a b, (traceRequest nilErr s view cl req).1 = .start s view :: (a ++ .send hd :: b) ∧ (∀ x ∈ a ++ b, isSend x = false ∧ isStart x = false) ∧
      notes s a = [(b!"http.uri", req.url)] ∧ (∀ code, cl hd = .resp code → notes s b = [(b!"http.responsecode", num code)]) ∧
      ((∀ code, cl hd ≠ .resp code) → notes s b = []) ∧ (traceRequest nilErr s view cl req).2 = handedOn nilErr (cl hd) ∧
      b.getLast? = some (.finish s (told (cl hd)).1 (told (cl hd)).2) ∧ ∀ x ∈ a ++ b.dropLast, isFinish x = false := by
  have hex : ∃ hd, clientHeader view req.header = some hd := by
    cases hq : req.header with
    | some h => exact ⟨_, rfl⟩
    | none =>
      rcases hh with hh | hh
      · exact absurd hq hh
      · have : fromSpan view = ⟨none, none, false, none⟩ := by simp [fromSpan, hh]
        rw [clientHeader, this]
        exact ⟨_, rfl⟩
  obtain ⟨hd, hhd⟩ := hex
  refine ⟨hd, [.annotate s b!"http.uri" req.url], ?_⟩
  unfold traceRequest
  simp only [hhd]
  cases hc : cl hd with
  | resp code =>
    refine ⟨[.annotate s b!"http.responsecode" (fmtCode code), .finish s none false], rfl, by simp [isSend, isStart], by simp [notes], ?_, ?_, rfl, rfl, by simp [isFinish]⟩
    · intro c h; injection h with h; subst h; simp [notes, fmtCode_eq]
    · intro h; exact absurd rfl (h code)
  | err e =>
    refine ⟨[.finish s (some e) false], rfl, by simp [isSend, isStart], by simp [notes], ?_, ?_, rfl, rfl, by simp [isFinish]⟩
    · intro c h; cases h
    · intro h; simp [notes]
  | panic v =>
    refine ⟨[.finish s none true], ?_, by simp [isSend, isStart], by simp [notes], ?_, ?_, ?_, rfl, by simp [isFinish]⟩
    · rcases hn with hn | hn
      · rw [hn]; cases v <;> rfl
      · cases v with
        | none => exact absurd hc (hn hd)
        | some v => cases nilErr <;> rfl
    · intro c h; cases h
    · intro h; simp [notes]
    · rcases hn with hn | hn
      · rw [hn]; cases v <;> rfl
      · cases v with
        | none => exact absurd hc (hn hd)
        | some v => cases nilErr <;> rfl

/-- **C100**, the headers: tracestate and baggage are sent as they were given; in a trace that is not sampled so is the traceparent; in a sampled one
it names the trace, and the span or its parent if it has one, if these ids are not negative. -/
theorem C100_headers (nilErr : Bool) (s : Nat) (view : SpanView) (cl : Header → DoRes) (req : OutReq) (h hd : Header) (hq : req.header = some h)
    (hs : .send hd ∈ (traceRequest nilErr s view cl req).1) :
    hd.tracestate = h.tracestate ∧ hd.baggage = h.baggage ∧ (view.sampled = false → hd.traceparent = h.traceparent) ∧
      (view.sampled = true → 0 ≤ view.traceId → 0 ≤ view.parentId.getD view.id →
        Headers.Spec.Valid hd.traceparent view.traceId.toInt.toNat (view.parentId.getD view.id).toInt.toNat 1) := by
  have hd' : hd = setHeader (fromSpan view) [] h := by
    unfold traceRequest at hs
    simp only [hq, clientHeader] at hs
    split at hs <;> simp at hs <;> exact hs
  cases hv : view.sampled with
  | false =>
    have : fromSpan view = ⟨none, none, false, none⟩ := by simp [fromSpan, hv]
    rw [hd', this]
    exact ⟨rfl, rfl, fun _ => rfl, fun h => by cases h⟩
  | true =>
    have : fromSpan view = ⟨some view.traceId, some (view.parentId.getD view.id), true, none⟩ := by simp [fromSpan, hv]
    rw [hd', this]
    refine ⟨rfl, rfl, (fun h => by cases h), fun _ h0 h1 => ?_⟩
    have := setHeader_valid (r := ⟨some view.traceId, some (view.parentId.getD view.id), true, none⟩) rfl rfl h0 h1 [] h
    simpa using this

/-- **C100**, client and server: a traced handler that gets the request of a sampled trace works in that trace, sampled, if the ids are
not negative – and with the parent the client's headers name. -/
theorem C100_served (nilErr : Bool) (s : Nat) (view : SpanView) (cl : Header → DoRes) (req : OutReq) (h hd : Header) (hq : req.header = some h)
    (hs : .send hd ∈ (traceRequest nilErr s view cl req).1) (hv : view.sampled = true) (h0 : 0 ≤ view.traceId) (h1 : 0 ≤ view.parentId.getD view.id)
    (allowed : List Str) (e : Env) (hdl : Handler) (r : Request) (hr : r.header = hd) (ho : ∀ o ∈ e.obs, KeepsSpan o) :
    ∃ sm rest, (serveHTTP allowed e hdl r).1 = .announce view.traceId true :: .start e.s ⟨e.id, view.traceId, some (view.parentId.getD view.id), sm⟩ :: rest := by
  obtain ⟨tid, pid, sm, sm', rest, hl, _, hval, _⟩ := C99_span allowed e hdl r ho
  have hV := (C100_headers nilErr s view cl req h hd hq hs).2.2.2 hv h0 h1
  obtain ⟨g1, g2, g3⟩ := hval _ _ _ (hr ▸ hV)
  rw [(fmtX_num 0 view.traceId h0).2] at g1
  rw [(fmtX_num 0 _ h1).2] at g2
  rw [hl, g1, g2, g3.2 rfl]
  exact ⟨_, _, rfl⟩

/-- C100 fails for a request without headers, as `&http.Request{…}` makes, in a sampled trace: `TraceRequest` panics and sends nothing. -/
theorem C100_nil_header_violated (nilErr : Bool) (s : Nat) (view : SpanView) (cl : Header → DoRes) (req : OutReq) (hq : req.header = none)
    (hv : view.sampled = true) :
    (traceRequest nilErr s view cl req).2 = .panic (some 1) ∧ ∀ hd, .send hd ∉ (traceRequest nilErr s view cl req).1 := by
  have : fromSpan view = ⟨some view.traceId, some (view.parentId.getD view.id), true, none⟩ := by simp [fromSpan, hv]
  unfold traceRequest
  simp only [hq, clientHeader, this]
  exact ⟨rfl, by simp⟩

/-- C100 fails for a client that does `panic(nil)` in Go modules of before Go 1.21: `TraceRequest` returns neither a response nor an error. -/
theorem C100_panic_nil_violated (s : Nat) (view : SpanView) (req : OutReq) (h : Header) (hq : req.header = some h) :
    (traceRequest false s view (fun _ => .panic none) req).2 = .nothing := by
  unfold traceRequest
  simp only [hq]
  rfl

/-! ## Examples -/

/-- A request that carries a trace, baggage of two keys of which one is allowed, and a handler that adds a header, an annotation, a status and a body. -/
def exReq : Request := ⟨⟨b!"00-0000000000000005-00000006-1", b!"", b!"k=v,x=y,k=w"⟩, b!"/p", Ctx.background.withValue 1 2⟩

/-- The handler of the example. -/
def exHandler : Handler := fun _ _ => ([.header b!"A" b!"b", .annotate b!"n" b!"m", .op (.writeHeader 404), .op .write, .op .flush], none)

example : (∀ o ∈ plainEnv.obs, KeepsSpan o) ∧ (∀ m, (plainEnv.order m).Perm m) ∧
    notes 0 (serveHTTP [b!"k"] plainEnv exHandler exReq).1 =
      [(b!"k", b!"w"), (b!"http.uri", b!"/p"), (b!"n", b!"m"), (b!"http.responsecode", b!"404")] ∧
    .start 0 ⟨8, 5, some 6, true⟩ ∈ (serveHTTP [b!"k"] plainEnv exHandler exReq).1 ∧
    sentHeader b!"A" (serveHTTP [b!"k"] plainEnv exHandler exReq).1 = some b!"b" ∧
    sentHeader b!"Trace-Id" (serveHTTP [b!"k"] plainEnv exHandler exReq).1 = none :=
  ⟨by simp [plainEnv], fun _ => List.Perm.refl _, by decide +kernel, .tail _ (.head _), by decide +kernel, by decide +kernel⟩

example : AsksAlone ⟨b!"", b!"a=b,sampled=true", b!""⟩ ∧
    sentHeader b!"Trace-Id" (serveHTTP [] { plainEnv with traceId := 255 } exHandler ⟨⟨b!"", b!"a=b,sampled=true", b!""⟩, b!"/", .background⟩).1 = some b!"ff" :=
  ⟨⟨rfl, b!"a=b,", b!"", rfl⟩, by decide +kernel⟩

example : (traceRequest false 0 ⟨8, 5, none, true⟩ (fun _ => .resp 200) ⟨b!"GET", b!"http://x/", some ⟨b!"", b!"", b!""⟩⟩).2 = .resp 200 ∧
    notes 0 (traceRequest false 0 ⟨8, 5, none, true⟩ (fun _ => .resp 200) ⟨b!"GET", b!"http://x/", some ⟨b!"", b!"", b!""⟩⟩).1 =
      [(b!"http.uri", b!"http://x/"), (b!"http.responsecode", b!"200")] ∧
    .send ⟨b!"00-0000000000000005-00000008-1", b!"", b!""⟩ ∈
      (traceRequest false 0 ⟨8, 5, none, true⟩ (fun _ => .resp 200) ⟨b!"GET", b!"http://x/", some ⟨b!"", b!"", b!""⟩⟩).1 := by
  refine ⟨rfl, by decide +kernel, ?_⟩
  have : setHeader (fromSpan ⟨8, 5, none, true⟩) [] ⟨b!"", b!"", b!""⟩ = ⟨b!"00-0000000000000005-00000008-1", b!"", b!""⟩ := by decide +kernel
  rw [← this]
  exact .tail _ (.tail _ (.head _))

end Monkit.TraceHttp
