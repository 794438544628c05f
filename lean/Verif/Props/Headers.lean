import Verif.Proofs.Headers

/-!
# C50-C52, C69: trace headers
-/

namespace Monkit.Headers
open Go Spec

/-- What `TraceInfoFromHeader` gives for a traceparent made of four hexadecimal numbers. -/
theorem fromHeader_valid {h : Header} {allowed : List Str} {trace parent flags : Nat} (hv : Valid h.traceparent trace parent flags) :
    fromHeader h allowed = ⟨some (asInt64 trace), some (asInt64 parent), decide (flags % 2 = 1),
      some (if h.baggage ≠ [] then importBaggage allowed [] (Callers.split 44 [] h.baggage) else [])⟩ := by
  obtain ⟨p0, p1, p2, p3, hp, h0, h1, h2, h3⟩ := hv
  have hne : h.traceparent ≠ [] := by
    intro e
    rw [hp.2.2, intercalate_cons₂] at e
    simp at e
  have hflag : (((asInt64 flags).toUInt64.toUInt8 &&& 1) == 1) = decide (flags % 2 = 1) := by
    have e : (asInt64 flags).toUInt64 = UInt64.ofNat flags := by simp [asInt64]
    rw [e]
    have : ((UInt64.ofNat flags).toUInt8 &&& 1).toNat = flags % 2 := by
      rw [UInt8.toNat_and]
      simp only [UInt64.toNat_toUInt8, UInt64.toNat_ofNat', show (1 : UInt8).toNat = 1 from rfl, Nat.and_one_is_mod]
      have := h3.2.2
      omega
    rw [Bool.eq_iff_iff]
    simp only [beq_iff_eq, decide_eq_true_eq, ← this]
    rw [← UInt8.toNat_inj]; rfl
  unfold fromHeader
  rw [if_pos hne, split_iff.2 hp]
  simp only [hex_some.2 ⟨0, h0, rfl⟩, hex_some.2 ⟨trace, h1, rfl⟩, hex_some.2 ⟨parent, h2, rfl⟩, hex_some.2 ⟨flags, h3, rfl⟩, hflag]
  rw [if_neg (by decide)]

/-- **C51**, what is accepted: a traceparent of four dash-separated hexadecimal numbers of at most 64 bits, the first of them 0, gives the
second and third as ids and the lowest bit of the fourth as sampled. -/
theorem C51_accepted (h : Header) (allowed : List Str) (trace parent flags : Nat) (hv : Valid h.traceparent trace parent flags) :
    (fromHeader h allowed).traceId = some (asInt64 trace) ∧ (fromHeader h allowed).parentId = some (asInt64 parent) ∧
      ((fromHeader h allowed).sampled = true ↔ flags % 2 = 1) := by
  rw [fromHeader_valid hv]
  simp

/-- **C51**, what is rejected: every other traceparent gives nothing at all, whatever the other headers say. -/
theorem C51_rejected (h : Header) (allowed : List Str) (hne : h.traceparent ≠ b!"") (hv : ∀ t p f, ¬ Valid h.traceparent t p f) :
    fromHeader h allowed = TraceInfo.empty := by
  have hsp := split_iff.1 (rfl : Callers.split 45 [] h.traceparent = _)
  unfold fromHeader
  rw [if_pos hne]
  split
  · rename_i p0 p1 p2 p3 hs
    rw [hs] at hsp
    split
    · rfl
    · rename_i v0 e0
      obtain ⟨n0, g0, rfl⟩ := hex_some.1 e0
      split
      · rfl
      · rename_i hz
        have hz : asInt64 n0 = asInt64 0 := Decidable.of_not_not hz
        have hz := asInt64_inj g0.2.2 (by omega) hz
        subst hz
        split
        · rfl
        · rename_i v1 e1
          obtain ⟨n1, g1, rfl⟩ := hex_some.1 e1
          split
          · rfl
          · rename_i v2 e2
            obtain ⟨n2, g2, rfl⟩ := hex_some.1 e2
            split
            · rfl
            · rename_i v3 e3
              obtain ⟨n3, g3, rfl⟩ := hex_some.1 e3
              exact absurd ⟨p0, p1, p2, p3, hsp, g0, g1, g2, g3⟩ (hv n1 n2 n3)
  · rfl

/-- **C51**, without a traceparent: no ids, no baggage, and sampled exactly if the tracestate contains "sampled=true". -/
theorem C51_absent (h : Header) (allowed : List Str) (he : h.traceparent = b!"") :
    (fromHeader h allowed).traceId = none ∧ (fromHeader h allowed).parentId = none ∧ (fromHeader h allowed).baggage = none ∧
      ((fromHeader h allowed).sampled = true ↔ ∃ a b, h.tracestate = a ++ b!"sampled=true" ++ b) := by
  unfold fromHeader
  rw [if_neg (by simp [he])]
  have := contains_iff (sub := b!"sampled=true") (s := h.tracestate)
  split
  · rename_i hc; exact ⟨rfl, rfl, rfl, by rw [← this]; simp [hc]⟩
  · rename_i hc; exact ⟨rfl, rfl, rfl, by rw [← this]; simp [TraceInfo.empty, hc]⟩

/-- **C51**, ids are given all or none. -/
theorem C51_all_or_none (h : Header) (allowed : List Str) :
    ((fromHeader h allowed).traceId.isSome ↔ ∃ t p f, Valid h.traceparent t p f) ∧
      (fromHeader h allowed).parentId.isSome = (fromHeader h allowed).traceId.isSome := by
  by_cases hv : ∃ t p f, Valid h.traceparent t p f
  · obtain ⟨t, p, f, hv⟩ := hv
    rw [fromHeader_valid hv]
    simp
    exact ⟨t, p, f, hv⟩
  · by_cases he : h.traceparent = b!""
    · obtain ⟨h1, h2, _⟩ := C51_absent h allowed he
      rw [h1, h2]; simp
      intro t p f hv'; exact hv ⟨t, p, f, hv'⟩
    · rw [C51_rejected h allowed he (fun t p f hv' => hv ⟨t, p, f, hv'⟩)]
      simp [TraceInfo.empty]
      intro t p f hv'; exact hv ⟨t, p, f, hv'⟩

/-- The traceparent written for ids that are not negative. -/
theorem setHeader_valid {r : TraceInfo} {t p : Int64} (ht : r.traceId = some t) (hp : r.parentId = some p) (h0 : 0 ≤ t) (h1 : 0 ≤ p)
    (order : List (Str × Str)) (h : Header) :
    Valid (setHeader r order h).traceparent t.toInt.toNat p.toInt.toNat (if r.sampled then 1 else 0) := by
  obtain ⟨a1, _⟩ := fmtX_num 16 t h0
  obtain ⟨a2, _⟩ := fmtX_num 8 p h1
  have hd0 : Digits b!"00" 0 := by
    have := Digits.cons (Digit.dec 0 (by omega)) (Digits.cons (Digit.dec 0 (by omega)) .nil)
    simpa using this
  have hd3 : HexNum (if r.sampled then b!"1" else b!"0") (if r.sampled then 1 else 0) := by
    cases r.sampled
    · have := Digits.cons (Digit.dec 0 (by omega)) .nil
      exact ⟨by simp, by simpa using this, by simp⟩
    · have := Digits.cons (Digit.dec 1 (by omega)) .nil
      exact ⟨by simp, by simpa using this, by simp⟩
  refine ⟨b!"00", fmtX 16 t, fmtX 8 p, if r.sampled then b!"1" else b!"0", ⟨by simp, ?_, ?_⟩, ⟨by simp, hd0, by omega⟩, a1, a2, hd3⟩
  · intro x hx
    simp only [List.mem_cons, List.not_mem_nil, or_false] at hx
    rcases hx with rfl | rfl | rfl | rfl
    · exact digits_nodash hd0
    · exact digits_nodash a1.2.1
    · exact digits_nodash a2.2.1
    · exact digits_nodash hd3.2.1
  · have : (setHeader r order h).traceparent = b!"00-" ++ fmtX 16 t ++ b!"-" ++ fmtX 8 p ++ b!"-" ++ (if r.sampled then b!"1" else b!"0") := by
      unfold setHeader
      rw [ht, hp]
      cases r.baggage <;> rfl
    rw [this, intercalate_cons₂, intercalate_cons₂, intercalate_cons₂, intercalate_one]
    simp

/-- **C50**.  Reading the headers written for a trace id and a parent id gives these ids and the same sampled flag, for all ids that are not
negative, whatever was in the header before.

Partial: the full statement is for all ids a span can carry, which may be negative; see `C50_negative_violated`. -/
theorem C50_round_trip_partial (r : TraceInfo) (t p : Int64) (ht : r.traceId = some t) (hp : r.parentId = some p) (h0 : 0 ≤ t) (h1 : 0 ≤ p)
    (order : List (Str × Str)) (h : Header) (allowed : List Str) :
    (fromHeader (setHeader r order h) allowed).traceId = some t ∧ (fromHeader (setHeader r order h) allowed).parentId = some p ∧
      (fromHeader (setHeader r order h) allowed).sampled = r.sampled := by
  rw [fromHeader_valid (setHeader_valid ht hp h0 h1 order h)]
  refine ⟨by rw [(fmtX_num 16 t h0).2], by rw [(fmtX_num 16 p h1).2], ?_⟩
  cases r.sampled <;> rfl

/-- C50 fails for every negative id: the minus sign is taken for a separator, and the receiver sees nothing, not even the sampled flag. -/
theorem C50_negative_violated (r : TraceInfo) (t p : Int64) (ht : r.traceId = some t) (hp : r.parentId = some p) (hneg : t < 0 ∨ p < 0)
    (order : List (Str × Str)) (h : Header) (allowed : List Str) : fromHeader (setHeader r order h) allowed = TraceInfo.empty := by
  have htp : (setHeader r order h).traceparent = b!"00-" ++ fmtX 16 t ++ b!"-" ++ fmtX 8 p ++ b!"-" ++ (if r.sampled then b!"1" else b!"0") := by
    unfold setHeader
    rw [ht, hp]
    cases r.baggage <;> rfl
  apply C51_rejected
  · rw [htp]; simp
  · rintro t' p' f ⟨p0, p1, p2, p3, hpc, _⟩
    -- the number of dashes
    have cnt : ∀ (ps : List Str), Pieces 45 (setHeader r order h).traceparent ps → (setHeader r order h).traceparent.count 45 + 1 = ps.length := by
      intro ps ⟨g1, g2, g3⟩
      rw [g3]
      clear g3 hpc
      induction ps with
      | nil => exact absurd rfl g1
      | cons q ps ih =>
        have hq : q.count 45 = 0 := List.count_eq_zero.2 (g2 q (by simp))
        cases ps with
        | nil => rw [intercalate_one, hq]; rfl
        | cons q' ps =>
          rw [intercalate_cons₂, List.count_append, List.count_append, hq]
          have := ih (by simp) (fun x hx => g2 x (by simp [hx]))
          simp only [List.length_cons] at this ⊢
          have e : List.count (45 : UInt8) [45] = 1 := by decide
          rw [e]; omega
    have c4 := cnt _ hpc
    rw [htp] at c4
    simp only [List.count_append, List.length_cons, List.length_nil] at c4
    have e1 : List.count (45 : UInt8) b!"00-" = 1 := by decide
    have e2 : List.count (45 : UInt8) b!"-" = 1 := by decide
    have one : ∀ w v, v < 0 → 1 ≤ (fmtX w v).count 45 := by
      intro w v hv
      obtain ⟨s, _, e, _⟩ := fmtX_neg w v hv
      rw [e, List.count_cons_self]; omega
    rw [e1, e2] at c4
    rcases hneg with hn | hn
    · have := one 16 t hn; omega
    · have := one 8 p hn; omega

/-- **C50**, without both ids: a fresh header conveys the sampled flag alone. -/
theorem C50_sampling_only (r : TraceInfo) (hr : r.traceId = none ∨ r.parentId = none) (order : List (Str × Str)) (allowed : List Str) :
    (fromHeader (setHeader r order ⟨b!"", b!"", b!""⟩) allowed).sampled = r.sampled ∧
      (fromHeader (setHeader r order ⟨b!"", b!"", b!""⟩) allowed).traceId = none := by
  have hs : (setHeader r order ⟨b!"", b!"", b!""⟩).traceparent = b!"" ∧
      (setHeader r order ⟨b!"", b!"", b!""⟩).tracestate = if r.sampled then b!"sampled=true" else b!"" := by
    obtain ⟨t, p, s, b⟩ := r
    rcases hr with rfl | rfl
    · cases s <;> cases b <;> exact ⟨rfl, rfl⟩
    · cases t <;> cases s <;> cases b <;> exact ⟨rfl, rfl⟩
  obtain ⟨h1, h2, h3, h4⟩ := C51_absent (setHeader r order ⟨b!"", b!"", b!""⟩) allowed hs.1
  refine ⟨?_, h1⟩
  rw [Bool.eq_iff_iff, h4, hs.2]
  cases r.sampled
  · simp
  · simp
    exact ⟨[], [], rfl⟩

/-- **C52**, what is imported: exactly the allowed keys, each with the value of its last occurrence. -/
theorem C52_imported (h : Header) (allowed : List Str) (bm : Map Str Str) (hb : (fromHeader h allowed).baggage = some bm) (k v : Str) :
    Map.get bm k = some v ↔ k ∈ allowed ∧ ∃ ps, Pieces 44 h.baggage ps ∧ LastValue ps k v := by
  have hv : ∃ t p f, Valid h.traceparent t p f := by
    apply Classical.byContradiction
    intro hn
    by_cases he : h.traceparent = b!""
    · rw [(C51_absent h allowed he).2.2.1] at hb; cases hb
    · rw [C51_rejected h allowed he (fun t p f hv' => hn ⟨t, p, f, hv'⟩)] at hb; cases hb
  obtain ⟨t, p, f, hv⟩ := hv
  rw [fromHeader_valid hv] at hb
  simp only [Option.some.injEq] at hb
  have hps := split_iff.1 (rfl : Callers.split 44 [] h.baggage = _)
  have hex : (∃ ps, Pieces 44 h.baggage ps ∧ LastValue ps k v) ↔ LastValue (Callers.split 44 [] h.baggage) k v :=
    ⟨fun ⟨ps, h1, h2⟩ => by rw [pieces_unique hps h1]; exact h2, fun h => ⟨_, hps, h⟩⟩
  rw [hex, ← hb]
  split
  · rw [import_get]; simp
  · rename_i hne
    have hne : h.baggage = [] := by simpa using hne
    rw [hne]
    simp only [Map.get_nil]
    constructor
    · intro h; cases h
    · rintro ⟨_, b, x, a, h1, h2, _⟩
      have : x ∈ Callers.split 44 [] [] := by rw [h1]; simp
      simp [Callers.split] at this
      subst this
      have := h2.1
      simp at this

/-- **C52**, round trip: the baggage written along with ids that are not negative, if no key or value has a comma and no key an equals sign,
is read back exactly, restricted to the allowed keys, whatever the order in which it was written.

Partial: without both ids, or with negative ones, no baggage is read; see `C52_without_ids_violated`. -/
theorem C52_round_trip_partial (r : TraceInfo) (t p : Int64) (ht : r.traceId = some t) (hp : r.parentId = some p) (h0 : 0 ≤ t) (h1 : 0 ≤ p)
    (m : Map Str Str) (hm : r.baggage = some m) (hok : Map.Ok m) (order : List (Str × Str)) (hord : order.Perm m)
    (hclean : ∀ kv ∈ m, (44 : UInt8) ∉ kv.1 ∧ (44 : UInt8) ∉ kv.2 ∧ (61 : UInt8) ∉ kv.1) (h : Header) (allowed : List Str) :
    ∃ bm, (fromHeader (setHeader r order h) allowed).baggage = some bm ∧
      ∀ k, Map.get bm k = if k ∈ allowed then Map.get m k else none := by
  have hv := setHeader_valid ht hp h0 h1 order h
  have hbag : (setHeader r order h).baggage = Callers.join b!"," (order.map fun kv => kv.1 ++ b!"=" ++ kv.2) := by
    unfold setHeader
    rw [ht, hp, hm]
  have hex : ∃ bm, (fromHeader (setHeader r order h) allowed).baggage = some bm := by rw [fromHeader_valid hv]; exact ⟨_, rfl⟩
  obtain ⟨bm, hbm⟩ := hex
  refine ⟨bm, hbm, ?_⟩
  have himp := C52_imported _ allowed bm hbm
  have hok' : Map.Ok order := Map.ok_perm hord.symm hok
  have hcl : ∀ kv ∈ order, (44 : UInt8) ∉ kv.1 ∧ (44 : UInt8) ∉ kv.2 ∧ (61 : UInt8) ∉ kv.1 := fun kv hkv => hclean kv (hord.mem_iff.1 hkv)
  -- the value read for a key
  have hlast : ∀ k v, (∃ ps, Pieces 44 (setHeader r order h).baggage ps ∧ LastValue ps k v) ↔ (k, v) ∈ order := by
    intro k v
    rw [hbag, join_intercalate]
    by_cases hne : order = []
    · subst hne
      constructor
      · rintro ⟨ps, hps, b, x, a, h1, h2, _⟩
        have hp1 : Pieces 44 ([44].intercalate (List.map (fun kv : Str × Str => kv.1 ++ b!"=" ++ kv.2) [])) [[]] := by
          refine ⟨by simp, by simp, by simp [List.intercalate]⟩
        have e := pieces_unique hps hp1
        have : x ∈ ps := by rw [h1]; simp
        rw [e] at this
        simp at this
        subst this
        have := h2.1
        simp at this
      · simp
    · have hp1 : Pieces 44 ([44].intercalate (order.map fun kv => kv.1 ++ b!"=" ++ kv.2)) (order.map fun kv => kv.1 ++ b!"=" ++ kv.2) := by
        refine ⟨by simpa using hne, ?_, rfl⟩
        intro x hx
        obtain ⟨kv, hkv, rfl⟩ := List.mem_map.1 hx
        obtain ⟨g1, g2, _⟩ := hcl kv hkv
        simp [g1, g2]
      have hkv : ∀ kv ∈ order, KeyVal (kv.1 ++ b!"=" ++ kv.2) kv.1 kv.2 := fun kv hkv => ⟨rfl, (hcl kv hkv).2.2⟩
      constructor
      · rintro ⟨ps, hps, b, x, a, g1, g2, _⟩
        have e := pieces_unique hps hp1
        have : x ∈ ps := by rw [g1]; simp
        rw [e] at this
        obtain ⟨kv, hk, rfl⟩ := List.mem_map.1 this
        have := keyVal_unique (hkv kv hk) g2
        obtain ⟨k', v'⟩ := kv
        simp only at this
        rw [← this.1, ← this.2]; exact hk
      · intro hmem
        refine ⟨_, hp1, ?_⟩
        obtain ⟨b, a, hba⟩ := List.append_of_mem hmem
        refine ⟨b.map fun kv => kv.1 ++ b!"=" ++ kv.2, k ++ b!"=" ++ v, a.map fun kv => kv.1 ++ b!"=" ++ kv.2, by rw [hba]; simp, hkv (k, v) hmem, ?_⟩
        intro q hq v' hqv
        obtain ⟨kv, hk, rfl⟩ := List.mem_map.1 hq
        have hk' : kv ∈ order := by rw [hba]; simp [hk]
        have := keyVal_unique (hkv kv hk') hqv
        have hnd : (order.map (·.1)).Nodup := hok'
        rw [hba] at hnd
        simp only [List.map_append, List.map_cons] at hnd
        have := (List.nodup_cons.1 (List.nodup_append.1 hnd).2.1).1
        exact this (by rw [← (keyVal_unique (hkv kv hk') hqv).1]; exact List.mem_map_of_mem hk)
  intro k
  apply Option.ext
  intro v
  rw [himp, hlast]
  by_cases ha : k ∈ allowed
  · rw [if_pos ha, Map.mem_iff_get hok', Map.get_perm hord hok']
    simp [ha]
  · rw [if_neg ha]; simp [ha]

/-- C52 fails without ids: the baggage is written but not read. -/
theorem C52_without_ids_violated (sampled : Bool) (m : Map Str Str) (order : List (Str × Str)) (allowed : List Str) :
    (fromHeader (setHeader ⟨none, none, sampled, some m⟩ order ⟨b!"", b!"", b!""⟩) allowed).baggage = none := by
  refine (C51_absent _ allowed ?_).2.2.1
  cases sampled <;> rfl

/-- **C69**.  A server that gets a request from a sampled client span continues its trace, sampled, and its span is a child of the client's —
if that has no parent itself and its ids are not negative.

Partial: it is not if the client's span has a parent; see `C69_linked_violated`. -/
theorem C69_linked_partial (s : SpanView) (hs : s.sampled = true) (h0 : 0 ≤ s.traceId) (h1 : 0 ≤ s.id) (hp : s.parentId = none)
    (h : Header) (allowed : List Str) (traceId id : Int64) :
    (serve (request s h) allowed traceId id).traceId = s.traceId ∧ (serve (request s h) allowed traceId id).sampled = true ∧
      (serve (request s h) allowed traceId id).parentId = some s.id := by
  have hf : fromSpan s = ⟨some s.traceId, some s.id, true, none⟩ := by simp [fromSpan, hs, hp]
  obtain ⟨g1, g2, g3⟩ := C50_round_trip_partial (fromSpan s) s.traceId s.id (by rw [hf]) (by rw [hf]) h0 h1 [] h allowed
  simp only [serve, request, g1, g2, g3]
  simp [hf]

/-- C69 fails if the client's span has a parent: the server's span becomes a child of that parent, beside the client's span. -/
theorem C69_linked_violated (s : SpanView) (q : Int64) (hs : s.sampled = true) (h0 : 0 ≤ s.traceId) (h1 : 0 ≤ q) (hp : s.parentId = some q)
    (h : Header) (allowed : List Str) (traceId id : Int64) :
    (serve (request s h) allowed traceId id).traceId = s.traceId ∧ (serve (request s h) allowed traceId id).parentId = some q := by
  have hf : fromSpan s = ⟨some s.traceId, some q, true, none⟩ := by simp [fromSpan, hs, hp]
  obtain ⟨g1, g2, g3⟩ := C50_round_trip_partial (fromSpan s) s.traceId q (by rw [hf]) (by rw [hf]) h0 h1 [] h allowed
  simp only [serve, request, g1, g2]
  simp

/-- **C69**, not sampled: a client span whose trace is not sampled conveys nothing; the server starts a trace of its own, not sampled. -/
theorem C69_unsampled (s : SpanView) (hs : s.sampled = false) (allowed : List Str) (traceId id : Int64) :
    serve (request s ⟨b!"", b!"", b!""⟩) allowed traceId id = ⟨id, traceId, some 0, false⟩ := by
  have hf : fromSpan s = ⟨none, none, false, none⟩ := by simp [fromSpan, hs]
  have he : request s ⟨b!"", b!"", b!""⟩ = ⟨b!"", b!"", b!""⟩ := by rw [request, hf]; rfl
  rw [he]; rfl

/-- A chain of servers, each called by the previous one from a span of its own within the span it serves. -/
def chain (h : Header) : List (Int64 × Int64 × Int64) → SpanView → SpanView
  | [], s => s
  | (tid, id, cid) :: rest, s =>
    let server := serve (request s h) [] tid id
    chain h rest ⟨cid, server.traceId, some server.id, server.sampled⟩

/-- **C69**, chains: the trace and its being sampled are passed on along any chain of calls, if no id is negative. -/
theorem C69_chain (h : Header) (l : List (Int64 × Int64 × Int64)) (s : SpanView) (hs : s.sampled = true) (h0 : 0 ≤ s.traceId) (h1 : 0 ≤ s.parentId.getD s.id)
    (hl : ∀ x ∈ l, 0 ≤ x.2.1) : (chain h l s).traceId = s.traceId ∧ (chain h l s).sampled = true := by
  induction l generalizing s with
  | nil => exact ⟨rfl, hs⟩
  | cons x l ih =>
    obtain ⟨tid, id, cid⟩ := x
    have hf : fromSpan s = ⟨some s.traceId, some (s.parentId.getD s.id), true, none⟩ := by simp [fromSpan, hs]
    obtain ⟨g1, g2, g3⟩ := C50_round_trip_partial (fromSpan s) s.traceId (s.parentId.getD s.id) (by rw [hf]) (by rw [hf]) h0 h1 [] h []
    have e1 : (serve (request s h) [] tid id).traceId = s.traceId := by simp only [serve, request, g1]; rfl
    have e2 : (serve (request s h) [] tid id).sampled = true := by simp only [serve, request, g3]; rw [hf]
    have := ih ⟨cid, (serve (request s h) [] tid id).traceId, some (serve (request s h) [] tid id).id, (serve (request s h) [] tid id).sampled⟩ e2
      (by rw [e1]; exact h0) (hl (tid, id, cid) (by simp)) (fun y hy => hl y (by simp [hy]))
    exact ⟨by rw [chain]; exact this.1.trans e1, by rw [chain]; exact this.2⟩

/-! ## Examples -/

/-- A header written and read. -/
example : (setHeader ⟨some 255, some 18, true, some [(b!"k", b!"v=1"), (b!"x", b!"y")]⟩ [(b!"k", b!"v=1"), (b!"x", b!"y")] ⟨[], [], []⟩) =
    ⟨b!"00-00000000000000ff-00000012-1", b!"", b!"k=v=1,x=y"⟩ := by decide +kernel
example : fromHeader ⟨b!"00-00000000000000ff-00000012-1", b!"", b!"k=v=1,x=y"⟩ [b!"k"] =
    ⟨some 255, some 18, true, some [(b!"k", b!"v=1")]⟩ := by decide +kernel
example : Valid b!"00-ff-0-01" 255 0 1 := by
  have h := C51_all_or_none ⟨b!"00-ff-0-01", [], []⟩ []
  refine ⟨b!"00", b!"ff", b!"0", b!"01", ⟨by simp, by decide, by decide⟩, ⟨by simp, ?_, by omega⟩, ⟨by simp, ?_, by omega⟩, ⟨by simp, ?_, by omega⟩, ⟨by simp, ?_, by omega⟩⟩
  · simpa using Digits.cons (Digit.dec 0 (by omega)) (Digits.cons (Digit.dec 0 (by omega)) .nil)
  · simpa using Digits.cons (Digit.lower 5 (by omega)) (Digits.cons (Digit.lower 5 (by omega)) .nil)
  · simpa using Digits.cons (Digit.dec 0 (by omega)) .nil
  · simpa using Digits.cons (Digit.dec 0 (by omega)) (Digits.cons (Digit.dec 1 (by omega)) .nil)
/-- A negative id, which the server itself may have got from a header, is lost on the way to the next one. -/
example : fromHeader ⟨b!"00-ffffffffffffffff-1-1", b!"", b!""⟩ [] = ⟨some (-1), some 1, true, some []⟩ := by decide +kernel
example : setHeader ⟨some (-1), some 1, true, none⟩ [] ⟨[], [], []⟩ = ⟨b!"00--000000000000001-00000001-1", b!"", b!""⟩ := by decide +kernel
/-- A trace id of the 128 bits the W3C recommends is rejected. -/
example : fromHeader ⟨b!"00-0af7651916cd43dd8448eb211c80319c-b7ad6b7169203331-01", b!"", b!""⟩ [] = TraceInfo.empty := by decide +kernel

end Monkit.Headers
