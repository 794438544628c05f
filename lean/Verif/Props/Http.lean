import Verif.Spec.Http
import Verif.Props.Path
import Verif.Props.Buffered

/-!
# C92: what an HTTP client gets
-/

namespace Monkit.Http
open Go
open Monkit.Buffered (Prog)
open Monkit.Buffered.Spec (wants)
open Monkit.Path (Env Query Presenter Answer fromRequest)
open Monkit.Path.Spec (Segments Row TraceRow BadQuery)
open Spec

/-- **C92**, bad requests: a trace asked for with an unusable query, and nothing else, gives status 400. -/
theorem C92_bad_request (env : Env) (prog : Presenter → Prog) (message path : Str) (q : Query) (segs : List Str) (h : Segments path segs) :
    (serve env prog message path q).status = 400 ↔ segs[0]? = some b!"trace" ∧ BadQuery env q := by
  rw [← Path.C57_bad_request_iff env q h]
  unfold serve
  cases fromRequest env path q <;> simp [httpError, getStatusCode]

/-- **C92**, unknown paths, and nothing else, give status 404. -/
theorem C92_not_found (env : Env) (prog : Presenter → Prog) (message path : Str) (q : Query) (segs : List Str) (h : Segments path segs) :
    (serve env prog message path q).status = 404 ↔
      (segs[0]? ≠ some b!"trace" ∧ ∀ p ct, ¬Row (segs[0]?.getD []) (segs[1]?.getD []) p ct) ∨
      (segs[0]? = some b!"trace" ∧ ¬BadQuery env q ∧ segs[1]?.getD [] ∉ [b!"svg", b!"json", b!"remote"]) := by
  have e : (serve env prog message path q).status = 404 ↔ fromRequest env path q = .notFound := by
    unfold serve
    cases fromRequest env path q <;> simp [httpError, getStatusCode]
  rw [e]
  have ha := Path.C57_answer env path q segs h
  have hs : segs[0]? = some b!"trace" ↔ segs[0]?.getD [] = b!"trace" := by cases segs[0]? <;> simp
  rw [Ne, hs]
  generalize fromRequest env path q = a at ha
  generalize segs[0]?.getD [] = x at ha
  generalize segs[1]?.getD [] = y at ha
  have nt : ∀ y p ct, ¬Row b!"trace" y p ct := by intro y p ct h; cases h
  cases ha with
  | row hr =>
    refine ⟨fun h => by simp at h, ?_⟩
    rintro (⟨_, h2⟩ | ⟨rfl, _⟩)
    · exact absurd hr (h2 _ _)
    · exact absurd hr (nt _ _ _)
  | bad hb =>
    refine ⟨fun h => by simp at h, ?_⟩
    rintro (⟨h1, _⟩ | ⟨_, h2, _⟩)
    · exact absurd rfl h1
    · exact absurd hb h2
  | trace hb hm ht =>
    refine ⟨fun h => by simp at h, ?_⟩
    rintro (⟨h1, _⟩ | ⟨_, _, h3⟩)
    · exact absurd rfl h1
    · exfalso; cases ht <;> simp at h3
  | unknownTrace hb hy => exact ⟨fun _ => .inr ⟨rfl, hb, hy⟩, fun _ => rfl⟩
  | unknown hx hn => exact ⟨fun _ => .inl ⟨hx, hn⟩, fun _ => rfl⟩

/-- **C92**, the text of errors, which are sent as text. -/
theorem C92_error_text (env : Env) (prog : Presenter → Prog) (message path : Str) (q : Query) :
    ((serve env prog message path q).status = 400 → (serve env prog message path q).body = b!"Bad Request: " ++ message ++ b!"\n") ∧
    ((serve env prog message path q).status = 404 → (serve env prog message path q).body = b!"Not Found: path not found: " ++ path ++ b!"\n") ∧
    ((serve env prog message path q).status ≠ 200 → (serve env prog message path q).contentType = b!"text/plain; charset=utf-8") := by
  unfold serve
  cases fromRequest env path q <;> simp [httpError, getStatusCode, errorText, kindText]

theorem serve_found (env : Env) (prog : Presenter → Prog) (message path : Str) (q : Query) (p : Presenter) (ct : Str)
    (h : fromRequest env path q = .found p ct) (hp : (wants (prog p)).2 = none) :
    serve env prog message path q = ⟨200, ct, (wants (prog p)).1⟩ := by
  unfold serve
  rw [h]
  simp only
  rw [(Buffered.C76_complete _ _ (Buffered.C76_succeeds _ _ (fun _ => rfl) hp)).1]

/-- **C92**, results: if the path is one of the known ones and its presenter succeeds, the client gets status 200, the content type of the path and the whole
document, whatever the query.

Partial: nothing is said about presenters that fail; see `C92_failure_violated`. -/
theorem C92_result_partial (env : Env) (prog : Presenter → Prog) (message path : Str) (q : Query) (segs : List Str) (h : Segments path segs) (p : Presenter) (ct : Str)
    (hr : Row (segs[0]?.getD []) (segs[1]?.getD []) p ct) (hp : (wants (prog p)).2 = none) :
    serve env prog message path q = ⟨200, ct, (wants (prog p)).1⟩ := by
  have ha := Path.C57_answer env path q segs h
  generalize hf : fromRequest env path q = a at ha
  generalize segs[0]?.getD [] = x at ha hr
  generalize segs[1]?.getD [] = y at ha hr
  cases ha with
  | row hr' =>
    rename_i p' ct'
    have : p' = p ∧ ct' = ct := by cases hr' <;> cases hr <;> exact ⟨rfl, rfl⟩
    obtain ⟨rfl, rfl⟩ := this
    exact serve_found env prog message path q _ _ hf hp
  | bad _ => cases hr
  | trace _ _ _ => cases hr
  | unknownTrace _ _ => cases hr
  | unknown _ hn => exact absurd hr (hn _ _)

/-- **C92**, traces: if the query is usable, the path names a form of traces and its presenter succeeds, the client gets status 200, the content type of the
form and what the presenter of the spans asked for writes.

Partial: nothing is said about presenters that fail. -/
theorem C92_trace_partial (env : Env) (prog : Presenter → Prog) (message path : Str) (q : Query) (segs : List Str) (h : Segments path segs)
    (h0 : segs[0]? = some b!"trace") (hq : ¬BadQuery env q) (h1 : segs[1]?.getD [] ∈ [b!"svg", b!"json", b!"remote"]) :
    ∃ m p ct, (∀ s, m s = true ↔ Path.Spec.Wanted env q s) ∧ TraceRow env q m (segs[1]?.getD []) p ct ∧
      ((wants (prog p)).2 = none → serve env prog message path q = ⟨200, ct, (wants (prog p)).1⟩) := by
  have ha := Path.C57_answer env path q segs h
  rw [h0] at ha
  generalize hf : fromRequest env path q = a at ha
  generalize segs[1]?.getD [] = y at ha h1 ⊢
  simp only [Option.getD_some] at ha
  cases ha with
  | row hr' => cases hr'
  | bad hb => exact absurd hb hq
  | trace _ hm ht => exact ⟨_, _, _, hm, ht, fun hp => serve_found env prog message path q _ _ hf hp⟩
  | unknownTrace _ hy => exact absurd h1 hy
  | unknown hx _ => exact absurd rfl hx

/-! ## Failing presenters -/

theorem wants_elems {α : Type} (marshal : α → Except Nat Str) (sep : Str) (l : List α) (s : ListWriter.State) (h1 : s.err = none) (h2 : s.sep = sep) :
    (ListWriter.done (fun _ => .ok) (l.foldl (ListWriter.elem marshal fun _ => .ok) s)).1 = s.out ++ (wants (elemsProg marshal sep l)).1 ∧
    ((ListWriter.done (fun _ => .ok) (l.foldl (ListWriter.elem marshal fun _ => .ok) s)).2 = none ↔ (wants (elemsProg marshal sep l)).2 = none) := by
  induction l generalizing s sep with
  | nil => simp [elemsProg, wants, ListWriter.done, h1, ListWriter.fprint]
  | cons x l ih =>
    rw [List.foldl_cons, elemsProg]
    cases hx : marshal x with
    | error e =>
      have e1 : ListWriter.elem marshal (fun _ => .ok) s x = { s with err := some (.marshal e) } := by simp [ListWriter.elem, h1, hx]
      have stuck : ∀ (l : List α) (s : ListWriter.State) (e : ListWriter.Err), s.err = some e → l.foldl (ListWriter.elem marshal fun _ => .ok) s = s := by
        intro l
        induction l with
        | nil => intros; rfl
        | cons y l ih => intro s e he; rw [List.foldl_cons, show ListWriter.elem marshal (fun _ => .ok) s y = s by simp [ListWriter.elem, he]]; exact ih s e he
      rw [e1, stuck l _ _ rfl]
      simp [ListWriter.done, wants]
    | ok d =>
      have e1 : ListWriter.elem marshal (fun _ => .ok) s x = ⟨s.out ++ (s.sep ++ b!" " ++ d), s.calls + 1, none, b!",\n"⟩ := by
        simp [ListWriter.elem, h1, hx, ListWriter.fprint]
      rw [e1]
      obtain ⟨i1, i2⟩ := ih b!",\n" ⟨s.out ++ (s.sep ++ b!" " ++ d), s.calls + 1, none, b!",\n"⟩ rfl rfl
      rw [i1, i2]
      simp [wants, h2]

/-- The program of writes is what the list writer of `Model/ListWriter` does on a writer that takes everything. -/
theorem wants_list {α : Type} (marshal : α → Except Nat Str) (l : List α) :
    (wants (listProg marshal l)).1 = (ListWriter.writeList marshal (fun _ => .ok) l).1 ∧
    ((wants (listProg marshal l)).2 = none ↔ (ListWriter.writeList marshal (fun _ => .ok) l).2 = none) := by
  obtain ⟨h1, h2⟩ := wants_elems marshal b!"\n" l (ListWriter.new fun _ => .ok) rfl rfl
  unfold ListWriter.writeList
  rw [h1, h2]
  exact ⟨rfl, Iff.rfl⟩

/-- **C92** fails when a presenter fails: JSON has no NaN, so if the first statistic is NaN, `StatsJSON` returns an error, but the client gets status 200,
the content type of JSON and nothing else. -/
theorem C92_failure_violated (env : Env) (message : Str) (q : Query) (marshal : Key × Str × FVal → Except Nat Str) (stats : List (Key × Str × FVal))
    (prog : Presenter → Prog) (hprog : prog .statsJSON = listProg marshal stats)
    (hm : ∀ k f, ∃ e, marshal (k, f, .nan) = .error e) (k : Key) (f : Str) (h : stats.head? = some (k, f, .nan)) :
    (wants (prog .statsJSON)).2 ≠ none ∧ serve env prog message b!"/stats/json" q = ⟨200, Path.json, []⟩ := by
  obtain ⟨e, he⟩ := hm k f
  obtain ⟨rest, rfl⟩ : ∃ rest, stats = (k, f, .nan) :: rest := by
    cases stats with
    | nil => simp at h
    | cons x r => exact ⟨r, by simp at h; rw [h]⟩
  have hp : listProg marshal ((k, f, .nan) :: rest) = .write b!"[" fun | none => .ret (some e) | some e => .ret (some e) := by
    unfold listProg
    congr 1
    funext x
    cases x with
    | none => simp only [elemsProg]; rw [he]
    | some y => rfl
  have hr : fromRequest env b!"/stats/json" q = .found .statsJSON Path.json := rfl
  refine ⟨?_, ?_⟩
  · rw [hprog, hp]; simp [wants]
  · unfold serve
    rw [hr]
    simp only
    rw [hprog, hp]
    rfl

/-- Statistics and an encoder as in `C92_failure_violated`; an encoder and statistics that succeed as in `C92_result_partial`. -/
example : ∃ (marshal : Key × Str × FVal → Except Nat Str) (stats : List (Key × Str × FVal)) (k : Key) (f : Str),
    (∀ k f, ∃ e, marshal (k, f, .nan) = .error e) ∧ stats.head? = some (k, f, .nan) ∧
    (wants (listProg marshal [(⟨b!"a", []⟩, b!"count", .int 3)])).2 = none ∧ (wants (listProg marshal [(⟨b!"a", []⟩, b!"count", .int 3)])).1 = b!"[\n 3]\n" :=
  ⟨fun x => match x.2.2 with | .nan => .error 7 | _ => .ok b!"3", [(⟨b!"a", []⟩, b!"avg", .nan)], ⟨b!"a", []⟩, b!"avg", fun _ _ => ⟨7, rfl⟩, rfl, rfl, rfl⟩

/-! ## The index page -/

/-- The longest beginning without a quote. -/
def upTo : Str → Str
  | [] => []
  | c :: s => if c = 34 then [] else c :: upTo s

theorem upTo_append {l r : Str} (h : (34 : UInt8) ∉ l) : upTo (l ++ 34 :: r) = l := by
  induction l with
  | nil => simp [upTo]
  | cons c l ih =>
    have : c ≠ 34 := fun e => h (by simp [e])
    simp [upTo, this, ih (by simp_all)]

/-- What follows each `<a href="`. -/
def links : Str → List Str
  | [] => []
  | c :: s => if b!"<a href=\"".isPrefixOf (c :: s) then upTo ((c :: s).drop 9) :: links s else links s

theorem hasLink_links {page l : Str} (h : HasLink page l) : l ∈ links page := by
  obtain ⟨before, after, rfl, hl⟩ := h
  induction before with
  | nil =>
    have : (b!"" ++ b!"<a href=\"" ++ l ++ b!"\">" ++ after) = b!"<a href=\"" ++ (l ++ 34 :: (b!">" ++ after)) := by simp
    rw [this]
    have e : links (b!"<a href=\"" ++ (l ++ 34 :: (b!">" ++ after))) = upTo (l ++ 34 :: (b!">" ++ after)) :: links (b!"a href=\"" ++ (l ++ 34 :: (b!">" ++ after))) := by
      rw [show b!"<a href=\"" ++ (l ++ 34 :: (b!">" ++ after)) = 60 :: (b!"a href=\"" ++ (l ++ 34 :: (b!">" ++ after))) from rfl, links, if_pos (by simp)]
      rfl
    rw [e, upTo_append hl]
    simp
  | cons c before ih =>
    simp only [List.cons_append]
    rw [links]
    split
    · exact List.mem_cons_of_mem _ ih
    · exact ih

/-- The path to which a link of the page at "/" leads. -/
def target (l : Str) : Str := b!"/" ++ l

theorem links_index : links indexPage =
    [b!"ps", b!"ps/json", b!"ps/dot", b!"funcs", b!"funcs/json", b!"funcs/dot", b!"stats", b!"stats/json", b!"stats/svg", b!"trace/json", b!"trace/svg"] := by
  decide +kernel

/-- **C92**, the index page: every link on it but one leads to a presenter and is answered with status 200, the trace links if their query is usable.

Partial: `stats/svg` is excepted; see `C92_index_violated`. -/
theorem C92_index_partial (env : Env) (q : Query) (hq : ¬BadQuery env q) (l : Str) (h : HasLink indexPage l) (hl : l ≠ b!"stats/svg") :
    (∃ p ct, fromRequest env (target l) q = .found p ct) ∧ ∀ prog message, (serve env prog message (target l) q).status = 200 := by
  suffices h : ∃ p ct, fromRequest env (target l) q = .found p ct by
    refine ⟨h, fun prog message => ?_⟩
    obtain ⟨p, ct, h⟩ := h
    unfold serve
    rw [h]
  have hm := hasLink_links h
  rw [links_index] at hm
  have tr : Path.spanMatcher env q ≠ none := by
    intro h0
    rcases Path.spanMatcher_spec env q with h | h
    · exact hq h.2
    · obtain ⟨m, h, _⟩ := h; rw [h0] at h; cases h
  obtain ⟨m, hm'⟩ := Option.ne_none_iff_exists'.1 tr
  simp only [List.mem_cons, List.not_mem_nil, or_false] at hm
  rcases hm with rfl | rfl | rfl | rfl | rfl | rfl | rfl | rfl | rfl | rfl | rfl
  · exact ⟨_, _, rfl⟩
  · exact ⟨_, _, rfl⟩
  · exact ⟨_, _, rfl⟩
  · exact ⟨_, _, rfl⟩
  · exact ⟨_, _, rfl⟩
  · exact ⟨_, _, rfl⟩
  · exact ⟨_, _, rfl⟩
  · exact ⟨_, _, rfl⟩
  · exact absurd rfl hl
  · exact ⟨.traceJSON m, Path.json, by
      have : fromRequest env (target b!"trace/json") q = match Path.spanMatcher env q with | none => .badRequest | some m => .found (.traceJSON m) Path.json := rfl
      rw [this, hm']⟩
  · exact ⟨.traceSVG m, b!"image/svg+xml; charset=utf-8", by
      have : fromRequest env (target b!"trace/svg") q = match Path.spanMatcher env q with | none => .badRequest | some m => .found (.traceSVG m) b!"image/svg+xml; charset=utf-8" := rfl
      rw [this, hm']⟩

/-- **C92** fails for the link to `/stats/svg`: whatever the query, it is answered with status 404. -/
theorem C92_index_violated : ∃ l, HasLink indexPage l ∧ ∀ env prog message q, (serve env prog message (target l) q).status = 404 := by
  refine ⟨b!"stats/svg", ⟨(indexLines.take 20).flatten ++ b!"\t\t\t<dt>", b!"/stats/svg</a></dt>\n" ++ (indexLines.drop 21).flatten, ?_, by decide⟩, fun _ _ _ _ => rfl⟩
  decide +kernel

/-- A link as in `C92_index_partial`. -/
example : HasLink indexPage b!"trace/json" :=
  ⟨(indexLines.take 23).flatten ++ b!"\t\t\t<dt>", b!"/trace/json</a></dt>\n" ++ (indexLines.drop 24).flatten, by decide +kernel, by decide⟩

/-- The page is what the index presenter writes, and its links that work are not few. -/
example : wants indexProg = (indexPage, none) ∧ (links indexPage).length = 11 := ⟨by simp [indexProg, wants], by rw [links_index]; rfl⟩

end Monkit.Http
