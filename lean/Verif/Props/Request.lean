import Verif.Lemmas.RequestPairs
import Verif.Props.Streams
/-! # Properties C04, C28, C35–C39: the life of a request -/
namespace Fcgi.Props
open Fcgi Fcgi.Model Fcgi.Spec

/-- The bytes are an OUT (6) or ERR (7) record of request `id`. -/
def IsOutput (id : UInt16) (b : Bytes) : Prop :=
  ∃ r : Record, (GoodRecord id 6 r ∨ GoodRecord id 7 r) ∧ b = r.bytes

theorem isOutput_of {U} {r : Req U} {x : Record} (h : IsOut r x) : IsOutput r.id x.bytes := by
  rcases h with h | h
  · exact ⟨x, Or.inl ⟨h.version, h.type, h.id, ⟨h.content_pos, h.content_max⟩, h.padding, h.aligned⟩, rfl⟩
  · exact ⟨x, Or.inr ⟨h.version, h.type, h.id, ⟨h.content_pos, h.content_max⟩, h.padding, h.aligned⟩, rfl⟩

theorem mem_sentOf {l : List Ev} {s b k} (h : Ev.sent s b k ∈ l) : (s, b, k) ∈ sentOf l := by
  induction l with
  | nil => simp at h
  | cons e l ih =>
    rcases List.mem_cons.1 h with rfl | h
    · simp [sentOf]
    · have := ih h
      cases e <;> simp [sentOf, this]

/-! ## C36 one answer, after the input -/

/-- Whatever messages a new request is given (of any type and any content) and whatever the user's
handlers do: when the request is finished, the last thing it did was to send one END_REQUEST record;
everything it sent before, and everything it has sent while not finished, are OUT and ERR records.  An
unfinished request has consumed all its messages. -/
theorem C36_once {U} (h : Handlers U) (g) (sock id role kill max) (u : U) (ms : List Message) {r rest fin}
    (e : handler h g (freshReq sock id role kill max u) ms = .ok (r, rest, fin)) :
    (fin = true → ∃ before end_, r.log = before ++ [.sent sock end_ kill] ∧ IsEndRequest id.toNat r.status end_ ∧
      ∀ s b k, Ev.sent s b k ∈ before → s = sock ∧ k = false ∧ IsOutput id b) ∧
    (fin = false → rest = [] ∧ ∀ s b k, Ev.sent s b k ∈ r.log → s = sock ∧ k = false ∧ IsOutput id b) := by
  obtain ⟨h1, h2, hc, _⟩ := handler_spec h g ms _ r rest fin (freshReq_alive ..) e
  obtain ⟨c1, c2, c3, _⟩ : r.sock = sock ∧ r.id = id ∧ r.kill = kill ∧ _ := hc
  have outs : ∀ (l : List Ev) (rs : List Record), sentOf l = rs.map (fun x => (r.sock, x.bytes, false)) → (∀ x ∈ rs, IsOut r x) →
      ∀ s b k, Ev.sent s b k ∈ l → s = sock ∧ k = false ∧ IsOutput id b := by
    intro l rs e1 e2 s b k hm
    have := mem_sentOf hm
    rw [e1] at this
    obtain ⟨x, hx, hxe⟩ := List.mem_map.1 this
    simp only [Prod.mk.injEq] at hxe
    obtain ⟨rfl, rfl, rfl⟩ := hxe
    exact ⟨c1, rfl, c2 ▸ isOutput_of (e2 x hx)⟩
  constructor
  · intro hf
    obtain ⟨pre, rs, en, e1, e2, e3, ⟨g', e4⟩, _⟩ := (h1 hf).recs
    refine ⟨pre, en, by rw [e1, c1, c3], ?_, outs pre rs e2 e3⟩
    rw [e4, c2]; exact endRequestRecord_spec ..
  · intro hf
    obtain ⟨al, _, hr⟩ := h2 hf
    obtain ⟨rs, e1, e2, _⟩ := al.recs
    exact ⟨hr, outs r.log rs e1 e2⟩

/-- Every single record that is sent is of type OUT, ERR or END_REQUEST, so the above says that
END_REQUEST is sent at most once: an output record is not an END_REQUEST. -/
theorem C36_distinct (id : UInt16) (status : UInt8) (b : Bytes) (h : IsOutput id b) : ¬ IsEndRequest id.toNat status b := by
  rintro ⟨r, _, ht, _, _, _, _, hb⟩
  obtain ⟨x, hx, rfl⟩ := h
  have : x.bytes[1]? = r.bytes[1]? := by rw [hb]
  simp only [Record.bytes, List.cons_append, List.nil_append, List.getElem?_cons_succ, List.getElem?_cons_zero, Option.some.injEq] at this
  rw [ht] at this
  rcases hx with hx | hx <;> rw [hx.type] at this <;> cases this

/-- It does not matter when messages arrive: handling some messages and later some more is the same as
handling them together. -/
theorem C36_resume {U} (h : Handlers U) (g) (r : Req U) (ms ms' : List Message) {r1}
    (e : handler h g r ms = .ok (r1, [], false)) : handler h g r (ms ++ ms') = handler h g r1 ms' := by
  rw [handler_append, e]; rfl

/-- `response()` is called with a FastCGI record as its message only when the records received so far
begin with a complete input: parameters, an empty PARAMS record, data, an empty STDIN record. -/
theorem C36_response {U} (h : Handlers U) (g) (sock id role kill max) (u : U) (ins : List Input) (hw : ∀ i ∈ ins, i.WF) {r rest fin}
    (e : handler h g (freshReq sock id role kill max u) (ins.map Input.message) = .ok (r, rest, fin)) :
    ∀ env m, Ev.call (.response env m) ∈ r.log → m.type = 0 → ∃ first more, records ins = first ++ more ∧ InputComplete first := by
  intro env m hm h0
  have hm' : Call.response env m ∈ callsOf r.log := by
    clear e
    generalize r.log = l at hm
    induction l with
    | nil => simp at hm
    | cons x l ih =>
      rcases List.mem_cons.1 hm with rfl | hm
      · simp [callsOf]
      · have := ih hm
        cases x <;> simp [callsOf, this]
  obtain ⟨d, rest', rfl, _, h1, h2⟩ := run_g h g sock id role kill max u ins hw e
  have hr : RespOk (records d) r.log := by
    cases fin with
    | true => exact (h2 rfl).resp
    | false => exact (h1 rfl).2.resp
  obtain ⟨d1, d2, e1, e2⟩ := hr env m hm' h0
  exact ⟨d1, d2 ++ records rest', by rw [records_append, e1, List.append_assoc], e2⟩

/-- Inputs in which every PARAMS record holds whole pairs (with digits for the numeric variables, and
some padding) are always handled: no undefined behaviour, no endless loop, whatever the order of records
and callbacks, the contents of the other records and the behaviour of the handlers. -/
theorem C36_total_partial {U} (h : Handlers U) (g) (sock id role kill max) (u : U) (ins : List Input) (hw : ∀ i ∈ ins, i.WF)
    (hp : ∀ i ∈ ins, ParamsOk i) : ∃ x, handler h g (freshReq sock id role kill max u) (ins.map Input.message) = .ok x :=
  handler_total h g _ ins [] _ (freshReq_ginv ..) hw hp

/-- The clause about undefined behaviour does not hold for all inputs: a numeric parameter at the end of a PARAMS record without padding
is read past its end (C23), whatever the handlers do. -/
theorem C36_violated {U} (h : Handlers U) (g) (sock kill) (u : U) :
    handler h g (freshReq sock 7 1 kill 100 u)
      [(Input.record ⟨1, 4, 7, [14, 1] ++ b!"CONTENT_LENGTH" ++ b!"3", [], 0⟩).message] = .ub .oobRead := by
  with_unfolding_all rfl

/-! ### A concrete request

Handlers that write to both streams, and the messages of a small POST request. -/

def demoHandlers : Handlers Nat :=
  defaultHandlers fun n e m => (⟨[(false, .insert b!"hello"), (true, .insert b!"log")], e, n + 1⟩, m.type = 0)
def demoRec (type : UInt8) (content : Bytes) : Record := ⟨1, type, 7, content, [0], 0⟩
def demoPair1 : (Bytes × Bytes) × Bytes := ((b!"CONTENT_LENGTH", b!"3"), [14, 1] ++ b!"CONTENT_LENGTH" ++ b!"3")
def demoPair2 : (Bytes × Bytes) × Bytes := ((b!"HTTP_HOST", b!"h"), [9, 1] ++ b!"HTTP_HOST" ++ b!"h")
def demoInput : List Input :=
  [.record (demoRec 4 (demoPair1.2 ++ demoPair2.2)), .callback 5 b!"note", .record (demoRec 4 []), .record (demoRec 5 [])]
def demoFresh : Req Nat := freshReq 3 7 1 true 100 0
theorem demoPair_enc : EncPair demoPair1.1 demoPair1.2 ∧ EncPair demoPair2.1 demoPair2.2 :=
  ⟨⟨[14], [1], .short 14 (by decide), .short 1 (by decide), by decide⟩, ⟨[9], [1], .short 9 (by decide), .short 1 (by decide), by decide⟩⟩
theorem demoPair_ok : ParamOk demoPair1.1 ∧ ParamOk demoPair2.1 :=
  ⟨⟨fun _ => ⟨3, by decide, ⟨by decide, by unfold IsDigit; decide, by decide⟩⟩, fun h => absurd h (by decide)⟩,
    ⟨fun h => absurd h (by decide), fun h => absurd h (by decide)⟩⟩
theorem demoParams : WholePairs (demoRec 4 (demoPair1.2 ++ demoPair2.2)) [demoPair1, demoPair2] :=
  ⟨by unfold Record.WF; decide, rfl, by decide, by decide, by simp [demoPair_enc], by simp [demoPair_ok], ⟨0, by decide, by decide⟩⟩
/-- The hypotheses of the theorems above hold of it. -/
example : ∀ i ∈ demoInput, i.WF ∧ ParamsOk i := by
  intro i hi
  simp only [demoInput, List.mem_cons, List.not_mem_nil, or_false] at hi
  rcases hi with rfl | rfl | rfl | rfl
  · refine ⟨by show Record.WF _; unfold Record.WF; decide, ?_⟩
    intro x hx _ _; cases hx; exact ⟨_, demoParams⟩
  · exact ⟨by show (5 : Int) ≠ 0; decide, by intro x hx; cases hx⟩
  · refine ⟨by show Record.WF _; unfold Record.WF; decide, ?_⟩
    intro x hx _ h; cases hx; exact absurd rfl h
  · refine ⟨by show Record.WF _; unfold Record.WF; decide, ?_⟩
    intro x hx h; cases hx; exact absurd h (by decide)
/-- It is answered: `response` is called for the callback and at the end of the input. -/
example : (match handler demoHandlers (fun _ _ _ => 0) demoFresh (demoInput.map Input.message) with
    | .ok (r, rest, fin) => fin && rest.isEmpty && (callsOf r.log).length == 3 && (sentOf r.log).length == 3 && r.user == 2
    | _ => false) = true := by decide +kernel

/-! ## C38 abort, order, role -/

section
variable {U : Type} (h : Handlers U) (g : Nat → Nat → Nat → UInt8) (sock : Nat) (id role : UInt16) (kill : Bool) (max : Nat) (u : U)
  (ins : List Input) (hw : ∀ i ∈ ins, i.WF) {r : Req U}

include hw in
theorem ginv_of (e : handler h g (freshReq sock id role kill max u) (ins.map Input.message) = .ok (r, [], false)) :
    GInv (freshReq sock id role kill max u) ins r := by
  obtain ⟨d, rest', rfl, hr, h1, _⟩ := run_g h g sock id role kill max u ins hw e
  obtain ⟨rfl, hg⟩ := h1 rfl
  simpa using hg

/-- An ABORT_REQUEST record ends the request at once, in whatever phase: no handler is called and the
protocol status is REQUEST_COMPLETE (0). -/
theorem C38_abort (hw : ∀ i ∈ ins, i.WF)
    (e : handler h g (freshReq sock id role kill max u) (ins.map Input.message) = .ok (r, [], false))
    (x : Record) (hx : x.WF) (ht : x.type = 2) :
    ∃ r', handler h g (freshReq sock id role kill max u) ((ins ++ [Input.record x]).map Input.message) = .ok (r', [], true) ∧
      callsOf r'.log = callsOf r.log ∧ r'.status = 0 := by
  have hg := ginv_of h g sock id role kill max u ins hw e
  rw [List.map_append, List.map_singleton, handler_snoc h g _ r _ _ e]
  rcases record_outcome h g r hg.alive x hx _ hg.phase with
      ⟨_, r1, h1, h2, h3⟩ | ⟨t, _⟩ | ⟨_, t, _⟩ | ⟨_, t, _⟩ | ⟨_, t, _⟩ | ⟨_, t, _⟩ | ⟨_, t, _⟩ | ⟨_, t, _⟩ | ⟨_, t, _⟩
  · exact ⟨r1, by rw [Input.message, h1]; rfl, h2, h3.trans hg.status⟩
  · exact absurd ht t
  all_goals (rw [ht] at t; exact absurd t (by decide))

/-- A record that is not of the type the phase calls for ends the request through the error handler. -/
theorem C38_out_of_order (hw : ∀ i ∈ ins, i.WF)
    (e : handler h g (freshReq sock id role kill max u) (ins.map Input.message) = .ok (r, [], false))
    (x : Record) (hx : x.WF) (h2 : x.type ≠ 2) (ht : (phaseAfter (records ins)).accepts ≠ some x.type) :
    ∃ r', handler h g (freshReq sock id role kill max u) ((ins ++ [Input.record x]).map Input.message) = .ok (r', [], true) ∧
      callsOf r'.log = callsOf r.log ++ [.error] ∧ r'.status = 0 := by
  have hg := ginv_of h g sock id role kill max u ins hw e
  rw [List.map_append, List.map_singleton, handler_snoc h g _ r _ _ e]
  rcases record_outcome h g r hg.alive x hx _ hg.phase with
      ⟨t, _⟩ | ⟨_, _, r1, h1, h2, h3⟩ | ⟨p, t, _⟩ | ⟨p, t, _⟩ | ⟨p, t, _⟩ | ⟨p, t, _⟩ | ⟨p, t, _⟩ | ⟨p, t, _⟩ | ⟨p, t, _⟩
  · exact absurd t h2
  · exact ⟨r1, by rw [Input.message, h1]; rfl, h2, h3.trans hg.status⟩
  all_goals (rw [p, t] at ht; exact absurd rfl ht)

/-- A request whose role is neither RESPONDER (1) nor AUTHORIZER (2) is ended by its first PARAMS record,
through the error handler, with protocol status UNKNOWN_ROLE (3). -/
theorem C38_role (hw : ∀ i ∈ ins, i.WF)
    (e : handler h g (freshReq sock id role kill max u) (ins.map Input.message) = .ok (r, [], false))
    (hr : role ≠ 1 ∧ role ≠ 2) (x : Record) (hx : x.WF) (ht : x.type = 4) (hp : phaseAfter (records ins) = .params) :
    ∃ r', handler h g (freshReq sock id role kill max u) ((ins ++ [Input.record x]).map Input.message) = .ok (r', [], true) ∧
      callsOf r'.log = callsOf r.log ++ [.error] ∧ r'.status = 3 := by
  have hg := ginv_of h g sock id role kill max u ins hw e
  have hrole : r.role = role := hg.consts.2.2.2.1
  rw [List.map_append, List.map_singleton, handler_snoc h g _ r _ _ e]
  rcases record_outcome h g r hg.alive x hx _ hg.phase with
      ⟨t, _⟩ | ⟨_, t, _⟩ | ⟨p, t, _, r1, h1, h2, h3⟩ | ⟨p, t, c, _⟩ | ⟨p, t, c, _⟩ | ⟨p, t, c, _⟩ | ⟨p, t, _⟩ | ⟨p, t, _⟩ | ⟨p, t, _⟩
  · rw [ht] at t; exact absurd t (by decide)
  · rw [hp, ht] at t; exact absurd rfl t
  · exact ⟨r1, by rw [Input.message, h1]; rfl, h2, h3⟩
  · rw [hrole] at c; exact absurd c (by simp [hr])
  · rw [hrole] at c; exact absurd c (by simp [hr])
  · rw [hrole] at c; exact absurd c (by simp [hr])
  all_goals (rw [hp] at p; cases p)

/-- Such a request never gets past its parameters: while it lives it has received no record at all. -/
theorem C38_role_always (hw : ∀ i ∈ ins, i.WF)
    (e : handler h g (freshReq sock id role kill max u) (ins.map Input.message) = .ok (r, [], false))
    (hr : role ≠ 1 ∧ role ≠ 2) : records ins = [] := by
  let Inv : List Input → Req U → Prop := fun d r => GInv (freshReq sock id role kill max u) d r ∧ records d = []
  have := run_inv h g Inv (fun _ _ => True) (by
    intro done i r1 r2 fin hiw hi he
    have s := step_g h g _ done i r1 r2 fin hiw hi.1 he
    refine ⟨fun hf => ⟨s.1 hf, ?_⟩, fun _ => trivial⟩
    rw [records_append, hi.2]
    cases i with
    | callback t d => rfl
    | record x =>
      exfalso
      have hg := hi.1
      have hrole : r1.role = role := hg.consts.2.2.2.1
      have hph := hg.phase
      rw [hi.2] at hph
      subst hf
      have he' : handleMsg h g r1 (fcgiMsg x) = .ok (r2, false) := he
      rcases record_outcome h g r1 hg.alive x hiw .params hph with
        ⟨_, q, h1, _⟩ | ⟨_, _, q, h1, _⟩ | ⟨_, _, _, q, h1, _⟩ | ⟨_, _, c, _⟩ | ⟨_, _, c, _⟩ | ⟨_, _, c, _⟩ | ⟨p, _⟩ | ⟨p, _⟩ | ⟨p, _⟩
      · rw [h1] at he'; simp at he'
      · rw [h1] at he'; simp at he'
      · rw [h1] at he'; simp at he'
      · rw [hrole] at c; simp [hr] at c
      · rw [hrole] at c; simp [hr] at c
      · rw [hrole] at c; simp [hr] at c
      · cases p
      · cases p
      · cases p) ins [] _ r [] false hw ⟨freshReq_ginv .., rfl⟩ e
  obtain ⟨d, rest', rfl, _, h1, _⟩ := this
  obtain ⟨rfl, h2⟩ := h1 rfl
  simpa using h2.2

/-- The first two inputs of the example leave the request unfinished, waiting for parameters. -/
example : (match handler demoHandlers (fun _ _ _ => 0) demoFresh ((demoInput.take 2).map Input.message) with
    | .ok (r, rest, fin) => !fin && rest.isEmpty && r.env.contentLength.toNat == 3 | _ => false) = true := by decide +kernel
example : phaseAfter (records (demoInput.take 2)) = .params ∧ phaseAfter (records (demoInput.take 3)) = .stdin := by decide

/-! ## C37 size of POST data -/

/-- If the length announced in the environment exceeds the limit, the end of the parameters ends the
request through the 413 handler. -/
theorem C37_announced (hw : ∀ i ∈ ins, i.WF)
    (e : handler h g (freshReq sock id role kill max u) (ins.map Input.message) = .ok (r, [], false))
    (hr : role = 1 ∨ role = 2) (x : Record) (hx : x.WF) (ht : x.type = 4) (h0 : x.content = [])
    (hp : phaseAfter (records ins) = .params) (hbig : r.env.contentLength.toNat > max) :
    ∃ r', handler h g (freshReq sock id role kill max u) ((ins ++ [Input.record x]).map Input.message) = .ok (r', [], true) ∧
      callsOf r'.log = callsOf r.log ++ [.bigPost] ∧ r'.status = 0 := by
  have hg := ginv_of h g sock id role kill max u ins hw e
  have hrole : r.role = role := hg.consts.2.2.2.1
  have hmax : r.maxPostSize = max := hg.consts.2.2.2.2
  rw [List.map_append, List.map_singleton, handler_snoc h g _ r _ _ e]
  rcases record_outcome h g r hg.alive x hx _ hg.phase with
      ⟨t, _⟩ | ⟨_, t, _⟩ | ⟨_, _, t, _⟩ | ⟨_, _, _, _, _, r1, h1, h2, h3⟩ | ⟨_, _, _, _, c, _⟩ | ⟨_, _, _, c, _⟩ | ⟨p, _⟩ | ⟨p, _⟩ | ⟨p, _⟩
  · rw [ht] at t; exact absurd t (by decide)
  · rw [hp, ht] at t; exact absurd rfl t
  · rw [hrole] at t; exact absurd hr t
  · exact ⟨r1, by rw [Input.message, h1]; rfl, h2, h3.trans hg.status⟩
  · omega
  · exact absurd h0 c
  all_goals (rw [hp] at p; cases p)

/-- A STDIN record that would take the data beyond the announced length ends the request through the 413
handler: `inHandler`, `inProcessor` and `response` are not called. -/
theorem C37_excess (hw : ∀ i ∈ ins, i.WF)
    (e : handler h g (freshReq sock id role kill max u) (ins.map Input.message) = .ok (r, [], false))
    (x : Record) (hx : x.WF) (ht : x.type = 5) (h0 : x.content ≠ []) (hp : phaseAfter (records ins) = .stdin)
    (hbig : r.env.postBuffer.length + x.content.length > r.env.contentLength.toNat) :
    ∃ r', handler h g (freshReq sock id role kill max u) ((ins ++ [Input.record x]).map Input.message) = .ok (r', [], true) ∧
      callsOf r'.log = callsOf r.log ++ [.bigPost] ∧ r'.status = 0 := by
  have hg := ginv_of h g sock id role kill max u ins hw e
  rw [List.map_append, List.map_singleton, handler_snoc h g _ r _ _ e]
  rcases record_outcome h g r hg.alive x hx _ hg.phase with
      ⟨t, _⟩ | ⟨_, t, _⟩ | ⟨p, _⟩ | ⟨p, _⟩ | ⟨p, _⟩ | ⟨p, _⟩ | ⟨_, _, c, _⟩ | ⟨_, _, _, _, r1, h1, h2, h3⟩ | ⟨_, _, _, c, _⟩
  · rw [ht] at t; exact absurd t (by decide)
  · rw [hp, ht] at t; exact absurd rfl t
  · rw [hp] at p; cases p
  · rw [hp] at p; cases p
  · rw [hp] at p; cases p
  · rw [hp] at p; cases p
  · exact absurd c h0
  · exact ⟨r1, by rw [Input.message, h1]; rfl, h2, h3.trans hg.status⟩
  · omega
end

/-- With handlers that leave the announced length and the raw data alone, the data handed over for
processing is never longer than announced, what was announced is never above the limit, and an unfinished
request never buffers more than the limit. -/
theorem C37_bounded {U} (h : Handlers U) (ht : Tame h) (g) (sock id role kill max) (u : U) (ins : List Input) (hw : ∀ i ∈ ins, i.WF) {r rest fin}
    (e : handler h g (freshReq sock id role kill max u) (ins.map Input.message) = .ok (r, rest, fin)) :
    (∀ env, Call.inProcessor env ∈ callsOf r.log → env.postBuffer.length ≤ env.contentLength.toNat ∧ env.contentLength.toNat ≤ max) ∧
    (fin = false → r.env.postBuffer.length ≤ max) :=
  run_size h ht g sock id role kill max u ins hw e

/-- The example's announced length, 3, is above a limit of 2; and four bytes are more than announced. -/
example : (match handler demoHandlers (fun _ _ _ => 0) (freshReq 3 7 1 true 2 0) ((demoInput.take 3).map Input.message) with
    | .ok (r, _, fin) => fin && (callsOf r.log).getLast? == some .bigPost | _ => false) = true := by decide +kernel
example : (match handler demoHandlers (fun _ _ _ => 0) demoFresh ((demoInput.take 3 ++ [Input.record (demoRec 5 b!"abcd")]).map Input.message) with
    | .ok (r, _, fin) => fin && (callsOf r.log).getLast? == some .bigPost | _ => false) = true := by decide +kernel
example : Tame demoHandlers := ⟨fun _ _ _ => ⟨rfl, rfl⟩, fun _ _ _ => ⟨rfl, rfl⟩⟩

/-! ## C39 completion -/

/-- A finished request has sent everything its handlers wrote: the contents of its OUT records are what
was written to `out`, those of its ERR records what was written to `err` (no encoding selected), all
before the END_REQUEST record, which carries the request's id and status and, as the "close the
connection" flag, the decision of the web server. -/
theorem C39_complete {U} (h : Handlers U) (g) (sock id role kill max) (u : U) (ms : List Message) {r rest}
    (e : handler h g (freshReq sock id role kill max u) ms = .ok (r, rest, true)) :
    ∃ before, ∃ rs : List Record, ∃ end_, r.log = before ++ [.sent sock end_ kill] ∧ IsEndRequest id.toNat r.status end_ ∧
      sentOf before = rs.map (fun x => (sock, x.bytes, false)) ∧ (∀ x ∈ rs, GoodRecord id 6 x ∨ GoodRecord id 7 x) ∧
      (noEnc (writes false r.log) →
        (rs.filter (fun x => x.type = 6)).flatMap Record.content = (writes false r.log).flatMap (writtenBy _root_.id)) ∧
      (noEnc (writes true r.log) →
        (rs.filter (fun x => x.type = 7)).flatMap Record.content = (writes true r.log).flatMap (writtenBy _root_.id)) := by
  obtain ⟨h1, h2, hc, _⟩ := handler_spec h g ms _ r rest true (freshReq_alive ..) e
  obtain ⟨c1, c2, c3, _⟩ : r.sock = sock ∧ r.id = id ∧ r.kill = kill ∧ _ := hc
  obtain ⟨pre, rs, en, e1, e2, e3, ⟨g', e4⟩, e5, e6⟩ := (h1 rfl).recs
  have plain : ∀ ops : List (SOp UInt8), noEnc ops → expected charTable one .none ops = ops.flatMap (writtenBy _root_.id) := by
    intro ops hne
    rw [C12_expected_plain _ _ ops hne]
    congr 1
    funext op
    cases op <;> simp [writtenBy]
  refine ⟨pre, rs, en, by rw [e1, c1, c3], ?_, by rw [e2, c1], ?_, fun hn => by rw [e5, plain _ hn], fun hn => by rw [e6, plain _ hn]⟩
  · rw [e4, c2]; exact endRequestRecord_spec ..
  · intro x hx
    rcases e3 x hx with k | k
    · exact Or.inl ⟨k.version, k.type, c2 ▸ k.id, ⟨k.content_pos, k.content_max⟩, k.padding, k.aligned⟩
    · exact Or.inr ⟨k.version, k.type, c2 ▸ k.id, ⟨k.content_pos, k.content_max⟩, k.padding, k.aligned⟩

example : (match handler demoHandlers (fun _ _ _ => 0) demoFresh (demoInput.map Input.message) with
    | .ok (r, _, true) => (writes false r.log).length == 2 && (sentOf r.log).map (fun x => (x.2.1.drop 8).take 6) ==
        [b!"helloh", b!"loglog", [0, 0, 0, 0, 0, 0]] | _ => false) = true := by decide +kernel

/-! ## C28 POST data -/

/-- A whole request: parameters (any whole-pair records), data within the announced length, and the two
end markers.  However the data is divided into records, `inProcessor` sees the environment made from the
parameters with the concatenated data, and with the default handlers `response` (or the handler for
unknown content) sees what parsing that data gives. -/
theorem C28_body {U} (resp : U → Env → Message → Act U × Bool) (g) (sock id role kill max) (u : U)
    (hr : role = 1 ∨ role = 2) (ps : List (Record × List ((Bytes × Bytes) × Bytes))) (hps : ∀ p ∈ ps, WholePairs p.1 p.2)
    (p0 i0 : Record) (hp0 : p0.WF ∧ p0.type = 4 ∧ p0.content = []) (hi0 : i0.WF ∧ i0.type = 5 ∧ i0.content = [])
    (bs : List Record) (hbs : ∀ b ∈ bs, b.WF ∧ b.type = 5 ∧ b.content ≠ [])
    {env : Env} (henv : fillPairs [0] (ps.flatMap Prod.snd) {} = .ok env) (hmax : env.contentLength.toNat ≤ max)
    (hlen : (bs.flatMap Record.content).length ≤ env.contentLength.toNat) :
    ∃ parsed ok, parsePostBuffer { env with postBuffer := bs.flatMap Record.content } = .ok (parsed, ok) ∧
    ∃ r fin, handler (defaultHandlers resp) g (freshReq sock id role kill max u)
        ((ps.map Prod.fst ++ [p0] ++ bs ++ [i0]).map fcgiMsg) = .ok (r, [], fin) ∧
      callsOf r.log = bs.map (fun b => .inHandler b.content.length) ++
        [.inProcessor { env with postBuffer := bs.flatMap Record.content },
          if ok then .response { parsed with postBuffer := [] } (fcgiMsg i0) else .unknownContent] ∧
      fin = (if ok then (resp u { parsed with postBuffer := [] } (fcgiMsg i0)).2 else true) := by
  have hd := defaultHandlers resp
  obtain ⟨env', a1, a2⟩ := handler_params (defaultHandlers resp) g ps (freshReq sock id role kill max u) (freshReq_alive ..) rfl hr hps
  rw [show (freshReq sock id role kill max u).env = {} from rfl, henv] at a1
  cases a1
  have hpb : env.postBuffer = [] := by
    have : ∀ (its : List ((Bytes × Bytes) × Bytes)) (e e' : Env), fillPairs [0] its e = .ok e' → e'.postBuffer = e.postBuffer := by
      intro its
      induction its with
      | nil => intro e e' h; cases h; rfl
      | cons i its ih =>
        intro e e' h
        obtain ⟨⟨n, v⟩, b⟩ := i
        simp only [fillPairs] at h
        obtain ⟨e1, h1, h2⟩ := Res.bind_eq_ok.1 h
        rw [ih _ _ h2]
        cases fillStep_effect h1 <;> rfl
    exact this _ _ _ henv
  have al : Alive { freshReq sock id role kill max u with env := env, state := 5 } :=
    (freshReq_alive sock id role kill max u).of_eq rfl rfl rfl rfl rfl
  have s2 : handleMsg (defaultHandlers resp) g { freshReq sock id role kill max u with env := env } (fcgiMsg p0) =
      .ok ({ freshReq sock id role kill max u with env := env, state := 5 }, false) := by
    have al' : Alive { freshReq sock id role kill max u with env := env } :=
      (freshReq_alive sock id role kill max u).of_eq rfl rfl rfl rfl rfl
    rcases record_outcome (defaultHandlers resp) g _ al' p0 hp0.1 .params rfl with
      ⟨t, _⟩ | ⟨_, t, _⟩ | ⟨_, _, t, _⟩ | ⟨_, _, _, _, t, _⟩ | ⟨_, _, _, _, c, h1⟩ | ⟨_, _, _, c, _⟩ | ⟨p, _⟩ | ⟨p, _⟩ | ⟨p, _⟩
    · rw [hp0.2.1] at t; exact absurd t (by decide)
    · rw [hp0.2.1] at t; exact absurd rfl t
    · exact absurd hr t
    · exact absurd hmax (Nat.not_le_of_gt t)
    · exact h1
    · exact absurd hp0.2.2 c
    all_goals cases p
  obtain ⟨r3, b1, b2, b3, b4, b5⟩ := handler_stdin (defaultHandlers resp) (fun _ _ _ => rfl) g bs _ al rfl hbs
    (by simpa [hpb] using hlen)
  have hu : ∀ (bs : List Record) (r r' : Req U), (∀ b ∈ bs, b.WF ∧ b.type = 5 ∧ b.content ≠ []) → Alive r → r.state = 5 →
      handler (defaultHandlers resp) g r (bs.map fcgiMsg) = .ok (r', [], false) → r'.user = r.user := by
    intro bs
    induction bs with
    | nil => intro r r' _ _ _ e; simp [handler] at e; rw [e]
    | cons b bs ih =>
      intro r r' hb hal hst e
      obtain ⟨hw, ht, hc⟩ := hb b (by simp)
      simp only [List.map_cons, handler] at e
      obtain ⟨⟨r1, f1⟩, e1, e⟩ := Res.bind_eq_ok.1 e
      have sp := handleMsg_spec (defaultHandlers resp) g r r1 hal _ f1 e1
      cases f1 with
      | true => simp at e
      | false =>
        simp only [Bool.false_eq_true, if_false] at e
        rcases record_outcome (defaultHandlers resp) g r hal b hw .stdin hst with
          ⟨t, _⟩ | ⟨_, t, _⟩ | ⟨p, _⟩ | ⟨p, _⟩ | ⟨p, _⟩ | ⟨p, _⟩ | ⟨_, _, c, _⟩ | ⟨_, _, _, _, q, h1, _⟩ | ⟨_, _, _, _, q, h1, _, h3, _, h5⟩
        · rw [ht] at t; exact absurd t (by decide)
        · rw [ht] at t; exact absurd rfl t
        · cases p
        · cases p
        · cases p
        · cases p
        · exact absurd c hc
        · rw [h1] at e1; simp at e1
        · rw [h1] at e1
          obtain rfl : q = r1 := by simpa using e1
          rw [ih q r' (fun c hc => hb c (by simp [hc])) (sp.2.1 rfl).1 (h3.trans hst) e, h5]
          rfl
  have hu3 : r3.user = u := hu bs _ r3 hbs al rfl b1
  have henv3 : r3.env = { env with postBuffer := bs.flatMap Record.content } := by rw [b4]; simp [hpb]
  have s4 : handleMsg (defaultHandlers resp) g r3 (fcgiMsg i0) = inputEnd (defaultHandlers resp) g r3 (fcgiMsg i0) := by
    rcases record_outcome (defaultHandlers resp) g r3 b2 i0 hi0.1 .stdin b3 with
      ⟨t, _⟩ | ⟨_, t, _⟩ | ⟨p, _⟩ | ⟨p, _⟩ | ⟨p, _⟩ | ⟨p, _⟩ | ⟨_, _, _, h1⟩ | ⟨_, _, c, _⟩ | ⟨_, _, c, _⟩
    · rw [hi0.2.1] at t; exact absurd t (by decide)
    · rw [hi0.2.1] at t; exact absurd rfl t
    · cases p
    · cases p
    · cases p
    · cases p
    · exact h1
    · exact absurd hi0.2.2 c
    · exact absurd hi0.2.2 c
  obtain ⟨a, p, ha, hpp, r4, fin, f1, f2, f3, f4⟩ := inputEnd_spec (defaultHandlers resp) g r3 b2 (fcgiMsg i0)
  have ha' : a = (⟨[], r3.env, r3.user⟩, false) := ha
  subst ha'
  have hpp' : parsePostBuffer r3.env = .ok p := hpp
  rw [henv3] at hpp'
  refine ⟨p.1, p.2, hpp', r4, fin, ?_, ?_, ?_⟩
  · rw [List.map_append, List.map_append, List.map_append, handler_append, handler_append, handler_append, List.map_map,
      show (fcgiMsg ∘ Prod.fst : Record × List ((Bytes × Bytes) × Bytes) → Message) = fun p => fcgiMsg p.1 from rfl, a2]
    simp only [Res.ok_bind, Bool.false_eq_true, if_false, List.map_cons, List.map_nil, handler, s2, b1, s4, f1]
    cases fin <;> rfl
  · have hc0 : callsOf (freshReq sock id role kill max u).log = [] := rfl
    rcases f4 with ⟨q, _, _, l, l', hl, c1, c2⟩ | ⟨q, _, _, _, l, l', hl, c1, c2⟩
    · rw [hl, q]
      simp [callsOf_append, callsOf, c1, c2, b5, hc0, henv3]
    · rw [hl, q]
      simp [callsOf_append, callsOf, c1, c2, b5, hc0, henv3]
  · rcases f4 with ⟨q, hf, _⟩ | ⟨q, _, hf, _⟩
    · rw [q, hf]; rfl
    · rw [q, hf, if_pos rfl]
      show (resp r3.user _ _).2 = _
      rw [hu3]

/-- The two example pairs, and the data "a=b" in two records. -/
example : (match fillPairs [0] [demoPair1, demoPair2] {} with
    | .ok env => env.contentLength.toNat == 3 && env.host == b!"h" | _ => false) = true := by decide +kernel
example : ∀ b ∈ [demoRec 5 b!"a", demoRec 5 b!"=b"], b.WF ∧ b.type = 5 ∧ b.content ≠ [] := by
  intro b hb
  simp only [List.mem_cons, List.not_mem_nil, or_false] at hb
  rcases hb with rfl | rfl <;> exact ⟨by unfold Record.WF; decide, rfl, by decide⟩

/-! ## C04 division of PARAMS -/

/-- Two divisions of the same PARAMS stream into records, both cutting only between pairs, leave the
request in the same state: same environment, nothing called, nothing sent. -/
theorem C04_pairs_partial {U} (h : Handlers U) (g) (sock id role kill max) (u : U) (hr : role = 1 ∨ role = 2)
    (ps qs : List (Record × List ((Bytes × Bytes) × Bytes))) (hps : ∀ p ∈ ps, WholePairs p.1 p.2) (hqs : ∀ p ∈ qs, WholePairs p.1 p.2)
    (same : ps.flatMap (fun p => p.1.content) = qs.flatMap (fun p => p.1.content)) :
    ∃ r, handler h g (freshReq sock id role kill max u) (ps.map (fun p => fcgiMsg p.1)) = .ok (r, [], false) ∧
      handler h g (freshReq sock id role kill max u) (qs.map (fun p => fcgiMsg p.1)) = .ok (r, [], false) ∧ r.log = [] := by
  obtain ⟨env, a1, a2⟩ := handler_params h g ps (freshReq sock id role kill max u) (freshReq_alive ..) rfl hr hps
  obtain ⟨env', b1, b2⟩ := handler_params h g qs (freshReq sock id role kill max u) (freshReq_alive ..) rfl hr hqs
  have : ps.flatMap Prod.snd = qs.flatMap Prod.snd := by
    refine items_unique _ _ ?_ ?_ ?_
    · intro i hi
      obtain ⟨p, hp, hi⟩ := List.mem_flatMap.1 hi
      exact (hps p hp).enc i hi
    · intro i hi
      obtain ⟨p, hp, hi⟩ := List.mem_flatMap.1 hi
      exact (hqs p hp).enc i hi
    · rw [flatMap_flatMap_snd ps hps, flatMap_flatMap_snd qs hqs, same]
  rw [this, b1] at a1
  cases a1
  exact ⟨_, a2, b2, rfl⟩

/-- A pair cut by a record boundary is lost: the record holding its beginning changes nothing, whatever
the pair and wherever the cut. -/
theorem C04_violated {U} (h : Handlers U) (g) (sock id role kill max) (u : U) (hr : role = 1 ∨ role = 2)
    (nv : Bytes × Bytes) (a b : Bytes) (henc : EncPair nv (a ++ b)) (ha : a ≠ []) (hb : b ≠ [])
    (x : Record) (hx : x.WF) (ht : x.type = 4) (hc : x.content = a) :
    handler h g (freshReq sock id role kill max u) [fcgiMsg x] = .ok (freshReq sock id role kill max u, [], false) := by
  have key : handleMsg h g (freshReq sock id role kill max u) (fcgiMsg x) = .ok (freshReq sock id role kill max u, false) := by
    rcases record_outcome h g _ (freshReq_alive sock id role kill max u) x hx .params rfl with
      ⟨t, _⟩ | ⟨_, t, _⟩ | ⟨_, _, t, _⟩ | ⟨_, _, _, t, _⟩ | ⟨_, _, _, t, _⟩ | ⟨_, _, _, _, h1⟩ | ⟨p, _⟩ | ⟨p, _⟩ | ⟨p, _⟩
    · rw [ht] at t; exact absurd t (by decide)
    · rw [ht] at t; exact absurd rfl t
    · exact absurd hr t
    · exact absurd (hc.symm.trans t) ha
    · exact absurd (hc.symm.trans t) ha
    · have := fill_cut henc hb (recordHead x) x.padding ({} : Env)
      rw [List.length_append, (record_split x).2, ← hc, ← (record_split x).1] at this
      rw [h1]
      show (fill x.bytes 8 (8 + x.content.length) {} >>= _) = _
      rw [this]; rfl
    all_goals cases p
  simp [handler, key]

/-- One record with both pairs, or two records with one each. -/
example : ∀ p ∈ [(demoRec 4 demoPair1.2, [demoPair1]), (demoRec 4 demoPair2.2, [demoPair2])], WholePairs p.1 p.2 := by
  intro p hp
  simp only [List.mem_cons, List.not_mem_nil, or_false] at hp
  rcases hp with rfl | rfl
  · exact ⟨by unfold Record.WF; decide, rfl, by decide, by decide, by simp [demoPair_enc], by simp [demoPair_ok], ⟨0, by decide, by decide⟩⟩
  · exact ⟨by unfold Record.WF; decide, rfl, by decide, by decide, by simp [demoPair_enc], by simp [demoPair_ok], ⟨0, by decide, by decide⟩⟩
/-- HTTP_HOST cut after five bytes: the host is lost, although the same bytes in one record set it. -/
example : (match handler demoHandlers (fun _ _ _ => 0) demoFresh
      [fcgiMsg (demoRec 4 (demoPair2.2.take 5)), fcgiMsg (demoRec 4 (demoPair2.2.drop 5))] with
    | .ok (r, _, fin) => !fin && r.env.host == [] | _ => false) = true ∧
  (match handler demoHandlers (fun _ _ _ => 0) demoFresh [fcgiMsg (demoRec 4 demoPair2.2)] with
    | .ok (r, _, fin) => !fin && r.env.host == b!"h" | _ => false) = true := by decide +kernel

/-! ## C35 locale -/

/-- The language matches the locale: it is a beginning of its name, of at most five characters. -/
def Matches (language locale : Bytes) : Prop := language.length ≤ 5 ∧ language <+: locale

/-- For languages without NUL: the result is the first locale that the first matching language matches;
0 if there is none. -/
theorem C35_partial (locales languages : List Bytes) (h0 : ∀ l ∈ languages, (0 : UInt8) ∉ l) :
    ∃ k, pickLocale locales languages = .ok k ∧
      ((∃ pre l post loc, languages = pre ++ l :: post ∧ (∀ l' ∈ pre, ∀ loc' ∈ locales, ¬ Matches l' loc') ∧
          locales[k]? = some loc ∧ Matches l loc ∧ ∀ j < k, ∀ loc', locales[j]? = some loc' → ¬ Matches l loc') ∨
       (k = 0 ∧ ∀ l ∈ languages, ∀ loc ∈ locales, ¬ Matches l loc)) := by
  induction languages with
  | nil => exact ⟨0, rfl, Or.inr ⟨rfl, by simp⟩⟩
  | cons l languages ih =>
    obtain ⟨k, ik, hk⟩ := ih (fun x hx => h0 x (by simp [hx]))
    have later : (∀ loc ∈ locales, ¬ Matches l loc) → pickLocale locales (l :: languages) = pickLocale locales languages →
        ∃ k, pickLocale locales (l :: languages) = .ok k ∧
      ((∃ pre l' post loc, l :: languages = pre ++ l' :: post ∧ (∀ l' ∈ pre, ∀ loc' ∈ locales, ¬ Matches l' loc') ∧
          locales[k]? = some loc ∧ Matches l' loc ∧ ∀ j < k, ∀ loc', locales[j]? = some loc' → ¬ Matches l' loc') ∨
       (k = 0 ∧ ∀ l' ∈ l :: languages, ∀ loc ∈ locales, ¬ Matches l' loc)) := by
      intro hn e
      refine ⟨k, e.trans ik, ?_⟩
      rcases hk with ⟨pre, l', post, loc, e1, e2, e3, e4, e5⟩ | ⟨rfl, e1⟩
      · refine Or.inl ⟨l :: pre, l', post, loc, by rw [e1]; rfl, ?_, e3, e4, e5⟩
        intro x hx
        rcases List.mem_cons.1 hx with rfl | hx
        · exact hn
        · exact e2 x hx
      · refine Or.inr ⟨rfl, ?_⟩
        intro x hx
        rcases List.mem_cons.1 hx with rfl | hx
        · exact hn
        · exact e1 x hx
    by_cases hl : l.length ≤ 5
    · have e := findLocale_spec l (h0 l (by simp)) locales 0
      cases hf : locales.findIdx? (fun loc => decide (l <+: loc)) with
      | none =>
        rw [hf] at e
        refine later ?_ ?_
        · intro loc hloc hm
          have := List.findIdx?_eq_none_iff.1 hf loc hloc
          simp [hm.2] at this
        · simp [pickLocale, hl, e]
      | some i =>
        rw [hf] at e
        obtain ⟨hi, h1, h2⟩ := List.findIdx?_eq_some_iff_getElem.1 hf
        refine ⟨i, by simp [pickLocale, hl, e], Or.inl ⟨[], l, languages, locales[i], rfl, by simp, by simp [hi], ⟨hl, by simpa using h1⟩, ?_⟩⟩
        intro j hj loc' hloc hm
        obtain ⟨hj', rfl⟩ := List.getElem?_eq_some_iff.1 hloc
        exact h2 j hj (by simpa using hm.2)
    · exact later (fun loc _ hm => hl hm.1) (by simp [pickLocale, hl])

example : pickLocale [b!"fr_FR", b!"en_US", b!"en_GB"] [b!"de", b!"en", b!"fr"] = .ok 1 ∧
    pickLocale [b!"fr_FR", b!"en_US"] [b!"de", b!"zh-Hant"] = .ok 0 ∧ ∀ l ∈ [b!"de", b!"en", b!"fr"], (0 : UInt8) ∉ l := by decide

/-- A language holding a NUL can make the comparison run past the end of a locale's name. -/
theorem C35_violated (locale : Bytes) (h : locale.length ≤ 3) (c : UInt8) :
    pickLocale [locale] [locale ++ [0, c]] = .ub .oobRead := by
  have key : ∀ (suffix : Bytes) (pre : Bytes), pre ++ suffix = locale →
      equalPrefix locale pre.length (suffix ++ [0, c]) = .ub .oobRead := by
    intro suffix
    induction suffix with
    | nil =>
      intro pre hp
      simp only [List.append_nil] at hp
      subst hp
      simp only [List.nil_append, equalPrefix]
      rw [rd_ok (by simp)]
      simp only [Res.ok_bind, List.getElem_append_right (Nat.le_refl _), Nat.sub_self, List.getElem_cons_zero, if_true]
      rw [rd_oob (by simp)]
      rfl
    | cons x suffix ih =>
      intro pre hp
      simp only [List.cons_append, equalPrefix]
      rw [rd_ok (by rw [← hp]; simp)]
      have : (locale ++ [0])[pre.length]'(by rw [← hp]; simp) = x := by
        subst hp; simp
      simp only [Res.ok_bind, this, if_true]
      have := ih (pre ++ [x]) (by rw [← hp]; simp)
      rwa [List.length_append] at this
  have := key locale [] rfl
  simp only [pickLocale, List.length_append, List.length_cons, List.length_nil, findLocale]
  rw [if_pos (by omega), show equalPrefix locale 0 (locale ++ [0, c]) = .ub .oobRead from this]
  rfl

/-! ### Witnesses for C37, C38: the requests so far go on, and the next records are as the theorems ask -/

-- C38_out_of_order, C38_abort: a parameter when the body is expected, and an abort
example : (match handler demoHandlers (fun _ _ _ => 0) demoFresh ((demoInput.take 3).map Input.message) with
    | .ok (_, rest, fin) => !fin && rest.isEmpty | _ => false) = true ∧
    (phaseAfter (records (demoInput.take 3))).accepts ≠ some (demoRec 4 demoPair2.2).type ∧ (demoRec 4 demoPair2.2).WF ∧
    (demoRec 2 []).WF ∧ (demoRec 2 []).type = 2 :=
  ⟨by decide +kernel, by decide, by unfold Record.WF; decide, by unfold Record.WF; decide, rfl⟩
-- C38_role, C38_role_always: a request with an unknown role that has had only a callback
example : (match handler demoHandlers (fun _ _ _ => 0) (freshReq 3 7 5 true 100 0) ([Input.callback 5 b!"note"].map Input.message) with
    | .ok (r, rest, fin) => !fin && rest.isEmpty && (callsOf r.log).length == 1 | _ => false) = true ∧
    phaseAfter (records [Input.callback 5 b!"note"]) = .params ∧ (Input.callback 5 b!"note").WF :=
  ⟨by decide +kernel, by decide, by show (5 : Int) ≠ 0; decide⟩
-- C37_announced: 3 bytes announced where 2 are allowed
example : (match handler demoHandlers (fun _ _ _ => 0) (freshReq 3 7 1 true 2 0) ((demoInput.take 2).map Input.message) with
    | .ok (r, rest, fin) => !fin && rest.isEmpty && r.env.contentLength.toNat > 2 | _ => false) = true := by decide +kernel
-- C37_excess: 2 bytes have come of 3, and 2 more come
example : (match handler demoHandlers (fun _ _ _ => 0) demoFresh ((demoInput.take 3 ++ [Input.record (demoRec 5 b!"ab")]).map Input.message) with
    | .ok (r, rest, fin) => !fin && rest.isEmpty && r.env.postBuffer.length + 2 > r.env.contentLength.toNat | _ => false) = true ∧
    phaseAfter (records (demoInput.take 3 ++ [Input.record (demoRec 5 b!"ab")])) = .stdin ∧ (demoRec 5 b!"cd").WF :=
  ⟨by decide +kernel, by decide, by unfold Record.WF; decide⟩

end Fcgi.Props
