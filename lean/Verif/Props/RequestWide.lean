import Verif.Lemmas.RequestWideRun
import Verif.Lemmas.RequestPairs
import Verif.Props.Request
/-! # C120: the life of a request with wide characters (`Request<wchar_t>`) -/
namespace Fcgi.Props
open Fcgi Fcgi.Model Fcgi.Spec

theorem isOutput_ofW {U} {r : ReqW U} {x : Record} (h : IsOutW r x) : IsOutput r.id x.bytes := by
  rcases h with h | h
  · exact ⟨x, Or.inl ⟨h.version, h.type, h.id, ⟨h.content_pos, h.content_max⟩, h.padding, h.aligned⟩, rfl⟩
  · exact ⟨x, Or.inr ⟨h.version, h.type, h.id, ⟨h.content_pos, h.content_max⟩, h.padding, h.aligned⟩, rfl⟩

theorem mem_sentOfW {l : List EvW} {s b k} (h : EvW.sent s b k ∈ l) : (s, b, k) ∈ sentOfW l := by
  induction l with
  | nil => simp at h
  | cons e l ih =>
    rcases List.mem_cons.1 h with rfl | h
    · simp [sentOfW]
    · have := ih h
      cases e <;> simp [sentOfW, this]

/-- Continuing a run by one message. -/
theorem handler_snocW {U} (hd : HandlersW U) (g) (r r' : ReqW U) (ms : List Message) (m : Message)
    (e : handlerW hd g r ms = .ok (r', [], false)) :
    handlerW hd g r (ms ++ [m]) = (handleMsgW hd g r' m >>= fun x => .ok (x.1, [], x.2)) := by
  rw [handler_appendW, e]
  simp only [Res.ok_bind, Bool.false_eq_true, if_false, handlerW]
  cases handleMsgW hd g r' m with
  | ok x => cases hx : x.2 <;> simp [hx]
  | ub k => rfl
  | stuck => rfl

/-! ## one answer, after the input -/

/-- Whatever messages a new request is given (of any type and any content) and whatever the user's
handlers do: when the request is finished, the last thing it did was to send one END_REQUEST record;
everything it sent before, and everything it has sent while not finished, are OUT and ERR records.  An
unfinished request has consumed all its messages. -/
theorem C120_once {U} (h : HandlersW U) (g) (sock id role kill max) (u : U) (ms : List Message) {r rest fin}
    (e : handlerW h g (freshReqW sock id role kill max u) ms = .ok (r, rest, fin)) :
    (fin = true → ∃ before end_, r.log = before ++ [.sent sock end_ kill] ∧ IsEndRequest id.toNat r.status end_ ∧
      ∀ s b k, EvW.sent s b k ∈ before → s = sock ∧ k = false ∧ IsOutput id b) ∧
    (fin = false → rest = [] ∧ ∀ s b k, EvW.sent s b k ∈ r.log → s = sock ∧ k = false ∧ IsOutput id b) := by
  obtain ⟨h1, h2, hc, _⟩ := handler_specW h g ms _ r rest fin (freshReq_aliveW ..) e
  obtain ⟨c1, c2, c3, _⟩ : r.sock = sock ∧ r.id = id ∧ r.kill = kill ∧ _ := hc
  have outs : ∀ (l : List EvW) (rs : List Record), sentOfW l = rs.map (fun x => (r.sock, x.bytes, false)) → (∀ x ∈ rs, IsOutW r x) →
      ∀ s b k, EvW.sent s b k ∈ l → s = sock ∧ k = false ∧ IsOutput id b := by
    intro l rs e1 e2 s b k hm
    have := mem_sentOfW hm
    rw [e1] at this
    obtain ⟨x, hx, hxe⟩ := List.mem_map.1 this
    simp only [Prod.mk.injEq] at hxe
    obtain ⟨rfl, rfl, rfl⟩ := hxe
    exact ⟨c1, rfl, c2 ▸ isOutput_ofW (e2 x hx)⟩
  constructor
  · intro hf
    obtain ⟨pre, rs, en, e1, e2, e3, ⟨g', e4⟩, _⟩ := (h1 hf).recs
    refine ⟨pre, en, by rw [e1, c1, c3], ?_, outs pre rs e2 e3⟩
    rw [e4, c2]; exact endRequestRecord_spec ..
  · intro hf
    obtain ⟨al, _, hr⟩ := h2 hf
    obtain ⟨rs, e1, e2, _⟩ := al.recs
    exact ⟨hr, outs r.log rs e1 e2⟩

/-- It does not matter when messages arrive: handling some messages and later some more is the same as
handling them together. -/
theorem C120_resume {U} (h : HandlersW U) (g) (r : ReqW U) (ms ms' : List Message) {r1}
    (e : handlerW h g r ms = .ok (r1, [], false)) : handlerW h g r (ms ++ ms') = handlerW h g r1 ms' := by
  rw [handler_appendW, e]; rfl

/-- `response()` is called with a FastCGI record as its message only when the records received so far
begin with a completeW input: parameters, an empty PARAMS record, data, an empty STDIN record. -/
theorem C120_response {U} (h : HandlersW U) (g) (sock id role kill max) (u : U) (ins : List Input) (hw : ∀ i ∈ ins, i.WF) {r rest fin}
    (e : handlerW h g (freshReqW sock id role kill max u) (ins.map Input.message) = .ok (r, rest, fin)) :
    ∀ env m, EvW.call (.response env m) ∈ r.log → m.type = 0 → ∃ first more, records ins = first ++ more ∧ InputComplete first := by
  intro env m hm h0
  have hm' : CallW.response env m ∈ callsOfW r.log := by
    clear e
    generalize r.log = l at hm
    induction l with
    | nil => simp at hm
    | cons x l ih =>
      rcases List.mem_cons.1 hm with rfl | hm
      · simp [callsOfW]
      · have := ih hm
        cases x <;> simp [callsOfW, this]
  obtain ⟨d, rest', rfl, _, h1, h2⟩ := run_gW h g sock id role kill max u ins hw e
  have hr : RespOkW (records d) r.log := by
    cases fin with
    | true => exact (h2 rfl).resp
    | false => exact (h1 rfl).2.resp
  obtain ⟨d1, d2, e1, e2⟩ := hr env m hm' h0
  exact ⟨d1, d2 ++ records rest', by rw [records_append, e1, List.append_assoc], e2⟩

/-! ## abort, order, role -/

section
variable {U : Type} (h : HandlersW U) (g : Host) (sock : Nat) (id role : UInt16) (kill : Bool) (max : Nat) (u : U)
  (ins : List Input) (hw : ∀ i ∈ ins, i.WF) {r : ReqW U}

include hw in
theorem ginv_ofW (e : handlerW h g (freshReqW sock id role kill max u) (ins.map Input.message) = .ok (r, [], false)) :
    GInvW (freshReqW sock id role kill max u) ins r := by
  obtain ⟨d, rest', rfl, hr, h1, _⟩ := run_gW h g sock id role kill max u ins hw e
  obtain ⟨rfl, hg⟩ := h1 rfl
  simpa using hg

/-- An ABORT_REQUEST record ends the request at once, in whatever phase: no handlerW is called and the
protocol status is REQUEST_COMPLETE (0). -/
theorem C120_abort (hw : ∀ i ∈ ins, i.WF)
    (e : handlerW h g (freshReqW sock id role kill max u) (ins.map Input.message) = .ok (r, [], false))
    (x : Record) (hx : x.WF) (ht : x.type = 2) :
    ∃ r', handlerW h g (freshReqW sock id role kill max u) ((ins ++ [Input.record x]).map Input.message) = .ok (r', [], true) ∧
      callsOfW r'.log = callsOfW r.log ∧ r'.status = 0 := by
  have hg := ginv_ofW h g sock id role kill max u ins hw e
  rw [List.map_append, List.map_singleton, handler_snocW h g _ r _ _ e]
  rcases record_outcomeW h g r hg.alive x hx _ hg.phase with
      ⟨_, r1, h1, h2, h3⟩ | ⟨t, _⟩ | ⟨_, t, _⟩ | ⟨_, t, _⟩ | ⟨_, t, _⟩ | ⟨_, t, _⟩ | ⟨_, t, _⟩ | ⟨_, t, _⟩ | ⟨_, t, _⟩
  · exact ⟨r1, by rw [Input.message, h1]; rfl, h2, h3.trans hg.status⟩
  · exact absurd ht t
  all_goals (rw [ht] at t; exact absurd t (by decide))

/-- A record that is not of the type the phase calls for ends the request through the error handler. -/
theorem C120_out_of_order (hw : ∀ i ∈ ins, i.WF)
    (e : handlerW h g (freshReqW sock id role kill max u) (ins.map Input.message) = .ok (r, [], false))
    (x : Record) (hx : x.WF) (h2 : x.type ≠ 2) (ht : (phaseAfter (records ins)).accepts ≠ some x.type) :
    ∃ r', handlerW h g (freshReqW sock id role kill max u) ((ins ++ [Input.record x]).map Input.message) = .ok (r', [], true) ∧
      callsOfW r'.log = callsOfW r.log ++ [.error] ∧ r'.status = 0 := by
  have hg := ginv_ofW h g sock id role kill max u ins hw e
  rw [List.map_append, List.map_singleton, handler_snocW h g _ r _ _ e]
  rcases record_outcomeW h g r hg.alive x hx _ hg.phase with
      ⟨t, _⟩ | ⟨_, _, r1, h1, h2, h3⟩ | ⟨p, t, _⟩ | ⟨p, t, _⟩ | ⟨p, t, _⟩ | ⟨p, t, _⟩ | ⟨p, t, _⟩ | ⟨p, t, _⟩ | ⟨p, t, _⟩
  · exact absurd t h2
  · exact ⟨r1, by rw [Input.message, h1]; rfl, h2, h3.trans hg.status⟩
  all_goals (rw [p, t] at ht; exact absurd rfl ht)

/-- A request whose role is neither RESPONDER (1) nor AUTHORIZER (2) is ended by its first PARAMS record,
through the error handler, with protocol status UNKNOWN_ROLE (3). -/
theorem C120_role (hw : ∀ i ∈ ins, i.WF)
    (e : handlerW h g (freshReqW sock id role kill max u) (ins.map Input.message) = .ok (r, [], false))
    (hr : role ≠ 1 ∧ role ≠ 2) (x : Record) (hx : x.WF) (ht : x.type = 4) (hp : phaseAfter (records ins) = .params) :
    ∃ r', handlerW h g (freshReqW sock id role kill max u) ((ins ++ [Input.record x]).map Input.message) = .ok (r', [], true) ∧
      callsOfW r'.log = callsOfW r.log ++ [.error] ∧ r'.status = 3 := by
  have hg := ginv_ofW h g sock id role kill max u ins hw e
  have hrole : r.role = role := hg.consts.2.2.2.1
  rw [List.map_append, List.map_singleton, handler_snocW h g _ r _ _ e]
  rcases record_outcomeW h g r hg.alive x hx _ hg.phase with
      ⟨t, _⟩ | ⟨_, t, _⟩ | ⟨p, t, _, r1, h1, h2, h3⟩ | ⟨p, t, c, _⟩ | ⟨p, t, c, _⟩ | ⟨p, t, c, _⟩ | ⟨p, t, _⟩ | ⟨p, t, _⟩ | ⟨p, t, _⟩
  · rw [ht] at t; exact absurd t (by decide)
  · rw [hp, ht] at t; exact absurd rfl t
  · exact ⟨r1, by rw [Input.message, h1]; rfl, h2, h3⟩
  · rw [hrole] at c; exact absurd c (by simp [hr])
  · rw [hrole] at c; exact absurd c (by simp [hr])
  · rw [hrole] at c; exact absurd c (by simp [hr])
  all_goals (rw [hp] at p; cases p)

/-- Such a request never gets past its parameters: while it lives it has received no record at all. -/
theorem C120_role_always (hw : ∀ i ∈ ins, i.WF)
    (e : handlerW h g (freshReqW sock id role kill max u) (ins.map Input.message) = .ok (r, [], false))
    (hr : role ≠ 1 ∧ role ≠ 2) : records ins = [] := by
  let Inv : List Input → ReqW U → Prop := fun d r => GInvW (freshReqW sock id role kill max u) d r ∧ records d = []
  have := run_invW h g Inv (fun _ _ => True) (by
    intro done i r1 r2 fin hiw hi he
    have s := step_gW h g _ done i r1 r2 fin hiw hi.1 he
    refine ⟨fun hf => ⟨s.1 hf, ?_⟩, fun _ => trivial⟩
    rw [records_append, hi.2]
    cases i with
    | callback t d => rfl
    | record x =>
      exfalso
      have hg := hi.1
      have hrole : r1.role = role := hg.consts.2.2.2.1
      have hph := hg.phase
      rw [hi.2] at hph
      subst hf
      have he' : handleMsgW h g r1 (fcgiMsg x) = .ok (r2, false) := he
      rcases record_outcomeW h g r1 hg.alive x hiw .params hph with
        ⟨_, q, h1, _⟩ | ⟨_, _, q, h1, _⟩ | ⟨_, _, _, q, h1, _⟩ | ⟨_, _, c, _⟩ | ⟨_, _, c, _⟩ | ⟨_, _, c, _⟩ | ⟨p, _⟩ | ⟨p, _⟩ | ⟨p, _⟩
      · rw [h1] at he'; simp at he'
      · rw [h1] at he'; simp at he'
      · rw [h1] at he'; simp at he'
      · rw [hrole] at c; simp [hr] at c
      · rw [hrole] at c; simp [hr] at c
      · rw [hrole] at c; simp [hr] at c
      · cases p
      · cases p
      · cases p) ins [] _ r [] false hw ⟨freshReq_ginvW .., rfl⟩ e
  obtain ⟨d, rest', rfl, _, h1, _⟩ := this
  obtain ⟨rfl, h2⟩ := h1 rfl
  simpa using h2.2

/-! ## size of POST data -/

/-- If the length announced in the environment exceeds the limit, the end of the parameters ends the
request through the 413 handler. -/
theorem C120_announced (hw : ∀ i ∈ ins, i.WF)
    (e : handlerW h g (freshReqW sock id role kill max u) (ins.map Input.message) = .ok (r, [], false))
    (hr : role = 1 ∨ role = 2) (x : Record) (hx : x.WF) (ht : x.type = 4) (h0 : x.content = [])
    (hp : phaseAfter (records ins) = .params) (hbig : r.env.contentLength.toNat > max) :
    ∃ r', handlerW h g (freshReqW sock id role kill max u) ((ins ++ [Input.record x]).map Input.message) = .ok (r', [], true) ∧
      callsOfW r'.log = callsOfW r.log ++ [.bigPost] ∧ r'.status = 0 := by
  have hg := ginv_ofW h g sock id role kill max u ins hw e
  have hrole : r.role = role := hg.consts.2.2.2.1
  have hmax : r.maxPostSize = max := hg.consts.2.2.2.2
  rw [List.map_append, List.map_singleton, handler_snocW h g _ r _ _ e]
  rcases record_outcomeW h g r hg.alive x hx _ hg.phase with
      ⟨t, _⟩ | ⟨_, t, _⟩ | ⟨_, _, t, _⟩ | ⟨_, _, _, _, _, r1, h1, h2, h3⟩ | ⟨_, _, _, _, c, _⟩ | ⟨_, _, _, c, _⟩ | ⟨p, _⟩ | ⟨p, _⟩ | ⟨p, _⟩
  · rw [ht] at t; exact absurd t (by decide)
  · rw [hp, ht] at t; exact absurd rfl t
  · rw [hrole] at t; exact absurd hr t
  · exact ⟨r1, by rw [Input.message, h1]; rfl, h2, h3.trans hg.status⟩
  · omega
  · exact absurd h0 c
  all_goals (rw [hp] at p; cases p)

/-- A STDIN record that would take the data beyond the announced length ends the request through the 413
handler: `inHandler`, `inProcessor` and `response` are not called. -/
theorem C120_excess (hw : ∀ i ∈ ins, i.WF)
    (e : handlerW h g (freshReqW sock id role kill max u) (ins.map Input.message) = .ok (r, [], false))
    (x : Record) (hx : x.WF) (ht : x.type = 5) (h0 : x.content ≠ []) (hp : phaseAfter (records ins) = .stdin)
    (hbig : r.env.postBuffer.length + x.content.length > r.env.contentLength.toNat) :
    ∃ r', handlerW h g (freshReqW sock id role kill max u) ((ins ++ [Input.record x]).map Input.message) = .ok (r', [], true) ∧
      callsOfW r'.log = callsOfW r.log ++ [.bigPost] ∧ r'.status = 0 := by
  have hg := ginv_ofW h g sock id role kill max u ins hw e
  rw [List.map_append, List.map_singleton, handler_snocW h g _ r _ _ e]
  rcases record_outcomeW h g r hg.alive x hx _ hg.phase with
      ⟨t, _⟩ | ⟨_, t, _⟩ | ⟨p, _⟩ | ⟨p, _⟩ | ⟨p, _⟩ | ⟨p, _⟩ | ⟨_, _, c, _⟩ | ⟨_, _, _, _, r1, h1, h2, h3⟩ | ⟨_, _, _, c, _⟩
  · rw [ht] at t; exact absurd t (by decide)
  · rw [hp, ht] at t; exact absurd rfl t
  · rw [hp] at p; cases p
  · rw [hp] at p; cases p
  · rw [hp] at p; cases p
  · rw [hp] at p; cases p
  · exact absurd c h0
  · exact ⟨r1, by rw [Input.message, h1]; rfl, h2, h3.trans hg.status⟩
  · omega
end

/-- With handlers that leave the announced length and the raw data alone, the data handed over for
processing is never longer than announced, what was announced is never above the limit, and an unfinished
request never buffers more than the limit. -/
theorem C120_bounded {U} (h : HandlersW U) (ht : TameW h) (g) (sock id role kill max) (u : U) (ins : List Input) (hw : ∀ i ∈ ins, i.WF) {r rest fin}
    (e : handlerW h g (freshReqW sock id role kill max u) (ins.map Input.message) = .ok (r, rest, fin)) :
    (∀ env, CallW.inProcessor env ∈ callsOfW r.log → env.postBuffer.length ≤ env.contentLength.toNat ∧ env.contentLength.toNat ≤ max) ∧
    (fin = false → r.env.postBuffer.length ≤ max) :=
  run_sizeW h ht g sock id role kill max u ins hw e

/-! ## completion -/

/-- A finished request has sent all the text its handlers wrote, in UTF-8: the contents of its OUT records are what was written to
`out`, those of its ERR records what was written to `err` (no encoding selected), all before the END_REQUEST record, which carries the
request's id and status and, as the "close the connection" flag, the decision of the web server. -/
theorem C120_complete_partial {U} (h : HandlersW U) (g) (sock id role kill max) (u : U) (ms : List Message) {r rest}
    (e : handlerW h g (freshReqW sock id role kill max u) ms = .ok (r, rest, true)) :
    ∃ before, ∃ rs : List Record, ∃ end_, r.log = before ++ [.sent sock end_ kill] ∧ IsEndRequest id.toNat r.status end_ ∧
      sentOfW before = rs.map (fun x => (sock, x.bytes, false)) ∧ (∀ x ∈ rs, GoodRecord id 6 x ∨ GoodRecord id 7 x) ∧
      (noEnc (writesW false r.log) → (∀ op ∈ writesW false r.log, WritesText op) →
        (rs.filter (fun x => x.type = 6)).flatMap Record.content = (writesW false r.log).flatMap (writtenBy utf8Text)) ∧
      (noEnc (writesW true r.log) → (∀ op ∈ writesW true r.log, WritesText op) →
        (rs.filter (fun x => x.type = 7)).flatMap Record.content = (writesW true r.log).flatMap (writtenBy utf8Text)) := by
  obtain ⟨h1, h2, hc, _⟩ := handler_specW h g ms _ r rest true (freshReq_aliveW ..) e
  obtain ⟨c1, c2, c3, _⟩ : r.sock = sock ∧ r.id = id ∧ r.kill = kill ∧ _ := hc
  obtain ⟨pre, rs, en, e1, e2, e3, ⟨g', e4⟩, e5, e6⟩ := (h1 rfl).recs
  have plain : ∀ ops : List (SOp UInt32), noEnc ops → expected wideTable cv8 .none ops = ops.flatMap (writtenBy utf8Text) := by
    intro ops hne
    rw [C12_expected_plain _ _ ops hne]
    congr 1
  refine ⟨pre, rs, en, by rw [e1, c1, c3], ?_, by rw [e2, c1], ?_, fun hn ht => by rw [e5 ht, plain _ hn], fun hn ht => by rw [e6 ht, plain _ hn]⟩
  · rw [e4, c2]; exact endRequestRecord_spec ..
  · intro x hx
    rcases e3 x hx with k | k
    · exact Or.inl ⟨k.version, k.type, c2 ▸ k.id, ⟨k.content_pos, k.content_max⟩, k.padding, k.aligned⟩
    · exact Or.inr ⟨k.version, k.type, c2 ▸ k.id, ⟨k.content_pos, k.content_max⟩, k.padding, k.aligned⟩

/-! ## No undefined behaviour -/

theorem handleMsg_totalW {U} (hd : HandlersW U) (g) (r : ReqW U) (h : AliveW r) (i : Input) (hw : i.WF) (hp : ParamsOk i) (p : Phase)
    (hs : r.state = phaseCode p) : ∃ x, handleMsgW hd g r i.message = .ok x := by
  cases i with
  | callback t d =>
    obtain ⟨r1, a1, _⟩ := respond_specW hd g r h ⟨t, d⟩
    exact ⟨_, (handleMsg_callbackW hd g r ⟨t, d⟩ hw).trans a1⟩
  | record x =>
    rcases record_outcomeW hd g r h x hw p hs with
      ⟨_, r1, h1, _⟩ | ⟨_, _, r1, h1, _⟩ | ⟨_, _, _, r1, h1, _⟩ | ⟨_, _, _, _, _, r1, h1, _⟩ |
      ⟨_, _, _, _, _, h1⟩ | ⟨hpp, ht, hr, h0, h1⟩ | ⟨_, _, h0, h1⟩ | ⟨_, _, _, _, r1, h1, _⟩ | ⟨_, _, _, _, r1, h1, _⟩
    · exact ⟨_, h1⟩
    · exact ⟨_, h1⟩
    · exact ⟨_, h1⟩
    · exact ⟨_, h1⟩
    · exact ⟨_, h1⟩
    · obtain ⟨items, hx⟩ := hp x rfl ht h0
      obtain ⟨env, he⟩ := fillPairs_ok [0] ParamOk fillStep_ok ⟨0, by simp, by decide⟩ items (shadow r.env) hx.ok
      have e1 := fill_items items (recordHead x) x.padding (shadow r.env) hx.enc
      rw [fillPairs_after x.padding [0] hx.padded ⟨0, by simp, by decide⟩ items _ hx.ok, he, ← hx.content, ← (record_split x).1] at e1
      rw [List.length_append, (record_split x).2] at e1
      obtain ⟨w, hw, _⟩ := sameRes_ok (fill_wide x.bytes 8 (8 + x.content.length) (shadow_same r.env)) e1
      rw [hw] at h1
      exact ⟨_, h1⟩
    · obtain ⟨a, p, _, _, r1, fin, f1, _⟩ := inputEnd_specW hd g r h (fcgiMsg x)
      exact ⟨_, h1.trans f1⟩
    · exact ⟨_, h1⟩
    · exact ⟨_, h1⟩

theorem handler_totalW {U} (hd : HandlersW U) (g) (r0 : ReqW U) : ∀ (ins done : List Input) (r : ReqW U), GInvW r0 done r →
    (∀ i ∈ ins, i.WF) → (∀ i ∈ ins, ParamsOk i) → ∃ x, handlerW hd g r (ins.map Input.message) = .ok x := by
  intro ins
  induction ins with
  | nil => intro done r _ _ _; exact ⟨_, rfl⟩
  | cons i ins ih =>
    intro done r h hw hp
    obtain ⟨⟨r1, fin⟩, e⟩ := handleMsg_totalW hd g r h.alive i (hw i (by simp)) (hp i (by simp)) _ h.phase
    have s := step_gW hd g r0 done i r r1 fin (hw i (by simp)) h e
    simp only [List.map_cons, handlerW, e, Res.ok_bind]
    cases fin with
    | true => exact ⟨_, rfl⟩
    | false => exact ih _ _ (s.1 rfl) (fun j hj => hw j (by simp [hj])) (fun j hj => hp j (by simp [hj]))

/-- Inputs in which every PARAMS record holds whole pairs (with digits for the numeric variables, and some padding) are always handled, be
the text in them well formed or not: no undefined behaviour, no endless loop, whatever the handlers do, text or not. -/
theorem C120_total_partial {U} (h : HandlersW U) (g) (sock id role kill max) (u : U) (ins : List Input) (hw : ∀ i ∈ ins, i.WF)
    (hp : ∀ i ∈ ins, ParamsOk i) : ∃ x, handlerW h g (freshReqW sock id role kill max u) (ins.map Input.message) = .ok x :=
  handler_totalW h g _ ins [] _ (freshReq_ginvW ..) hw hp

/-! ## What is not text -/

theorem convert_bad (s : List UInt32) (bad : UInt32) (hb : bad ∈ s) (hn : ¬ isScalar bad) : convert utf8Put s = none := by
  induction s with
  | nil => simp at hb
  | cons c s ih =>
    unfold convert
    rcases List.mem_cons.1 hb with rfl | hb
    · rw [(utf8Put_scalar bad).2 hn]
    · rw [ih hb]
      cases utf8Put c <;> rfl

/-- Violated: an application that writes a character that is not Unicode and calls `flush()` loses all it wrote before (what was in the
buffer) and also all it writes afterwards, in the rest of the request.  The request ends as if nothing had happened. -/
theorem C120_violated {U} (h : HandlersW U) (g) (sock id role kill max) (u : U) (m : Message) (hm : m.type ≠ 0) (s t : List UInt32)
    (bad : UInt32) (hb : bad ∈ s) (hn : ¬ isScalar bad) (hl : s.length ≤ 8192) (env : EnvW) (u' : U)
    (hr : h.response u {} m = (⟨[(false, .insert s), (false, .flush), (false, .insert t)], env, u'⟩, true)) :
    ∃ r end_, handlerW h g (freshReqW sock id role kill max u) [m] = .ok (r, [], true) ∧
      sentOfW r.log = [(sock, end_, kill)] ∧ IsEndRequest id.toNat 0 end_ := by
  have hx : xsputn wideTable (emptyBufferW (g.heap 6) utf8Put) (s.length + 1) (freshStream sock id 6) s =
      .ok { (freshStream sock id 6 : WebBuf UInt32 FcgiSink) with buf := s } := by
    unfold xsputn
    have hm : min s.length 8192 = s.length := by omega
    simp [freshStream, fillNone, buffSize, hm]
  have hf : emptyBufferW (g.heap 6) utf8Put { (freshStream sock id 6 : WebBuf UInt32 FcgiSink) with buf := s } =
      .ok (freshStream sock id 6, false) := by
    have hc := convert_bad s bad hb hn
    unfold emptyBufferW
    cases s with
    | nil => simp at hb
    | cons c l => simp only [hc]; rfl
  have hf0 : ∀ ty (g : Nat → Nat → UInt8), emptyBufferW g utf8Put (freshStream sock id ty) = .ok (freshStream sock id ty, true) := fun _ _ => rfl
  refine ⟨{ freshReqW sock id role kill max u with
      env := env, user := u', out := ⟨freshStream sock id 6, true⟩,
      log := [.call (.response {} m), .write false (.insert s), .write false .flush, .write false (.insert t),
        .sent sock (endRequestRecord (g.heap 3 0) id 0) kill] }, _, ?_, rfl, endRequestRecord_spec ..⟩
  simp only [handlerW, handleMsgW, if_neg hm, respondW]
  rw [show h.response (freshReqW sock id role kill max u).user (freshReqW sock id role kill max u).env m = _ from hr]
  simp only [callW, userOpsW, streamOpW, freshReqW, WStream.step, Bool.false_eq_true, if_false, if_true, hx, Res.ok_bind, Res.pure_eq, Bool.false_and, hf,
    completeW]
  have hfs : (freshStream sock id 6 : WebBuf UInt32 FcgiSink).sink.sent = [] ∧ (freshStream sock id 7 : WebBuf UInt32 FcgiSink).sink.sent = [] := ⟨rfl, rfl⟩
  cases hs : g.sentry <;> simp [hs, hf0, hfs]

/-! ## A concrete request

The request of Props/Request, answered with "é", "€" and the host. -/

def demoHandlersW : HandlersW Nat :=
  defaultHandlersW fun n e m => (⟨[(false, .insert ([0xe9] ++ e.host)), (false, .put 0x20ac), (true, .insert [0x6c, 0x6f, 0x67])], e, n + 1⟩, m.type = 0)
def demoFreshW : ReqW Nat := freshReqW 3 7 1 true 100 0
example : (match handlerW demoHandlersW ⟨fun _ _ _ => 0, true⟩ demoFreshW (demoInput.map Input.message) with
    | .ok (r, rest, fin) => fin && rest.isEmpty && (callsOfW r.log).length == 3 && r.user == 2 &&
        (sentOfW r.log).map (fun x => (x.2.1.drop 8).take 12) ==
          [[0xc3, 0xa9, 0x68, 0xe2, 0x82, 0xac, 0xc3, 0xa9, 0x68, 0xe2, 0x82, 0xac], b!"loglog" ++ [0, 0], [0, 0, 0, 0, 0, 0, 0, 0]]
    | _ => false) = true := by decide +kernel
example : (match handlerW demoHandlersW ⟨fun _ _ _ => 0, false⟩ demoFreshW ((demoInput.take 3 ++ [Input.record (demoRec 5 b!"abcd")]).map Input.message) with
    | .ok (r, _, fin) => fin && (callsOfW r.log).getLast? == some .bigPost | _ => false) = true := by decide +kernel
example : TameW demoHandlersW := ⟨fun _ _ _ => ⟨rfl, rfl⟩, fun _ _ _ => ⟨rfl, rfl⟩⟩
/-- A lone surrogate is not text. -/
example : ¬ isScalar 0xd800 := by unfold isScalar; decide

/-! ### Witnesses for C120: the requests so far go on, and the next records are as the theorems ask -/

-- C120_out_of_order, C120_abort: a parameter when the body is expected, and an abort
example : (match handlerW demoHandlersW ⟨fun _ _ _ => 0, true⟩ demoFreshW ((demoInput.take 3).map Input.message) with
    | .ok (_, rest, fin) => !fin && rest.isEmpty | _ => false) = true ∧
    (phaseAfter (records (demoInput.take 3))).accepts ≠ some (demoRec 4 demoPair2.2).type ∧ (demoRec 4 demoPair2.2).WF ∧
    (demoRec 2 []).WF ∧ (demoRec 2 []).type = 2 :=
  ⟨by decide +kernel, by decide, by unfold Record.WF; decide, by unfold Record.WF; decide, rfl⟩
-- C120_role, C120_role_always: a request with an unknown role that has had only a callback
example : (match handlerW demoHandlersW ⟨fun _ _ _ => 0, true⟩ (freshReqW 3 7 5 true 100 0) ([Input.callback 5 b!"note"].map Input.message) with
    | .ok (r, rest, fin) => !fin && rest.isEmpty && (callsOfW r.log).length == 1 | _ => false) = true ∧
    phaseAfter (records [Input.callback 5 b!"note"]) = .params ∧ (Input.callback 5 b!"note").WF :=
  ⟨by decide +kernel, by decide, by show (5 : Int) ≠ 0; decide⟩
-- C120_announced: 3 bytes announced where 2 are allowed
example : (match handlerW demoHandlersW ⟨fun _ _ _ => 0, true⟩ (freshReqW 3 7 1 true 2 0) ((demoInput.take 2).map Input.message) with
    | .ok (r, rest, fin) => !fin && rest.isEmpty && r.env.contentLength.toNat > 2 | _ => false) = true := by decide +kernel
-- C120_excess: 2 bytes have come of 3, and 2 more come
example : (match handlerW demoHandlersW ⟨fun _ _ _ => 0, true⟩ demoFreshW ((demoInput.take 3 ++ [Input.record (demoRec 5 b!"ab")]).map Input.message) with
    | .ok (r, rest, fin) => !fin && rest.isEmpty && r.env.postBuffer.length + 2 > r.env.contentLength.toNat | _ => false) = true ∧
    phaseAfter (records (demoInput.take 3 ++ [Input.record (demoRec 5 b!"ab")])) = .stdin ∧ (demoRec 5 b!"cd").WF :=
  ⟨by decide +kernel, by decide, by unfold Record.WF; decide⟩

end Fcgi.Props
