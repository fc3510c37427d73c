import Verif.Lemmas.ErrorPageWide
import Verif.Props.Request
import Verif.Props.RequestWide
/-! # C125: what the client of a refused request is told, if the application keeps the library's error handlers -/
namespace Fcgi.Props
open Fcgi Fcgi.Model Fcgi.Spec

/-- The statuses of the three error handlers. -/
def errorStatuses : List (Call × Bytes) :=
  [(.error, b!"500 Internal Server Error"), (.bigPost, b!"413 Request Entity Too Large"), (.unknownContent, b!"415 Unsupported Media Type")]

theorem errorStatuses_iff {c s} : (c, s) ∈ errorStatuses ↔ statusOf c = some s := by
  cases c <;> simp [errorStatuses, statusOf, eq_comm]

/-- A response can be read in one way only: its header fields and its body are determined. -/
theorem C125_unambiguous {fields fields' : List (Bytes × Bytes)} {body body' b : Bytes} (h : IsResponse fields body b)
    (h' : IsResponse fields' body' b) : fields = fields' ∧ body = body' :=
  isResponse_unique h h'

theorem status_clean {c s} (h : statusOf c = some s) : ∀ x ∈ s, x ≠ 10 ∧ x ≠ 13 := by
  cases c <;> simp only [statusOf, Option.some.injEq, reduceCtorEq] at h <;> subst h <;> decide

theorem flatMap_pageOps {cs : List Call} (h : ∀ c ∈ cs, statusOf c = none) : cs.flatMap pageOps = [] := by
  rw [List.flatMap_eq_nil_iff]
  intro c hc
  simp [pageOps, h c hc]

theorem encode_plain (s : Bytes) : (s.flatMap (encode1 charTable .none)).flatMap one = s := by
  rw [flatMap_one]
  induction s with
  | nil => rfl
  | cons a l ih => rw [List.flatMap_cons, ih]; rfl

section
variable {U : Type} {h : Handlers U} (hk : KeepsPages h) (g : Nat → Nat → Nat → UInt8) (sock : Nat) (id role : UInt16) (kill : Bool)
  (max : Nat) (u : U)

include hk in
/-- Whatever messages a request is given, and in whatever order: if it is finished without `response()` having been called, then either it
was aborted and nothing was written, or the last call was to one of the error handlers and the client was sent the page with that status, a
whole response, and nothing else. -/
theorem C125_finished_partial (ms : List Message) {r rest} (e : handler h g (freshReq sock id role kill max u) ms = .ok (r, rest, true))
    (hn : ∀ env m, Ev.call (.response env m) ∉ r.log) :
    (∃ end_, sentOf r.log = [(sock, end_, kill)] ∧ IsEndRequest id.toNat r.status end_ ∧ ∀ c ∈ callsOf r.log, ∀ s, (c, s) ∉ errorStatuses) ∨
    ∃ c s, (c, s) ∈ errorStatuses ∧ (callsOf r.log).getLast? = some c ∧ RefusedAnswer sock id.toNat kill r.status s (sentOf r.log) := by
  have hn' : NoResponse (callsOf r.log) := by
    intro env m hm
    refine hn env m ?_
    clear e hn
    generalize r.log = l at hm ⊢
    induction l with
    | nil => simp [callsOf] at hm
    | cons x l ih =>
      cases x with
      | call c =>
        simp only [callsOf, List.mem_cons] at hm
        rcases hm with rfl | hm
        · simp
        · exact List.mem_cons_of_mem _ (ih hm)
      | write e op => exact List.mem_cons_of_mem _ (ih hm)
      | sent a b c => exact List.mem_cons_of_mem _ (ih hm)
  obtain ⟨h1, h2, hc, _⟩ := handler_spec h g ms _ r rest true (freshReq_alive ..) e
  obtain ⟨c1, c2, c3, _⟩ : r.sock = sock ∧ r.id = id ∧ r.kill = kill ∧ _ := hc
  obtain ⟨pre, rs, en, e1, e2, e3, ⟨g', e4⟩, e5, e6⟩ := (h1 rfl).recs
  obtain ⟨p1, cs, p2, p3⟩ := page_run hk g ms _ r rest true (freshReq_alive ..) (fun _ => ⟨rfl, rfl⟩) (by simp [freshReq, callsOf]) e
  obtain ⟨w1, w2⟩ := p1 hn'
  have hsent : sentOf r.log = rs.map (fun x => (sock, x.bytes, false)) ++ [(sock, en, kill)] := by
    rw [e1, sentOf_append, e2, c1, c3]; rfl
  have hend : IsEndRequest id.toNat r.status en := by rw [e4, c2]; exact endRequestRecord_spec ..
  have h7 : ∀ x ∈ rs, x.type = 6 := by
    intro x hx
    rcases e3 x hx with k | k
    · exact k.type
    · exfalso
      rw [w2] at e6
      have : x.content = [] := by
        have := List.flatMap_eq_nil_iff.1 e6 x (List.mem_filter.2 ⟨hx, by simp [k.type]⟩)
        exact this
      have := k.content_pos
      simp_all
  have hall : rs.filter (fun x => x.type = 6) = rs := List.filter_eq_self.2 (fun x hx => by simp [h7 x hx])
  rw [hall, w1] at e5
  rcases p2 with p2 | ⟨_, c, s, hs, p2⟩
  · left
    rw [p2, flatMap_pageOps p3] at e5
    have hrs : rs = [] := by
      cases rs with
      | nil => rfl
      | cons x rs =>
        exfalso
        have := List.flatMap_eq_nil_iff.1 e5 x (by simp)
        rcases e3 x (by simp) with k | k
        · have := k.content_pos; simp_all
        · have := k.content_pos; simp_all
    refine ⟨en, by rw [hsent, hrs]; rfl, hend, ?_⟩
    intro c hc s hm
    rw [errorStatuses_iff, p3 c (p2 ▸ hc)] at hm
    cases hm
  · right
    refine ⟨c, s, errorStatuses_iff.2 hs, by rw [p2]; simp, rs, en, hsent, ?_, ?_, hend⟩
    · intro x hx
      rcases e3 x hx with k | k
      · have a := k.content_pos
        have b := k.content_max
        have d := k.padding
        refine ⟨k.version, h7 x hx, c2 ▸ k.id, ⟨?_, ?_, ?_⟩, by intro hc; rw [hc] at a; simp at a⟩
        · rw [k.id]; exact r.id.toNat_lt
        · omega
        · omega
      · have := h7 x hx; rw [k.type] at this; cases this
    · rw [e5, p2, List.flatMap_append, flatMap_pageOps p3]
      simp only [List.nil_append, List.flatMap_cons, List.flatMap_nil, List.append_nil, pageOps, hs, expected, encode_plain]
      exact errorPage_answer s (status_clean hs)

/-- `response()` has not been called. -/
theorem refused_of (hk : KeepsPages h) {ms : List Message} {r r' : Req U} {c s rest}
    (e : handler h g (freshReq sock id role kill max u) ms = .ok (r', rest, true)) (hcs : (c, s) ∈ errorStatuses)
    (hl : ∃ l, callsOf r'.log = callsOf r.log ++ l ++ [c] ∧ NoResponse l) (hn : NoResponse (callsOf r.log)) :
    RefusedAnswer sock id.toNat kill r'.status s (sentOf r'.log) := by
  obtain ⟨l, hl, hnl⟩ := hl
  have hc : ∀ env m, c ≠ .response env m := by rintro env m rfl; simp [errorStatuses] at hcs
  have hn' : NoResponse (callsOf r'.log) := by
    rw [hl]
    intro env m hm
    rcases List.mem_append.1 hm with hm | hm
    · rcases List.mem_append.1 hm with hm | hm
      · exact hn env m hm
      · exact hnl env m hm
    · simp only [List.mem_singleton] at hm
      exact hc env m hm.symm
  have memc : ∀ (l : List Ev) c, Ev.call c ∈ l → c ∈ callsOf l := by
    intro l c
    induction l with
    | nil => simp
    | cons x l ih =>
      intro hm
      rcases List.mem_cons.1 hm with rfl | hm
      · simp [callsOf]
      · have := ih hm
        cases x <;> simp [callsOf, this]
  rcases C125_finished_partial hk g sock id role kill max u ms e (fun env m hm => hn' env m (memc _ _ hm)) with ⟨_, _, _, hq⟩ | ⟨c', s', h1, h2, h3⟩
  · exact absurd hcs (hq c (by rw [hl]; simp) s)
  · rw [hl] at h2
    simp only [List.getLast?_append, List.getLast?_singleton, Option.some_or, Option.some.injEq] at h2
    subst h2
    rw [errorStatuses_iff] at h1 hcs
    rw [hcs] at h1
    cases h1
    exact h3

variable (ins : List Input) (hw : ∀ i ∈ ins, i.WF) {r : Req U}
  (e : handler h g (freshReq sock id role kill max u) (ins.map Input.message) = .ok (r, [], false)) (hn : NoResponse (callsOf r.log))
  (x : Record) (hx : x.WF)
include hk hw e hn hx

/-- A record out of order, before `response()` was called: status 500. -/
theorem C125_out_of_order_partial (h2 : x.type ≠ 2) (ht : (phaseAfter (records ins)).accepts ≠ some x.type) :
    ∃ r', handler h g (freshReq sock id role kill max u) ((ins ++ [Input.record x]).map Input.message) = .ok (r', [], true) ∧
      RefusedAnswer sock id.toNat kill 0 b!"500 Internal Server Error" (sentOf r'.log) := by
  obtain ⟨r', a1, a2, a3⟩ := C38_out_of_order h g sock id role kill max u ins hw e x hx h2 ht
  exact ⟨r', a1, a3 ▸ refused_of g sock id role kill max u hk a1 (c := .error) (by simp [errorStatuses]) ⟨[], by simpa using a2, by simp [NoResponse]⟩ hn⟩

/-- A role the library does not know: status 500, and protocol status UNKNOWN_ROLE. -/
theorem C125_role_partial (hr : role ≠ 1 ∧ role ≠ 2) (ht : x.type = 4) (hp : phaseAfter (records ins) = .params) :
    ∃ r', handler h g (freshReq sock id role kill max u) ((ins ++ [Input.record x]).map Input.message) = .ok (r', [], true) ∧
      RefusedAnswer sock id.toNat kill 3 b!"500 Internal Server Error" (sentOf r'.log) := by
  obtain ⟨r', a1, a2, a3⟩ := C38_role h g sock id role kill max u ins hw e hr x hx ht hp
  exact ⟨r', a1, a3 ▸ refused_of g sock id role kill max u hk a1 (c := .error) (by simp [errorStatuses]) ⟨[], by simpa using a2, by simp [NoResponse]⟩ hn⟩

/-- The announced length of the data is above the limit: status 413. -/
theorem C125_announced_partial (hr : role = 1 ∨ role = 2) (ht : x.type = 4) (h0 : x.content = [])
    (hp : phaseAfter (records ins) = .params) (hbig : r.env.contentLength.toNat > max) :
    ∃ r', handler h g (freshReq sock id role kill max u) ((ins ++ [Input.record x]).map Input.message) = .ok (r', [], true) ∧
      RefusedAnswer sock id.toNat kill 0 b!"413 Request Entity Too Large" (sentOf r'.log) := by
  obtain ⟨r', a1, a2, a3⟩ := C37_announced h g sock id role kill max u ins hw e hr x hx ht h0 hp hbig
  exact ⟨r', a1, a3 ▸ refused_of g sock id role kill max u hk a1 (c := .bigPost) (by simp [errorStatuses]) ⟨[], by simpa using a2, by simp [NoResponse]⟩ hn⟩

/-- More data than announced: status 413. -/
theorem C125_excess_partial (ht : x.type = 5) (h0 : x.content ≠ []) (hp : phaseAfter (records ins) = .stdin)
    (hbig : r.env.postBuffer.length + x.content.length > r.env.contentLength.toNat) :
    ∃ r', handler h g (freshReq sock id role kill max u) ((ins ++ [Input.record x]).map Input.message) = .ok (r', [], true) ∧
      RefusedAnswer sock id.toNat kill 0 b!"413 Request Entity Too Large" (sentOf r'.log) := by
  obtain ⟨r', a1, a2, a3⟩ := C37_excess h g sock id role kill max u ins hw e x hx ht h0 hp hbig
  exact ⟨r', a1, a3 ▸ refused_of g sock id role kill max u hk a1 (c := .bigPost) (by simp [errorStatuses]) ⟨[], by simpa using a2, by simp [NoResponse]⟩ hn⟩

/-- Data of a type the application does not process and the library does not know: status 415. -/
theorem C125_unknown_content_partial (ht : x.type = 5) (h0 : x.content = []) (hp : phaseAfter (records ins) = .stdin)
    (hb : (h.inProcessor r.user r.env).2 = false) (hd : (h.inProcessor r.user r.env).1.env.postBuffer ≠ [])
    (ht1 : (h.inProcessor r.user r.env).1.env.contentType ≠ b!"multipart/form-data")
    (ht2 : (h.inProcessor r.user r.env).1.env.contentType ≠ b!"application/x-www-form-urlencoded") :
    ∃ r', handler h g (freshReq sock id role kill max u) ((ins ++ [Input.record x]).map Input.message) = .ok (r', [], true) ∧
      RefusedAnswer sock id.toNat kill 0 b!"415 Unsupported Media Type" (sentOf r'.log) := by
  have hg := ginv_of h g sock id role kill max u ins hw e
  have hm : handleMsg h g r (fcgiMsg x) = inputEnd h g r (fcgiMsg x) := by
    rcases record_outcome h g r hg.alive x hx _ hg.phase with
      ⟨t, _⟩ | ⟨_, t, _⟩ | ⟨p, _⟩ | ⟨p, _⟩ | ⟨p, _⟩ | ⟨p, _⟩ | ⟨_, _, _, h1⟩ | ⟨_, _, c, _⟩ | ⟨_, _, c, _⟩
    · rw [ht] at t; exact absurd t (by decide)
    · rw [hp, ht] at t; exact absurd rfl t
    · rw [hp] at p; cases p
    · rw [hp] at p; cases p
    · rw [hp] at p; cases p
    · rw [hp] at p; cases p
    · exact h1
    · exact absurd h0 c
    · exact absurd h0 c
  obtain ⟨a, p, rfl, hpp, r', fin, f1, _, _, f4⟩ := inputEnd_spec h g r hg.alive (fcgiMsg x)
  have hpf : p.2 = false := by
    rw [parsePost, hb, if_neg (by simp), parsePostBuffer, if_neg (by simpa using hd), if_neg ht1, if_neg ht2] at hpp
    cases hpp; rfl
  have hrun : ∀ q, inputEnd h g r (fcgiMsg x) = .ok (q, true) →
      handler h g (freshReq sock id role kill max u) ((ins ++ [Input.record x]).map Input.message) = .ok (q, [], true) := by
    intro q hq
    rw [List.map_append, List.map_singleton, handler_snoc h g _ r _ _ e, Input.message, hm, hq]; rfl
  rcases f4 with ⟨_, hfin, fr, l, l', hl, c1', c2'⟩ | ⟨q, _⟩
  · subst hfin
    refine ⟨r', hrun r' f1, ?_⟩
    have hst : r'.status = 0 := fr.status.trans hg.status
    have := refused_of (r := r) g sock id role kill max u hk (hrun r' f1) (c := .unknownContent) (s := b!"415 Unsupported Media Type") (by simp [errorStatuses])
      ⟨[.inProcessor r.env], by rw [hl]; simp [callsOf_append, callsOf, c1', c2'], by simp [NoResponse]⟩ hn
    rwa [hst] at this
  · rw [hpf] at q; cases q

end

/-- The hypotheses of the theorems above hold of the example of C36 (without its callback): it announces 3 bytes, with a limit of 2. -/
example : KeepsPages demoHandlers := keepsPages_default _
example : (match handler demoHandlers (fun _ _ _ => 0) (freshReq 3 7 1 true 2 0) ((demoInput.take 1).map Input.message) with
    | .ok (r, rest, fin) => !fin && rest.isEmpty && (callsOf r.log).isEmpty && decide (r.env.contentLength.toNat > 2) | _ => false) = true := by
  decide +kernel
/-- Its answer, 3 bytes of data being text/plain, in full. -/
example : (match handler demoHandlers (fun _ _ _ => 0) demoFresh ([Input.record (demoRec 4 (demoPair1.2 ++ [12, 10] ++ b!"CONTENT_TYPEtext/plain")),
      .record (demoRec 4 []), .record (demoRec 5 b!"abc"), .record (demoRec 5 [])].map Input.message) with
    | .ok (r, _, fin) => fin && (sentOf r.log).map (fun x => (x.2.1.drop 8).take 35) ==
        [b!"Status: 415 Unsupported Media Type\n", [0, 0, 0, 0, 0, 0, 0, 0]] | _ => false) = true := by decide +kernel

/-- The class of the example below: it answers with some text and waits for more. -/
def slowAnswer (text : Bytes) : Handlers Unit :=
  defaultHandlers fun u e _ => (⟨[(false, .insert (b!"Status: 200 OK\n\n" ++ text))], e, u⟩, false)

/-- Once `response()` has been called, not so: if it has begun its answer and waits (for a database, say), and then one more record arrives
- of any type but ABORT_REQUEST -, the whole error response is appended to what has been written.  The client is told "200 OK", and the
error's header fields and page are at the end of the body. -/
theorem C125_violated (g sock id kill max) (text : Bytes) (p0 i0 x : Record) (hp0 : p0.WF ∧ p0.type = 4 ∧ p0.content = [])
    (hi0 : i0.WF ∧ i0.type = 5 ∧ i0.content = []) (hx : x.WF) (ht : x.type ≠ 2) :
    ∃ r, ∃ rs : List Record, ∃ end_, handler (slowAnswer text) g (freshReq sock id 1 kill max ()) ([p0, i0, x].map fcgiMsg) = .ok (r, [], true) ∧
      sentOf r.log = rs.map (fun y : Record => (sock, y.bytes, false)) ++ [(sock, end_, kill)] ∧
      IsResponse [(b!"Status", b!"200 OK")]
        (text ++ b!"Status: 500 Internal Server Error\nContent-Type: text/html; charset=utf-8\r\n\r\n" ++ shortPage b!"500 Internal Server Error")
        ((rs.filter (fun y => y.type = 6)).flatMap Record.content) ∧
      (∀ s, ¬ ErrorAnswer s ((rs.filter (fun y => y.type = 6)).flatMap Record.content)) := by
  have a0 := freshReq_alive sock id 1 kill max ()
  -- the end of the parameters
  have s1 : handleMsg (slowAnswer text) g (freshReq sock id 1 kill max ()) (fcgiMsg p0) =
      .ok ({ freshReq sock id 1 kill max () with state := 5 }, false) := by
    rcases record_outcome (slowAnswer text) g _ a0 p0 hp0.1 .params rfl with
      ⟨t, _⟩ | ⟨_, t, _⟩ | ⟨_, _, t, _⟩ | ⟨_, _, _, _, t, _⟩ | ⟨_, _, _, _, _, h1⟩ | ⟨_, _, _, t, _⟩ | ⟨p, _⟩ | ⟨p, _⟩ | ⟨p, _⟩
    · rw [hp0.2.1] at t; exact absurd t (by decide)
    · rw [hp0.2.1] at t; exact absurd rfl t
    · exact absurd (Or.inl rfl) t
    · exact absurd t (Nat.not_lt.2 (Nat.zero_le _))
    · exact h1
    · exact absurd hp0.2.2 t
    all_goals cases p
  have a1 : Alive { freshReq sock id 1 kill max () with state := 5 } := a0.of_eq rfl rfl rfl rfl rfl
  -- the end of the data
  obtain ⟨r1, b1, b2, b3, b4, b5, l, b6, b7, b8, b9⟩ := call_spec g _ a1 (.inProcessor {}) ⟨[], {}, ()⟩
  have a2 : Alive { r1 with env := {}, state := 6 } := b2.of_eq rfl rfl rfl rfl rfl
  obtain ⟨r2, d1, d2, d3, _, l2, d5, d6, d7, d8⟩ := respond_spec (slowAnswer text) g _ a2 (fcgiMsg i0)
  obtain ⟨d3, d3e, d3u⟩ := d3 rfl
  have s2 : handleMsg (slowAnswer text) g { freshReq sock id 1 kill max () with state := 5 } (fcgiMsg i0) = .ok (r2, false) := by
    rw [handleMsg_record _ _ _ _ hi0.1]
    rw [if_neg (by rw [hi0.2.1]; decide), if_neg (by rw [hi0.2.1]; exact fun h => h rfl), if_neg (show ¬ (5 : UInt8) = 4 by decide), if_pos rfl, if_pos (by rw [hi0.2.2]; rfl)]
    unfold inputEnd
    show (call g _ (.inProcessor {}) ⟨[], {}, ()⟩ >>= _) = _
    rw [b1]
    simp only [Res.ok_bind]
    rw [b4]
    show (respond (slowAnswer text) g { r1 with env := {}, state := 6 } (fcgiMsg i0)) = _
    rw [d1]; rfl
  -- one record more
  obtain ⟨r3, f1, f2, f3, l3, f4, f5, f6, f7⟩ := failWith_spec g r2 d3 .error ((slowAnswer text).error r2.user r2.env)
  have hst : r2.state = 6 := d2.state
  have s3 : handleMsg (slowAnswer text) g r2 (fcgiMsg x) = .ok (r3, true) := by
    rw [handleMsg_record _ _ _ _ hx, if_neg ht]
    by_cases h6 : x.type = 6
    · rw [if_neg (by rw [hst, h6]; exact fun h => h rfl), if_neg (by rw [hst]; decide), if_neg (by rw [hst]; decide)]
      exact f1
    · rw [if_pos (by rw [hst]; exact h6)]
      exact f1
  have cs : r3.sock = sock ∧ r3.kill = kill :=
    ⟨f3.sock.trans (d2.sock.trans b3.sock), f3.kill.trans (d2.kill.trans b3.kill)⟩
  obtain ⟨pre, rs, en, e1, e2, e3, _, e5, _⟩ := f2.recs
  have hw : writes false r3.log = [.insert (b!"Status: 200 OK\n\n" ++ text), .insert (errorPage b!"500 Internal Server Error" b!"500 Internal Server Error")] := by
    rw [f4, d5]
    simp only [b6]
    simp only [writes_append, writes, b8, d7, f6]
    rfl
  have hout : (rs.filter (fun y => y.type = 6)).flatMap Record.content =
      b!"Status: 200 OK\n\n" ++ text ++ errorPage b!"500 Internal Server Error" b!"500 Internal Server Error" := by
    rw [e5, hw]
    simp only [expected, encode_plain, List.append_nil]
  have hresp : IsResponse [(b!"Status", b!"200 OK")]
      (text ++ b!"Status: 500 Internal Server Error\nContent-Type: text/html; charset=utf-8\r\n\r\n" ++ shortPage b!"500 Internal Server Error")
      ((rs.filter (fun y => y.type = 6)).flatMap Record.content) := by
    rw [hout]
    have := IsResponse.field b!"Status" b!"200 OK" [10] _ [] _ (by decide) (by decide) (by decide) (Or.inl rfl)
      (.blank [10] (text ++ b!"Status: 500 Internal Server Error\nContent-Type: text/html; charset=utf-8\r\n\r\n" ++ shortPage b!"500 Internal Server Error") (Or.inl rfl))
    have heq : b!"Status: 200 OK\n\n" ++ text ++ errorPage b!"500 Internal Server Error" b!"500 Internal Server Error" =
        b!"Status" ++ [58, 32] ++ b!"200 OK" ++ [10] ++ ([10] ++ (text ++ b!"Status: 500 Internal Server Error\nContent-Type: text/html; charset=utf-8\r\n\r\n" ++ shortPage b!"500 Internal Server Error")) := by
      have k : errorPage b!"500 Internal Server Error" b!"500 Internal Server Error" =
          b!"Status: 500 Internal Server Error\nContent-Type: text/html; charset=utf-8\r\n\r\n" ++ shortPage b!"500 Internal Server Error" := by
        with_unfolding_all rfl
      rw [k]
      generalize shortPage b!"500 Internal Server Error" = page
      generalize b!"Status: 500 Internal Server Error\nContent-Type: text/html; charset=utf-8\r\n\r\n" = head
      rw [List.append_assoc, ← List.append_assoc text]
      rfl
    rw [heq]
    exact this
  refine ⟨r3, rs, en, ?_, ?_, hresp, ?_⟩
  · simp only [List.map_cons, List.map_nil, handler, s1, Res.ok_bind, Bool.false_eq_true, if_false, s2, s3, if_true, Res.pure_eq]
  · rw [e1, sentOf_append, e2, cs.1, cs.2]; rfl
  · intro s hs
    have := (isResponse_unique hresp hs).1
    simp at this

/-! ## The same for applications with wide characters -/

/-- The statuses of the three error handlers. -/
def errorStatusesW : List (CallW × Bytes) :=
  [(.error, b!"500 Internal Server Error"), (.bigPost, b!"413 Request Entity Too Large"), (.unknownContent, b!"415 Unsupported Media Type")]

theorem errorStatuses_iffW {c s} : (c, s) ∈ errorStatusesW ↔ statusOfW c = some s := by
  cases c <;> simp [errorStatusesW, statusOfW, eq_comm]

theorem status_cleanW {c s} (h : statusOfW c = some s) : ∀ x ∈ s, x ≠ 10 ∧ x ≠ 13 := by
  cases c <;> simp only [statusOfW, Option.some.injEq, reduceCtorEq] at h <;> subst h <;> decide

theorem flatMap_pageOpsW {cs : List CallW} (h : ∀ c ∈ cs, statusOfW c = none) : cs.flatMap pageOpsW = [] := by
  rw [List.flatMap_eq_nil_iff]
  intro c hc
  simp [pageOpsW, h c hc]

theorem page_ascii {c s} (h : statusOfW c = some s) : ∀ x ∈ errorPage s s, x < 128 := by
  cases c <;> simp only [statusOfW, Option.some.injEq, reduceCtorEq] at h <;> subst h <;> decide +kernel

theorem page_scalar {x : UInt8} (h : x < 128) : isScalar x.toUInt32 := by
  have := byte_forall (P := fun x => x < 128 → isScalar x.toUInt32) (by unfold isScalar; decide +kernel)
  exact this x h

theorem encode_asciiW {s : Bytes} (h : ∀ x ∈ s, x < 128) :
    ((s.map UInt8.toUInt32).flatMap (encode1 wideTable .none)).flatMap cv8 = s := by
  induction s with
  | nil => rfl
  | cons a l ih =>
    rw [List.map_cons, List.flatMap_cons, List.flatMap_append, ih (fun x hx => h x (by simp [hx]))]
    have : ∀ a : UInt8, a < 128 → (encode1 wideTable .none a.toUInt32).flatMap cv8 = [a] :=
      byte_forall (by decide +kernel)
    rw [this a (h a (by simp))]; rfl

section
variable {U : Type} {h : HandlersW U} (hk : KeepsPagesW h) (g : Host) (sock : Nat) (id role : UInt16) (kill : Bool)
  (max : Nat) (u : U)

include hk in
/-- Whatever messages a request is given, and in whatever order: if it is finished without `response()` having been called, then either it
was aborted and nothing was written, or the last callW was to one of the error handlers and the client was sent the page with that status, a
whole response, and nothing else. -/
theorem C125_wide_finished_partial (ms : List Message) {r rest} (e : handlerW h g (freshReqW sock id role kill max u) ms = .ok (r, rest, true))
    (hn : ∀ env m, EvW.call (.response env m) ∉ r.log) :
    (∃ end_, sentOfW r.log = [(sock, end_, kill)] ∧ IsEndRequest id.toNat r.status end_ ∧ ∀ c ∈ callsOfW r.log, ∀ s, (c, s) ∉ errorStatusesW) ∨
    ∃ c s, (c, s) ∈ errorStatusesW ∧ (callsOfW r.log).getLast? = some c ∧ RefusedAnswer sock id.toNat kill r.status s (sentOfW r.log) := by
  have hn' : NoResponseW (callsOfW r.log) := by
    intro env m hm
    refine hn env m ?_
    clear e hn
    generalize r.log = l at hm ⊢
    induction l with
    | nil => simp [callsOfW] at hm
    | cons x l ih =>
      cases x with
      | call c =>
        simp only [callsOfW, List.mem_cons] at hm
        rcases hm with rfl | hm
        · simp
        · exact List.mem_cons_of_mem _ (ih hm)
      | write e op => exact List.mem_cons_of_mem _ (ih hm)
      | sent a b c => exact List.mem_cons_of_mem _ (ih hm)
  obtain ⟨h1, h2, hc, _⟩ := handler_specW h g ms _ r rest true (freshReq_aliveW ..) e
  obtain ⟨c1, c2, c3, _⟩ : r.sock = sock ∧ r.id = id ∧ r.kill = kill ∧ _ := hc
  obtain ⟨pre, rs, en, e1, e2, e3, ⟨g', e4⟩, e5, e6⟩ := (h1 rfl).recs
  obtain ⟨p1, cs, p2, p3⟩ := page_runW hk g ms _ r rest true (freshReq_aliveW ..) (fun _ => ⟨rfl, rfl⟩) (by simp [freshReqW, callsOfW]) e
  obtain ⟨w1, w2⟩ := p1 hn'
  have hsent : sentOfW r.log = rs.map (fun x => (sock, x.bytes, false)) ++ [(sock, en, kill)] := by
    rw [e1, sentOf_appendW, e2, c1, c3]; rfl
  have hend : IsEndRequest id.toNat r.status en := by rw [e4, c2]; exact endRequestRecord_spec ..
  have h7 : ∀ x ∈ rs, x.type = 6 := by
    intro x hx
    rcases e3 x hx with k | k
    · exact k.type
    · exfalso
      rw [w2] at e6
      have e6 := e6 (by simp)
      have : x.content = [] := by
        have := List.flatMap_eq_nil_iff.1 e6 x (List.mem_filter.2 ⟨hx, by simp [k.type]⟩)
        exact this
      have := k.content_pos
      simp_all
  have hall : rs.filter (fun x => x.type = 6) = rs := List.filter_eq_self.2 (fun x hx => by simp [h7 x hx])
  have text : ∀ op ∈ writesW false r.log, WritesText op := by
    rw [w1]
    intro op hop
    obtain ⟨c, _, hc⟩ := List.mem_flatMap.1 hop
    unfold pageOpsW at hc
    split at hc
    · rename_i s hs
      simp only [List.mem_singleton] at hc
      subst hc
      intro c hc
      obtain ⟨x, hx, rfl⟩ := List.mem_map.1 hc
      exact page_scalar (page_ascii hs x hx)
    · simp at hc
  have e5 := e5 text
  rw [hall, w1] at e5
  rcases p2 with p2 | ⟨_, c, s, hs, p2⟩
  · left
    rw [p2, flatMap_pageOpsW p3] at e5
    have hrs : rs = [] := by
      cases rs with
      | nil => rfl
      | cons x rs =>
        exfalso
        have := List.flatMap_eq_nil_iff.1 e5 x (by simp)
        rcases e3 x (by simp) with k | k
        · have := k.content_pos; simp_all
        · have := k.content_pos; simp_all
    refine ⟨en, by rw [hsent, hrs]; rfl, hend, ?_⟩
    intro c hc s hm
    rw [errorStatuses_iffW, p3 c (p2 ▸ hc)] at hm
    cases hm
  · right
    refine ⟨c, s, errorStatuses_iffW.2 hs, by rw [p2]; simp, rs, en, hsent, ?_, ?_, hend⟩
    · intro x hx
      rcases e3 x hx with k | k
      · have a := k.content_pos
        have b := k.content_max
        have d := k.padding
        refine ⟨k.version, h7 x hx, c2 ▸ k.id, ⟨?_, ?_, ?_⟩, by intro hc; rw [hc] at a; simp at a⟩
        · rw [k.id]; exact r.id.toNat_lt
        · omega
        · omega
      · have := h7 x hx; rw [k.type] at this; cases this
    · rw [e5, p2, List.flatMap_append, flatMap_pageOpsW p3]
      simp only [List.nil_append, List.flatMap_cons, List.flatMap_nil, List.append_nil, pageOpsW, hs, expected, encode_asciiW (page_ascii hs)]
      exact errorPage_answer s (status_cleanW hs)

/-- `response()` has not been called. -/
theorem refused_ofW (hk : KeepsPagesW h) {ms : List Message} {r r' : ReqW U} {c s rest}
    (e : handlerW h g (freshReqW sock id role kill max u) ms = .ok (r', rest, true)) (hcs : (c, s) ∈ errorStatusesW)
    (hl : ∃ l, callsOfW r'.log = callsOfW r.log ++ l ++ [c] ∧ NoResponseW l) (hn : NoResponseW (callsOfW r.log)) :
    RefusedAnswer sock id.toNat kill r'.status s (sentOfW r'.log) := by
  obtain ⟨l, hl, hnl⟩ := hl
  have hc : ∀ env m, c ≠ .response env m := by rintro env m rfl; simp [errorStatusesW] at hcs
  have hn' : NoResponseW (callsOfW r'.log) := by
    rw [hl]
    intro env m hm
    rcases List.mem_append.1 hm with hm | hm
    · rcases List.mem_append.1 hm with hm | hm
      · exact hn env m hm
      · exact hnl env m hm
    · simp only [List.mem_singleton] at hm
      exact hc env m hm.symm
  have memc : ∀ (l : List EvW) c, EvW.call c ∈ l → c ∈ callsOfW l := by
    intro l c
    induction l with
    | nil => simp
    | cons x l ih =>
      intro hm
      rcases List.mem_cons.1 hm with rfl | hm
      · simp [callsOfW]
      · have := ih hm
        cases x <;> simp [callsOfW, this]
  rcases C125_wide_finished_partial hk g sock id role kill max u ms e (fun env m hm => hn' env m (memc _ _ hm)) with ⟨_, _, _, hq⟩ | ⟨c', s', h1, h2, h3⟩
  · exact absurd hcs (hq c (by rw [hl]; simp) s)
  · rw [hl] at h2
    simp only [List.getLast?_append, List.getLast?_singleton, Option.some_or, Option.some.injEq] at h2
    subst h2
    rw [errorStatuses_iffW] at h1 hcs
    rw [hcs] at h1
    cases h1
    exact h3

variable (ins : List Input) (hw : ∀ i ∈ ins, i.WF) {r : ReqW U}
  (e : handlerW h g (freshReqW sock id role kill max u) (ins.map Input.message) = .ok (r, [], false)) (hn : NoResponseW (callsOfW r.log))
  (x : Record) (hx : x.WF)
include hk hw e hn hx

/-- A record out of order, before `response()` was called: status 500. -/
theorem C125_wide_out_of_order_partial (h2 : x.type ≠ 2) (ht : (phaseAfter (records ins)).accepts ≠ some x.type) :
    ∃ r', handlerW h g (freshReqW sock id role kill max u) ((ins ++ [Input.record x]).map Input.message) = .ok (r', [], true) ∧
      RefusedAnswer sock id.toNat kill 0 b!"500 Internal Server Error" (sentOfW r'.log) := by
  obtain ⟨r', a1, a2, a3⟩ := C120_out_of_order h g sock id role kill max u ins hw e x hx h2 ht
  exact ⟨r', a1, a3 ▸ refused_ofW g sock id role kill max u hk a1 (c := .error) (by simp [errorStatusesW]) ⟨[], by simpa using a2, by simp [NoResponseW]⟩ hn⟩

/-- A role the library does not know: status 500, and protocol status UNKNOWN_ROLE. -/
theorem C125_wide_role_partial (hr : role ≠ 1 ∧ role ≠ 2) (ht : x.type = 4) (hp : phaseAfter (records ins) = .params) :
    ∃ r', handlerW h g (freshReqW sock id role kill max u) ((ins ++ [Input.record x]).map Input.message) = .ok (r', [], true) ∧
      RefusedAnswer sock id.toNat kill 3 b!"500 Internal Server Error" (sentOfW r'.log) := by
  obtain ⟨r', a1, a2, a3⟩ := C120_role h g sock id role kill max u ins hw e hr x hx ht hp
  exact ⟨r', a1, a3 ▸ refused_ofW g sock id role kill max u hk a1 (c := .error) (by simp [errorStatusesW]) ⟨[], by simpa using a2, by simp [NoResponseW]⟩ hn⟩

/-- The announced length of the data is above the limit: status 413. -/
theorem C125_wide_announced_partial (hr : role = 1 ∨ role = 2) (ht : x.type = 4) (h0 : x.content = [])
    (hp : phaseAfter (records ins) = .params) (hbig : r.env.contentLength.toNat > max) :
    ∃ r', handlerW h g (freshReqW sock id role kill max u) ((ins ++ [Input.record x]).map Input.message) = .ok (r', [], true) ∧
      RefusedAnswer sock id.toNat kill 0 b!"413 Request Entity Too Large" (sentOfW r'.log) := by
  obtain ⟨r', a1, a2, a3⟩ := C120_announced h g sock id role kill max u ins hw e hr x hx ht h0 hp hbig
  exact ⟨r', a1, a3 ▸ refused_ofW g sock id role kill max u hk a1 (c := .bigPost) (by simp [errorStatusesW]) ⟨[], by simpa using a2, by simp [NoResponseW]⟩ hn⟩

/-- More data than announced: status 413. -/
theorem C125_wide_excess_partial (ht : x.type = 5) (h0 : x.content ≠ []) (hp : phaseAfter (records ins) = .stdin)
    (hbig : r.env.postBuffer.length + x.content.length > r.env.contentLength.toNat) :
    ∃ r', handlerW h g (freshReqW sock id role kill max u) ((ins ++ [Input.record x]).map Input.message) = .ok (r', [], true) ∧
      RefusedAnswer sock id.toNat kill 0 b!"413 Request Entity Too Large" (sentOfW r'.log) := by
  obtain ⟨r', a1, a2, a3⟩ := C120_excess h g sock id role kill max u ins hw e x hx ht h0 hp hbig
  exact ⟨r', a1, a3 ▸ refused_ofW g sock id role kill max u hk a1 (c := .bigPost) (by simp [errorStatusesW]) ⟨[], by simpa using a2, by simp [NoResponseW]⟩ hn⟩

/-- Data of a type the application does not process and the library does not know: status 415. -/
theorem C125_wide_unknown_content_partial (ht : x.type = 5) (h0 : x.content = []) (hp : phaseAfter (records ins) = .stdin)
    (hb : (h.inProcessor r.user r.env).2 = false) (hd : (h.inProcessor r.user r.env).1.env.postBuffer ≠ [])
    (ht1 : (h.inProcessor r.user r.env).1.env.contentType ≠ b!"multipart/form-data".map UInt8.toUInt32)
    (ht2 : (h.inProcessor r.user r.env).1.env.contentType ≠ b!"application/x-www-form-urlencoded".map UInt8.toUInt32) :
    ∃ r', handlerW h g (freshReqW sock id role kill max u) ((ins ++ [Input.record x]).map Input.message) = .ok (r', [], true) ∧
      RefusedAnswer sock id.toNat kill 0 b!"415 Unsupported Media Type" (sentOfW r'.log) := by
  have hg := ginv_ofW h g sock id role kill max u ins hw e
  have hm : handleMsgW h g r (fcgiMsg x) = inputEndW h g r (fcgiMsg x) := by
    rcases record_outcomeW h g r hg.alive x hx _ hg.phase with
      ⟨t, _⟩ | ⟨_, t, _⟩ | ⟨p, _⟩ | ⟨p, _⟩ | ⟨p, _⟩ | ⟨p, _⟩ | ⟨_, _, _, h1⟩ | ⟨_, _, c, _⟩ | ⟨_, _, c, _⟩
    · rw [ht] at t; exact absurd t (by decide)
    · rw [hp, ht] at t; exact absurd rfl t
    · rw [hp] at p; cases p
    · rw [hp] at p; cases p
    · rw [hp] at p; cases p
    · rw [hp] at p; cases p
    · exact h1
    · exact absurd h0 c
    · exact absurd h0 c
  obtain ⟨a, p, rfl, hpp, r', fin, f1, _, _, f4⟩ := inputEnd_specW h g r hg.alive (fcgiMsg x)
  have hpf : p.2 = false := by
    rw [parsePostW, hb, if_neg (by simp), parsePostBufferW, if_neg (by simpa using hd), if_neg ht1, if_neg ht2] at hpp
    cases hpp; rfl
  have hrun : ∀ q, inputEndW h g r (fcgiMsg x) = .ok (q, true) →
      handlerW h g (freshReqW sock id role kill max u) ((ins ++ [Input.record x]).map Input.message) = .ok (q, [], true) := by
    intro q hq
    rw [List.map_append, List.map_singleton, handler_snocW h g _ r _ _ e, Input.message, hm, hq]; rfl
  rcases f4 with ⟨_, hfin, fr, l, l', hl, c1', c2'⟩ | ⟨q, _⟩
  · subst hfin
    refine ⟨r', hrun r' f1, ?_⟩
    have hst : r'.status = 0 := fr.status.trans hg.status
    have := refused_ofW (r := r) g sock id role kill max u hk (hrun r' f1) (c := .unknownContent) (s := b!"415 Unsupported Media Type") (by simp [errorStatusesW])
      ⟨[.inProcessor r.env], by rw [hl]; simp [callsOf_appendW, callsOfW, c1', c2'], by simp [NoResponseW]⟩ hn
    rwa [hst] at this
  · rw [hpf] at q; cases q

end


end Fcgi.Props
