import Verif.Props.Later
import Verif.Props.TakenWide
import Verif.Spec.LaterWide
/-! # C149 for applications with wide characters -/
namespace Fcgi.Props
open Fcgi.Spec Fcgi.Model

/-- Messages of callbacks given to a request that waits. -/
theorem callbacks_runW {U : Type} (resp : U → EnvW → Message → ActW U × Bool) (g) : ∀ (ms : List Message) (r : ReqW U), AliveW r → (∀ m ∈ ms, m.type ≠ 0) →
    ∃ r' rest, handlerW (defaultHandlersW resp) g r ms = .ok (r', rest, (playedW resp r.user r.env ms).2) ∧ r'.status = r.status ∧
      ∀ e, writesW e r'.log = writesW e r.log ++ writtenOn e (playedW resp r.user r.env ms).1
  | [], r, _, _ => ⟨r, [], rfl, rfl, fun e => by simp [playedW, writtenOn]⟩
  | m :: ms, r, al, ht => by
      obtain ⟨r1, b1, b2, b3, _, l, b5, b6, b7, b8⟩ := respond_specW (defaultHandlersW resp) g r al m
      have hm : handleMsgW (defaultHandlersW resp) g r m = respondW (defaultHandlersW resp) g r m := by
        unfold handleMsgW; rw [if_neg (ht m (by simp))]
      have hr : (defaultHandlersW resp).response = resp := rfl
      rw [hr] at b1 b3 b7 b8
      have hw : ∀ e, writesW e r1.log = writesW e r.log ++ writtenOn e (resp r.user r.env m).1.ops := by
        intro e
        rw [b5]
        cases e
        · simp only [writes_appendW, writesW, b7, writtenOnW_false]
        · simp only [writes_appendW, writesW, b8, writtenOnW_true]
      simp only [handlerW, hm, b1, Res.ok_bind, playedW]
      cases hf : (resp r.user r.env m).2 with
      | true => exact ⟨r1, ms, rfl, b2.status, hw⟩
      | false =>
        obtain ⟨c1, c2, c3⟩ := b3 hf
        obtain ⟨r2, rest, d1, d2, d3⟩ := callbacks_runW resp g ms r1 c1 (fun x hx => ht x (by simp [hx]))
        rw [c2, c3] at d1 d3
        refine ⟨r2, rest, by simpa using d1, d2.trans b2.status, fun e => ?_⟩
        rw [d3 e, hw e]
        simp [writtenOn_append2]

/-- A request on its own with a whole form and then messages of callbacks. -/
theorem form_laterW {U : Type} {n : Nat} {resp : U → EnvW → Message → ActW U × Bool} {max : Nat} {u : U}
    {host rh ph} {c : Nat} {id : UInt16} {b : Record} {ins : List Record} {nvs : List (Bytes × Bytes)} {body : Bytes} {fields files} {ms : List Message}
    {kill : Bool} {q : ReqW U} {rest : List Message} {fin : Bool} (hms : ∀ m ∈ ms, m.type ≠ 0)
    (hwf : ∀ r ∈ ins, r.WF) (hrole : b.role = 1 ∨ b.role = 2) (hreq : WholeRequest ins nvs body) (hbody : FormBody nvs body fields files)
    (hlen : LengthTold nvs body.length) (hmax : body.length ≤ max) (hint : body.length ≤ 2147483647)
    (ha : Alone (wideServer n (defaultHandlersW resp) max u host rh ph) c id b (ins.map .record ++ asInputs ms) kill q rest fin) :
    ∃ env m0, TellsW nvs fields files env ∧ m0.type = 0 ∧ fin = (playedW resp u env (m0 :: ms)).2 ∧ q.status = 0 ∧
      ∀ e, writesW e q.log = writtenOn e (playedW resp u env (m0 :: ms)).1 := by
  obtain ⟨role, r1, _, h⟩ := alone_wide.1 ha
  obtain ⟨ps, p0, bs, i0, rfl, s2, rfl, s4, s5, rfl, s7⟩ := hreq.split
  have hrole' : role = 1 ∨ role = 2 := by
    unfold Record.role at hrole
    rw [← r1] at hrole
    exact hrole.imp (fun h => UInt16.toNat.inj h) (fun h => UInt16.toNat.inj h)
  have he : ∀ i ∈ ps.flatMap Prod.snd, EncPair i.1 i.2 := by
    intro i hi
    obtain ⟨p, hp, hi⟩ := List.mem_flatMap.1 hi
    exact (s2 p hp).enc i hi
  obtain ⟨env, henv, _⟩ := handler_params (defaultHandlers fun (u : Unit) env _ => (⟨[], env, u⟩, true)) (fun _ _ _ => 0) ps (freshReq c id role kill max ()) (freshReq_alive ..) rfl hrole' s2
  have henv' : fillPairs [0] (ps.flatMap Prod.snd) {} = .ok env := henv
  have hcl : env.contentLength.toNat = (bs.flatMap Record.content).length := by
    have e := encPairs_of _ he
    have hf : fill ([] ++ (ps.flatMap Prod.snd).flatMap Prod.snd ++ [0]) ([] : Bytes).length ([] ++ (ps.flatMap Prod.snd).flatMap Prod.snd).length {} = .ok env := by
      rw [fill_items _ [] [0] {} he]; exact henv'
    obtain ⟨n1, _, _, _, _, n6, _⟩ := C24_numbers (he := e) (hf := hf)
    rcases hlen with ⟨h0, h1⟩ | ⟨v, h1, h2⟩
    · rw [n6 h1, h0]; rfl
    · exact n1 v _ h1 h2 hint
  have hparse := parse_body he henv' hbody
  have wf : ∀ r, r ∈ ps.map Prod.fst ++ [p0] ++ bs ++ [i0] → r.WF := hwf
  obtain ⟨w, r, w1, w2, b1, b2, b4, b3⟩ := body_runW resp host c id role kill max u hrole' ps s2 p0 i0 ⟨wf _ (by simp), s4⟩ ⟨wf _ (by simp), s7⟩ bs
    (fun b hb => ⟨wf _ (by simp [hb]), s5 b hb⟩) henv' (by rw [hcl]; exact hmax) (by rw [hcl]; exact Nat.le_refl _) hparse (type_text he henv' hbody)
  have hm : ((ps.map Prod.fst ++ [p0] ++ bs ++ [i0]).map Input.record).map Input.message = (ps.map Prod.fst ++ [p0] ++ bs ++ [i0]).map fcgiMsg := by
    rw [List.map_map]; rfl
  rw [List.map_append, hm, asInputs_message, handler_appendW, b1, Res.ok_bind] at h
  have T := tells_fill he henv' fields files
  refine ⟨w, fcgiMsg i0, ⟨_, T, w1, w2⟩, rfl, ?_⟩
  simp only [playedW]
  dsimp only at h b1 b3 b4 ⊢
  generalize (resp u _ (fcgiMsg i0)) = a at b1 b3 b4 h ⊢
  cases hf : a.2 with
  | true =>
    rw [hf] at h
    cases h
    exact ⟨rfl, b2, b3⟩
  | false =>
    rw [hf] at h
    obtain ⟨c1, c2, c3⟩ := b4 hf
    obtain ⟨r2, rest2, d1, d2, d3⟩ := callbacks_runW resp host ms r c1 hms
    rw [if_neg (by simp), d1] at h
    cases h
    rw [c2, c3] at d3 ⊢
    refine ⟨rfl, d2.trans b2, fun e => ?_⟩
    rw [d3 e, b3 e]
    simp [writtenOn_append2]

theorem noEnc_appendW {a b : List (SOp UInt32)} (ha : noEnc a) (hb : noEnc b) : noEnc (a ++ b) := by
  intro op ho
  rcases List.mem_append.1 ho with ho | ho
  · exact ha op ho
  · exact hb op ho

theorem played_plainW {U : Type} {resp : U → EnvW → Message → ActW U × Bool} (h : ∀ u env m e, noEnc (writtenOn e (resp u env m).1.ops)) (e : Bool) :
    ∀ (ms : List Message) (u : U) (env : EnvW), noEnc (writtenOn e (playedW resp u env ms).1)
  | [], u, env => by intro op ho; cases ho
  | m :: ms, u, env => by
      simp only [playedW]
      split
      · exact h u env m e
      · dsimp only
        rw [writtenOn_append2]
        exact noEnc_appendW (h u env m e) (played_plainW h e ms _ _)

/-- The records of a request that is not complete. -/
theorem unfinished_sentW {U : Type} {hd : HandlersW U} {g} {sock id role kill max} {u : U} {ms : List Message} {r : ReqW U} {rest}
    (e : handlerW hd g (freshReqW sock id role kill max u) ms = .ok (r, rest, false)) (h0 : noEnc (writesW false r.log)) (h1 : noEnc (writesW true r.log))
    (t0 : ∀ op ∈ writesW false r.log, WritesText op) (t1 : ∀ op ∈ writesW true r.log, WritesText op) :
    ∃ rs : List Record, sentOfW r.log = rs.map (fun x => (sock, x.bytes, false)) ∧ (∀ x ∈ rs, GoodRecord id 6 x ∨ GoodRecord id 7 x) ∧
      (rs.filter (fun x => x.type = 6)).flatMap Record.content <+: (writesW false r.log).flatMap (writtenBy utf8Text) ∧
      (rs.filter (fun x => x.type = 7)).flatMap Record.content <+: (writesW true r.log).flatMap (writtenBy utf8Text) := by
  obtain ⟨_, h2, hc, _⟩ := handler_specW hd g ms _ r rest false (freshReq_aliveW ..) e
  obtain ⟨c1, c2, c3, _⟩ : r.sock = sock ∧ r.id = id ∧ r.kill = kill ∧ _ := hc
  have plain : ∀ ops : List (SOp UInt32), noEnc ops → expected wideTable cv8 .none ops = ops.flatMap (writtenBy utf8Text) := by
    intro ops hne
    rw [C12_expected_plain _ _ ops hne]
    congr 1
  obtain ⟨rs, e1, e2, e3, e4⟩ := (h2 rfl).1.recs
  refine ⟨rs, by rw [e1, c1], ?_, ⟨_, by rw [(e3 t0).2.2, plain _ h0]⟩, ⟨_, by rw [(e4 t1).2.2, plain _ h1]⟩⟩
  intro x hx
  rcases e2 x hx with k | k
  · exact Or.inl ⟨k.version, k.type, c2 ▸ k.id, ⟨k.content_pos, k.content_max⟩, k.padding, k.aligned⟩
  · exact Or.inr ⟨k.version, k.type, c2 ▸ k.id, ⟨k.content_pos, k.content_max⟩, k.padding, k.aligned⟩

/-- For an application with wide characters, which writes text. A web server sends a form. The application's class keeps the library's handlers; its `response()` may do anything, say that it is not finished, and keep
a copy of the callback. When the server has come to rest, no callback of the request has been called; then callbacks are called, from
anywhere, and the server comes to rest again. If the connection is open then: the application was first given an environment that says what was sent, decoded from
UTF-8, and then, one after the other, the messages of the callbacks in the order in which they were taken in, until it said that it was finished. If it did, the
records for the request on the connection are records of STDOUT and STDERR with exactly what it wrote, in UTF-8, over all these calls, and after them END_REQUEST with
status 0; if not, there is no END_REQUEST and what there is on STDOUT and STDERR is the beginning of what it wrote. -/
theorem C149_wide_answered {U : Type} {n : Nat} {resp : U → EnvW → Message → ActW U × Bool} {max : Nat} {u : U}
    {host rh ph} {tr tr1 tr2 tr3 : List MEvent} {ops ops1 ops2 ops3 : List TOp} {s s1 s2 s3 : Srv (ReqW U)} {c : Nat} {id : UInt16} {rs : List Record} {tail : Bytes}
    {b : Record} {ins : List Record} {nvs : List (Bytes × Bytes)} {body : Bytes} {fields files}
    (hplain : ∀ u env m e, noEnc (writtenOn e (resp u env m).1.ops))
    (htext : ∀ env m0 ms, TellsW nvs fields files env → m0.type = 0 → (∀ m ∈ ms, m.type ≠ 0) → ∀ o ∈ (playedW resp u env (m0 :: ms)).1, WritesText o.2)
    (h : SrvRun (wideServer n (defaultHandlersW resp) max u host rh ph) srvInit tr ops s) (R : SrvUp s)
    (C : Conversation ops c id rs tail b ins) (hlost : ∀ r ∈ rs, r.id ≠ 0xffff)
    (hrole : b.role = 1 ∨ b.role = 2) (hreq : WholeRequest ins nvs body) (hbody : FormBody nvs body fields files)
    (hlen : LengthTold nvs body.length) (hmax : body.length ≤ max) (hint : body.length ≤ 2147483647)
    (h1 : OwnRun (wideServer n (defaultHandlersW resp) max u host rh ph) s tr1 ops1 s1) (r1 : SrvRest (wideServer n (defaultHandlersW resp) max u host rh ph) s1)
    (hnone : called ⟨c, id⟩ (tr ++ tr1) = [])
    (h2 : SrvRun (wideServer n (defaultHandlersW resp) max u host rh ph) s1 tr2 ops2 s2) (R2 : SrvUp s2) (hquiet : arrived c ops2 = [])
    (h3 : OwnRun (wideServer n (defaultHandlersW resp) max u host rh ph) s2 tr3 ops3 s3) (r3 : SrvRest (wideServer n (defaultHandlersW resp) max u host rh ph) s3)
    (hv : (s3.t.conns c).valid = true) :
    ∃ env m0, TellsW nvs fields files env ∧ m0.type = 0 ∧
      ∀ outs otail, (∀ r ∈ outs, r.WF) → Incomplete otail → (s3.t.conns c).output = stream outs ++ otail →
        otail = [] ∧
        ((playedW resp u env (m0 :: called ⟨c, id⟩ (tr2 ++ tr3))).2 = true → ∃ answer end_, outs.filter (fun r => r.id = id.toNat) = answer ++ [end_] ∧
          (∀ x ∈ answer, x.type = 6 ∨ x.type = 7) ∧
          (answer.filter (fun x => x.type = 6)).flatMap Record.content =
            (writtenOn false (playedW resp u env (m0 :: called ⟨c, id⟩ (tr2 ++ tr3))).1).flatMap (writtenBy utf8Text) ∧
          (answer.filter (fun x => x.type = 7)).flatMap Record.content =
            (writtenOn true (playedW resp u env (m0 :: called ⟨c, id⟩ (tr2 ++ tr3))).1).flatMap (writtenBy utf8Text) ∧
          end_.type = 3 ∧ end_.content.take 5 = [0, 0, 0, 0, 0]) ∧
        ((playedW resp u env (m0 :: called ⟨c, id⟩ (tr2 ++ tr3))).2 = false → ∀ answer, answer = outs.filter (fun r => r.id = id.toNat) →
          (∀ x ∈ answer, x.type = 6 ∨ x.type = 7) ∧
          (answer.filter (fun x => x.type = 6)).flatMap Record.content <+:
            (writtenOn false (playedW resp u env (m0 :: called ⟨c, id⟩ (tr2 ++ tr3))).1).flatMap (writtenBy utf8Text) ∧
          (answer.filter (fun x => x.type = 7)).flatMap Record.content <+:
            (writtenOn true (playedW resp u env (m0 :: called ⟨c, id⟩ (tr2 ++ tr3))).1).flatMap (writtenBy utf8Text)) := by
  haveI : OfLibrary (wideServer n (defaultHandlersW resp) max u host rh ph) := .wide ..
  obtain ⟨kill, q, rest, fin, A, a4⟩ := C149_in_order h R C hlost h1 r1 hnone h2 R2 hquiet h3 r3 hv
  have hwf : ∀ r ∈ ins, r.WF := by
    intro r hr
    have : r ∈ rs.filter (fun r => r.id = id.toNat) := by rw [C.mine]; simp [hr]
    exact C.wf r (List.mem_filter.1 this).1
  obtain ⟨env, m0, T, hm0, hfin, hst, hw⟩ := form_laterW (called_types _ _) hwf hrole hreq hbody hlen hmax hint A
  refine ⟨env, m0, T, hm0, fun outs otail ho hi hs => ?_⟩
  obtain ⟨o1, o2⟩ := a4 outs otail ho hi hs
  have hid : id.toNat < 2 ^ 16 := id.toNat_lt
  have pl : ∀ e, noEnc (writesW e q.log) := by intro e; rw [hw e]; exact played_plainW hplain e _ _ _
  have tx : ∀ e, ∀ op ∈ writesW e q.log, WritesText op := by intro e; rw [hw e]; exact text_on (htext _ _ _ T hm0 (called_types _ _))
  have p0 := pl false
  have p1 := pl true
  obtain ⟨role, _, _, A⟩ := alone_wide.1 A
  rw [← hw false, ← hw true]
  have out : (∀ x ∈ outs.filter (fun r => r.id = id.toNat), x.WF) := fun x hx => ho x (List.mem_filter.1 hx).1
  have good : ∀ x, GoodRecord id 6 x ∨ GoodRecord id 7 x → x.WF := by
    rintro x (g | g) <;> exact ⟨by rw [g.id]; exact hid, by have := g.contentLength; omega, by have := g.padding; omega⟩
  refine ⟨o1, fun hf => ?_, fun hf => ?_⟩
  · rw [← hfin] at hf
    subst hf
    obtain ⟨before, ans, en, c1, c2, c3, c4, c5, c6⟩ := C120_complete_partial _ host c id role kill max u _ A
    rw [hst] at c2
    obtain ⟨er, e1, e2, e3, e4, e5, e6, rfl⟩ := c2
    have hsent : (Transmits.sent q).map (·.2.1) = (ans ++ [er]).map Record.bytes := by
      show (sentOfW q.log).map (·.2.1) = _
      rw [c1, sentOf_appendW, c3]
      simp [sentOfW]
    rw [hsent] at o2
    have hwa : ∀ y ∈ ans ++ [er], y.WF := by
      intro y hy
      rcases List.mem_append.1 hy with hy | hy
      · exact good y (c4 y hy)
      · simp only [List.mem_singleton] at hy
        subst hy
        exact ⟨by rw [e3]; exact hid, by rw [e4]; decide, by rw [e6]; decide⟩
    exact ⟨ans, er, records_bytes_inj out hwa o2, fun x hx => (c4 x hx).imp (fun g => g.type) (fun g => g.type), c5 p0 (tx false), c6 p1 (tx true), e2, e5⟩
  · rintro answer rfl
    rw [← hfin] at hf
    subst hf
    obtain ⟨ans, c3, c4, c5, c6⟩ := unfinished_sentW A p0 p1 (tx false) (tx true)
    have hsent : (Transmits.sent q).map (·.2.1) = ans.map Record.bytes := by
      show (sentOfW q.log).map (·.2.1) = _
      rw [c3]
      simp
    rw [hsent] at o2
    rw [records_bytes_inj out (fun y hy => good y (c4 y hy)) o2]
    exact ⟨fun x hx => (c4 x hx).imp (fun g => g.type) (fun g => g.type), c5, c6⟩

/-- For a connection with this one request on which nothing goes wrong: when the application has said that it is finished the bytes are exactly those,
and the connection has been closed exactly if the web server did not ask to keep it; before, the connection is open and what it has got is the beginning of
what the application wrote. -/
theorem C149_wide_closed {U : Type} {n : Nat} {resp : U → EnvW → Message → ActW U × Bool} {max : Nat} {u : U}
    {host rh ph} {tr tr1 tr2 tr3 : List MEvent} {ops ops1 ops2 ops3 : List TOp} {s s1 s2 s3 : Srv (ReqW U)} {c : Nat} {id : UInt16} {rs : List Record} {tail : Bytes}
    {b : Record} {ins : List Record} {nvs : List (Bytes × Bytes)} {body : Bytes} {fields files}
    (hplain : ∀ u env m e, noEnc (writtenOn e (resp u env m).1.ops))
    (htext : ∀ env m0 ms, TellsW nvs fields files env → m0.type = 0 → (∀ m ∈ ms, m.type ≠ 0) → ∀ o ∈ (playedW resp u env (m0 :: ms)).1, WritesText o.2)
    (h : SrvRun (wideServer n (defaultHandlersW resp) max u host rh ph) srvInit tr ops s) (R : SrvUp s)
    (C : Conversation ops c id rs tail b ins) (hone : ∀ r ∈ rs, r.id = id.toNat)
    (hrole : b.role = 1 ∨ b.role = 2) (hreq : WholeRequest ins nvs body) (hbody : FormBody nvs body fields files)
    (hlen : LengthTold nvs body.length) (hmax : body.length ≤ max) (hint : body.length ≤ 2147483647)
    (h1 : OwnRun (wideServer n (defaultHandlersW resp) max u host rh ph) s tr1 ops1 s1) (r1 : SrvRest (wideServer n (defaultHandlersW resp) max u host rh ph) s1)
    (hnone : called ⟨c, id⟩ (tr ++ tr1) = [])
    (h2 : SrvRun (wideServer n (defaultHandlersW resp) max u host rh ph) s1 tr2 ops2 s2) (R2 : SrvUp s2) (hquiet : arrived c ops2 = [])
    (h3 : OwnRun (wideServer n (defaultHandlersW resp) max u host rh ph) s2 tr3 ops3 s3) (r3 : SrvRest (wideServer n (defaultHandlersW resp) max u host rh ph) s3)
    (hcalm : Calm c (ops ++ ops1 ++ ops2 ++ ops3)) :
    ∃ env m0 answer, TellsW nvs fields files env ∧ m0.type = 0 ∧ (∀ x ∈ answer, x.WF ∧ x.version = 1 ∧ x.id = id.toNat ∧ (x.type = 6 ∨ x.type = 7)) ∧
      ((playedW resp u env (m0 :: called ⟨c, id⟩ (tr2 ++ tr3))).2 = true → ∃ end_, (s3.t.conns c).output = stream (answer ++ [end_]) ∧
        (end_.WF ∧ end_.version = 1 ∧ end_.id = id.toNat ∧ end_.type = 3 ∧ end_.content.take 5 = [0, 0, 0, 0, 0]) ∧
        (answer.filter (fun x => x.type = 6)).flatMap Record.content =
          (writtenOn false (playedW resp u env (m0 :: called ⟨c, id⟩ (tr2 ++ tr3))).1).flatMap (writtenBy utf8Text) ∧
        (answer.filter (fun x => x.type = 7)).flatMap Record.content =
          (writtenOn true (playedW resp u env (m0 :: called ⟨c, id⟩ (tr2 ++ tr3))).1).flatMap (writtenBy utf8Text) ∧
        ((s3.t.conns c).valid = false ↔ (b.content.getD 2 0).toNat % 2 = 0)) ∧
      ((playedW resp u env (m0 :: called ⟨c, id⟩ (tr2 ++ tr3))).2 = false → (s3.t.conns c).output = stream answer ∧
        (answer.filter (fun x => x.type = 6)).flatMap Record.content <+:
          (writtenOn false (playedW resp u env (m0 :: called ⟨c, id⟩ (tr2 ++ tr3))).1).flatMap (writtenBy utf8Text) ∧
        (answer.filter (fun x => x.type = 7)).flatMap Record.content <+:
          (writtenOn true (playedW resp u env (m0 :: called ⟨c, id⟩ (tr2 ++ tr3))).1).flatMap (writtenBy utf8Text) ∧
        (s3.t.conns c).valid = true) := by
  haveI : OfLibrary (wideServer n (defaultHandlersW resp) max u host rh ph) := .wide ..
  obtain ⟨kill, q, rest, fin, A, a4, a5⟩ := C149_closed h R C hone h1 r1 hnone h2 R2 hquiet h3 r3 hcalm
  have hwf : ∀ r ∈ ins, r.WF := by
    intro r hr
    have : r ∈ rs.filter (fun r => r.id = id.toNat) := by rw [C.mine]; simp [hr]
    exact C.wf r (List.mem_filter.1 this).1
  obtain ⟨env, m0, T, hm0, hfin, hst, hw⟩ := form_laterW (called_types _ _) hwf hrole hreq hbody hlen hmax hint A
  have hid : id.toNat < 2 ^ 16 := id.toNat_lt
  have pl : ∀ e, noEnc (writesW e q.log) := by intro e; rw [hw e]; exact played_plainW hplain e _ _ _
  have tx : ∀ e, ∀ op ∈ writesW e q.log, WritesText op := by intro e; rw [hw e]; exact text_on (htext _ _ _ T hm0 (called_types _ _))
  have p0 := pl false
  have p1 := pl true
  obtain ⟨role, _, hk, A⟩ := alone_wide.1 A
  have good : ∀ x, GoodRecord id 6 x ∨ GoodRecord id 7 x → x.WF ∧ x.version = 1 ∧ x.id = id.toNat ∧ (x.type = 6 ∨ x.type = 7) := by
    rintro x hx
    refine ⟨?_, ?_, ?_, hx.imp (fun g => g.type) (fun g => g.type)⟩ <;> rcases hx with g | g
    · exact ⟨by rw [g.id]; exact hid, by have := g.contentLength; omega, by have := g.padding; omega⟩
    · exact ⟨by rw [g.id]; exact hid, by have := g.contentLength; omega, by have := g.padding; omega⟩
    · exact g.version
    · exact g.version
    · exact g.id
    · exact g.id
  cases fin with
  | true =>
    obtain ⟨before, ans, en, c1, c2, c3, c4, c5, c6⟩ := C120_complete_partial _ host c id role kill max u _ A
    rw [hst] at c2
    obtain ⟨er, e1, e2, e3, e4, e5, e6, rfl⟩ := c2
    have hsent : (Transmits.sent q).flatMap (·.2.1) = stream (ans ++ [er]) := by
      show (sentOfW q.log).flatMap (·.2.1) = _
      rw [c1, sentOf_appendW, c3]
      simp [sentOfW, stream, List.flatMap_map]
    rw [hsent] at a4
    refine ⟨env, m0, ans, T, hm0, fun x hx => good x (c4 x hx), fun _ => ⟨er, a4, ⟨⟨by rw [e3]; exact hid, by rw [e4]; decide, by rw [e6]; decide⟩, e1, e3, e2, e5⟩, ?_, ?_, ?_⟩, fun hf => ?_⟩
    · rw [← hw false]; exact c5 p0 (tx false)
    · rw [← hw true]; exact c6 p1 (tx true)
    · rw [a5, ← hk]; exact ⟨fun x => x.2, fun x => ⟨rfl, x⟩⟩
    · rw [← hfin] at hf; cases hf
  | false =>
    obtain ⟨ans, c3, c4, c5, c6⟩ := unfinished_sentW A p0 p1 (tx false) (tx true)
    have hsent : (Transmits.sent q).flatMap (·.2.1) = stream ans := by
      show (sentOfW q.log).flatMap (·.2.1) = _
      rw [c3]
      simp [stream, List.flatMap_map]
    rw [hsent] at a4
    refine ⟨env, m0, ans, T, hm0, fun x hx => good x (c4 x hx), fun hf => ?_, fun _ => ⟨a4, ?_, ?_, ?_⟩⟩
    · rw [← hfin] at hf; cases hf
    · rw [← hw false]; exact c5
    · rw [← hw true]; exact c6
    · cases hv : (s3.t.conns c).valid with
      | true => rfl
      | false => have := (a5.1 hv).1; cases this

/-! ### A concrete run

An application that says `wait ` when it has got its form and asks somebody else; when the answer comes, it writes the values of the
fields and the answer. -/

def laterRespW : Unit → EnvW → Message → ActW Unit × Bool := fun u env m =>
  if m.type = 0 then (⟨[(false, .insert (b!"wait ".map fun b : UInt8 => b.toUInt32))], env, u⟩, false)
  else (⟨[(false, .insert (env.posts.flatMap fun p => p.2 ++ [32])), (false, .insert (m.data.map fun b : UInt8 => b.toUInt32))], env, u⟩, true)
def laterServerW : SrvProg (ReqW Unit) := wideServer 1 (defaultHandlersW laterRespW) 100 () ⟨fun _ _ _ => 0, true⟩ (fun _ => 0) (fun _ => 0)
instance : OfLibrary laterServerW := .wide ..
def laterBytesW : Bytes := stream (laterBegin :: formInsW)

def laterEndW (x : List MEvent × List TOp × Srv (ReqW Unit)) : Bool :=
  x.2.2.m.terminate == false && x.2.2.m.stop == false && (match x.2.2.m.th 0 with | .off | .finished => false | _ => true) &&
  (x.2.1.filterMap fun | .arrive c d => some (c, d) | _ => none) == [(3, laterBytesW)] && (called ⟨3, 7⟩ x.1).isEmpty && (match x.2.2.m.pu 0 with | .idle => true | _ => false) &&
  x.2.1.all (fun o => match o with | .receive _ _ _ => false | .tx _ => false | .hangup _ => false | _ => true)

theorem laterRunW_end : (srvPlay laterServerW [.outer .start, .go 50, .op (.arrive 3 laterBytesW)] ([], [], srvInit)).any laterEndW = true := by decide +kernel

theorem laterRespW_plain : ∀ u env m e, noEnc (writtenOn e (laterRespW u env m).1.ops) := by
  intro u env m e op ho
  unfold laterRespW at ho
  split at ho <;>
    simp only [writtenOn, List.mem_map, List.mem_filter, List.mem_cons, List.not_mem_nil, or_false] at ho
  · obtain ⟨x, ⟨rfl, _⟩, rfl⟩ := ho; simp
  · obtain ⟨x, ⟨rfl | rfl, _⟩, rfl⟩ := ho <;> simp

theorem laterPlayedW {nvs files} {w : EnvW} (T : TellsW nvs [(b!"a", b!"1"), (b!"b", [0xc3, 0xa9])] files w) {m0 : Message} (h0 : m0.type = 0) {ms : List Message}
    (hms : ∀ m ∈ ms, m.type ≠ 0) : ∀ o ∈ (playedW laterRespW () w (m0 :: ms)).1, WritesText o.2 := by
  have hp := formPostsW T
  have small : ∀ b : UInt8, b.toUInt32 < 0xd800 := by
    intro b
    have := b.toNat_lt
    rw [UInt32.lt_iff_toNat_lt]
    simp only [UInt8.toNat_toUInt32]
    exact Nat.lt_trans this (by decide)
  have hwait : WritesText (.insert (b!"wait ".map fun b : UInt8 => b.toUInt32) : SOp UInt32) := by
    intro c hc
    obtain ⟨x, _, rfl⟩ := List.mem_map.1 hc
    exact Or.inl (small x)
  have hpost : WritesText (.insert (w.posts.flatMap fun p => p.2 ++ [32]) : SOp UInt32) := by
    rw [hp]
    intro c hc
    simp only [List.flatMap_cons, List.flatMap_nil, List.mem_append, List.mem_cons, List.not_mem_nil, or_false] at hc
    rcases hc with (rfl | rfl) | rfl | rfl <;> exact Or.inl (by decide)
  cases ms with
  | nil =>
    intro o ho
    simp only [playedW, laterRespW, h0, if_true, Bool.false_eq_true, if_false, List.append_nil, List.mem_singleton] at ho
    subst ho
    exact hwait
  | cons m ms =>
    intro o ho
    simp only [playedW, laterRespW, h0, hms m (by simp), if_true, Bool.false_eq_true, if_false, List.mem_append, List.mem_cons, List.not_mem_nil, or_false] at ho
    rcases ho with rfl | rfl | rfl
    · exact hwait
    · exact hpost
    · intro c hc
      obtain ⟨x, _, rfl⟩ := List.mem_map.1 hc
      exact Or.inl (small x)

/-- The form arrives, the server comes to rest; the callback is called with `done`; the server comes to rest again, and its peer has
got `wait 1 é done` in UTF-8 and END_REQUEST. -/
example : ∃ tr ops s tr1 ops1 s1 m2 tr3 ops3 s3, SrvRun laterServerW srvInit tr ops s ∧ SrvUp s ∧ arrived 3 ops = laterBytesW ∧
    OwnRun laterServerW s tr1 ops1 s1 ∧ SrvRest laterServerW s1 ∧ called ⟨3, 7⟩ (tr ++ tr1) = [] ∧
    estep laterServerW.prog (.push 1 ⟨3, 7⟩ ⟨5, b!"done"⟩) s1.m = some ([], m2) ∧
    OwnRun laterServerW { s1 with m := m2 } tr3 ops3 s3 ∧ SrvRest laterServerW s3 ∧ called ⟨3, 7⟩ tr3 = [⟨5, b!"done"⟩] ∧
    ∃ answer end_, (s3.t.conns 3).output = stream (answer ++ [end_]) ∧
      (answer.filter (fun x => x.type = 6)).flatMap Record.content = (b!"wait 1 é done" : Bytes) ∧ end_.type = 3 ∧ (s3.t.conns 3).valid = true := by
  cases hp : srvPlay laterServerW [.outer .start, .go 50, .op (.arrive 3 laterBytesW)] ([], [], srvInit) with
  | none => have := laterRunW_end; rw [hp] at this; cases this
  | some y =>
  have he : laterEndW y = true := by have := laterRunW_end; rw [hp] at this; exact this
  have g := srvPlay_good _ (P := laterServerW) (x := ([], [], srvInit)) ⟨.refl _, fun _ _ => rfl⟩ hp
  obtain ⟨tr, ops, s⟩ := y
  have h1 : SrvRun laterServerW srvInit tr ops s := g.1
  simp only [laterEndW, Bool.and_eq_true, beq_iff_eq, List.isEmpty_iff, List.all_eq_true] at he
  obtain ⟨⟨⟨⟨⟨⟨a1, a2⟩, a3⟩, a4⟩, a5⟩, a6⟩, a7⟩ := he
  have ha : ∀ c, arrived c ops = if c = 3 then laterBytesW else [] := by
    intro c
    rw [(arrived_pairs c ops).trans (congrArg (fun l : List (Nat × Bytes) => (l.filter (fun x => x.1 = c)).flatMap (·.2)) a4)]
    by_cases hc : c = 3
    · subst hc; simp
    · have : ¬ 3 = c := fun e => hc e.symm
      simp [hc, this]
  have R : SrvUp s := ⟨⟨0, by revert a3; cases s.m.th 0 <;> simp⟩, a1, a2⟩
  have hwf : ∀ r ∈ laterBegin :: formInsW, r.WF ∧ r.id = 7 := by
    intro r hr
    simp only [formInsW, laterBegin, List.mem_cons, List.not_mem_nil, or_false] at hr
    rcases hr with rfl | rfl | rfl | rfl | rfl | rfl <;> exact ⟨by unfold Record.WF; decide, rfl⟩
  have C : Conversation ops 3 7 (laterBegin :: formInsW) [] laterBegin formInsW := by
    refine ⟨fun r hr => (hwf r hr).1, Or.inl (by simp), by rw [ha, if_pos rfl, List.append_nil]; rfl, by decide, fun r hr => ?_, ?_, rfl, ?_, ?_, ?_⟩
    · intro h0; rw [(hwf r hr).2] at h0; cases h0
    · apply List.filter_eq_self.2
      intro r hr; rw [(hwf r hr).2]; rfl
    · intro r hr
      simp only [formInsW, List.mem_cons, List.not_mem_nil, or_false] at hr
      rcases hr with rfl | rfl | rfl | rfl | rfl <;> decide
    · simp [laterBegin, demoRec]
    · intro r hr h4 h0
      simp only [formInsW, List.mem_cons, List.not_mem_nil, or_false] at hr
      rcases hr with rfl | rfl | rfl | rfl | rfl
      · exact ⟨_, formWholeW⟩
      · exact absurd rfl h0
      all_goals exact absurd h4 (by decide)
  have hnv : ∀ ops', (∀ c, arrived c ops' = arrived c ops) → NoValues ops' := by
    intro ops' hops c
    rw [hops]
    by_cases hc : c = 3
    · subst hc
      exact ⟨_, _, C.wf, C.rest, C.bytes, fun r hr h0 h9 => absurd h9 (C.app r hr h0)⟩
    · exact ⟨[], [], by simp, Or.inl (by simp), by rw [ha, if_neg hc]; rfl, by simp⟩
  obtain ⟨tr1, ops1, s1, q1, q2, q3⟩ := C111_reaches_calm h1
  have hrest := (C111_rests h1 (hnv ops fun _ => rfl)).2 tr1 ops1 s1 q1 q3
  have H1 := own_run h1 q1
  have R1 := own_running q1 R
  have C1 : Conversation (ops ++ ops1) 3 7 (laterBegin :: formInsW) [] laterBegin formInsW :=
    { C with bytes := by rw [arrived_append, own_arrived q1, List.append_nil]; exact C.bytes }
  have hidle : NoCaller s.m := by
    intro p k x hx
    have : s.m.pu p = .idle := by
      by_cases hp0 : p = 0
      · subst hp0; revert a6; cases s.m.pu 0 <;> simp
      · exact g.2 p hp0
    rw [this] at hx
    rcases hx with hx | hx <;> cases hx
  have hnone : called ⟨3, 7⟩ (tr ++ tr1) = [] := by
    rw [called_append, a5, (own_called q1 hidle _).2]; rfl
  obtain ⟨I1, _⟩ := rest_idle H1 R1 hrest
  have hidle1 := (still_rest (run_kq (srv_parts H1).m).1 I1.still).2
  have hpush : estep laterServerW.prog (.push 1 ⟨3, 7⟩ ⟨5, b!"done"⟩) s1.m = some ([], s1.m.pgoto 1 (.call ⟨3, 7⟩ ⟨5, b!"done"⟩)) := by
    unfold estep
    dsimp only
    rw [if_pos (hidle1 1)]
    rfl
  have h2 : SrvRun laterServerW s1 ([] ++ []) ([] ++ []) { s1 with m := s1.m.pgoto 1 (.call ⟨3, 7⟩ ⟨5, b!"done"⟩) } :=
    .step (.refl s1) (.outer _ (by decide) hpush)
  have R2 : SrvUp ({ s1 with m := s1.m.pgoto 1 (.call ⟨3, 7⟩ ⟨5, b!"done"⟩) } : Srv (ReqW Unit)) := ⟨R1.live, R1.term, R1.stop⟩
  have H2 := run_later H1 h2
  simp only [List.append_nil] at H2 h2
  obtain ⟨tr3, ops3, s3, t1, t2, t3⟩ := C111_reaches_calm H2
  have hrest3 := (C111_rests H2 (hnv _ fun c => by rw [arrived_append, own_arrived q1, List.append_nil])).2 tr3 ops3 s3 t1 t3
  have hcalm : Calm 3 (ops ++ ops1 ++ [] ++ ops3) := by
    refine Calm.append (Calm.append (Calm.append ?_ (q2 3)) (by simp [Calm])) (t2 3)
    refine ⟨fun hm => ?_, fun k1 k2 hm => ?_, fun hm => ?_⟩ <;> (have := a7 _ hm; cases this)
  have hreq : WholeRequest formInsW (formPairsW.map Prod.fst) b!"a=1&b=%C3%A9" :=
    ⟨[(demoRec 4 (formPairsW.flatMap Prod.snd), formPairsW)], demoRec 4 [], [demoRec 5 b!"a=1&b", demoRec 5 b!"=%C3%A9"], demoRec 5 [], rfl,
      by intro p hp; simp only [List.mem_singleton] at hp; subst hp; exact formWholeW, by simp, ⟨rfl, rfl⟩,
      by intro b hb; simp only [List.mem_cons, List.not_mem_nil, or_false] at hb; rcases hb with rfl | rfl <;> exact ⟨rfl, by decide⟩, by decide, ⟨rfl, rfl⟩⟩
  have hbody : FormBody (formPairsW.map Prod.fst) b!"a=1&b=%C3%A9" [(b!"a", b!"1"), (b!"b", [0xc3, 0xa9])] [] :=
    .urlencoded (t := b!"application/x-www-form-urlencoded") (by decide) (by decide) formTextW_demo
  have hlen : LengthTold (formPairsW.map Prod.fst) (b!"a=1&b=%C3%A9" : Bytes).length := Or.inr ⟨b!"12", by decide, by decide, by unfold IsDigit; decide, by decide⟩
  obtain ⟨env, m0, answer, T, hm0, _, o1, o2⟩ := C149_wide_closed laterRespW_plain (fun _ _ _ T h0 h1 => laterPlayedW T h0 h1) h1 R C (fun r hr => (hwf r hr).2) (Or.inl (by decide)) hreq hbody hlen
    (by decide) (by decide) q1 hrest hnone h2 R2 rfl t1 hrest3 hcalm
  have hv : (s3.t.conns 3).valid = true := by
    cases hf : (playedW laterRespW () env (m0 :: called ⟨3, 7⟩ ([] ++ tr3))).2 with
    | false => exact (o2 hf).2.2.2
    | true =>
      obtain ⟨_, _, _, _, _, o3⟩ := o1 hf
      cases hv : (s3.t.conns 3).valid with
      | true => rfl
      | false => exact absurd (o3.1 hv) (by decide)
  have hcalled : called ⟨3, 7⟩ tr3 = [⟨5, b!"done"⟩] := by
    refine C149_taken H1 R1 hrest C1 (fun r hr => by rw [(hwf r hr).2]; decide) ?_ (by decide) hpush t1 hrest3 hv
    intro is kill q rest fin A hr hc
    rw [hnone] at hc
    have his := inputs_records (List.prefix_nil.1 hc)
    rw [hr] at his
    subst his
    have A' : Alone laterServerW 3 7 laterBegin (formInsW.map .record ++ asInputs []) kill q rest fin := by simpa using A
    obtain ⟨env, m0, _, k1, k2, _⟩ := form_laterW (n := 1) (resp := laterRespW) (max := 100) (u := ()) (b := laterBegin) (ms := []) (by simp) (fun r hr => (hwf r (by simp [hr])).1) (Or.inl (by decide)) hreq hbody hlen (by decide) (by decide) A'
    rw [k2]
    simp [playedW, laterRespW, k1]
  have hpl : playedW laterRespW () env (m0 :: called ⟨3, 7⟩ ([] ++ tr3)) =
      ([(false, .insert (b!"wait ".map fun b : UInt8 => b.toUInt32)), (false, .insert (env.posts.flatMap fun p => p.2 ++ [32])), (false, .insert (b!"done".map fun b : UInt8 => b.toUInt32))], true) := by
    rw [List.nil_append, hcalled]
    simp [playedW, laterRespW, hm0]
  obtain ⟨en, e1, ⟨_, _, _, e2, _⟩, e3, _⟩ := o1 (by rw [hpl])
  refine ⟨tr, ops, s, tr1, ops1, s1, _, tr3, ops3, s3, h1, R, by rw [ha, if_pos rfl], q1, hrest, hnone, hpush, t1, hrest3, hcalled, answer, en, e1, ?_, e2, hv⟩
  rw [e3, hpl]
  simp only [writtenOn, formPostsW T]
  decide

end Fcgi.Props
