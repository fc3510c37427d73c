import Verif.Props.Aborted
import Verif.Props.TakenWide
import Verif.Lemmas.AbortedWide
/-! # C153 for applications with wide characters -/
namespace Fcgi.Props
open Fcgi.Spec Fcgi.Model

/-- The log of a finished request of wide characters that wrote `w`. -/
def EndedW (c : Nat) (id : UInt16) (kill : Bool) (w : List (Bool × SOp UInt32)) (log : List EvW) : Prop :=
  ∃ before, ∃ rs : List Record, ∃ end_, log = before ++ [.sent c end_ kill] ∧ IsEndRequest id.toNat 0 end_ ∧
    sentOfW before = rs.map (fun x => (c, x.bytes, false)) ∧ (∀ x ∈ rs, GoodRecord id 6 x ∨ GoodRecord id 7 x) ∧
    (noEnc (writtenOn false w) → (∀ op ∈ writtenOn false w, WritesText op) → (rs.filter (fun x => x.type = 6)).flatMap Record.content = (writtenOn false w).flatMap (writtenBy utf8Text)) ∧
    (noEnc (writtenOn true w) → (∀ op ∈ writtenOn true w, WritesText op) → (rs.filter (fun x => x.type = 7)).flatMap Record.content = (writtenOn true w).flatMap (writtenBy utf8Text))

/-- The records for the request `id` among `outs`: what it wrote, `w`, in UTF-8, and END_REQUEST with status 0. -/
def AnsweredByW (id : UInt16) (w : List (Bool × SOp UInt32)) (outs : List Record) : Prop :=
  ∃ answer end_, outs.filter (fun r => r.id = id.toNat) = answer ++ [end_] ∧
    (∀ x ∈ answer, (x.type = 6 ∨ x.type = 7) ∧ x.content ≠ []) ∧
    (answer.filter (fun x => x.type = 6)).flatMap Record.content = (writtenOn false w).flatMap (writtenBy utf8Text) ∧
    (answer.filter (fun x => x.type = 7)).flatMap Record.content = (writtenOn true w).flatMap (writtenBy utf8Text) ∧
    end_.type = 3 ∧ end_.content.take 5 = [0, 0, 0, 0, 0]

/-- From a request alone to the server. -/
theorem ended_answeredW {U : Type} {n : Nat} {hd : HandlersW U} {max : Nat} {u : U}
    {host rh ph} {tr tr' : List MEvent} {ops ops' : List TOp} {s s' : Srv (ReqW U)} {c : Nat} {id : UInt16} {rs : List Record} {tail : Bytes}
    {b : Record} {ins : List Record} {S : List (Bool × SOp UInt32) → Prop}
    (key : (∀ r ∈ ins, r.WF) → ∀ kill q rest fin, Alone (wideServer n hd max u host rh ph) c id b (ins.map .record) kill q rest fin →
      ∃ w, S w ∧ fin = true ∧ EndedW c id kill w q.log)
    (hplain : ∀ w, S w → ∀ e, noEnc (writtenOn e w)) (htext : ∀ w, S w → ∀ o ∈ w, WritesText o.2)
    (h : SrvRun (wideServer n hd max u host rh ph) srvInit tr ops s) (R : SrvUp s)
    (C : Conversation ops c id rs tail b ins) (hlost : ∀ r ∈ rs, r.id ≠ 0xffff)
    (h' : OwnRun (wideServer n hd max u host rh ph) s tr' ops' s') (hr : SrvRest (wideServer n hd max u host rh ph) s')
    (hv : (s'.t.conns c).valid = true) (hcall : called ⟨c, id⟩ (tr ++ tr') = []) :
    ∃ w, S w ∧ ∀ outs otail, (∀ r ∈ outs, r.WF) → Incomplete otail → (s'.t.conns c).output = stream outs ++ otail →
      otail = [] ∧ AnsweredByW id w outs := by
  haveI : OfLibrary (wideServer n hd max u host rh ph) := .wide ..
  obtain ⟨is, kill, q, rest, fin, A, a1, a2, _, a4⟩ := C111_answered h R C hlost h' hr hv
  rw [hcall] at a2
  have his := inputs_records (List.prefix_nil.1 a2)
  rw [a1] at his
  subst his
  have hwf : ∀ r ∈ ins, r.WF := by
    intro r hr
    have : r ∈ rs.filter (fun r => r.id = id.toNat) := by rw [C.mine]; simp [hr]
    exact C.wf r (List.mem_filter.1 this).1
  obtain ⟨w, hS, _, before, ans, en, c1, ⟨er, e1, e2, e3, e4, e5, e6, rfl⟩, c3, c4, c5, c6⟩ := key hwf _ _ _ _ A
  refine ⟨w, hS, fun outs otail ho hi hs => ?_⟩
  obtain ⟨o1, o2⟩ := a4 outs otail ho hi hs
  have hsent : (Transmits.sent q).map (·.2.1) = (ans ++ [er]).map Record.bytes := by
    show (sentOfW q.log).map (·.2.1) = _
    rw [c1, sentOf_appendW, c3]
    simp [sentOfW]
  rw [hsent] at o2
  have hid : id.toNat < 2 ^ 16 := id.toNat_lt
  have hwa : ∀ y ∈ ans ++ [er], y.WF := by
    intro y hy
    rcases List.mem_append.1 hy with hy | hy
    · exact (good_wf (c4 y hy)).1
    · simp only [List.mem_singleton] at hy
      subst hy
      exact ⟨by rw [e3]; exact hid, by rw [e4]; decide, by rw [e6]; decide⟩
  have heq := records_bytes_inj (fun x hx => ho x (List.mem_filter.1 hx).1) hwa o2
  exact ⟨o1, ans, er, heq, fun x hx => (good_wf (c4 x hx)).2.2.2, c5 (hplain _ hS _) (text_on (htext _ hS)), c6 (hplain _ hS _) (text_on (htext _ hS)), e2, e5⟩

theorem ended_closedW {U : Type} {n : Nat} {hd : HandlersW U} {max : Nat} {u : U}
    {host rh ph} {tr tr' : List MEvent} {ops ops' : List TOp} {s s' : Srv (ReqW U)} {c : Nat} {id : UInt16} {rs : List Record} {tail : Bytes}
    {b : Record} {ins : List Record} {S : List (Bool × SOp UInt32) → Prop}
    (key : (∀ r ∈ ins, r.WF) → ∀ kill q rest fin, Alone (wideServer n hd max u host rh ph) c id b (ins.map .record) kill q rest fin →
      ∃ w, S w ∧ fin = true ∧ EndedW c id kill w q.log)
    (hplain : ∀ w, S w → ∀ e, noEnc (writtenOn e w)) (htext : ∀ w, S w → ∀ o ∈ w, WritesText o.2)
    (h : SrvRun (wideServer n hd max u host rh ph) srvInit tr ops s) (R : SrvUp s)
    (C : Conversation ops c id rs tail b ins) (hone : ∀ r ∈ rs, r.id = id.toNat)
    (h' : OwnRun (wideServer n hd max u host rh ph) s tr' ops' s') (hr : SrvRest (wideServer n hd max u host rh ph) s')
    (hcalm : Calm c (ops ++ ops')) (hcall : called ⟨c, id⟩ (tr ++ tr') = []) :
    ∃ w outs, S w ∧ (s'.t.conns c).output = stream outs ∧ (∀ x ∈ outs, x.WF ∧ x.version = 1 ∧ x.id = id.toNat) ∧ AnsweredByW id w outs ∧
      ((s'.t.conns c).valid = false ↔ (b.content.getD 2 0).toNat % 2 = 0) := by
  haveI : OfLibrary (wideServer n hd max u host rh ph) := .wide ..
  obtain ⟨is, kill, q, rest, fin, A, a1, a2, _, a4, a5⟩ := C111_closed h R C hone h' hr hcalm
  rw [hcall] at a2
  have his := inputs_records (List.prefix_nil.1 a2)
  rw [a1] at his
  subst his
  have hwf : ∀ r ∈ ins, r.WF := by
    intro r hr
    have : r ∈ rs.filter (fun r => r.id = id.toNat) := by rw [C.mine]; simp [hr]
    exact C.wf r (List.mem_filter.1 this).1
  obtain ⟨w, hS, f1, before, ans, en, c1, ⟨er, e1, e2, e3, e4, e5, e6, rfl⟩, c3, c4, c5, c6⟩ := key hwf _ _ _ _ A
  obtain ⟨_, _, hk, _⟩ := A
  have hsent : (Transmits.sent q).flatMap (·.2.1) = stream (ans ++ [er]) := by
    show (sentOfW q.log).flatMap (·.2.1) = _
    rw [c1, sentOf_appendW, c3]
    simp [sentOfW, stream, List.flatMap_map]
  rw [hsent] at a4
  have hid : id.toNat < 2 ^ 16 := id.toNat_lt
  have all : ∀ x ∈ ans ++ [er], x.WF ∧ x.version = 1 ∧ x.id = id.toNat := by
    intro y hy
    rcases List.mem_append.1 hy with hy | hy
    · obtain ⟨g1, g2, g3, _⟩ := good_wf (c4 y hy)
      exact ⟨g1, g2, g3⟩
    · simp only [List.mem_singleton] at hy
      subst hy
      exact ⟨⟨by rw [e3]; exact hid, by rw [e4]; decide, by rw [e6]; decide⟩, e1, e3⟩
  refine ⟨w, ans ++ [er], hS, a4, all, ⟨ans, er, ?_, fun x hx => (good_wf (c4 x hx)).2.2.2, c5 (hplain _ hS _) (text_on (htext _ hS)), c6 (hplain _ hS _) (text_on (htext _ hS)), e2, e5⟩, ?_⟩
  · exact List.filter_eq_self.2 fun x hx => by simp [(all x hx).2.2]
  · rw [a5, ← hk]
    exact ⟨fun x => x.2, fun x => ⟨f1, x⟩⟩

/-- What is finished with status 0 having written `w` has ended. -/
theorem ended_ofW {U} (hd : HandlersW U) {host} {c : Nat} {id role : UInt16} {kill : Bool} {max : Nat} {u : U} {ms rest : List Message} {r : ReqW U}
    (e : handlerW hd host (freshReqW c id role kill max u) ms = .ok (r, rest, true)) (hs : r.status = 0) {w : List (Bool × SOp UInt32)}
    (hw : ∀ e, writesW e r.log = writtenOn e w) : EndedW c id kill w r.log := by
  obtain ⟨before, rs, en, c1, c2, c3, c4, c5, c6⟩ := C120_complete_partial _ host c id role kill max u _ e
  rw [hs] at c2
  simp only [hw] at c5 c6
  exact ⟨before, rs, en, c1, c2, c3, c4, c5, c6⟩

/-- A request on its own that is given up before its input is complete. -/
theorem early_aloneW {U : Type} {n : Nat} {hd : HandlersW U} {max : Nat} {u : U}
    {host rh ph} {c : Nat} {id : UInt16} {b : Record} {ins pre : List Record} {nvs : List (Bytes × Bytes)} {body : Bytes}
    (hin : ∀ u e n, (hd.inHandler u e n).env = e)
    (hrole : b.role = 1 ∨ b.role = 2) (hup : GivesUp ins pre) (hreq : Begins pre nvs body)
    (hlen : LengthTold nvs body.length) (hmax : body.length ≤ max) (hint : body.length ≤ 2147483647) (hwf : ∀ r ∈ ins, r.WF)
    (kill : Bool) (q : ReqW U) (rest : List Message) (fin : Bool)
    (ha : Alone (wideServer n hd max u host rh ph) c id b (ins.map .record) kill q rest fin) :
    ∃ w, (∃ env, GivenBodyW nvs [] env ∧ w = (whileComingW hd.inHandler u env (bodyPieces pre)).1) ∧ fin = true ∧ EndedW c id kill w q.log := by
  obtain ⟨role, r1, _, h⟩ := alone_wide.1 ha
  obtain ⟨a, post, rfl, hat⟩ := hup
  obtain ⟨more, hm0, hreq⟩ := hreq
  obtain ⟨ps, p0, bs, i0, hsp, s2, rfl, s4, s5, rfl, s7⟩ := hreq.split
  have hrole' : role = 1 ∨ role = 2 := by
    unfold Record.role at hrole
    rw [← r1] at hrole
    exact hrole.imp (fun h => UInt16.toNat.inj h) (fun h => UInt16.toNat.inj h)
  have he : ∀ i ∈ ps.flatMap Prod.snd, EncPair i.1 i.2 := by
    intro i hi
    obtain ⟨p, hp, hi⟩ := List.mem_flatMap.1 hi
    exact (s2 p hp).enc i hi
  obtain ⟨env, henv, _⟩ := handler_params (defaultHandlers fun (u : Unit) env _ => (⟨[], env, u⟩, true)) (fun _ _ _ => 0) ps (freshReq c id role kill max ()) (freshReq_alive ..) rfl hrole' s2
  have henv' : fillPairs [0] (ps.flatMap Prod.snd) {} = .ok env := henv
  have e := encPairs_of _ he
  have hf : fill ([] ++ (ps.flatMap Prod.snd).flatMap Prod.snd ++ [0]) ([] : Bytes).length ([] ++ (ps.flatMap Prod.snd).flatMap Prod.snd).length {} = .ok env := by
    rw [fill_items _ [] [0] {} he]; exact henv'
  have hcl : env.contentLength.toNat = (bs.flatMap Record.content).length := by
    obtain ⟨n1, _, _, _, _, n6, _⟩ := C24_numbers (he := e) (hf := hf)
    rcases hlen with ⟨h0, h1⟩ | ⟨v, h1, h2⟩
    · rw [n6 h1, h0]; rfl
    · exact n1 v _ h1 h2 hint
  have hpb : env.postBuffer = [] := postBuffer_fillPairs _ _ _ _ henv'
  have G : GivenBody ((ps.flatMap Prod.snd).map Prod.fst) [] env := by
    refine ⟨?_, hpb, (C24_parsed (he := e) (hf := hf)).2.2⟩
    have T := tells_fill he henv' [] []
    obtain ⟨p1, p2⟩ := fillPairs_posts [0] _ _ _ henv'
    have : ({ env with postBuffer := [], posts := [], files := [] } : Env) = { env with postBuffer := [] } := by
      rw [← (show env.posts = [] from p1), ← (show env.files = [] from p2)]
    simp only [List.map_nil, this] at T
    exact T
  have wfpre : ∀ r ∈ pre, r.WF := fun r hr => hwf r (by simp [hr])
  have wfa : a.WF := hwf a (by simp)
  -- the beginning that was sent
  have all : ∃ w, SameEnv env w ∧ TextsOf ((ps.flatMap Prod.snd).map Prod.fst) w := by
    obtain ⟨env1, w, a1, a2, a3, _⟩ := handler_paramsW hd host ps (freshReqW c id role kill max u) {} [] (freshReq_aliveW ..) rfl hrole' s2 sameEnv_fresh texts_fresh
    rw [henv'] at a1
    cases a1
    exact ⟨w, a2, a3⟩
  have run : ∃ (w : EnvW) (r : ReqW U), SameEnv env w ∧ TextsOf ((ps.flatMap Prod.snd).map Prod.fst) w ∧
      handlerW hd host (freshReqW c id role kill max u) (pre.map fcgiMsg) = .ok (r, [], false) ∧ AliveW r ∧ r.status = 0 ∧
      ∀ e, writesW e r.log = writtenOn e (whileComingW hd.inHandler u w (bodyPieces pre)).1 := by
    have hpre : ∃ more', ps.map Prod.fst ++ [p0] ++ bs = pre ++ more' := by
      obtain ⟨m', l, rfl⟩ : ∃ m' l, more = m' ++ [l] := ⟨more.dropLast, more.getLast hm0, (List.dropLast_concat_getLast hm0).symm⟩
      rw [← List.append_assoc] at hsp
      exact ⟨m', ((List.append_inj' hsp.symm rfl).1)⟩
    obtain ⟨more', hpre⟩ := hpre
    rw [List.append_assoc] at hpre
    rcases List.append_eq_append_iff.1 hpre with ⟨m1, k1, k2⟩ | ⟨m1, k1, k2⟩
    · cases m1 with
      | nil =>
        rw [List.append_nil] at k1
        subst k1
        obtain ⟨w, w1, w2⟩ := all
        obtain ⟨_, env1, _, _, _, a2⟩ := handler_paramsW hd host ps (freshReqW c id role kill max u) {} [] (freshReq_aliveW ..) rfl hrole' s2 sameEnv_fresh texts_fresh
        refine ⟨w, { freshReqW c id role kill max u with env := env1 }, w1, w2, by rw [List.map_map]; exact a2, (freshReq_aliveW c id role kill max u).of_eq rfl rfl rfl rfl rfl, rfl, fun e => ?_⟩
        rw [bodyPieces_params s2]; rfl
      | cons x bs1 =>
        simp only [List.cons_append, List.nil_append] at k2
        obtain ⟨rfl, k3⟩ := List.cons.inj k2
        have hb : ∀ b ∈ bs1, b.WF ∧ b.type = 5 ∧ b.content ≠ [] := fun b hb => ⟨wfpre b (by rw [k1]; simp [hb]), s5 b (by rw [k3]; simp [hb])⟩
        rw [show ps.map Prod.fst ++ p0 :: bs1 = ps.map Prod.fst ++ [p0] ++ bs1 from by simp] at k1
        obtain ⟨w, r, w1, w2, b1, b2, b3, b4⟩ := begun_runW hd hin host c id role kill max u hrole' ps s2 p0 ⟨wfpre p0 (by rw [k1]; simp), s4⟩ bs1 hb henv'
          (by rw [hcl]; exact hmax) (by rw [hcl, k3]; simp)
        rw [k1, bodyPieces_begun s2 s4 fun b hb' => (hb b hb').2]
        exact ⟨w, r, w1, w2, b1, b2, b3, b4⟩
    · have hps1 : ∃ ps1 ps2, ps = ps1 ++ ps2 ∧ pre = ps1.map Prod.fst := by
        obtain ⟨l1, l2, e1, e2, _⟩ := List.map_eq_append_iff.1 k1
        exact ⟨l1, l2, e1, e2.symm⟩
      obtain ⟨ps1, ps2, rfl, rfl⟩ := hps1
      have s2' : ∀ p ∈ ps1, WholePairs p.1 p.2 := fun p hp => s2 p (by simp [hp])
      obtain ⟨w, w1, w2⟩ := all
      obtain ⟨_, env1, _, _, _, a2⟩ := handler_paramsW hd host ps1 (freshReqW c id role kill max u) {} [] (freshReq_aliveW ..) rfl hrole' s2' sameEnv_fresh texts_fresh
      refine ⟨w, { freshReqW c id role kill max u with env := env1 }, w1, w2, by rw [List.map_map]; exact a2, (freshReq_aliveW c id role kill max u).of_eq rfl rfl rfl rfl rfl, rfl, fun e => ?_⟩
      rw [bodyPieces_params s2']; rfl
  obtain ⟨w, r, w1, w2, b1, b2, b3, b4⟩ := run
  obtain ⟨r', d1, d2, d3⟩ := abort_runW hd host _ r pre b1 b2 a ⟨wfa, hat⟩ post
  have hm : ((pre ++ a :: post).map Input.record).map Input.message = (pre ++ a :: post).map fcgiMsg := by
    rw [List.map_map]; rfl
  rw [hm, d1] at h
  cases h
  exact ⟨_, ⟨w, ⟨env, G, w1, w2⟩, rfl⟩, rfl, ended_ofW hd d1 (d2.trans b3) fun e => (d3 e).trans (b4 e)⟩

/-- For an application with wide characters: a web server gives up a request before all of it has been sent: among any other requests, at any record.  When the server has come to rest
and the connection is open, the records for it are what `inHandler()` wrote, in UTF-8, while the body came in, and END_REQUEST with status 0. -/
theorem C153_wide_early_answered {U : Type} {n : Nat} {hd : HandlersW U} {max : Nat} {u : U}
    {host rh ph} {tr tr' : List MEvent} {ops ops' : List TOp} {s s' : Srv (ReqW U)} {c : Nat} {id : UInt16} {rs : List Record} {tail : Bytes}
    {b : Record} {ins pre : List Record} {nvs : List (Bytes × Bytes)} {body : Bytes}
    (hin : ∀ u e n, (hd.inHandler u e n).env = e) (hplain : ∀ env e, noEnc (writtenOn e (whileComingW hd.inHandler u env (bodyPieces pre)).1))
    (htext : ∀ env, GivenBodyW nvs [] env → ∀ o ∈ (whileComingW hd.inHandler u env (bodyPieces pre)).1, WritesText o.2)
    (h : SrvRun (wideServer n hd max u host rh ph) srvInit tr ops s) (R : SrvUp s)
    (C : Conversation ops c id rs tail b ins) (hlost : ∀ r ∈ rs, r.id ≠ 0xffff)
    (hrole : b.role = 1 ∨ b.role = 2) (hup : GivesUp ins pre) (hreq : Begins pre nvs body)
    (hlen : LengthTold nvs body.length) (hmax : body.length ≤ max) (hint : body.length ≤ 2147483647)
    (h' : OwnRun (wideServer n hd max u host rh ph) s tr' ops' s') (hr : SrvRest (wideServer n hd max u host rh ph) s')
    (hv : (s'.t.conns c).valid = true) (hcall : called ⟨c, id⟩ (tr ++ tr') = []) :
    ∃ env, GivenBodyW nvs [] env ∧
      ∀ outs otail, (∀ r ∈ outs, r.WF) → Incomplete otail → (s'.t.conns c).output = stream outs ++ otail →
        otail = [] ∧ AnsweredByW id (whileComingW hd.inHandler u env (bodyPieces pre)).1 outs := by
  obtain ⟨_, ⟨env, G, rfl⟩, x⟩ := ended_answeredW (early_aloneW hin hrole hup hreq hlen hmax hint) (by rintro _ ⟨env, _, rfl⟩ e; exact hplain env e)
    (by rintro _ ⟨env, T, rfl⟩; exact htext env T)
    h R C hlost h' hr hv hcall
  exact ⟨env, G, x⟩

/-- For a connection with this one request on which nothing goes wrong, these are all its bytes, and the connection has been closed exactly if the
web server did not ask to keep it. -/
theorem C153_wide_early_closed {U : Type} {n : Nat} {hd : HandlersW U} {max : Nat} {u : U}
    {host rh ph} {tr tr' : List MEvent} {ops ops' : List TOp} {s s' : Srv (ReqW U)} {c : Nat} {id : UInt16} {rs : List Record} {tail : Bytes}
    {b : Record} {ins pre : List Record} {nvs : List (Bytes × Bytes)} {body : Bytes}
    (hin : ∀ u e n, (hd.inHandler u e n).env = e) (hplain : ∀ env e, noEnc (writtenOn e (whileComingW hd.inHandler u env (bodyPieces pre)).1))
    (htext : ∀ env, GivenBodyW nvs [] env → ∀ o ∈ (whileComingW hd.inHandler u env (bodyPieces pre)).1, WritesText o.2)
    (h : SrvRun (wideServer n hd max u host rh ph) srvInit tr ops s) (R : SrvUp s)
    (C : Conversation ops c id rs tail b ins) (hone : ∀ r ∈ rs, r.id = id.toNat)
    (hrole : b.role = 1 ∨ b.role = 2) (hup : GivesUp ins pre) (hreq : Begins pre nvs body)
    (hlen : LengthTold nvs body.length) (hmax : body.length ≤ max) (hint : body.length ≤ 2147483647)
    (h' : OwnRun (wideServer n hd max u host rh ph) s tr' ops' s') (hr : SrvRest (wideServer n hd max u host rh ph) s')
    (hcalm : Calm c (ops ++ ops')) (hcall : called ⟨c, id⟩ (tr ++ tr') = []) :
    ∃ env outs, GivenBodyW nvs [] env ∧ (s'.t.conns c).output = stream outs ∧ (∀ x ∈ outs, x.WF ∧ x.version = 1 ∧ x.id = id.toNat) ∧
      AnsweredByW id (whileComingW hd.inHandler u env (bodyPieces pre)).1 outs ∧
      ((s'.t.conns c).valid = false ↔ (b.content.getD 2 0).toNat % 2 = 0) := by
  obtain ⟨_, outs, ⟨env, G, rfl⟩, x⟩ := ended_closedW (early_aloneW hin hrole hup hreq hlen hmax hint) (by rintro _ ⟨env, _, rfl⟩ e; exact hplain env e)
    (by rintro _ ⟨env, T, rfl⟩; exact htext env T)
    h R C hone h' hr hcalm hcall
  exact ⟨env, outs, G, x⟩

/-- A request on its own that is given up while its application waits. -/
theorem waiting_aloneW {U : Type} {n : Nat} {resp : U → EnvW → Message → ActW U × Bool} {app : EnvW → List (Bool × SOp UInt32)} {max : Nat} {u : U}
    {host rh ph} {c : Nat} {id : UInt16} {b : Record} {ins pre : List Record} {nvs : List (Bytes × Bytes)} {body : Bytes} {fields files}
    (happ : ∀ env m, (resp u env m).1.ops = app env ∧ (resp u env m).2 = false)
    (hrole : b.role = 1 ∨ b.role = 2) (hup : GivesUp ins pre) (hreq : WholeRequest pre nvs body) (hbody : FormBody nvs body fields files)
    (hlen : LengthTold nvs body.length) (hmax : body.length ≤ max) (hint : body.length ≤ 2147483647) (hwf : ∀ r ∈ ins, r.WF)
    (kill : Bool) (q : ReqW U) (rest : List Message) (fin : Bool)
    (ha : Alone (wideServer n (defaultHandlersW resp) max u host rh ph) c id b (ins.map .record) kill q rest fin) :
    ∃ w, (∃ env, TellsW nvs fields files env ∧ w = app env) ∧ fin = true ∧ EndedW c id kill w q.log := by
  obtain ⟨role, r1, _, h⟩ := alone_wide.1 ha
  obtain ⟨a, post, rfl, hat⟩ := hup
  obtain ⟨ps, p0, bs, i0, rfl, s2, rfl, s4, s5, rfl, s7⟩ := hreq.split
  have hrole' : role = 1 ∨ role = 2 := by
    unfold Record.role at hrole
    rw [← r1] at hrole
    exact hrole.imp (fun h => UInt16.toNat.inj h) (fun h => UInt16.toNat.inj h)
  have he : ∀ i ∈ ps.flatMap Prod.snd, EncPair i.1 i.2 := by
    intro i hi
    obtain ⟨p, hp, hi⟩ := List.mem_flatMap.1 hi
    exact (s2 p hp).enc i hi
  obtain ⟨env, henv, _⟩ := handler_params (defaultHandlers fun (u : Unit) env _ => (⟨[], env, u⟩, true)) (fun _ _ _ => 0) ps (freshReq c id role kill max ()) (freshReq_alive ..) rfl hrole' s2
  have henv' : fillPairs [0] (ps.flatMap Prod.snd) {} = .ok env := henv
  have hcl : env.contentLength.toNat = (bs.flatMap Record.content).length := by
    have e := encPairs_of _ he
    have hf : fill ([] ++ (ps.flatMap Prod.snd).flatMap Prod.snd ++ [0]) ([] : Bytes).length ([] ++ (ps.flatMap Prod.snd).flatMap Prod.snd).length {} = .ok env := by
      rw [fill_items _ [] [0] {} he]; exact henv'
    obtain ⟨n1, _, _, _, _, n6, _⟩ := C24_numbers (he := e) (hf := hf)
    rcases hlen with ⟨h0, h1⟩ | ⟨v, h1, h2⟩
    · rw [n6 h1, h0]; rfl
    · exact n1 v _ h1 h2 hint
  have hparse := parse_body he henv' hbody
  have wf : ∀ r, r ∈ ps.map Prod.fst ++ [p0] ++ bs ++ [i0] → r.WF := fun r hr => hwf r (List.mem_append_left _ hr)
  have wfa : a.WF := hwf a (by simp)
  obtain ⟨w, r, w1, w2, b1, b2, b4, b3⟩ := body_runW resp host c id role kill max u hrole' ps s2 p0 i0 ⟨wf _ (by simp), s4⟩ ⟨wf _ (by simp), s7⟩ bs
    (fun b hb => ⟨wf _ (by simp [hb]), s5 b hb⟩) henv' (by rw [hcl]; exact hmax) (by rw [hcl]; exact Nat.le_refl _) hparse (type_text he henv' hbody)
  have b5 := (b4 (happ _ _).2).1
  rw [(happ _ _).2] at b1
  obtain ⟨r', d1, d2, d3⟩ := abort_runW (defaultHandlersW resp) host _ r _ b1 b5 a ⟨wfa, hat⟩ post
  have hm : ∀ l : List Record, (l.map Input.record).map Input.message = l.map fcgiMsg := fun l => by rw [List.map_map]; rfl
  rw [hm, d1] at h
  cases h
  exact ⟨_, ⟨w, ⟨_, tells_fill he henv' fields files, w1, w2⟩, rfl⟩, rfl, ended_ofW _ d1 (d2.trans b2) fun e => by rw [d3 e, b3 e, (happ _ _).1]⟩

/-- A web server gives up a request whose application, with wide characters, has seen all of it and waits (its `response()` returned false): among any other requests.
When the server has come to rest and the connection is open, the records for it are what the application has written, in UTF-8, and END_REQUEST with
status 0. -/
theorem C153_wide_waiting_answered {U : Type} {n : Nat} {resp : U → EnvW → Message → ActW U × Bool} {app : EnvW → List (Bool × SOp UInt32)} {max : Nat} {u : U}
    {host rh ph} {tr tr' : List MEvent} {ops ops' : List TOp} {s s' : Srv (ReqW U)} {c : Nat} {id : UInt16} {rs : List Record} {tail : Bytes}
    {b : Record} {ins pre : List Record} {nvs : List (Bytes × Bytes)} {body : Bytes} {fields files}
    (happ : ∀ env m, (resp u env m).1.ops = app env ∧ (resp u env m).2 = false) (hplain : ∀ env e, noEnc (writtenOn e (app env)))
    (htext : ∀ env, TellsW nvs fields files env → ∀ o ∈ app env, WritesText o.2)
    (h : SrvRun (wideServer n (defaultHandlersW resp) max u host rh ph) srvInit tr ops s) (R : SrvUp s)
    (C : Conversation ops c id rs tail b ins) (hlost : ∀ r ∈ rs, r.id ≠ 0xffff)
    (hrole : b.role = 1 ∨ b.role = 2) (hup : GivesUp ins pre) (hreq : WholeRequest pre nvs body) (hbody : FormBody nvs body fields files)
    (hlen : LengthTold nvs body.length) (hmax : body.length ≤ max) (hint : body.length ≤ 2147483647)
    (h' : OwnRun (wideServer n (defaultHandlersW resp) max u host rh ph) s tr' ops' s') (hr : SrvRest (wideServer n (defaultHandlersW resp) max u host rh ph) s')
    (hv : (s'.t.conns c).valid = true) (hcall : called ⟨c, id⟩ (tr ++ tr') = []) :
    ∃ env, TellsW nvs fields files env ∧
      ∀ outs otail, (∀ r ∈ outs, r.WF) → Incomplete otail → (s'.t.conns c).output = stream outs ++ otail →
        otail = [] ∧ AnsweredByW id (app env) outs := by
  obtain ⟨_, ⟨env, T, rfl⟩, x⟩ := ended_answeredW (waiting_aloneW happ hrole hup hreq hbody hlen hmax hint) (by rintro _ ⟨env, _, rfl⟩ e; exact hplain env e)
    (by rintro _ ⟨env, T, rfl⟩; exact htext env T)
    h R C hlost h' hr hv hcall
  exact ⟨env, T, x⟩

/-- For a connection with this one request on which nothing goes wrong, these are all its bytes, and the connection has been closed exactly if the
web server did not ask to keep it. -/
theorem C153_wide_waiting_closed {U : Type} {n : Nat} {resp : U → EnvW → Message → ActW U × Bool} {app : EnvW → List (Bool × SOp UInt32)} {max : Nat} {u : U}
    {host rh ph} {tr tr' : List MEvent} {ops ops' : List TOp} {s s' : Srv (ReqW U)} {c : Nat} {id : UInt16} {rs : List Record} {tail : Bytes}
    {b : Record} {ins pre : List Record} {nvs : List (Bytes × Bytes)} {body : Bytes} {fields files}
    (happ : ∀ env m, (resp u env m).1.ops = app env ∧ (resp u env m).2 = false) (hplain : ∀ env e, noEnc (writtenOn e (app env)))
    (htext : ∀ env, TellsW nvs fields files env → ∀ o ∈ app env, WritesText o.2)
    (h : SrvRun (wideServer n (defaultHandlersW resp) max u host rh ph) srvInit tr ops s) (R : SrvUp s)
    (C : Conversation ops c id rs tail b ins) (hone : ∀ r ∈ rs, r.id = id.toNat)
    (hrole : b.role = 1 ∨ b.role = 2) (hup : GivesUp ins pre) (hreq : WholeRequest pre nvs body) (hbody : FormBody nvs body fields files)
    (hlen : LengthTold nvs body.length) (hmax : body.length ≤ max) (hint : body.length ≤ 2147483647)
    (h' : OwnRun (wideServer n (defaultHandlersW resp) max u host rh ph) s tr' ops' s') (hr : SrvRest (wideServer n (defaultHandlersW resp) max u host rh ph) s')
    (hcalm : Calm c (ops ++ ops')) (hcall : called ⟨c, id⟩ (tr ++ tr') = []) :
    ∃ env outs, TellsW nvs fields files env ∧ (s'.t.conns c).output = stream outs ∧ (∀ x ∈ outs, x.WF ∧ x.version = 1 ∧ x.id = id.toNat) ∧
      AnsweredByW id (app env) outs ∧ ((s'.t.conns c).valid = false ↔ (b.content.getD 2 0).toNat % 2 = 0) := by
  obtain ⟨_, outs, ⟨env, T, rfl⟩, x⟩ := ended_closedW (waiting_aloneW happ hrole hup hreq hbody hlen hmax hint) (by rintro _ ⟨env, _, rfl⟩ e; exact hplain env e)
    (by rintro _ ⟨env, T, rfl⟩; exact htext env T)
    h R C hone h' hr hcalm hcall
  exact ⟨env, outs, T, x⟩

/-- With the library's `inHandler()` nothing is written before the input is complete: END_REQUEST is the only record. -/
theorem C153_wide_early_silent {U : Type} (resp : U → EnvW → Message → ActW U × Bool) {u : U} {env : EnvW} {pieces : List Bytes} {id : UInt16} {outs : List Record}
    (h : AnsweredByW id (whileComingW (defaultHandlersW resp).inHandler u env pieces).1 outs) :
    ∃ end_, outs.filter (fun r => r.id = id.toNat) = [end_] ∧ end_.type = 3 ∧ end_.content.take 5 = [0, 0, 0, 0, 0] := by
  have hn : ∀ (ps : List Bytes) (e : EnvW), (whileComingW (defaultHandlersW resp).inHandler u e ps).1 = [] := by
    intro ps
    induction ps with
    | nil => intro e; rfl
    | cons p ps ih => intro e; simp only [whileComingW]; rw [show ((defaultHandlersW resp).inHandler u _ p.length).ops = [] from rfl]; exact ih _
  rw [hn] at h
  obtain ⟨answer, end_, a1, a2, a3, a4, a5, a6⟩ := h
  have h0 : answer = [] := by
    cases answer with
    | nil => rfl
    | cons x xs =>
      obtain ⟨t, hc⟩ := a2 x (by simp)
      rcases t with t | t
      · simp [writtenOn, t] at a3
        exact absurd a3.1 hc
      · simp [writtenOn, t] at a4
        exact absurd a4.1 hc
  subst h0
  exact ⟨end_, a1, a5, a6⟩

/-- For an application with wide characters: a request that is given up before all of it has been sent: `response()` is not called, whatever the web server sends for it afterwards. -/
theorem C153_wide_early_not_called {U : Type} {n : Nat} {hd : HandlersW U} {max : Nat} {u : U}
    {host rh ph} {c : Nat} {id : UInt16} {b : Record} {ins pre : List Record} {nvs : List (Bytes × Bytes)} {body : Bytes}
    (hwf : ∀ r ∈ ins, r.WF) (hup : GivesUp ins pre) (hreq : Begins pre nvs body) {kill : Bool} {q : ReqW U} {rest : List Message} {fin : Bool}
    (ha : Alone (wideServer n hd max u host rh ph) c id b (ins.map .record) kill q rest fin) : ∀ env m, .response env m ∉ callsOfW q.log := by
  obtain ⟨role, r1, _, h⟩ := alone_wide.1 ha
  have ho := begins_open hreq
  obtain ⟨a, post, rfl, hat⟩ := hup
  have hm : ∀ l : List Record, (l.map Input.record).map Input.message = l.map fcgiMsg := fun l => by rw [List.map_map]; rfl
  rw [hm] at h
  intro env m hc
  have := handler_silentW hd host a ⟨hwf a (by simp), hat⟩ post pre _ (freshReq_aliveW ..) (fun x hx => ⟨hwf x (by simp [hx]), ho x hx⟩) h env m hc
  cases this

/-! ### Concrete runs

The application of C152 with wide characters, and the same request. -/

def upEndW (x : List MEvent × List TOp × Srv (ReqW Bytes)) : Bool :=
  x.2.2.m.terminate == false && x.2.2.m.stop == false && (match x.2.2.m.th 0 with | .off | .finished => false | _ => true) &&
  (x.2.1.filterMap fun | .arrive c d => some (c, d) | _ => none) == [(3, upBytes)] && (called ⟨3, 7⟩ x.1).isEmpty && (match x.2.2.m.pu 0 with | .idle => true | _ => false) &&
  x.2.1.all (fun o => match o with | .receive _ _ _ => false | .tx _ => false | .hangup _ => false | _ => true)

theorem upRunW_end : (srvPlay jsonServerW upRun ([], [], srvInit)).any upEndW = true := by decide +kernel

/-- The beginning arrives and is given up; the server comes to rest, and its peer has got `xxxxx` as STDERR and END_REQUEST. -/
example : ∃ tr ops s tr' ops' s', SrvRun jsonServerW srvInit tr ops s ∧ SrvUp s ∧ OwnRun jsonServerW s tr' ops' s' ∧ SrvRest jsonServerW s' ∧
    arrived 3 ops = upBytes ∧ Calm 3 (ops ++ ops') ∧ called ⟨3, 7⟩ (tr ++ tr') = [] ∧
    ∃ outs answer end_, (s'.t.conns 3).output = stream outs ∧ outs.filter (fun r => r.id = 7) = answer ++ [end_] ∧
      (answer.filter (fun x => x.type = 6)).flatMap Record.content = [] ∧
      (answer.filter (fun x => x.type = 7)).flatMap Record.content = b!"xxxxx" ∧ end_.type = 3 ∧ (s'.t.conns 3).valid = false := by
  cases hp : srvPlay jsonServerW upRun ([], [], srvInit) with
  | none => have := upRunW_end; rw [hp] at this; cases this
  | some y =>
  have he : upEndW y = true := by have := upRunW_end; rw [hp] at this; exact this
  have g := srvPlay_good upRun (P := jsonServerW) (x := ([], [], srvInit)) ⟨.refl _, fun _ _ => rfl⟩ hp
  obtain ⟨tr, ops, s⟩ := y
  have h1 : SrvRun jsonServerW srvInit tr ops s := g.1
  simp only [upEndW, Bool.and_eq_true, beq_iff_eq, List.isEmpty_iff, List.all_eq_true] at he
  obtain ⟨⟨⟨⟨⟨⟨a1, a2⟩, a3⟩, a4⟩, a5⟩, a6⟩, a7⟩ := he
  have ha : ∀ c, arrived c ops = if c = 3 then upBytes else [] := by
    intro c
    rw [(arrived_pairs c ops).trans (congrArg (fun l : List (Nat × Bytes) => (l.filter (fun x => x.1 = c)).flatMap (·.2)) a4)]
    by_cases hc : c = 3
    · subst hc; simp
    · have : ¬ 3 = c := fun e => hc e.symm
      simp [hc, this]
  have R : SrvUp s := ⟨⟨0, by revert a3; cases s.m.th 0 <;> simp⟩, a1, a2⟩
  have hwf : ∀ r ∈ jsonBegin :: upIns, r.WF ∧ r.id = 7 := by
    intro r hr
    simp only [upIns, jsonBegin, List.mem_cons, List.not_mem_nil, or_false] at hr
    rcases hr with rfl | rfl | rfl | rfl | rfl | rfl <;> exact ⟨by unfold Record.WF; decide, rfl⟩
  have C : Conversation ops 3 7 (jsonBegin :: upIns) [] jsonBegin upIns := by
    refine ⟨fun r hr => (hwf r hr).1, Or.inl (by simp), by rw [ha, if_pos rfl, List.append_nil]; rfl, by decide, fun r hr => ?_, ?_, rfl, ?_, ?_, ?_⟩
    · intro h0; rw [(hwf r hr).2] at h0; cases h0
    · apply List.filter_eq_self.2
      intro r hr; rw [(hwf r hr).2]; rfl
    · intro r hr
      simp only [upIns, List.mem_cons, List.not_mem_nil, or_false] at hr
      rcases hr with rfl | rfl | rfl | rfl | rfl <;> decide
    · simp [jsonBegin, demoRec]
    · intro r hr h4 h0
      simp only [upIns, List.mem_cons, List.not_mem_nil, or_false] at hr
      rcases hr with rfl | rfl | rfl | rfl | rfl
      · exact ⟨_, jsonWhole⟩
      · exact absurd rfl h0
      all_goals exact absurd h4 (by decide)
  have hn : NoValues ops := by
    intro c
    by_cases hc : c = 3
    · subst hc
      exact ⟨_, _, C.wf, C.rest, C.bytes, fun r hr h0 h9 => absurd h9 (C.app r hr h0)⟩
    · exact ⟨[], [], by simp, Or.inl (by simp), by rw [ha, if_neg hc]; rfl, by simp⟩
  obtain ⟨tr', ops', s', q1, q2, q3⟩ := C111_reaches_calm h1
  have hrest := (C111_rests h1 hn).2 tr' ops' s' q1 q3
  have hidle : NoCaller s.m := by
    intro p k x hx
    have : s.m.pu p = .idle := by
      by_cases hp0 : p = 0
      · subst hp0; revert a6; cases s.m.pu 0 <;> simp
      · exact g.2 p hp0
    rw [this] at hx
    rcases hx with hx | hx <;> cases hx
  have hcalm : Calm 3 (ops ++ ops') := by
    obtain ⟨b1, b2, b3⟩ := q2 3
    refine ⟨fun hm => ?_, fun k1 k2 hm => ?_, fun hm => ?_⟩
    · rcases List.mem_append.1 hm with hm | hm
      · have := a7 _ hm; cases this
      · exact b1 hm
    · rcases List.mem_append.1 hm with hm | hm
      · have := a7 _ hm; cases this
      · exact b2 k1 k2 hm
    · rcases List.mem_append.1 hm with hm | hm
      · have := a7 _ hm; cases this
      · exact b3 hm
  have hcalled : called ⟨3, 7⟩ (tr ++ tr') = [] := by
    rw [called_append, a5, (own_called q1 hidle _).2]; rfl
  have hreq : Begins (upIns.take 3) (jsonPairs.map Prod.fst) b!"{'a':1}\n" :=
    ⟨[demoRec 5 b!"1}\n", demoRec 5 []], by simp,
     ⟨[(demoRec 4 (jsonPairs.flatMap Prod.snd), jsonPairs)], demoRec 4 [], [demoRec 5 b!"{'a':", demoRec 5 b!"1}\n"], demoRec 5 [], rfl,
      by intro p hp; simp only [List.mem_singleton] at hp; subst hp; exact jsonWhole, by simp, ⟨rfl, rfl⟩,
      by intro b hb; simp only [List.mem_cons, List.not_mem_nil, or_false] at hb; rcases hb with rfl | rfl <;> exact ⟨rfl, by decide⟩, by decide, ⟨rfl, rfl⟩⟩⟩
  have hw : ∀ env, (whileComingW jsonHandlersW.inHandler [] env (bodyPieces (upIns.take 3))).1 = [(true, .insert (List.replicate 5 120))] := by
    intro env
    rw [show bodyPieces (upIns.take 3) = [b!"{'a':"] from by decide]
    rfl
  obtain ⟨env, outs, _, o1, _, ⟨answer, en, o6, _, o2, o3, o4, _⟩, o5⟩ := C153_wide_early_closed (hd := jsonHandlersW) (pre := upIns.take 3) (fun _ _ _ => rfl)
    (by
      intro env e op ho
      rw [hw] at ho
      simp only [writtenOn, List.mem_map, List.mem_filter, List.mem_singleton] at ho
      obtain ⟨x, ⟨rfl, _⟩, rfl⟩ := ho
      simp)
    (by
      intro env _ o ho
      rw [hw] at ho
      rw [List.mem_singleton.1 ho]
      intro c hc; rw [List.eq_of_mem_replicate hc]; exact Or.inl (by decide))
    h1 R C (fun r hr => (hwf r hr).2) (Or.inl (by decide)) ⟨demoRec 2 [], [demoRec 5 b!"1}\n"], rfl, rfl⟩ hreq
    (Or.inr ⟨b!"8", by decide, by decide, by unfold IsDigit; decide, by decide⟩) (by decide) (by decide) q1 hrest hcalm hcalled
  rw [hw] at o2 o3
  exact ⟨tr, ops, s, tr', ops', s', h1, R, q1, hrest, by rw [ha, if_pos rfl], hcalm, hcalled, outs, answer, en, o1, o6, o2, by rw [o3]; decide, o4, o5.2 (by decide)⟩

/-! The application of C150, but it waits after having written. -/

def waitRespW : Unit → EnvW → Message → ActW Unit × Bool := fun u env _ => (⟨formAppW env, env, u⟩, false)
def waitServerW : SrvProg (ReqW Unit) := wideServer 1 (defaultHandlersW waitRespW) 100 () ⟨fun _ _ _ => 0, true⟩ (fun _ => 0) (fun _ => 0)
instance : OfLibrary waitServerW := .wide ..
def waitInsW : List Record :=
  [demoRec 4 (formPairsW.flatMap Prod.snd), demoRec 4 [], demoRec 5 b!"a=1&b", demoRec 5 b!"=%C3%A9", demoRec 5 [], demoRec 2 []]
def waitBytesW : Bytes := stream (formBegin :: waitInsW)
def waitRunW : List SrvChoice := [.outer .start, .go 50, .op (.arrive 3 waitBytesW)]

def waitEndW (x : List MEvent × List TOp × Srv (ReqW Unit)) : Bool :=
  x.2.2.m.terminate == false && x.2.2.m.stop == false && (match x.2.2.m.th 0 with | .off | .finished => false | _ => true) &&
  (x.2.1.filterMap fun | .arrive c d => some (c, d) | _ => none) == [(3, waitBytesW)] && (called ⟨3, 7⟩ x.1).isEmpty && (match x.2.2.m.pu 0 with | .idle => true | _ => false) &&
  x.2.1.all (fun o => match o with | .receive _ _ _ => false | .tx _ => false | .hangup _ => false | _ => true)

theorem waitRunW_end : (srvPlay waitServerW waitRunW ([], [], srvInit)).any waitEndW = true := by decide +kernel

/-- The form arrives and is given up; the server comes to rest, and its peer has got what was written and END_REQUEST. -/
example : ∃ tr ops s tr' ops' s', SrvRun waitServerW srvInit tr ops s ∧ SrvUp s ∧ OwnRun waitServerW s tr' ops' s' ∧ SrvRest waitServerW s' ∧
    arrived 3 ops = waitBytesW ∧ Calm 3 (ops ++ ops') ∧ called ⟨3, 7⟩ (tr ++ tr') = [] ∧
    ∃ outs answer end_, (s'.t.conns 3).output = stream outs ∧ outs.filter (fun r => r.id = 7) = answer ++ [end_] ∧
      (answer.filter (fun x => x.type = 6)).flatMap Record.content = (b!"1 é " : Bytes) ∧
      (answer.filter (fun x => x.type = 7)).flatMap Record.content = b!"ab" ∧ end_.type = 3 ∧ (s'.t.conns 3).valid = false := by
  cases hp : srvPlay waitServerW waitRunW ([], [], srvInit) with
  | none => have := waitRunW_end; rw [hp] at this; cases this
  | some y =>
  have he : waitEndW y = true := by have := waitRunW_end; rw [hp] at this; exact this
  have g := srvPlay_good waitRunW (P := waitServerW) (x := ([], [], srvInit)) ⟨.refl _, fun _ _ => rfl⟩ hp
  obtain ⟨tr, ops, s⟩ := y
  have h1 : SrvRun waitServerW srvInit tr ops s := g.1
  simp only [waitEndW, Bool.and_eq_true, beq_iff_eq, List.isEmpty_iff, List.all_eq_true] at he
  obtain ⟨⟨⟨⟨⟨⟨a1, a2⟩, a3⟩, a4⟩, a5⟩, a6⟩, a7⟩ := he
  have ha : ∀ c, arrived c ops = if c = 3 then waitBytesW else [] := by
    intro c
    rw [(arrived_pairs c ops).trans (congrArg (fun l : List (Nat × Bytes) => (l.filter (fun x => x.1 = c)).flatMap (·.2)) a4)]
    by_cases hc : c = 3
    · subst hc; simp
    · have : ¬ 3 = c := fun e => hc e.symm
      simp [hc, this]
  have R : SrvUp s := ⟨⟨0, by revert a3; cases s.m.th 0 <;> simp⟩, a1, a2⟩
  have hwf : ∀ r ∈ formBegin :: waitInsW, r.WF ∧ r.id = 7 := by
    intro r hr
    simp only [waitInsW, formBegin, List.mem_cons, List.not_mem_nil, or_false] at hr
    rcases hr with rfl | rfl | rfl | rfl | rfl | rfl | rfl <;> exact ⟨by unfold Record.WF; decide, rfl⟩
  have C : Conversation ops 3 7 (formBegin :: waitInsW) [] formBegin waitInsW := by
    refine ⟨fun r hr => (hwf r hr).1, Or.inl (by simp), by rw [ha, if_pos rfl, List.append_nil]; rfl, by decide, fun r hr => ?_, ?_, rfl, ?_, ?_, ?_⟩
    · intro h0; rw [(hwf r hr).2] at h0; cases h0
    · apply List.filter_eq_self.2
      intro r hr; rw [(hwf r hr).2]; rfl
    · intro r hr
      simp only [waitInsW, List.mem_cons, List.not_mem_nil, or_false] at hr
      rcases hr with rfl | rfl | rfl | rfl | rfl | rfl <;> decide
    · simp [formBegin, demoRec]
    · intro r hr h4 h0
      simp only [waitInsW, List.mem_cons, List.not_mem_nil, or_false] at hr
      rcases hr with rfl | rfl | rfl | rfl | rfl | rfl
      · exact ⟨_, formWholeW⟩
      · exact absurd rfl h0
      all_goals exact absurd h4 (by decide)
  have hn : NoValues ops := by
    intro c
    by_cases hc : c = 3
    · subst hc
      exact ⟨_, _, C.wf, C.rest, C.bytes, fun r hr h0 h9 => absurd h9 (C.app r hr h0)⟩
    · exact ⟨[], [], by simp, Or.inl (by simp), by rw [ha, if_neg hc]; rfl, by simp⟩
  obtain ⟨tr', ops', s', q1, q2, q3⟩ := C111_reaches_calm h1
  have hrest := (C111_rests h1 hn).2 tr' ops' s' q1 q3
  have hidle : NoCaller s.m := by
    intro p k x hx
    have : s.m.pu p = .idle := by
      by_cases hp0 : p = 0
      · subst hp0; revert a6; cases s.m.pu 0 <;> simp
      · exact g.2 p hp0
    rw [this] at hx
    rcases hx with hx | hx <;> cases hx
  have hcalm : Calm 3 (ops ++ ops') := by
    obtain ⟨b1, b2, b3⟩ := q2 3
    refine ⟨fun hm => ?_, fun k1 k2 hm => ?_, fun hm => ?_⟩
    · rcases List.mem_append.1 hm with hm | hm
      · have := a7 _ hm; cases this
      · exact b1 hm
    · rcases List.mem_append.1 hm with hm | hm
      · have := a7 _ hm; cases this
      · exact b2 k1 k2 hm
    · rcases List.mem_append.1 hm with hm | hm
      · have := a7 _ hm; cases this
      · exact b3 hm
  have hcalled : called ⟨3, 7⟩ (tr ++ tr') = [] := by
    rw [called_append, a5, (own_called q1 hidle _).2]; rfl
  have hreq : WholeRequest formInsW (formPairsW.map Prod.fst) b!"a=1&b=%C3%A9" :=
    ⟨[(demoRec 4 (formPairsW.flatMap Prod.snd), formPairsW)], demoRec 4 [], [demoRec 5 b!"a=1&b", demoRec 5 b!"=%C3%A9"], demoRec 5 [], rfl,
      by intro p hp; simp only [List.mem_singleton] at hp; subst hp; exact formWholeW, by simp, ⟨rfl, rfl⟩,
      by intro b hb; simp only [List.mem_cons, List.not_mem_nil, or_false] at hb; rcases hb with rfl | rfl <;> exact ⟨rfl, by decide⟩, by decide, ⟨rfl, rfl⟩⟩
  obtain ⟨env, outs, T, o1, _, ⟨answer, en, o6, _, o2, o3, o4, _⟩, o5⟩ := C153_wide_waiting_closed (app := formAppW) (pre := formInsW) (fun _ _ => ⟨rfl, rfl⟩)
    (by
      intro env e op ho
      simp only [formAppW, writtenOn, List.mem_map, List.mem_filter, List.mem_cons, List.not_mem_nil, or_false] at ho
      obtain ⟨x, ⟨rfl | rfl, _⟩, rfl⟩ := ho <;> simp)
    (by
      intro env T o ho
      simp only [formAppW, formPostsW T, List.mem_cons, List.not_mem_nil, or_false] at ho
      rcases ho with rfl | rfl
      · intro c hc
        simp only [List.flatMap_cons, List.flatMap_nil, List.mem_append, List.mem_cons, List.not_mem_nil, or_false] at hc
        rcases hc with (rfl | rfl) | rfl | rfl <;> exact Or.inl (by decide)
      · intro c hc
        simp only [List.flatMap_cons, List.flatMap_nil, List.mem_append, List.mem_cons, List.not_mem_nil, or_false] at hc
        rcases hc with rfl | rfl <;> exact Or.inl (by decide))
    h1 R C (fun r hr => (hwf r hr).2) (Or.inl (by decide)) ⟨demoRec 2 [], [], rfl, rfl⟩ hreq
    (.urlencoded (t := b!"application/x-www-form-urlencoded") (by decide) (by decide) formTextW_demo)
    (Or.inr ⟨b!"12", by decide, by decide, by unfold IsDigit; decide, by decide⟩) (by decide) (by decide) q1 hrest hcalm hcalled
  refine ⟨tr, ops, s, tr', ops', s', h1, R, q1, hrest, by rw [ha, if_pos rfl], hcalm, hcalled, outs, answer, en, o1, o6, ?_, ?_, o4, o5.2 (by decide)⟩
  · rw [o2]
    simp only [formAppW, writtenOn, formPostsW T]
    decide
  · rw [o3]
    simp only [formAppW, writtenOn, formPostsW T]
    decide

end Fcgi.Props
