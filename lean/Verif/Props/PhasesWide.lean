import Verif.Props.AbortedWide
import Verif.Props.LaterWide
import Verif.Props.TurnsWide
import Verif.Props.Phases
/-! # C155 for applications with wide characters -/
namespace Fcgi.Props
open Fcgi.Spec Fcgi.Model

/-- A request on its own with a whole form, then messages of callbacks, then ABORT_REQUEST, then anything. -/
theorem given_up_aloneW {U : Type} {n : Nat} {resp : U → EnvW → Message → ActW U × Bool} {max : Nat} {u : U}
    {host rh ph} {c : Nat} {id : UInt16} {b : Record} {ins : List Record} {nvs : List (Bytes × Bytes)} {body : Bytes} {fields files} {ms : List Message}
    {a : Record} {post : List Input} {kill : Bool} {q : ReqW U} {rest : List Message} {fin : Bool} (hms : ∀ m ∈ ms, m.type ≠ 0)
    (hwf : ∀ r ∈ ins, r.WF) (hrole : b.role = 1 ∨ b.role = 2) (hreq : WholeRequest ins nvs body) (hbody : FormBody nvs body fields files)
    (hlen : LengthTold nvs body.length) (hmax : body.length ≤ max) (hint : body.length ≤ 2147483647) (hab : a.WF ∧ a.type = 2)
    (ha : Alone (wideServer n (defaultHandlersW resp) max u host rh ph) c id b (ins.map .record ++ asInputs ms ++ .record a :: post) kill q rest fin) :
    ∃ env m0, TellsW nvs fields files env ∧ m0.type = 0 ∧ fin = true ∧ EndedW c id kill (playedW resp u env (m0 :: ms)).1 q.log := by
  obtain ⟨role, r1, hk, h⟩ := alone_wide.1 ha
  rw [List.map_append, handler_appendW] at h
  obtain ⟨⟨q1, rest1, fin1⟩, h1, h2⟩ := Res.bind_eq_ok.1 h
  have A1 : Alone (wideServer n (defaultHandlersW resp) max u host rh ph) c id b (ins.map .record ++ asInputs ms) kill q1 rest1 fin1 :=
    alone_wide.2 ⟨role, r1, hk, h1⟩
  obtain ⟨env, m0, T, hm0, hf, hs, hw⟩ := form_laterW hms hwf hrole hreq hbody hlen hmax hint A1
  refine ⟨env, m0, T, hm0, ?_⟩
  dsimp only at h2
  cases fin1 with
  | true =>
    rw [if_pos rfl] at h2
    cases h2
    exact ⟨rfl, ended_ofW _ h1 hs hw⟩
  | false =>
    rw [if_neg (by simp)] at h2
    obtain ⟨_, halive, _⟩ := handler_specW _ host _ _ _ _ _ (freshReq_aliveW ..) h1
    have al := (halive rfl).1
    obtain ⟨r', a1, _, a3, _, _, rs, _, a7⟩ := complete_specW host q1 al
    have h3 : handlerW (defaultHandlersW resp) host q1 ((Input.record a :: post).map Input.message) = .ok (r', post.map Input.message, true) := by
      show (handleMsgW (defaultHandlersW resp) host q1 (fcgiMsg a) >>= _) = _
      rw [handleMsg_recordW (defaultHandlersW resp) host _ a hab.1, if_pos hab.2, a1]
      rfl
    rw [h3] at h2
    cases h2
    have hall : handlerW (defaultHandlersW resp) host (freshReqW c id role kill max u) ((ins.map Input.record ++ asInputs ms ++ Input.record a :: post).map Input.message) = .ok (q, post.map Input.message, true) := by
      rw [List.map_append, handler_appendW, h1]
      exact h3
    refine ⟨rfl, ended_ofW _ hall (a3.status.trans hs) fun e => ?_⟩
    rw [← hw e, a7]
    simp [writes_appendW, writesW]

/-- What has ended with these records. -/
theorem ended_recordsW {U : Type} {c : Nat} {id : UInt16} {kill : Bool} {w : List (Bool × SOp UInt32)} {q : ReqW U} (h : EndedW c id kill w q.log)
    (hplain : ∀ e, noEnc (writtenOn e w)) (htext : ∀ o ∈ w, WritesText o.2) :
    ∃ l : List Record, (Transmits.sent q).map (·.2.1) = l.map Record.bytes ∧ (∀ x ∈ l, x.WF ∧ x.version = 1 ∧ x.id = id.toNat) ∧ AnsweredByW id w l := by
  obtain ⟨before, ans, en, c1, ⟨er, e1, e2, e3, e4, e5, e6, rfl⟩, c3, c4, c5, c6⟩ := h
  have hid : id.toNat < 2 ^ 16 := id.toNat_lt
  have all : ∀ x ∈ ans ++ [er], x.WF ∧ x.version = 1 ∧ x.id = id.toNat := by
    intro y hy
    rcases List.mem_append.1 hy with hy | hy
    · obtain ⟨g1, g2, g3, _⟩ := good_wf (c4 y hy)
      exact ⟨g1, g2, g3⟩
    · simp only [List.mem_singleton] at hy
      subst hy
      exact ⟨⟨by rw [e3]; exact hid, by rw [e4]; decide, by rw [e6]; decide⟩, e1, e3⟩
  refine ⟨ans ++ [er], ?_, all, ans, er, ?_, fun x hx => (good_wf (c4 x hx)).2.2.2, c5 (hplain _) (text_on htext), c6 (hplain _) (text_on htext), e2, e5⟩
  · show (sentOfW q.log).map (·.2.1) = _
    rw [c1, sentOf_appendW, c3]
    simp [sentOfW]
  · exact List.filter_eq_self.2 fun x hx => by simp [(all x hx).2.2]

section
variable {U : Type} {n : Nat} {resp : U → EnvW → Message → ActW U × Bool} {max : Nat} {u : U} {host : Host} {rh ph : Nat → UInt8}
  {tr : List MEvent} {ops : List TOp} {s : Srv (ReqW U)} {c : Nat} {id : UInt16} {b : Record} {ins : List Record} {ms : List Message} {a : Record} {post : List Input}
  {nvs : List (Bytes × Bytes)} {body : Bytes} {fields : List (Bytes × Bytes)} {files : List (Bytes × Bytes × Bytes × Bytes)}

theorem phased_wfW {P : SrvProg (ReqW U)} {is : List Input} (T : Phased P c id b is tr ops s) : ∀ r, Input.record r ∈ is → r.WF := by
  intro r hr
  obtain ⟨rs, tail, C, _, _⟩ := T.conversation
  have : r ∈ rs.filter (fun r => r.id = id.toNat) := by rw [C.mine]; simp [mem_records hr]
  exact C.wf r (List.mem_filter.1 this).1

/-- For an application with wide characters, which writes text. A web server sends a form, in as many pieces as it likes; then callbacks of the request are called, any number of times; then the web server gives the request up.
When the server has come to rest and the connection is open, the records for the request on it are exactly what the application has written, in UTF-8,
by then - for the form, and for each of the messages, until it said that it is finished - and END_REQUEST with status 0. -/
theorem C155_wide_given_up (hplain : ∀ u env m e, noEnc (writtenOn e (resp u env m).1.ops))
    (htext : ∀ env m0 ms, TellsW nvs fields files env → m0.type = 0 → (∀ m ∈ ms, m.type ≠ 0) → ∀ o ∈ (playedW resp u env (m0 :: ms)).1, WritesText o.2)
    (T : Phased (wideServer n (defaultHandlersW resp) max u host rh ph) c id b (ins.map .record ++ asInputs ms ++ .record a :: post) tr ops s)
    (R : SrvUp s) (hr : SrvRest (wideServer n (defaultHandlersW resp) max u host rh ph) s) (hv : (s.t.conns c).valid = true)
    (hrole : b.role = 1 ∨ b.role = 2) (hreq : WholeRequest ins nvs body) (hbody : FormBody nvs body fields files)
    (hlen : LengthTold nvs body.length) (hmax : body.length ≤ max) (hint : body.length ≤ 2147483647) (hab : a.type = 2) :
    ∃ env m0, TellsW nvs fields files env ∧ m0.type = 0 ∧
      ∀ outs otail, (∀ r ∈ outs, r.WF) → Incomplete otail → (s.t.conns c).output = stream outs ++ otail →
        otail = [] ∧ AnsweredByW id (playedW resp u env (m0 :: ms)).1 outs := by
  haveI : OfLibrary (wideServer n (defaultHandlersW resp) max u host rh ph) := .wide ..
  obtain ⟨kill, q, rest, fin, A, ho⟩ := C155_in_order T R hr hv
  have hms : ∀ m ∈ ms, m.type ≠ 0 := fun m hm => T.types m.type m.data (List.mem_append_left _ (List.mem_append_right _ (List.mem_map.2 ⟨m, hm, rfl⟩)))
  obtain ⟨env, m0, Te, hm0, _, E⟩ := given_up_aloneW hms
    (fun r hr => phased_wfW T r (List.mem_append_left _ (List.mem_append_left _ (List.mem_map.2 ⟨r, hr, rfl⟩)))) hrole hreq hbody hlen hmax hint
    ⟨phased_wfW T a (by simp), hab⟩ A
  obtain ⟨l, l1, l2, ans, en, l3⟩ := ended_recordsW E (fun e => played_plainW hplain e _ _ _) (htext _ _ _ Te hm0 hms)
  refine ⟨env, m0, Te, hm0, fun outs otail h1 h2 h3 => ?_⟩
  obtain ⟨o1, o2⟩ := ho outs otail h1 h2 h3
  have heq := records_bytes_inj (fun x hx => h1 x (List.mem_filter.1 hx).1) (fun y hy => (l2 y hy).1) (o2.trans l1)
  refine ⟨o1, ans, en, ?_, l3.2⟩
  rw [heq, ← l3.1]
  exact (List.filter_eq_self.2 fun x hx => by simp [(l2 x hx).2.2]).symm

/-- On a connection with this request alone on which nothing goes wrong, these are all the bytes, and the connection has been closed exactly if the web server did not ask
to keep it. -/
theorem C155_wide_given_up_closed (hplain : ∀ u env m e, noEnc (writtenOn e (resp u env m).1.ops))
    (htext : ∀ env m0 ms, TellsW nvs fields files env → m0.type = 0 → (∀ m ∈ ms, m.type ≠ 0) → ∀ o ∈ (playedW resp u env (m0 :: ms)).1, WritesText o.2)
    (T : Phased (wideServer n (defaultHandlersW resp) max u host rh ph) c id b (ins.map .record ++ asInputs ms ++ .record a :: post) tr ops s)
    (R : SrvUp s) (hr : SrvRest (wideServer n (defaultHandlersW resp) max u host rh ph) s) (hcalm : Calm c ops)
    (hall : arrived c ops = stream (b :: ins ++ a :: records post))
    (hrole : b.role = 1 ∨ b.role = 2) (hreq : WholeRequest ins nvs body) (hbody : FormBody nvs body fields files)
    (hlen : LengthTold nvs body.length) (hmax : body.length ≤ max) (hint : body.length ≤ 2147483647) (hab : a.type = 2) :
    ∃ env m0 outs, TellsW nvs fields files env ∧ m0.type = 0 ∧ (s.t.conns c).output = stream outs ∧ (∀ x ∈ outs, x.WF ∧ x.version = 1 ∧ x.id = id.toNat) ∧
      AnsweredByW id (playedW resp u env (m0 :: ms)).1 outs ∧ ((s.t.conns c).valid = false ↔ (b.content.getD 2 0).toNat % 2 = 0) := by
  haveI : OfLibrary (wideServer n (defaultHandlersW resp) max u host rh ph) := .wide ..
  obtain ⟨kill, q, rest, fin, A, o1, o2⟩ := C155_closed T R hr hcalm (by rw [hall]; simp [inputs_append, records_record, records_asInputs, records])
  have hms : ∀ m ∈ ms, m.type ≠ 0 := fun m hm => T.types m.type m.data (List.mem_append_left _ (List.mem_append_right _ (List.mem_map.2 ⟨m, hm, rfl⟩)))
  obtain ⟨env, m0, Te, hm0, f1, E⟩ := given_up_aloneW hms
    (fun r hr => phased_wfW T r (List.mem_append_left _ (List.mem_append_left _ (List.mem_map.2 ⟨r, hr, rfl⟩)))) hrole hreq hbody hlen hmax hint
    ⟨phased_wfW T a (by simp), hab⟩ A
  obtain ⟨l, l1, l2, l3⟩ := ended_recordsW E (fun e => played_plainW hplain e _ _ _) (htext _ _ _ Te hm0 hms)
  obtain ⟨_, _, hk, _⟩ := A
  refine ⟨env, m0, l, Te, hm0, ?_, l2, l3, ?_⟩
  · rw [o1, List.flatMap_def, l1]; rfl
  · rw [o2, ← hk]
    exact ⟨fun x => x.2, fun x => ⟨f1, x⟩⟩

end

/-! ### A concrete run -/

/-- Writes `wait `, then what the callbacks send, and is never finished. -/
def stayRespW : Unit → EnvW → Message → ActW Unit × Bool := fun u env m =>
  (⟨[(false, .insert ((if m.type = 0 then b!"wait " else m.data).map fun b : UInt8 => b.toUInt32))], env, u⟩, false)
def stayServerW : SrvProg (ReqW Unit) := wideServer 1 (defaultHandlersW stayRespW) 100 () ⟨fun _ _ _ => 0, true⟩ (fun _ => 0) (fun _ => 0)
instance : OfLibrary stayServerW := .wide ..

theorem stayResp_plainW : ∀ u env m e, noEnc (writtenOn e (stayRespW u env m).1.ops) := by
  intro u env m e op ho
  simp only [stayRespW, writtenOn, List.mem_map, List.mem_filter, List.mem_cons, List.not_mem_nil, or_false] at ho
  obtain ⟨x, ⟨rfl, _⟩, rfl⟩ := ho
  simp

theorem stayTextW : ∀ (ms : List Message) (w : EnvW), ∀ o ∈ (playedW stayRespW () w ms).1, WritesText o.2
  | [], _, o, ho => by cases ho
  | m :: ms, w, o, ho => by
    simp only [playedW, stayRespW, Bool.false_eq_true, if_false, List.mem_append, List.mem_singleton] at ho
    rcases ho with rfl | ho
    · intro c hc
      obtain ⟨x, _, rfl⟩ := List.mem_map.1 hc
      have := x.toNat_lt
      refine Or.inl ?_
      rw [UInt32.lt_iff_toNat_lt]
      simp only [UInt8.toNat_toUInt32]
      exact Nat.lt_trans this (by decide)
    · exact stayTextW ms w o ho

theorem stay_conversationW {ops : List TOp} {ins : List Record} (hins : ins = formInsW ∨ ins = formInsW ++ [stayAbort])
    (ha : arrived 3 ops = stream (laterBegin :: ins)) : Conversation ops 3 7 (laterBegin :: ins) [] laterBegin ins ∧ ∀ r ∈ laterBegin :: ins, r.WF ∧ r.id = 7 := by
  have sub : ∀ r ∈ ins, r ∈ formInsW ∨ r = stayAbort := by
    intro r hr
    rcases hins with rfl | rfl
    · exact Or.inl hr
    · simpa using hr
  have hwf : ∀ r ∈ laterBegin :: ins, r.WF ∧ r.id = 7 := by
    intro r hr
    rcases List.mem_cons.1 hr with rfl | hr
    · exact turn_recordsW _ (by simp)
    · rcases sub r hr with h | rfl
      · exact turn_recordsW r (by simp [h])
      · exact ⟨by unfold Record.WF; decide, rfl⟩
  refine ⟨⟨fun r hr => (hwf r hr).1, Or.inl (by simp), by rw [ha, List.append_nil], by decide, fun r hr => ?_, ?_, rfl, ?_, ?_, ?_⟩, hwf⟩
  · intro h0; rw [(hwf r hr).2] at h0; cases h0
  · apply List.filter_eq_self.2
    intro r hr; rw [(hwf r hr).2]; rfl
  · intro r hr
    rcases sub r hr with hr | rfl
    · simp only [formInsW, List.mem_cons, List.not_mem_nil, or_false] at hr
      rcases hr with rfl | rfl | rfl | rfl | rfl <;> decide
    · decide
  · simp [laterBegin, demoRec]
  · intro r hr h4 h0
    rcases sub r hr with hr | rfl
    · simp only [formInsW, List.mem_cons, List.not_mem_nil, or_false] at hr
      rcases hr with rfl | rfl | rfl | rfl | rfl
      · exact ⟨_, formWholeW⟩
      · exact absurd rfl h0
      all_goals exact absurd h4 (by decide)
    · exact absurd h4 (by decide)

/-- The form arrives, a callback is called with `x`, the web server gives up: the answer is `wait x` in UTF-8, END_REQUEST, and the connection is kept. -/
example : ∃ tr ops s, Phased stayServerW 3 7 laterBegin (formInsW.map .record ++ asInputs [⟨5, b!"x"⟩] ++ .record stayAbort :: []) tr ops s ∧ SrvRest stayServerW s ∧
    ∃ outs, (s.t.conns 3).output = stream outs ∧ AnsweredByW 7 [(false, .insert (b!"wait ".map fun b : UInt8 => b.toUInt32)), (false, .insert (b!"x".map fun b : UInt8 => b.toUInt32))] outs ∧ (s.t.conns 3).valid = true := by
  have nv : ∀ {ops : List TOp} {ins : List Record}, ins = formInsW ∨ ins = formInsW ++ [stayAbort] →
      (∀ c, arrived c ops = if c = 3 then stream (laterBegin :: ins) else []) → NoValues ops := by
    intro ops ins hi ha c
    by_cases hc : c = 3
    · subst hc
      obtain ⟨C, _⟩ := stay_conversationW hi (by rw [ha, if_pos rfl])
      exact ⟨_, _, C.wf, C.rest, C.bytes, fun r hr h0 h9 => absurd h9 (C.app r hr h0)⟩
    · exact ⟨[], [], by simp, Or.inl (by simp), by rw [ha, if_neg hc]; rfl, by simp⟩
  have hreq : WholeRequest formInsW (formPairsW.map Prod.fst) b!"a=1&b=%C3%A9" := turnForm_goodW.whole
  have hbody := turnForm_goodW.form
  have hlen := turnForm_goodW.told
  -- the server starts, and the form arrives; the server comes to rest
  obtain ⟨tr, ops, s, H, R, hn, hcl, hcalm, ha⟩ : ∃ tr ops s, SrvRun stayServerW srvInit tr ops s ∧ SrvUp s ∧ NoCaller s.m ∧ called ⟨3, 7⟩ tr = [] ∧ Calm 3 ops ∧
      ∀ c, arrived c ops = if c = 3 then stream (laterBegin :: formInsW) else [] := by
    refine ⟨_, _, _, .step (.step (.refl _) (.outer .start rfl rfl)) (.peer (.arrive 3 (stream (laterBegin :: formInsW))) rfl rfl), ⟨⟨0, ?_⟩, rfl, rfl⟩, ?_, rfl, ?_, ?_⟩
    · show _ ≠ _ ∧ _ ≠ _
      exact ⟨nofun, nofun⟩
    · intro p k x hx
      rcases hx with hx | hx <;> cases hx
    · simp [Calm]
    · intro c
      by_cases hc : c = 3
      · subst hc; simp [arrived]
      · have : ¬ 3 = c := fun e => hc e.symm
        simp [arrived, hc, this]
  obtain ⟨tr1, ops1, s1, q1, q2, q3⟩ := C111_reaches_calm H
  have r1 := (C111_rests H (nv (Or.inl rfl) ha)).2 tr1 ops1 s1 q1 q3
  have H1 := own_run H q1
  have R1 := own_running q1 R
  obtain ⟨n1, c1⟩ := own_called q1 hn ⟨3, 7⟩
  have hn1 : called ⟨3, 7⟩ (tr ++ tr1) = [] := by rw [called_append, hcl, c1]; rfl
  have ha1 : ∀ c, arrived c (ops ++ ops1) = if c = 3 then stream (laterBegin :: formInsW) else [] := fun c => by
    rw [arrived_append, own_arrived q1, List.append_nil, ha c]
  obtain ⟨C1, w1⟩ := stay_conversationW (Or.inl rfl) (by rw [ha1, if_pos rfl])
  have T1 : Phased stayServerW 3 7 laterBegin (formInsW.map .record) (tr ++ tr1) (ops ++ ops1) s1 := .first H1 C1 (fun r hr => by rw [(w1 r hr).2]; decide) hn1
  -- a callback is called; the server comes to rest
  obtain ⟨I1, _⟩ := rest_idle H1 R1 r1
  have hidle1 := (still_rest (run_kq (srv_parts H1).m).1 I1.still).2
  have hpush : estep stayServerW.prog (.push 1 ⟨3, 7⟩ ⟨5, b!"x"⟩) s1.m = some ([], s1.m.pgoto 1 (.call ⟨3, 7⟩ ⟨5, b!"x"⟩)) := by
    unfold estep
    dsimp only
    rw [if_pos (hidle1 1)]
    rfl
  have h2 : SrvRun stayServerW s1 ([] ++ []) ([] ++ []) { s1 with m := s1.m.pgoto 1 (.call ⟨3, 7⟩ ⟨5, b!"x"⟩) } :=
    .step (.refl s1) (.outer _ (by decide) hpush)
  have R2' : SrvUp ({ s1 with m := s1.m.pgoto 1 (.call ⟨3, 7⟩ ⟨5, b!"x"⟩) } : Srv (ReqW Unit)) := ⟨R1.live, R1.term, R1.stop⟩
  have H2' := run_later H1 h2
  simp only [List.append_nil] at H2' h2
  obtain ⟨tr2, ops2, s2, t1, t2, t3⟩ := C111_reaches_calm H2'
  have r2 := (C111_rests H2' (nv (Or.inl rfl) ha1)).2 tr2 ops2 s2 t1 t3
  have g2 := own_run h2 t1
  simp only [List.nil_append] at g2
  have R2 := own_running t1 R2'
  have ha2 : ∀ c, arrived c (ops ++ ops1 ++ ops2) = if c = 3 then stream (laterBegin :: formInsW) else [] := fun c => by
    rw [arrived_append, own_arrived t1, List.append_nil, ha1 c]
  obtain ⟨C2, w2⟩ := stay_conversationW (Or.inl rfl) (by rw [ha2, if_pos rfl])
  have hcalm2 : Calm 3 (ops ++ ops1 ++ ops2) := (hcalm.append (q2 3)).append (t2 3)
  have T2 : Phased stayServerW 3 7 laterBegin (formInsW.map .record ++ asInputs (called ⟨3, 7⟩ tr2)) (tr ++ tr1 ++ tr2) (ops ++ ops1 ++ ops2) s2 :=
    .calls T1 R1 r1 g2 (by rw [records_record]; exact C2) (fun r hr => by rw [(w2 r hr).2]; decide)
  have open_ : ∀ {is tr ops s}, Phased stayServerW 3 7 laterBegin is tr ops s → SrvUp s → SrvRest stayServerW s → Calm 3 ops →
      arrived 3 ops = stream (laterBegin :: records is) → (s.t.conns 3).valid = true := by
    intro is tr ops s T R hr hc ha
    obtain ⟨kill, q, rest, fin, ⟨_, _, hk, _⟩, _, hv⟩ := C155_closed T R hr hc ha
    cases h : (s.t.conns 3).valid with
    | true => rfl
    | false => exact absurd (hk.1 (hv.1 h).2) (by decide)
  have hv2 := open_ T2 R2 r2 hcalm2 (by rw [ha2, if_pos rfl, inputs_append, records_record, records_asInputs, List.append_nil])
  have hcalled : called ⟨3, 7⟩ tr2 = [⟨5, b!"x"⟩] := by
    refine C149_taken H1 R1 r1 C1 (fun r hr => by rw [(w1 r hr).2]; decide) ?_ (by decide) hpush t1 r2 hv2
    intro is kill q rest fin A hr hc
    rw [hn1] at hc
    have his := inputs_records (List.prefix_nil.1 hc)
    rw [hr] at his
    subst his
    have A' : Alone stayServerW 3 7 laterBegin (formInsW.map .record ++ asInputs []) kill q rest fin := by simpa using A
    obtain ⟨env, m0, _, k1, k2, _⟩ := form_laterW (n := 1) (resp := stayRespW) (max := 100) (u := ()) (b := laterBegin) (ms := []) (by simp) (fun r hr => (w1 r (by simp [hr])).1)
      (Or.inl (by decide)) hreq hbody hlen (by decide) (by decide) A'
    rw [k2]
    simp [playedW, stayRespW]
  rw [hcalled] at T2
  -- the web server gives up; the server comes to rest
  have g3 : SrvRun stayServerW s2 ([] ++ []) ([] ++ [.arrive 3 (stream [stayAbort])]) _ := .step (.refl s2) (.peer (.arrive 3 (stream [stayAbort])) rfl rfl)
  have H3' := run_later (run_later H1 g2) g3
  have R3' := SrvUp.mk (s := _) R2.live R2.term R2.stop
  obtain ⟨tr3, ops3, s3, u1, u2, u3⟩ := C111_reaches_calm H3'
  have ha3' : ∀ c, arrived c (ops ++ ops1 ++ ops2 ++ ([] ++ [.arrive 3 (stream [stayAbort])])) = if c = 3 then stream (laterBegin :: (formInsW ++ [stayAbort])) else [] := by
    intro c
    rw [arrived_append, ha2 c]
    by_cases hc : c = 3
    · subst hc; simp [arrived, stream]
    · have : ¬ 3 = c := fun e => hc e.symm
      simp [arrived, hc, this]
  have r3 := (C111_rests H3' (nv (Or.inr rfl) ha3')).2 tr3 ops3 s3 u1 u3
  have g3' := own_run g3 u1
  simp only [List.nil_append] at g3' ha3'
  have ha3 : ∀ c, arrived c (ops ++ ops1 ++ ops2 ++ ([.arrive 3 (stream [stayAbort])] ++ ops3)) = if c = 3 then stream (laterBegin :: (formInsW ++ [stayAbort])) else [] := by
    intro c
    rw [← List.append_assoc, arrived_append, own_arrived u1, List.append_nil, ha3' c]
  obtain ⟨C3, w3⟩ := stay_conversationW (Or.inr rfl) (by rw [ha3, if_pos rfl])
  have hcalm3 : Calm 3 (ops ++ ops1 ++ ops2 ++ ([.arrive 3 (stream [stayAbort])] ++ ops3)) := hcalm2.append (Calm.append (by simp [Calm]) (u2 3))
  have R3 : SrvUp s3 := own_running u1 ⟨R2.live, R2.term, R2.stop⟩
  have hrec : records (formInsW.map .record ++ asInputs [⟨5, b!"x"⟩]) = formInsW := by rw [inputs_append, records_record, records_asInputs, List.append_nil]
  have n3 : called ⟨3, 7⟩ tr3 = [] := (own_called u1 (fun p k x hx => by
    have := (still_rest (run_kq (srv_parts (run_later H1 g2)).m).1 (rest_idle (run_later H1 g2) R2 r2).1.still).2 p
    rcases hx with hx | hx <;> exact absurd (this.symm.trans hx) (by simp)) ⟨3, 7⟩).2
  have T3 := Phased.sends (new := [stayAbort]) T2 R2 r2 g3' (by rw [hrec]; exact C3) (fun r hr => by rw [(w3 r hr).2]; decide) n3
  have hall : arrived 3 (ops ++ ops1 ++ ops2 ++ ([.arrive 3 (stream [stayAbort])] ++ ops3)) = stream (laterBegin :: formInsW ++ stayAbort :: records []) := by
    rw [ha3, if_pos rfl]; rfl
  obtain ⟨env, m0, outs, T, hm0, o1, _, o2, o3⟩ := C155_wide_given_up_closed stayResp_plainW (fun env m0 ms _ _ _ => stayTextW (m0 :: ms) env) T3 R3 r3 hcalm3 hall (Or.inl (by decide)) hreq hbody hlen (by decide) (by decide) rfl
  refine ⟨_, _, s3, T3, r3, outs, o1, ?_, ?_⟩
  · have : (playedW stayRespW () env [m0, ⟨5, b!"x"⟩]).1 = [(false, .insert (b!"wait ".map fun b : UInt8 => b.toUInt32)), (false, .insert (b!"x".map fun b : UInt8 => b.toUInt32))] := by simp [playedW, stayRespW, hm0]
    rw [this] at o2
    exact o2
  · cases h : (s3.t.conns 3).valid with
    | true => rfl
    | false => exact absurd (o3.1 h) (by decide)

end Fcgi.Props
