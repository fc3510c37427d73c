import Verif.Props.Taken
import Verif.Props.EndToEndWide
import Verif.Lemmas.TakenWide
/-! # C152 for applications with wide characters -/
namespace Fcgi.Props
open Fcgi.Spec Fcgi.Model

/-- The environment of wide characters that `inProcessor()` sees: what the narrow one holds, each text decoded from UTF-8, and each text is what
the values given for it show; the body as it was sent. -/
def GivenBodyW (nvs : List (Bytes × Bytes)) (body : Bytes) (w : EnvW) : Prop := ∃ env, GivenBody nvs body env ∧ SameEnv env w ∧ TextsOf nvs w

/-- A request on its own whose body the application takes. -/
theorem taken_aloneW {U : Type} {n : Nat} {hd : HandlersW U} {app : U → EnvW → List (Bool × SOp UInt32)} {max : Nat} {u : U}
    {host rh ph} {c : Nat} {id : UInt16} {b : Record} {ins : List Record} {nvs : List (Bytes × Bytes)} {body : Bytes}
    {kill : Bool} {q : ReqW U} {rest : List Message} {fin : Bool}
    (hin : ∀ u e n, (hd.inHandler u e n).env = e) (htake : ∀ u env, GivenBodyW nvs body env → (hd.inProcessor u env).2 = true)
    (happ : ∀ u env m, (hd.response u env m).1.ops = app u env ∧ (hd.response u env m).2 = true)
    (hwf : ∀ r ∈ ins, r.WF) (hrole : b.role = 1 ∨ b.role = 2) (hreq : WholeRequest ins nvs body)
    (hlen : LengthTold nvs body.length) (hmax : body.length ≤ max) (hint : body.length ≤ 2147483647)
    (ha : Alone (wideServer n hd max u host rh ph) c id b (ins.map .record) kill q rest fin) :
    ∃ env, GivenBodyW nvs [] env ∧ fin = true ∧
      (∀ e, writesW e q.log = writtenOn e (takenWritesW hd app u env (bodyPieces ins))) ∧
      ∃ before, ∃ rs : List Record, ∃ end_, q.log = before ++ [.sent c end_ kill] ∧ IsEndRequest id.toNat 0 end_ ∧
        sentOfW before = rs.map (fun x => (c, x.bytes, false)) ∧ (∀ x ∈ rs, GoodRecord id 6 x ∨ GoodRecord id 7 x) ∧
        (noEnc (writtenOn false (takenWritesW hd app u env (bodyPieces ins))) → (∀ op ∈ writtenOn false (takenWritesW hd app u env (bodyPieces ins)), WritesText op) → (rs.filter (fun x => x.type = 6)).flatMap Record.content =
          (writtenOn false (takenWritesW hd app u env (bodyPieces ins))).flatMap (writtenBy utf8Text)) ∧
        (noEnc (writtenOn true (takenWritesW hd app u env (bodyPieces ins))) → (∀ op ∈ writtenOn true (takenWritesW hd app u env (bodyPieces ins)), WritesText op) → (rs.filter (fun x => x.type = 7)).flatMap Record.content =
          (writtenOn true (takenWritesW hd app u env (bodyPieces ins))).flatMap (writtenBy utf8Text)) := by
  obtain ⟨role, r1, _, h⟩ := alone_wide.1 ha
  obtain ⟨ps, p0, bs, i0, rfl, s2, rfl, s4, s5, rfl, s7⟩ := hreq.split
  have hrole' : role = 1 ∨ role = 2 := by
    unfold Record.role at hrole
    rw [← r1] at hrole
    exact hrole.imp (fun h => UInt16.toNat.inj h) (fun h => UInt16.toNat.inj h)
  have he : ∀ i ∈ ps.flatMap Prod.snd, EncPair i.1 i.2 := by
    intro i hi
    obtain ⟨p, hp, hi⟩ := List.mem_flatMap.1 hi
    exact (s2 p hp).enc i hi
  obtain ⟨env, henv, _⟩ := handler_params (defaultHandlers fun (u : Unit) env _ => (⟨[], env, u⟩, true)) (fun _ _ _ => 0) ps (freshReq c id role kill max ()) (freshReq_alive ..) rfl hrole' s2
  have henv' : fillPairs [0] (ps.flatMap Prod.snd) {} = .ok env := henv
  have e := encPairs_of _ he
  have hf : fill ([] ++ (ps.flatMap Prod.snd).flatMap Prod.snd ++ [0]) ([] : Bytes).length ([] ++ (ps.flatMap Prod.snd).flatMap Prod.snd).length {} = .ok env := by
    rw [fill_items _ [] [0] {} he]; exact henv'
  have hcl : env.contentLength.toNat = (bs.flatMap Record.content).length := by
    obtain ⟨n1, _, _, _, _, n6, _⟩ := C24_numbers (he := e) (hf := hf)
    rcases hlen with ⟨h0, h1⟩ | ⟨v, h1, h2⟩
    · rw [n6 h1, h0]; rfl
    · exact n1 v _ h1 h2 hint
  have G : GivenBody ((ps.flatMap Prod.snd).map Prod.fst) (bs.flatMap Record.content) { env with postBuffer := bs.flatMap Record.content } := by
    refine ⟨?_, rfl, (C24_parsed (he := e) (hf := hf)).2.2⟩
    have T := tells_fill he henv' [] []
    obtain ⟨p1, p2⟩ := fillPairs_posts [0] _ _ _ henv'
    have : ({ env with postBuffer := [], posts := [], files := [] } : Env) = { env with postBuffer := [] } := by
      rw [← (show env.posts = [] from p1), ← (show env.files = [] from p2)]
    simp only [List.map_nil, this] at T
    exact T
  have wf : ∀ r, r ∈ ps.map Prod.fst ++ [p0] ++ bs ++ [i0] → r.WF := hwf
  obtain ⟨w, r, hpb, same, texts, b1, b2, b3⟩ := taken_runW hd hin happ host c id role kill max u hrole' ps s2 p0 i0 ⟨wf _ (by simp), s4⟩ ⟨wf _ (by simp), s7⟩ bs
    (fun b hb => ⟨wf _ (by simp [hb]), s5 b hb⟩) henv' (by rw [hcl]; exact hmax) (by rw [hcl]; exact Nat.le_refl _) (fun u w h1 h2 => htake u w ⟨_, G, h1, h2⟩)
  have hm : ((ps.map Prod.fst ++ [p0] ++ bs ++ [i0]).map Input.record).map Input.message = (ps.map Prod.fst ++ [p0] ++ bs ++ [i0]).map fcgiMsg := by
    rw [List.map_map]; rfl
  rw [hm, b1] at h
  cases h
  rw [bodyPieces_whole s2 s4 s5 s7]
  have hpe : env.postBuffer = [] := same.postBuffer.trans hpb
  have he0 : { env with postBuffer := [] } = env := by rw [← hpe]
  refine ⟨w, ⟨env, ⟨by rw [he0]; exact he0 ▸ G.told, hpe, G.type⟩, same, texts⟩, rfl, b3, ?_⟩
  obtain ⟨before, rs, en, c1, c2, c3, c4, c5, c6⟩ := C120_complete_partial _ host c id role kill max u _ b1
  rw [b2] at c2
  simp only [b3] at c5 c6
  exact ⟨before, rs, en, c1, c2, c3, c4, c5, c6⟩

/-- A web server sends a request for `id` on connection `c`, in any pieces and among any other requests, to an application with wide
characters that takes the body itself: its `inProcessor()` returns true.  When the server has come to rest and the connection is open, then there is an environment that says
what the variables say, such that the records for `id` on the connection contain exactly what the application wrote, in UTF-8, while the body came in, when it
took the body (all of it, out of this environment), and in its `response()`, and after them END_REQUEST with status 0. -/
theorem C152_wide_answered {U : Type} {n : Nat} {hd : HandlersW U} {app : U → EnvW → List (Bool × SOp UInt32)} {max : Nat} {u : U}
    {host rh ph} {tr tr' : List MEvent} {ops ops' : List TOp} {s s' : Srv (ReqW U)} {c : Nat} {id : UInt16} {rs : List Record} {tail : Bytes}
    {b : Record} {ins : List Record} {nvs : List (Bytes × Bytes)} {body : Bytes}
    (hin : ∀ u e n, (hd.inHandler u e n).env = e) (htake : ∀ u env, GivenBodyW nvs body env → (hd.inProcessor u env).2 = true)
    (happ : ∀ u env m, (hd.response u env m).1.ops = app u env ∧ (hd.response u env m).2 = true)
    (hplain : ∀ env e, noEnc (writtenOn e (takenWritesW hd app u env (bodyPieces ins))))
    (htext : ∀ env, GivenBodyW nvs [] env → ∀ o ∈ takenWritesW hd app u env (bodyPieces ins), WritesText o.2)
    (h : SrvRun (wideServer n hd max u host rh ph) srvInit tr ops s) (R : SrvUp s)
    (C : Conversation ops c id rs tail b ins) (hlost : ∀ r ∈ rs, r.id ≠ 0xffff)
    (hrole : b.role = 1 ∨ b.role = 2) (hreq : WholeRequest ins nvs body)
    (hlen : LengthTold nvs body.length) (hmax : body.length ≤ max) (hint : body.length ≤ 2147483647)
    (h' : OwnRun (wideServer n hd max u host rh ph) s tr' ops' s') (hr : SrvRest (wideServer n hd max u host rh ph) s')
    (hv : (s'.t.conns c).valid = true) (hcall : called ⟨c, id⟩ (tr ++ tr') = []) :
    ∃ env, GivenBodyW nvs [] env ∧
      ∀ outs otail, (∀ r ∈ outs, r.WF) → Incomplete otail → (s'.t.conns c).output = stream outs ++ otail →
        otail = [] ∧ ∃ answer end_, outs.filter (fun r => r.id = id.toNat) = answer ++ [end_] ∧
          (∀ x ∈ answer, x.type = 6 ∨ x.type = 7) ∧
          (answer.filter (fun x => x.type = 6)).flatMap Record.content = (writtenOn false (takenWritesW hd app u env (bodyPieces ins))).flatMap (writtenBy utf8Text) ∧
          (answer.filter (fun x => x.type = 7)).flatMap Record.content = (writtenOn true (takenWritesW hd app u env (bodyPieces ins))).flatMap (writtenBy utf8Text) ∧
          end_.type = 3 ∧ end_.content.take 5 = [0, 0, 0, 0, 0] := by
  haveI : OfLibrary (wideServer n hd max u host rh ph) := .wide ..
  obtain ⟨is, kill, q, rest, fin, A, a1, a2, _, a4⟩ := C111_answered h R C hlost h' hr hv
  rw [hcall] at a2
  have his := inputs_records (List.prefix_nil.1 a2)
  rw [a1] at his
  subst his
  have hwf : ∀ r ∈ ins, r.WF := by
    intro r hr
    have : r ∈ rs.filter (fun r => r.id = id.toNat) := by rw [C.mine]; simp [hr]
    exact C.wf r (List.mem_filter.1 this).1
  obtain ⟨env, T, _, _, before, ans, en, c1, ⟨er, e1, e2, e3, e4, e5, e6, rfl⟩, c3, c4, c5, c6⟩ := taken_aloneW hin htake happ hwf hrole hreq hlen hmax hint A
  refine ⟨env, T, fun outs otail ho hi hs => ?_⟩
  obtain ⟨o1, o2⟩ := a4 outs otail ho hi hs
  have hsent : (Transmits.sent q).map (·.2.1) = (ans ++ [er]).map Record.bytes := by
    show (sentOfW q.log).map (·.2.1) = _
    rw [c1, sentOf_appendW, c3]
    simp [sentOfW]
  rw [hsent] at o2
  have hid : id.toNat < 2 ^ 16 := id.toNat_lt
  have hwa : ∀ y ∈ ans ++ [er], y.WF := by
    intro y hy
    rcases List.mem_append.1 hy with hy | hy
    · rcases c4 y hy with g | g <;> exact ⟨by rw [g.id]; exact hid, by have := g.contentLength; omega, by have := g.padding; omega⟩
    · simp only [List.mem_singleton] at hy
      subst hy
      exact ⟨by rw [e3]; exact hid, by rw [e4]; decide, by rw [e6]; decide⟩
  have heq := records_bytes_inj (fun x hx => ho x (List.mem_filter.1 hx).1) hwa o2
  exact ⟨o1, ans, er, heq, fun x hx => (c4 x hx).imp (fun g => g.type) (fun g => g.type), c5 (hplain _ _) (text_on (htext _ T)), c6 (hplain _ _) (text_on (htext _ T)), e2, e5⟩

/-- For a connection with this one request on which nothing goes wrong, the bytes are exactly those, and the connection has been closed exactly if
the web server did not ask to keep it. -/
theorem C152_wide_closed {U : Type} {n : Nat} {hd : HandlersW U} {app : U → EnvW → List (Bool × SOp UInt32)} {max : Nat} {u : U}
    {host rh ph} {tr tr' : List MEvent} {ops ops' : List TOp} {s s' : Srv (ReqW U)} {c : Nat} {id : UInt16} {rs : List Record} {tail : Bytes}
    {b : Record} {ins : List Record} {nvs : List (Bytes × Bytes)} {body : Bytes}
    (hin : ∀ u e n, (hd.inHandler u e n).env = e) (htake : ∀ u env, GivenBodyW nvs body env → (hd.inProcessor u env).2 = true)
    (happ : ∀ u env m, (hd.response u env m).1.ops = app u env ∧ (hd.response u env m).2 = true)
    (hplain : ∀ env e, noEnc (writtenOn e (takenWritesW hd app u env (bodyPieces ins))))
    (htext : ∀ env, GivenBodyW nvs [] env → ∀ o ∈ takenWritesW hd app u env (bodyPieces ins), WritesText o.2)
    (h : SrvRun (wideServer n hd max u host rh ph) srvInit tr ops s) (R : SrvUp s)
    (C : Conversation ops c id rs tail b ins) (hone : ∀ r ∈ rs, r.id = id.toNat)
    (hrole : b.role = 1 ∨ b.role = 2) (hreq : WholeRequest ins nvs body)
    (hlen : LengthTold nvs body.length) (hmax : body.length ≤ max) (hint : body.length ≤ 2147483647)
    (h' : OwnRun (wideServer n hd max u host rh ph) s tr' ops' s') (hr : SrvRest (wideServer n hd max u host rh ph) s')
    (hcalm : Calm c (ops ++ ops')) (hcall : called ⟨c, id⟩ (tr ++ tr') = []) :
    ∃ env answer end_, GivenBodyW nvs [] env ∧ (s'.t.conns c).output = stream (answer ++ [end_]) ∧
      (∀ x ∈ answer ++ [end_], x.WF ∧ x.version = 1 ∧ x.id = id.toNat) ∧ (∀ x ∈ answer, x.type = 6 ∨ x.type = 7) ∧
      (answer.filter (fun x => x.type = 6)).flatMap Record.content = (writtenOn false (takenWritesW hd app u env (bodyPieces ins))).flatMap (writtenBy utf8Text) ∧
      (answer.filter (fun x => x.type = 7)).flatMap Record.content = (writtenOn true (takenWritesW hd app u env (bodyPieces ins))).flatMap (writtenBy utf8Text) ∧
      end_.type = 3 ∧ end_.content.take 5 = [0, 0, 0, 0, 0] ∧
      ((s'.t.conns c).valid = false ↔ (b.content.getD 2 0).toNat % 2 = 0) := by
  haveI : OfLibrary (wideServer n hd max u host rh ph) := .wide ..
  obtain ⟨is, kill, q, rest, fin, A, a1, a2, _, a4, a5⟩ := C111_closed h R C hone h' hr hcalm
  rw [hcall] at a2
  have his := inputs_records (List.prefix_nil.1 a2)
  rw [a1] at his
  subst his
  have hwf : ∀ r ∈ ins, r.WF := by
    intro r hr
    have : r ∈ rs.filter (fun r => r.id = id.toNat) := by rw [C.mine]; simp [hr]
    exact C.wf r (List.mem_filter.1 this).1
  obtain ⟨env, T, f1, _, before, ans, en, c1, ⟨er, e1, e2, e3, e4, e5, e6, rfl⟩, c3, c4, c5, c6⟩ := taken_aloneW hin htake happ hwf hrole hreq hlen hmax hint A
  obtain ⟨_, _, hk, _⟩ := A
  have hsent : (Transmits.sent q).flatMap (·.2.1) = stream (ans ++ [er]) := by
    show (sentOfW q.log).flatMap (·.2.1) = _
    rw [c1, sentOf_appendW, c3]
    simp [sentOfW, stream, List.flatMap_map]
  rw [hsent] at a4
  have hid : id.toNat < 2 ^ 16 := id.toNat_lt
  refine ⟨env, ans, er, T, a4, ?_, fun x hx => (c4 x hx).imp (fun g => g.type) (fun g => g.type), c5 (hplain _ _) (text_on (htext _ T)), c6 (hplain _ _) (text_on (htext _ T)), e2, e5, ?_⟩
  · intro y hy
    rcases List.mem_append.1 hy with hy | hy
    · rcases c4 y hy with g | g <;> exact ⟨⟨by rw [g.id]; exact hid, by have := g.contentLength; omega, by have := g.padding; omega⟩, g.version, g.id⟩
    · simp only [List.mem_singleton] at hy
      subst hy
      exact ⟨⟨by rw [e3]; exact hid, by rw [e4]; decide, by rw [e6]; decide⟩, e1, e3⟩
  · rw [a5, ← hk]
    exact ⟨fun x => x.2, fun x => ⟨f1, x⟩⟩

/-! ### A concrete run

The application of C152 with wide characters: it takes JSON and answers with its bytes as characters. -/

def jsonHandlersW : HandlersW Bytes where
  error u e := ⟨[], e, u⟩
  bigPost u e := ⟨[], e, u⟩
  unknownContent u e := ⟨[], e, u⟩
  inHandler u e k := ⟨[(true, .insert (List.replicate k 120))], e, u⟩
  inProcessor u e :=
    if e.contentType = b!"application/json".map (fun b => b.toUInt32) then (⟨[(true, .insert [46])], e, e.postBuffer⟩, true) else (⟨[], e, u⟩, false)
  response u e _ := (⟨[(false, .insert ((u ++ u ++ e.postBuffer).map fun b : UInt8 => b.toUInt32))], e, u⟩, true)
def jsonServerW : SrvProg (ReqW Bytes) := wideServer 1 jsonHandlersW 100 [] ⟨fun _ _ _ => 0, true⟩ (fun _ => 0) (fun _ => 0)
instance : OfLibrary jsonServerW := .wide ..

theorem jsonSeesW {body : Bytes} {w : EnvW} (G : GivenBodyW (jsonPairs.map Prod.fst) body w) :
    w.postBuffer = body ∧ w.contentType = b!"application/json".map (fun b => b.toUInt32) := by
  obtain ⟨env, G, S, _⟩ := G
  refine ⟨by rw [← S.postBuffer]; exact G.body, ?_⟩
  obtain ⟨a1, a2⟩ := utf8Text_ascii b!"application/json" (by decide)
  rw [S.contentType _ a1 (by rw [a2, G.type]; decide)]

theorem jsonTakesW : ∀ u env, GivenBodyW (jsonPairs.map Prod.fst) b!"{'a':1}\n" env → (jsonHandlersW.inProcessor u env).2 = true := by
  intro u env G
  simp only [jsonHandlersW, (jsonSeesW G).2, if_true]

def jsonEndW (x : List MEvent × List TOp × Srv (ReqW Bytes)) : Bool :=
  x.2.2.m.terminate == false && x.2.2.m.stop == false && (match x.2.2.m.th 0 with | .off | .finished => false | _ => true) &&
  (x.2.1.filterMap fun | .arrive c d => some (c, d) | _ => none) == [(3, jsonBytes)] && (called ⟨3, 7⟩ x.1).isEmpty && (match x.2.2.m.pu 0 with | .idle => true | _ => false) &&
  x.2.1.all (fun o => match o with | .receive _ _ _ => false | .tx _ => false | .hangup _ => false | _ => true)

theorem jsonRunW_end : (srvPlay jsonServerW jsonRun ([], [], srvInit)).any jsonEndW = true := by decide +kernel

/-- The body arrives, the server comes to rest, and its peer has got it twice as STDOUT, `xxxxxxxx.` as STDERR, in UTF-8, and END_REQUEST. -/
example : ∃ tr ops s tr' ops' s', SrvRun jsonServerW srvInit tr ops s ∧ SrvUp s ∧ OwnRun jsonServerW s tr' ops' s' ∧ SrvRest jsonServerW s' ∧
    arrived 3 ops = jsonBytes ∧ Calm 3 (ops ++ ops') ∧ called ⟨3, 7⟩ (tr ++ tr') = [] ∧
    ∃ answer end_, (s'.t.conns 3).output = stream (answer ++ [end_]) ∧
      (answer.filter (fun x => x.type = 6)).flatMap Record.content = b!"{'a':1}\n{'a':1}\n" ∧
      (answer.filter (fun x => x.type = 7)).flatMap Record.content = b!"xxxxxxxx." ∧ end_.type = 3 ∧ (s'.t.conns 3).valid = false := by
  cases hp : srvPlay jsonServerW jsonRun ([], [], srvInit) with
  | none => have := jsonRunW_end; rw [hp] at this; cases this
  | some y =>
  have he : jsonEndW y = true := by have := jsonRunW_end; rw [hp] at this; exact this
  have g := srvPlay_good jsonRun (P := jsonServerW) (x := ([], [], srvInit)) ⟨.refl _, fun _ _ => rfl⟩ hp
  obtain ⟨tr, ops, s⟩ := y
  have h1 : SrvRun jsonServerW srvInit tr ops s := g.1
  simp only [jsonEndW, Bool.and_eq_true, beq_iff_eq, List.isEmpty_iff, List.all_eq_true] at he
  obtain ⟨⟨⟨⟨⟨⟨a1, a2⟩, a3⟩, a4⟩, a5⟩, a6⟩, a7⟩ := he
  have ha : ∀ c, arrived c ops = if c = 3 then jsonBytes else [] := by
    intro c
    rw [(arrived_pairs c ops).trans (congrArg (fun l : List (Nat × Bytes) => (l.filter (fun x => x.1 = c)).flatMap (·.2)) a4)]
    by_cases hc : c = 3
    · subst hc; simp
    · have : ¬ 3 = c := fun e => hc e.symm
      simp [hc, this]
  have R : SrvUp s := ⟨⟨0, by revert a3; cases s.m.th 0 <;> simp⟩, a1, a2⟩
  have hwf : ∀ r ∈ jsonBegin :: jsonIns, r.WF ∧ r.id = 7 := by
    intro r hr
    simp only [jsonIns, jsonBegin, List.mem_cons, List.not_mem_nil, or_false] at hr
    rcases hr with rfl | rfl | rfl | rfl | rfl | rfl <;> exact ⟨by unfold Record.WF; decide, rfl⟩
  have C : Conversation ops 3 7 (jsonBegin :: jsonIns) [] jsonBegin jsonIns := by
    refine ⟨fun r hr => (hwf r hr).1, Or.inl (by simp), by rw [ha, if_pos rfl, List.append_nil]; rfl, by decide, fun r hr => ?_, ?_, rfl, ?_, ?_, ?_⟩
    · intro h0; rw [(hwf r hr).2] at h0; cases h0
    · apply List.filter_eq_self.2
      intro r hr; rw [(hwf r hr).2]; rfl
    · intro r hr
      simp only [jsonIns, List.mem_cons, List.not_mem_nil, or_false] at hr
      rcases hr with rfl | rfl | rfl | rfl | rfl <;> decide
    · simp [jsonBegin, demoRec]
    · intro r hr h4 h0
      simp only [jsonIns, List.mem_cons, List.not_mem_nil, or_false] at hr
      rcases hr with rfl | rfl | rfl | rfl | rfl
      · exact ⟨_, jsonWhole⟩
      · exact absurd rfl h0
      all_goals exact absurd h4 (by decide)
  have hn : NoValues ops := by
    intro c
    by_cases hc : c = 3
    · subst hc
      exact ⟨_, _, C.wf, C.rest, C.bytes, fun r hr h0 h9 => absurd h9 (C.app r hr h0)⟩
    · exact ⟨[], [], by simp, Or.inl (by simp), by rw [ha, if_neg hc]; rfl, by simp⟩
  obtain ⟨tr', ops', s', q1, q2, q3⟩ := C111_reaches_calm h1
  have hrest := (C111_rests h1 hn).2 tr' ops' s' q1 q3
  have hidle : NoCaller s.m := by
    intro p k x hx
    have : s.m.pu p = .idle := by
      by_cases hp0 : p = 0
      · subst hp0; revert a6; cases s.m.pu 0 <;> simp
      · exact g.2 p hp0
    rw [this] at hx
    rcases hx with hx | hx <;> cases hx
  have hcalm : Calm 3 (ops ++ ops') := by
    obtain ⟨b1, b2, b3⟩ := q2 3
    refine ⟨fun hm => ?_, fun k1 k2 hm => ?_, fun hm => ?_⟩
    · rcases List.mem_append.1 hm with hm | hm
      · have := a7 _ hm; cases this
      · exact b1 hm
    · rcases List.mem_append.1 hm with hm | hm
      · have := a7 _ hm; cases this
      · exact b2 k1 k2 hm
    · rcases List.mem_append.1 hm with hm | hm
      · have := a7 _ hm; cases this
      · exact b3 hm
  have hcalled : called ⟨3, 7⟩ (tr ++ tr') = [] := by
    rw [called_append, a5, (own_called q1 hidle _).2]; rfl
  have hreq : WholeRequest jsonIns (jsonPairs.map Prod.fst) b!"{'a':1}\n" :=
    ⟨[(demoRec 4 (jsonPairs.flatMap Prod.snd), jsonPairs)], demoRec 4 [], [demoRec 5 b!"{'a':", demoRec 5 b!"1}\n"], demoRec 5 [], rfl,
      by intro p hp; simp only [List.mem_singleton] at hp; subst hp; exact jsonWhole, by simp, ⟨rfl, rfl⟩,
      by intro b hb; simp only [List.mem_cons, List.not_mem_nil, or_false] at hb; rcases hb with rfl | rfl <;> exact ⟨rfl, by decide⟩, by decide, ⟨rfl, rfl⟩⟩
  have hw : ∀ env, env.postBuffer = [] → env.contentType = b!"application/json".map (fun b => b.toUInt32) →
      takenWritesW jsonHandlersW (fun u e => [(false, .insert ((u ++ u ++ e.postBuffer).map fun b : UInt8 => b.toUInt32))]) [] env (bodyPieces jsonIns) =
        [(true, .insert (List.replicate 5 120)), (true, .insert (List.replicate 3 120)), (true, .insert [46]), (false, .insert ((b!"{'a':1}\n" ++ b!"{'a':1}\n" ++ []).map fun b : UInt8 => b.toUInt32))] := by
    intro env h0 ht
    rw [show bodyPieces jsonIns = [b!"{'a':", b!"1}\n"] from by decide]
    simp only [takenWritesW, whileComingW, jsonHandlersW, ht, if_true, List.append_nil]
    rfl
  obtain ⟨env, answer, en, T, o1, _, _, o2, o3, o4, _, o5⟩ := C152_wide_closed (hd := jsonHandlersW)
    (app := fun u e => [(false, .insert ((u ++ u ++ e.postBuffer).map fun b : UInt8 => b.toUInt32))]) (fun _ _ _ => rfl) jsonTakesW (fun _ _ _ => ⟨rfl, rfl⟩)
    (by
      intro env e op ho
      rw [show bodyPieces jsonIns = [b!"{'a':", b!"1}\n"] from by decide] at ho
      simp only [takenWritesW, whileComingW, jsonHandlersW] at ho
      split at ho <;>
      · simp only [writtenOn, List.mem_map, List.mem_filter, List.mem_append, List.mem_cons, List.not_mem_nil, or_false, List.append_nil] at ho
        obtain ⟨x, ⟨hx, _⟩, rfl⟩ := ho
        rcases hx with (((rfl | rfl) | rfl) | rfl) <;> simp)
    (by
      intro env T o ho
      rw [hw env (jsonSeesW T).1 (jsonSeesW T).2] at ho
      simp only [List.mem_cons, List.not_mem_nil, or_false] at ho
      rcases ho with rfl | rfl | rfl | rfl 
      · intro c hc; rw [List.eq_of_mem_replicate hc]; exact Or.inl (by decide)
      · intro c hc; rw [List.eq_of_mem_replicate hc]; exact Or.inl (by decide)
      · intro c hc; rw [List.mem_singleton.1 hc]; exact Or.inl (by decide)
      · intro c hc
        have hall : ∀ c ∈ (b!"{'a':1}\n" ++ b!"{'a':1}\n" ++ []).map (fun b : UInt8 => b.toUInt32), c < 0xd800 := by decide
        exact Or.inl (hall c hc))
    h1 R C (fun r hr => (hwf r hr).2) (Or.inl (by decide)) hreq
    (Or.inr ⟨b!"8", by decide, by decide, by unfold IsDigit; decide, by decide⟩) (by decide) (by decide) q1 hrest hcalm hcalled
  have hT := hw env (jsonSeesW T).1 (jsonSeesW T).2
  refine ⟨tr, ops, s, tr', ops', s', h1, R, q1, hrest, by rw [ha, if_pos rfl], hcalm, hcalled, answer, en, o1, ?_, ?_, o4, o5.2 (by decide)⟩
  · rw [o2, hT]; decide
  · rw [o3, hT]; decide

end Fcgi.Props
