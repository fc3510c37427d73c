import Verif.Spec.Taken
import Verif.Lemmas.Taken
import Verif.Props.EndToEnd
/-! # C152: an application can take the body of a request itself -/
namespace Fcgi.Props
open Fcgi.Spec Fcgi.Model

/-- The environment that `inProcessor()` sees says what the variables `nvs` say, and has the bytes `body` and the content type's name; no
fields have been parsed. -/
structure GivenBody (nvs : List (Bytes × Bytes)) (body : Bytes) (env : Env) : Prop where
  told : Tells nvs [] [] { env with postBuffer := [] }
  body : env.postBuffer = body
  type : env.contentType = ((lastValue b!"CONTENT_TYPE" nvs).map fun t => t.takeWhile (· ≠ 59)).getD []

theorem bodyPieces_whole {ps : List (Record × List ((Bytes × Bytes) × Bytes))} (hps : ∀ p ∈ ps, WholePairs p.1 p.2) {p0 i0 : Record}
    (hp0 : p0.type = 4 ∧ p0.content = []) {bs : List Record} (hbs : ∀ b ∈ bs, b.type = 5 ∧ b.content ≠ []) (hi0 : i0.type = 5 ∧ i0.content = []) :
    bodyPieces (ps.map Prod.fst ++ [p0] ++ bs ++ [i0]) = bs.map Record.content := by
  have h1 : (ps.map Prod.fst).filter (fun r => r.type = 5) = [] := by
    apply List.filter_eq_nil_iff.2
    intro r hr
    obtain ⟨p, hp, rfl⟩ := List.mem_map.1 hr
    simp [(hps p hp).type]
  have h2 : bs.filter (fun r => r.type = 5) = bs := List.filter_eq_self.2 fun b hb => by simp [(hbs b hb).1]
  have h3 : (bs.map Record.content).filter (fun p => p ≠ []) = bs.map Record.content := List.filter_eq_self.2 fun c hc => by
    obtain ⟨b, hb, rfl⟩ := List.mem_map.1 hc
    simp [(hbs b hb).2]
  unfold bodyPieces
  simp only [List.filter_append, List.map_append, h1, h2, h3]
  simp [hp0.1, hi0.1, hi0.2]

/-- A request on its own whose body the application takes. -/
theorem taken_alone {U : Type} {n : Nat} {hd : Handlers U} {app : U → Env → List (Bool × SOp UInt8)} {max : Nat} {u : U}
    {heap rh ph} {c : Nat} {id : UInt16} {b : Record} {ins : List Record} {nvs : List (Bytes × Bytes)} {body : Bytes}
    {kill : Bool} {q : Req U} {rest : List Message} {fin : Bool}
    (hin : ∀ u e n, (hd.inHandler u e n).env = e) (htake : ∀ u env, GivenBody nvs body env → (hd.inProcessor u env).2 = true)
    (happ : ∀ u env m, (hd.response u env m).1.ops = app u env ∧ (hd.response u env m).2 = true)
    (hwf : ∀ r ∈ ins, r.WF) (hrole : b.role = 1 ∨ b.role = 2) (hreq : WholeRequest ins nvs body)
    (hlen : LengthTold nvs body.length) (hmax : body.length ≤ max) (hint : body.length ≤ 2147483647)
    (ha : Alone (narrowServer n hd max u heap rh ph) c id b (ins.map .record) kill q rest fin) :
    ∃ env, GivenBody nvs [] env ∧ fin = true ∧
      (∀ e, writes e q.log = writtenOn e (takenWrites hd app u env (bodyPieces ins))) ∧
      ∃ before, ∃ rs : List Record, ∃ end_, q.log = before ++ [.sent c end_ kill] ∧ IsEndRequest id.toNat 0 end_ ∧
        sentOf before = rs.map (fun x => (c, x.bytes, false)) ∧ (∀ x ∈ rs, GoodRecord id 6 x ∨ GoodRecord id 7 x) ∧
        (noEnc (writtenOn false (takenWrites hd app u env (bodyPieces ins))) → (rs.filter (fun x => x.type = 6)).flatMap Record.content =
          (writtenOn false (takenWrites hd app u env (bodyPieces ins))).flatMap (writtenBy _root_.id)) ∧
        (noEnc (writtenOn true (takenWrites hd app u env (bodyPieces ins))) → (rs.filter (fun x => x.type = 7)).flatMap Record.content =
          (writtenOn true (takenWrites hd app u env (bodyPieces ins))).flatMap (writtenBy _root_.id)) := by
  obtain ⟨role, r1, _, h⟩ := alone_narrow.1 ha
  obtain ⟨ps, p0, bs, i0, rfl, s2, rfl, s4, s5, rfl, s7⟩ := hreq.split
  have hrole' : role = 1 ∨ role = 2 := by
    unfold Record.role at hrole
    rw [← r1] at hrole
    exact hrole.imp (fun h => UInt16.toNat.inj h) (fun h => UInt16.toNat.inj h)
  have he : ∀ i ∈ ps.flatMap Prod.snd, EncPair i.1 i.2 := by
    intro i hi
    obtain ⟨p, hp, hi⟩ := List.mem_flatMap.1 hi
    exact (s2 p hp).enc i hi
  obtain ⟨env, henv, _⟩ := handler_params hd heap ps (freshReq c id role kill max u) (freshReq_alive ..) rfl hrole' s2
  have henv' : fillPairs [0] (ps.flatMap Prod.snd) {} = .ok env := henv
  have e := encPairs_of _ he
  have hf : fill ([] ++ (ps.flatMap Prod.snd).flatMap Prod.snd ++ [0]) ([] : Bytes).length ([] ++ (ps.flatMap Prod.snd).flatMap Prod.snd).length {} = .ok env := by
    rw [fill_items _ [] [0] {} he]; exact henv'
  have hcl : env.contentLength.toNat = (bs.flatMap Record.content).length := by
    obtain ⟨n1, _, _, _, _, n6, _⟩ := C24_numbers (he := e) (hf := hf)
    rcases hlen with ⟨h0, h1⟩ | ⟨v, h1, h2⟩
    · rw [n6 h1, h0]; rfl
    · exact n1 v _ h1 h2 hint
  have G : GivenBody ((ps.flatMap Prod.snd).map Prod.fst) (bs.flatMap Record.content) { env with postBuffer := bs.flatMap Record.content } := by
    refine ⟨?_, rfl, (C24_parsed (he := e) (hf := hf)).2.2⟩
    have T := tells_fill he henv' [] []
    obtain ⟨p1, p2⟩ := fillPairs_posts [0] _ _ _ henv'
    have : ({ env with postBuffer := [], posts := [], files := [] } : Env) = { env with postBuffer := [] } := by
      rw [← (show env.posts = [] from p1), ← (show env.files = [] from p2)]
    simp only [List.map_nil, this] at T
    exact T
  have wf : ∀ r, r ∈ ps.map Prod.fst ++ [p0] ++ bs ++ [i0] → r.WF := hwf
  obtain ⟨hpb, r, b1, b2, b3⟩ := taken_run hd hin happ heap c id role kill max u hrole' ps s2 p0 i0 ⟨wf _ (by simp), s4⟩ ⟨wf _ (by simp), s7⟩ bs
    (fun b hb => ⟨wf _ (by simp [hb]), s5 b hb⟩) henv' (by rw [hcl]; exact hmax) (by rw [hcl]; exact Nat.le_refl _) (fun u => htake u _ G)
  have hm : ((ps.map Prod.fst ++ [p0] ++ bs ++ [i0]).map Input.record).map Input.message = (ps.map Prod.fst ++ [p0] ++ bs ++ [i0]).map fcgiMsg := by
    rw [List.map_map]; rfl
  rw [hm, b1] at h
  cases h
  rw [bodyPieces_whole s2 s4 s5 s7]
  have he0 : { env with postBuffer := [] } = env := by rw [← hpb]
  refine ⟨env, ⟨by rw [he0]; exact he0 ▸ G.told, hpb, G.type⟩, rfl, b3, ?_⟩
  obtain ⟨before, rs, en, c1, c2, c3, c4, c5, c6⟩ := C39_complete _ heap c id role kill max u _ b1
  rw [b2] at c2
  simp only [b3] at c5 c6
  exact ⟨before, rs, en, c1, c2, c3, c4, c5, c6⟩

/-- A web server sends a request for `id` on connection `c`, in any pieces and among any other requests, to an application that takes the body
itself: its `inProcessor()` returns true.  When the server has come to rest and the connection is open, then there is an environment that says
what the variables say, such that the records for `id` on the connection contain exactly what the application wrote while the body came in, when it
took the body (all of it, out of this environment), and in its `response()`, and after them END_REQUEST with status 0. -/
theorem C152_taken_answered {U : Type} {n : Nat} {hd : Handlers U} {app : U → Env → List (Bool × SOp UInt8)} {max : Nat} {u : U}
    {heap rh ph} {tr tr' : List MEvent} {ops ops' : List TOp} {s s' : Srv (Req U)} {c : Nat} {id : UInt16} {rs : List Record} {tail : Bytes}
    {b : Record} {ins : List Record} {nvs : List (Bytes × Bytes)} {body : Bytes}
    (hin : ∀ u e n, (hd.inHandler u e n).env = e) (htake : ∀ u env, GivenBody nvs body env → (hd.inProcessor u env).2 = true)
    (happ : ∀ u env m, (hd.response u env m).1.ops = app u env ∧ (hd.response u env m).2 = true)
    (hplain : ∀ env e, noEnc (writtenOn e (takenWrites hd app u env (bodyPieces ins))))
    (h : SrvRun (narrowServer n hd max u heap rh ph) srvInit tr ops s) (R : SrvUp s)
    (C : Conversation ops c id rs tail b ins) (hlost : ∀ r ∈ rs, r.id ≠ 0xffff)
    (hrole : b.role = 1 ∨ b.role = 2) (hreq : WholeRequest ins nvs body)
    (hlen : LengthTold nvs body.length) (hmax : body.length ≤ max) (hint : body.length ≤ 2147483647)
    (h' : OwnRun (narrowServer n hd max u heap rh ph) s tr' ops' s') (hr : SrvRest (narrowServer n hd max u heap rh ph) s')
    (hv : (s'.t.conns c).valid = true) (hcall : called ⟨c, id⟩ (tr ++ tr') = []) :
    ∃ env, GivenBody nvs [] env ∧
      ∀ outs otail, (∀ r ∈ outs, r.WF) → Incomplete otail → (s'.t.conns c).output = stream outs ++ otail →
        otail = [] ∧ ∃ answer end_, outs.filter (fun r => r.id = id.toNat) = answer ++ [end_] ∧
          (∀ x ∈ answer, x.type = 6 ∨ x.type = 7) ∧
          (answer.filter (fun x => x.type = 6)).flatMap Record.content = (writtenOn false (takenWrites hd app u env (bodyPieces ins))).flatMap (writtenBy _root_.id) ∧
          (answer.filter (fun x => x.type = 7)).flatMap Record.content = (writtenOn true (takenWrites hd app u env (bodyPieces ins))).flatMap (writtenBy _root_.id) ∧
          end_.type = 3 ∧ end_.content.take 5 = [0, 0, 0, 0, 0] := by
  haveI : OfLibrary (narrowServer n hd max u heap rh ph) := .narrow ..
  obtain ⟨is, kill, q, rest, fin, A, a1, a2, _, a4⟩ := C111_answered h R C hlost h' hr hv
  rw [hcall] at a2
  have his := inputs_records (List.prefix_nil.1 a2)
  rw [a1] at his
  subst his
  have hwf : ∀ r ∈ ins, r.WF := by
    intro r hr
    have : r ∈ rs.filter (fun r => r.id = id.toNat) := by rw [C.mine]; simp [hr]
    exact C.wf r (List.mem_filter.1 this).1
  obtain ⟨env, T, _, _, before, ans, en, c1, ⟨er, e1, e2, e3, e4, e5, e6, rfl⟩, c3, c4, c5, c6⟩ := taken_alone hin htake happ hwf hrole hreq hlen hmax hint A
  refine ⟨env, T, fun outs otail ho hi hs => ?_⟩
  obtain ⟨o1, o2⟩ := a4 outs otail ho hi hs
  have hsent : (Transmits.sent q).map (·.2.1) = (ans ++ [er]).map Record.bytes := by
    show (sentOf q.log).map (·.2.1) = _
    rw [c1, sentOf_append, c3]
    simp [sentOf]
  rw [hsent] at o2
  have hid : id.toNat < 2 ^ 16 := id.toNat_lt
  have hwa : ∀ y ∈ ans ++ [er], y.WF := by
    intro y hy
    rcases List.mem_append.1 hy with hy | hy
    · rcases c4 y hy with g | g <;> exact ⟨by rw [g.id]; exact hid, by have := g.contentLength; omega, by have := g.padding; omega⟩
    · simp only [List.mem_singleton] at hy
      subst hy
      exact ⟨by rw [e3]; exact hid, by rw [e4]; decide, by rw [e6]; decide⟩
  have heq := records_bytes_inj (fun x hx => ho x (List.mem_filter.1 hx).1) hwa o2
  exact ⟨o1, ans, er, heq, fun x hx => (c4 x hx).imp (fun g => g.type) (fun g => g.type), c5 (hplain _ _), c6 (hplain _ _), e2, e5⟩

/-- For a connection with this one request on which nothing goes wrong, the bytes are exactly those, and the connection has been closed exactly if
the web server did not ask to keep it. -/
theorem C152_taken_closed {U : Type} {n : Nat} {hd : Handlers U} {app : U → Env → List (Bool × SOp UInt8)} {max : Nat} {u : U}
    {heap rh ph} {tr tr' : List MEvent} {ops ops' : List TOp} {s s' : Srv (Req U)} {c : Nat} {id : UInt16} {rs : List Record} {tail : Bytes}
    {b : Record} {ins : List Record} {nvs : List (Bytes × Bytes)} {body : Bytes}
    (hin : ∀ u e n, (hd.inHandler u e n).env = e) (htake : ∀ u env, GivenBody nvs body env → (hd.inProcessor u env).2 = true)
    (happ : ∀ u env m, (hd.response u env m).1.ops = app u env ∧ (hd.response u env m).2 = true)
    (hplain : ∀ env e, noEnc (writtenOn e (takenWrites hd app u env (bodyPieces ins))))
    (h : SrvRun (narrowServer n hd max u heap rh ph) srvInit tr ops s) (R : SrvUp s)
    (C : Conversation ops c id rs tail b ins) (hone : ∀ r ∈ rs, r.id = id.toNat)
    (hrole : b.role = 1 ∨ b.role = 2) (hreq : WholeRequest ins nvs body)
    (hlen : LengthTold nvs body.length) (hmax : body.length ≤ max) (hint : body.length ≤ 2147483647)
    (h' : OwnRun (narrowServer n hd max u heap rh ph) s tr' ops' s') (hr : SrvRest (narrowServer n hd max u heap rh ph) s')
    (hcalm : Calm c (ops ++ ops')) (hcall : called ⟨c, id⟩ (tr ++ tr') = []) :
    ∃ env answer end_, GivenBody nvs [] env ∧ (s'.t.conns c).output = stream (answer ++ [end_]) ∧
      (∀ x ∈ answer ++ [end_], x.WF ∧ x.version = 1 ∧ x.id = id.toNat) ∧ (∀ x ∈ answer, x.type = 6 ∨ x.type = 7) ∧
      (answer.filter (fun x => x.type = 6)).flatMap Record.content = (writtenOn false (takenWrites hd app u env (bodyPieces ins))).flatMap (writtenBy _root_.id) ∧
      (answer.filter (fun x => x.type = 7)).flatMap Record.content = (writtenOn true (takenWrites hd app u env (bodyPieces ins))).flatMap (writtenBy _root_.id) ∧
      end_.type = 3 ∧ end_.content.take 5 = [0, 0, 0, 0, 0] ∧
      ((s'.t.conns c).valid = false ↔ (b.content.getD 2 0).toNat % 2 = 0) := by
  haveI : OfLibrary (narrowServer n hd max u heap rh ph) := .narrow ..
  obtain ⟨is, kill, q, rest, fin, A, a1, a2, _, a4, a5⟩ := C111_closed h R C hone h' hr hcalm
  rw [hcall] at a2
  have his := inputs_records (List.prefix_nil.1 a2)
  rw [a1] at his
  subst his
  have hwf : ∀ r ∈ ins, r.WF := by
    intro r hr
    have : r ∈ rs.filter (fun r => r.id = id.toNat) := by rw [C.mine]; simp [hr]
    exact C.wf r (List.mem_filter.1 this).1
  obtain ⟨env, T, f1, _, before, ans, en, c1, ⟨er, e1, e2, e3, e4, e5, e6, rfl⟩, c3, c4, c5, c6⟩ := taken_alone hin htake happ hwf hrole hreq hlen hmax hint A
  obtain ⟨_, _, hk, _⟩ := A
  have hsent : (Transmits.sent q).flatMap (·.2.1) = stream (ans ++ [er]) := by
    show (sentOf q.log).flatMap (·.2.1) = _
    rw [c1, sentOf_append, c3]
    simp [sentOf, stream, List.flatMap_map]
  rw [hsent] at a4
  have hid : id.toNat < 2 ^ 16 := id.toNat_lt
  refine ⟨env, ans, er, T, a4, ?_, fun x hx => (c4 x hx).imp (fun g => g.type) (fun g => g.type), c5 (hplain _ _), c6 (hplain _ _), e2, e5, ?_⟩
  · intro y hy
    rcases List.mem_append.1 hy with hy | hy
    · rcases c4 y hy with g | g <;> exact ⟨⟨by rw [g.id]; exact hid, by have := g.contentLength; omega, by have := g.padding; omega⟩, g.version, g.id⟩
    · simp only [List.mem_singleton] at hy
      subst hy
      exact ⟨⟨by rw [e3]; exact hid, by rw [e4]; decide, by rw [e6]; decide⟩, e1, e3⟩
  · rw [a5, ← hk]
    exact ⟨fun x => x.2, fun x => ⟨f1, x⟩⟩

/-! ### A concrete run

An application that takes JSON: it logs the length of each piece with a letter for each byte, stores the body in its own state, logs a full stop
when it has it, and answers with it twice. -/

def jsonHandlers : Handlers Bytes where
  error u e := ⟨[], e, u⟩
  bigPost u e := ⟨[], e, u⟩
  unknownContent u e := ⟨[], e, u⟩
  inHandler u e k := ⟨[(true, .insert (List.replicate k 120))], e, u⟩
  inProcessor u e := if e.contentType = b!"application/json" then (⟨[(true, .insert b!".")], e, e.postBuffer⟩, true) else (⟨[], e, u⟩, false)
  response u e _ := (⟨[(false, .insert (u ++ u ++ e.postBuffer))], e, u⟩, true)
def jsonServer : SrvProg (Req Bytes) := narrowServer 1 jsonHandlers 100 [] (fun _ _ _ => 0) (fun _ => 0) (fun _ => 0)
instance : OfLibrary jsonServer := .narrow ..

def jsonPairs : List ((Bytes × Bytes) × Bytes) :=
  [((b!"CONTENT_LENGTH", b!"8"), [14, 1] ++ b!"CONTENT_LENGTH" ++ b!"8"),
   ((b!"CONTENT_TYPE", b!"application/json"), [12, 16] ++ b!"CONTENT_TYPE" ++ b!"application/json")]
def jsonIns : List Record :=
  [demoRec 4 (jsonPairs.flatMap Prod.snd), demoRec 4 [], demoRec 5 b!"{'a':", demoRec 5 b!"1}\n", demoRec 5 []]
def jsonBegin : Record := demoRec 1 [0, 1, 0, 0, 0, 0, 0, 0]
def jsonBytes : Bytes := stream (jsonBegin :: jsonIns)

def jsonRun : List SrvChoice := [.outer .start, .go 50, .op (.arrive 3 jsonBytes)]

theorem jsonTakes : ∀ u env, GivenBody (jsonPairs.map Prod.fst) b!"{'a':1}\n" env → (jsonHandlers.inProcessor u env).2 = true := by
  intro u env G
  have : env.contentType = b!"application/json" := by rw [G.type]; decide
  simp [jsonHandlers, this]

def jsonEnd (x : List MEvent × List TOp × Srv (Req Bytes)) : Bool :=
  x.2.2.m.terminate == false && x.2.2.m.stop == false && (match x.2.2.m.th 0 with | .off | .finished => false | _ => true) &&
  (x.2.1.filterMap fun | .arrive c d => some (c, d) | _ => none) == [(3, jsonBytes)] && (called ⟨3, 7⟩ x.1).isEmpty && (match x.2.2.m.pu 0 with | .idle => true | _ => false) &&
  x.2.1.all (fun o => match o with | .receive _ _ _ => false | .tx _ => false | .hangup _ => false | _ => true)

theorem jsonRun_end : (srvPlay jsonServer jsonRun ([], [], srvInit)).any jsonEnd = true := by decide +kernel

theorem jsonPair_enc : ∀ i ∈ jsonPairs, EncPair i.1 i.2 := by
  intro i hi
  simp only [jsonPairs, List.mem_cons, List.not_mem_nil, or_false] at hi
  rcases hi with rfl | rfl
  · exact ⟨[14], [1], .short 14 (by decide), .short 1 (by decide), by decide⟩
  · exact ⟨[12], [16], .short 12 (by decide), .short 16 (by decide), by decide⟩
theorem jsonPair_ok : ∀ i ∈ jsonPairs, ParamOk i.1 := by
  intro i hi
  simp only [jsonPairs, List.mem_cons, List.not_mem_nil, or_false] at hi
  rcases hi with rfl | rfl
  · exact ⟨fun _ => ⟨8, by decide, by decide, by unfold IsDigit; decide, by decide⟩, fun h => absurd h (by decide)⟩
  · exact ⟨fun h => absurd h (by decide), fun h => absurd h (by decide)⟩

theorem jsonWhole : WholePairs (demoRec 4 (jsonPairs.flatMap Prod.snd)) jsonPairs :=
  ⟨by unfold Record.WF; decide, rfl, by decide, rfl, jsonPair_enc, jsonPair_ok, ⟨0, by decide, by decide⟩⟩

/-- The body arrives, the server comes to rest, and its peer has got it twice as STDOUT, `xxxxxxxx.` as STDERR and END_REQUEST. -/
example : ∃ tr ops s tr' ops' s', SrvRun jsonServer srvInit tr ops s ∧ SrvUp s ∧ OwnRun jsonServer s tr' ops' s' ∧ SrvRest jsonServer s' ∧
    arrived 3 ops = jsonBytes ∧ Calm 3 (ops ++ ops') ∧ called ⟨3, 7⟩ (tr ++ tr') = [] ∧
    ∃ answer end_, (s'.t.conns 3).output = stream (answer ++ [end_]) ∧
      (answer.filter (fun x => x.type = 6)).flatMap Record.content = b!"{'a':1}\n{'a':1}\n" ∧
      (answer.filter (fun x => x.type = 7)).flatMap Record.content = b!"xxxxxxxx." ∧ end_.type = 3 ∧ (s'.t.conns 3).valid = false := by
  cases hp : srvPlay jsonServer jsonRun ([], [], srvInit) with
  | none => have := jsonRun_end; rw [hp] at this; cases this
  | some y =>
  have he : jsonEnd y = true := by have := jsonRun_end; rw [hp] at this; exact this
  have g := srvPlay_good jsonRun (P := jsonServer) (x := ([], [], srvInit)) ⟨.refl _, fun _ _ => rfl⟩ hp
  obtain ⟨tr, ops, s⟩ := y
  have h1 : SrvRun jsonServer srvInit tr ops s := g.1
  simp only [jsonEnd, Bool.and_eq_true, beq_iff_eq, List.isEmpty_iff, List.all_eq_true] at he
  obtain ⟨⟨⟨⟨⟨⟨a1, a2⟩, a3⟩, a4⟩, a5⟩, a6⟩, a7⟩ := he
  have ha : ∀ c, arrived c ops = if c = 3 then jsonBytes else [] := by
    intro c
    rw [(arrived_pairs c ops).trans (congrArg (fun l : List (Nat × Bytes) => (l.filter (fun x => x.1 = c)).flatMap (·.2)) a4)]
    by_cases hc : c = 3
    · subst hc; simp
    · have : ¬ 3 = c := fun e => hc e.symm
      simp [hc, this]
  have R : SrvUp s := ⟨⟨0, by revert a3; cases s.m.th 0 <;> simp⟩, a1, a2⟩
  have hwf : ∀ r ∈ jsonBegin :: jsonIns, r.WF ∧ r.id = 7 := by
    intro r hr
    simp only [jsonIns, jsonBegin, List.mem_cons, List.not_mem_nil, or_false] at hr
    rcases hr with rfl | rfl | rfl | rfl | rfl | rfl <;> exact ⟨by unfold Record.WF; decide, rfl⟩
  have C : Conversation ops 3 7 (jsonBegin :: jsonIns) [] jsonBegin jsonIns := by
    refine ⟨fun r hr => (hwf r hr).1, Or.inl (by simp), by rw [ha, if_pos rfl, List.append_nil]; rfl, by decide, fun r hr => ?_, ?_, rfl, ?_, ?_, ?_⟩
    · intro h0; rw [(hwf r hr).2] at h0; cases h0
    · apply List.filter_eq_self.2
      intro r hr; rw [(hwf r hr).2]; rfl
    · intro r hr
      simp only [jsonIns, List.mem_cons, List.not_mem_nil, or_false] at hr
      rcases hr with rfl | rfl | rfl | rfl | rfl <;> decide
    · simp [jsonBegin, demoRec]
    · intro r hr h4 h0
      simp only [jsonIns, List.mem_cons, List.not_mem_nil, or_false] at hr
      rcases hr with rfl | rfl | rfl | rfl | rfl
      · exact ⟨_, jsonWhole⟩
      · exact absurd rfl h0
      all_goals exact absurd h4 (by decide)
  have hn : NoValues ops := by
    intro c
    by_cases hc : c = 3
    · subst hc
      exact ⟨_, _, C.wf, C.rest, C.bytes, fun r hr h0 h9 => absurd h9 (C.app r hr h0)⟩
    · exact ⟨[], [], by simp, Or.inl (by simp), by rw [ha, if_neg hc]; rfl, by simp⟩
  obtain ⟨tr', ops', s', q1, q2, q3⟩ := C111_reaches_calm h1
  have hrest := (C111_rests h1 hn).2 tr' ops' s' q1 q3
  have hidle : NoCaller s.m := by
    intro p k x hx
    have : s.m.pu p = .idle := by
      by_cases hp0 : p = 0
      · subst hp0; revert a6; cases s.m.pu 0 <;> simp
      · exact g.2 p hp0
    rw [this] at hx
    rcases hx with hx | hx <;> cases hx
  have hcalm : Calm 3 (ops ++ ops') := by
    obtain ⟨b1, b2, b3⟩ := q2 3
    refine ⟨fun hm => ?_, fun k1 k2 hm => ?_, fun hm => ?_⟩
    · rcases List.mem_append.1 hm with hm | hm
      · have := a7 _ hm; cases this
      · exact b1 hm
    · rcases List.mem_append.1 hm with hm | hm
      · have := a7 _ hm; cases this
      · exact b2 k1 k2 hm
    · rcases List.mem_append.1 hm with hm | hm
      · have := a7 _ hm; cases this
      · exact b3 hm
  have hcalled : called ⟨3, 7⟩ (tr ++ tr') = [] := by
    rw [called_append, a5, (own_called q1 hidle _).2]; rfl
  have hreq : WholeRequest jsonIns (jsonPairs.map Prod.fst) b!"{'a':1}\n" :=
    ⟨[(demoRec 4 (jsonPairs.flatMap Prod.snd), jsonPairs)], demoRec 4 [], [demoRec 5 b!"{'a':", demoRec 5 b!"1}\n"], demoRec 5 [], rfl,
      by intro p hp; simp only [List.mem_singleton] at hp; subst hp; exact jsonWhole, by simp, ⟨rfl, rfl⟩,
      by intro b hb; simp only [List.mem_cons, List.not_mem_nil, or_false] at hb; rcases hb with rfl | rfl <;> exact ⟨rfl, by decide⟩, by decide, ⟨rfl, rfl⟩⟩
  have hw : ∀ env, env.postBuffer = [] → env.contentType = b!"application/json" →
      takenWrites jsonHandlers (fun u e => [(false, .insert (u ++ u ++ e.postBuffer))]) [] env (bodyPieces jsonIns) =
        [(true, .insert b!"xxxxx"), (true, .insert b!"xxx"), (true, .insert b!"."), (false, .insert (b!"{'a':1}\n" ++ b!"{'a':1}\n" ++ []))] := by
    intro env h0 ht
    rw [show bodyPieces jsonIns = [b!"{'a':", b!"1}\n"] from by decide]
    simp only [takenWrites, whileComing, jsonHandlers, ht, if_true, List.append_nil]
    rfl
  obtain ⟨env, answer, en, T, o1, _, _, o2, o3, o4, _, o5⟩ := C152_taken_closed (hd := jsonHandlers)
    (app := fun u e => [(false, .insert (u ++ u ++ e.postBuffer))]) (fun _ _ _ => rfl) jsonTakes (fun _ _ _ => ⟨rfl, rfl⟩)
    (by
      intro env e op ho
      rw [show bodyPieces jsonIns = [b!"{'a':", b!"1}\n"] from by decide] at ho
      simp only [takenWrites, whileComing, jsonHandlers] at ho
      split at ho <;>
      · simp only [writtenOn, List.mem_map, List.mem_filter, List.mem_append, List.mem_cons, List.not_mem_nil, or_false, List.append_nil, false_or] at ho
        obtain ⟨x, ⟨hx, _⟩, rfl⟩ := ho
        rcases hx with (((rfl | rfl) | rfl) | rfl) <;> simp)
    h1 R C (fun r hr => (hwf r hr).2) (Or.inl (by decide)) hreq
    (Or.inr ⟨b!"8", by decide, by decide, by unfold IsDigit; decide, by decide⟩) (by decide) (by decide) q1 hrest hcalm hcalled
  have hT := hw env T.body (by rw [T.type]; decide)
  refine ⟨tr, ops, s, tr', ops', s', h1, R, q1, hrest, by rw [ha, if_pos rfl], hcalm, hcalled, answer, en, o1, ?_, ?_, o4, o5.2 (by decide)⟩
  · rw [o2, hT]; decide
  · rw [o3, hT]; decide

end Fcgi.Props
