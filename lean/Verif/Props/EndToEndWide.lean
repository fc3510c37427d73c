import Verif.Props.EndToEnd
import Verif.Lemmas.EndToEndWide
/-! # C150: a form sent to a server of wide-character requests is what the application answers -/
namespace Fcgi.Props
open Fcgi.Spec Fcgi.Model

/-- The environment of wide characters that `response()` sees says what the variables `nvs` and the body say: it holds what the narrow one of
C148 holds, each text decoded from UTF-8, and each text is what the values given for it show. -/
def TellsW (nvs : List (Bytes × Bytes)) (fields : List (Bytes × Bytes)) (files : List (Bytes × Bytes × Bytes × Bytes)) (w : EnvW) : Prop :=
  ∃ env, Tells nvs fields files env ∧ SameEnv env w ∧ TextsOf nvs w

theorem text_on {l : List (Bool × SOp UInt32)} (h : ∀ o ∈ l, WritesText o.2) {e : Bool} : ∀ op ∈ writtenOn e l, WritesText op := by
  intro op hop
  obtain ⟨o, ho, rfl⟩ := List.mem_map.1 hop
  exact h o (List.mem_filter.1 ho).1

/-- The content types of forms are text. -/
theorem type_text {its : List ((Bytes × Bytes) × Bytes)} (he : ∀ i ∈ its, EncPair i.1 i.2) {env : Env} (h : fillPairs [0] its {} = .ok env)
    {body fields files} (hb : FormBody (its.map Prod.fst) body fields files) : body = [] ∨ ∃ t, IsText t ∧ env.contentType = utf8Text t := by
  have e := encPairs_of its he
  have hf : fill ([] ++ its.flatMap Prod.snd ++ [0]) ([] : Bytes).length ([] ++ its.flatMap Prod.snd).length {} = .ok env := by
    rw [fill_items its [] [0] {} he]; exact h
  cases hb with
  | empty => exact .inl rfl
  | urlencoded type name text =>
    have ht := (C24_parsed (he := e) (hf := hf)).2.2
    rw [type] at ht
    obtain ⟨a1, a2⟩ := utf8Text_ascii b!"application/x-www-form-urlencoded" (by decide)
    exact .inr ⟨_, a1, by rw [a2]; exact ht.trans name⟩
  | @multipart boundary parts type wf pwf =>
    obtain ⟨b1, b2⟩ := fillPairs_boundary [0] its _ _ h b!"multipart/form-data" boundary (by decide) type
    obtain ⟨a1, a2⟩ := utf8Text_ascii b!"multipart/form-data" (by decide)
    exact .inr ⟨_, a1, by rw [a2]; exact b2⟩

/-- A request on its own with a whole form. -/
theorem form_aloneW {U : Type} {n : Nat} {resp : U → EnvW → Message → ActW U × Bool} {app : EnvW → List (Bool × SOp UInt32)} {max : Nat} {u : U}
    {host rh ph} {c : Nat} {id : UInt16} {b : Record} {ins : List Record} {nvs : List (Bytes × Bytes)} {body : Bytes} {fields files}
    {kill : Bool} {q : ReqW U} {rest : List Message} {fin : Bool}
    (happ : ∀ env m, (resp u env m).1.ops = app env ∧ (resp u env m).2 = true)
    (hwf : ∀ r ∈ ins, r.WF) (hrole : b.role = 1 ∨ b.role = 2) (hreq : WholeRequest ins nvs body) (hbody : FormBody nvs body fields files)
    (hlen : LengthTold nvs body.length) (hmax : body.length ≤ max) (hint : body.length ≤ 2147483647)
    (ha : Alone (wideServer n (defaultHandlersW resp) max u host rh ph) c id b (ins.map .record) kill q rest fin) :
    ∃ env, TellsW nvs fields files env ∧ fin = true ∧ (∀ e, writesW e q.log = writtenOn e (app env)) ∧
      ∃ before, ∃ rs : List Record, ∃ end_, q.log = before ++ [.sent c end_ kill] ∧ IsEndRequest id.toNat 0 end_ ∧
        sentOfW before = rs.map (fun x => (c, x.bytes, false)) ∧ (∀ x ∈ rs, GoodRecord id 6 x ∨ GoodRecord id 7 x) ∧
        (noEnc (writtenOn false (app env)) → (∀ op ∈ writtenOn false (app env), WritesText op) → (rs.filter (fun x => x.type = 6)).flatMap Record.content = (writtenOn false (app env)).flatMap (writtenBy utf8Text)) ∧
        (noEnc (writtenOn true (app env)) → (∀ op ∈ writtenOn true (app env), WritesText op) → (rs.filter (fun x => x.type = 7)).flatMap Record.content = (writtenOn true (app env)).flatMap (writtenBy utf8Text)) := by
  obtain ⟨role, r1, _, h⟩ := alone_wide.1 ha
  obtain ⟨ps, p0, bs, i0, rfl, s2, rfl, s4, s5, rfl, s7⟩ := hreq.split
  have hrole' : role = 1 ∨ role = 2 := by
    unfold Record.role at hrole
    rw [← r1] at hrole
    exact hrole.imp (fun h => UInt16.toNat.inj h) (fun h => UInt16.toNat.inj h)
  have he : ∀ i ∈ ps.flatMap Prod.snd, EncPair i.1 i.2 := by
    intro i hi
    obtain ⟨p, hp, hi⟩ := List.mem_flatMap.1 hi
    exact (s2 p hp).enc i hi
  obtain ⟨env, henv, _⟩ := handler_params (defaultHandlers fun (u : Unit) env _ => (⟨[], env, u⟩, true)) (fun _ _ _ => 0) ps (freshReq c id role kill max ()) (freshReq_alive ..) rfl hrole' s2
  have henv' : fillPairs [0] (ps.flatMap Prod.snd) {} = .ok env := henv
  have hcl : env.contentLength.toNat = (bs.flatMap Record.content).length := by
    have e := encPairs_of _ he
    have hf : fill ([] ++ (ps.flatMap Prod.snd).flatMap Prod.snd ++ [0]) ([] : Bytes).length ([] ++ (ps.flatMap Prod.snd).flatMap Prod.snd).length {} = .ok env := by
      rw [fill_items _ [] [0] {} he]; exact henv'
    obtain ⟨n1, _, _, _, _, n6, _⟩ := C24_numbers (he := e) (hf := hf)
    rcases hlen with ⟨h0, h1⟩ | ⟨v, h1, h2⟩
    · rw [n6 h1, h0]; rfl
    · exact n1 v _ h1 h2 hint
  have hparse := parse_body he henv' hbody
  have wf : ∀ r, r ∈ ps.map Prod.fst ++ [p0] ++ bs ++ [i0] → r.WF := hwf
  obtain ⟨w, r, w1, w2, b1, b2, _, b3⟩ := body_runW resp host c id role kill max u hrole' ps s2 p0 i0 ⟨wf _ (by simp), s4⟩ ⟨wf _ (by simp), s7⟩ bs
    (fun b hb => ⟨wf _ (by simp [hb]), s5 b hb⟩) henv' (by rw [hcl]; exact hmax) (by rw [hcl]; exact Nat.le_refl _) hparse (type_text he henv' hbody)
  rw [(happ _ _).2] at b1
  have hm : ((ps.map Prod.fst ++ [p0] ++ bs ++ [i0]).map Input.record).map Input.message = (ps.map Prod.fst ++ [p0] ++ bs ++ [i0]).map fcgiMsg := by
    rw [List.map_map]; rfl
  rw [hm, b1] at h
  cases h
  have T := tells_fill he henv' fields files
  refine ⟨w, ⟨_, T, w1, w2⟩, rfl, fun e => ?_, ?_⟩
  · rw [b3 e, (happ _ _).1]
  · obtain ⟨before, rs, en, c1, c2, c3, c4, c5, c6⟩ := C120_complete_partial _ host c id role kill max u _ b1
    rw [b2] at c2
    simp only [b3, (happ _ _).1] at c5 c6
    exact ⟨before, rs, en, c1, c2, c3, c4, c5, c6⟩

/-- The whole path, for an application with wide characters.  A web server sends a request for `id` on connection `c`, in any pieces and among
any other requests; the application's class keeps the library's handlers and its `response()` writes `app env` - text - for the environment
`env` it sees and says it is finished.  When the server has come to rest and the connection is open, then the application saw an environment that
says what was sent, decoded from UTF-8, and the records for `id` on the connection are records of STDOUT and STDERR with exactly what it wrote, in
UTF-8, and after them END_REQUEST with status 0. -/
theorem C150_form_answered {U : Type} {n : Nat} {resp : U → EnvW → Message → ActW U × Bool} {app : EnvW → List (Bool × SOp UInt32)} {max : Nat} {u : U}
    {host rh ph} {tr tr' : List MEvent} {ops ops' : List TOp} {s s' : Srv (ReqW U)} {c : Nat} {id : UInt16} {rs : List Record} {tail : Bytes}
    {b : Record} {ins : List Record} {nvs : List (Bytes × Bytes)} {body : Bytes} {fields files}
    (happ : ∀ env m, (resp u env m).1.ops = app env ∧ (resp u env m).2 = true) (hplain : ∀ env e, noEnc (writtenOn e (app env))) 
    (htext : ∀ env, TellsW nvs fields files env → ∀ o ∈ app env, WritesText o.2)
    (h : SrvRun (wideServer n (defaultHandlersW resp) max u host rh ph) srvInit tr ops s) (R : SrvUp s)
    (C : Conversation ops c id rs tail b ins) (hlost : ∀ r ∈ rs, r.id ≠ 0xffff)
    (hrole : b.role = 1 ∨ b.role = 2) (hreq : WholeRequest ins nvs body) (hbody : FormBody nvs body fields files)
    (hlen : LengthTold nvs body.length) (hmax : body.length ≤ max) (hint : body.length ≤ 2147483647)
    (h' : OwnRun (wideServer n (defaultHandlersW resp) max u host rh ph) s tr' ops' s') (hr : SrvRest (wideServer n (defaultHandlersW resp) max u host rh ph) s')
    (hv : (s'.t.conns c).valid = true) (hcall : called ⟨c, id⟩ (tr ++ tr') = []) :
    ∃ env, TellsW nvs fields files env ∧
      ∀ outs otail, (∀ r ∈ outs, r.WF) → Incomplete otail → (s'.t.conns c).output = stream outs ++ otail →
        otail = [] ∧ ∃ answer end_, outs.filter (fun r => r.id = id.toNat) = answer ++ [end_] ∧
          (∀ x ∈ answer, x.type = 6 ∨ x.type = 7) ∧
          (answer.filter (fun x => x.type = 6)).flatMap Record.content = (writtenOn false (app env)).flatMap (writtenBy utf8Text) ∧
          (answer.filter (fun x => x.type = 7)).flatMap Record.content = (writtenOn true (app env)).flatMap (writtenBy utf8Text) ∧
          end_.type = 3 ∧ end_.content.take 5 = [0, 0, 0, 0, 0] := by
  haveI : OfLibrary (wideServer n (defaultHandlersW resp) max u host rh ph) := .wide ..
  obtain ⟨is, kill, q, rest, fin, A, a1, a2, _, a4⟩ := C111_answered h R C hlost h' hr hv
  rw [hcall] at a2
  have his := inputs_records (List.prefix_nil.1 a2)
  rw [a1] at his
  subst his
  have hwf : ∀ r ∈ ins, r.WF := by
    intro r hr
    have : r ∈ rs.filter (fun r => r.id = id.toNat) := by rw [C.mine]; simp [hr]
    exact C.wf r (List.mem_filter.1 this).1
  obtain ⟨env, T, _, _, before, ans, en, c1, ⟨er, e1, e2, e3, e4, e5, e6, rfl⟩, c3, c4, c5, c6⟩ := form_aloneW happ hwf hrole hreq hbody hlen hmax hint A
  refine ⟨env, T, fun outs otail ho hi hs => ?_⟩
  obtain ⟨o1, o2⟩ := a4 outs otail ho hi hs
  have hsent : (Transmits.sent q).map (·.2.1) = (ans ++ [er]).map Record.bytes := by
    show (sentOfW q.log).map (·.2.1) = _
    rw [c1, sentOf_appendW, c3]
    simp [sentOfW]
  rw [hsent] at o2
  have hid : id.toNat < 2 ^ 16 := id.toNat_lt
  have hwa : ∀ y ∈ ans ++ [er], y.WF := by
    intro y hy
    rcases List.mem_append.1 hy with hy | hy
    · rcases c4 y hy with g | g <;> exact ⟨by rw [g.id]; exact hid, by have := g.contentLength; omega, by have := g.padding; omega⟩
    · simp only [List.mem_singleton] at hy
      subst hy
      exact ⟨by rw [e3]; exact hid, by rw [e4]; decide, by rw [e6]; decide⟩
  have heq := records_bytes_inj (fun x hx => ho x (List.mem_filter.1 hx).1) hwa o2
  exact ⟨o1, ans, er, heq, fun x hx => (c4 x hx).imp (fun g => g.type) (fun g => g.type), c5 (hplain _ _) (text_on (htext _ T)), c6 (hplain _ _) (text_on (htext _ T)), e2, e5⟩

/-- For a connection with this one request on which nothing goes wrong, the bytes are exactly those, and the connection has been closed exactly if
the web server did not ask to keep it. -/
theorem C150_form_closed {U : Type} {n : Nat} {resp : U → EnvW → Message → ActW U × Bool} {app : EnvW → List (Bool × SOp UInt32)} {max : Nat} {u : U}
    {host rh ph} {tr tr' : List MEvent} {ops ops' : List TOp} {s s' : Srv (ReqW U)} {c : Nat} {id : UInt16} {rs : List Record} {tail : Bytes}
    {b : Record} {ins : List Record} {nvs : List (Bytes × Bytes)} {body : Bytes} {fields files}
    (happ : ∀ env m, (resp u env m).1.ops = app env ∧ (resp u env m).2 = true) (hplain : ∀ env e, noEnc (writtenOn e (app env))) 
    (htext : ∀ env, TellsW nvs fields files env → ∀ o ∈ app env, WritesText o.2)
    (h : SrvRun (wideServer n (defaultHandlersW resp) max u host rh ph) srvInit tr ops s) (R : SrvUp s)
    (C : Conversation ops c id rs tail b ins) (hone : ∀ r ∈ rs, r.id = id.toNat)
    (hrole : b.role = 1 ∨ b.role = 2) (hreq : WholeRequest ins nvs body) (hbody : FormBody nvs body fields files)
    (hlen : LengthTold nvs body.length) (hmax : body.length ≤ max) (hint : body.length ≤ 2147483647)
    (h' : OwnRun (wideServer n (defaultHandlersW resp) max u host rh ph) s tr' ops' s') (hr : SrvRest (wideServer n (defaultHandlersW resp) max u host rh ph) s')
    (hcalm : Calm c (ops ++ ops')) (hcall : called ⟨c, id⟩ (tr ++ tr') = []) :
    ∃ env answer end_, TellsW nvs fields files env ∧ (s'.t.conns c).output = stream (answer ++ [end_]) ∧
      (∀ x ∈ answer ++ [end_], x.WF ∧ x.version = 1 ∧ x.id = id.toNat) ∧ (∀ x ∈ answer, x.type = 6 ∨ x.type = 7) ∧
      (answer.filter (fun x => x.type = 6)).flatMap Record.content = (writtenOn false (app env)).flatMap (writtenBy utf8Text) ∧
      (answer.filter (fun x => x.type = 7)).flatMap Record.content = (writtenOn true (app env)).flatMap (writtenBy utf8Text) ∧
      end_.type = 3 ∧ end_.content.take 5 = [0, 0, 0, 0, 0] ∧
      ((s'.t.conns c).valid = false ↔ (b.content.getD 2 0).toNat % 2 = 0) := by
  haveI : OfLibrary (wideServer n (defaultHandlersW resp) max u host rh ph) := .wide ..
  obtain ⟨is, kill, q, rest, fin, A, a1, a2, _, a4, a5⟩ := C111_closed h R C hone h' hr hcalm
  rw [hcall] at a2
  have his := inputs_records (List.prefix_nil.1 a2)
  rw [a1] at his
  subst his
  have hwf : ∀ r ∈ ins, r.WF := by
    intro r hr
    have : r ∈ rs.filter (fun r => r.id = id.toNat) := by rw [C.mine]; simp [hr]
    exact C.wf r (List.mem_filter.1 this).1
  obtain ⟨env, T, f1, _, before, ans, en, c1, ⟨er, e1, e2, e3, e4, e5, e6, rfl⟩, c3, c4, c5, c6⟩ := form_aloneW happ hwf hrole hreq hbody hlen hmax hint A
  obtain ⟨_, _, hk, _⟩ := A
  have hsent : (Transmits.sent q).flatMap (·.2.1) = stream (ans ++ [er]) := by
    show (sentOfW q.log).flatMap (·.2.1) = _
    rw [c1, sentOf_appendW, c3]
    simp [sentOfW, stream, List.flatMap_map]
  rw [hsent] at a4
  have hid : id.toNat < 2 ^ 16 := id.toNat_lt
  refine ⟨env, ans, er, T, a4, ?_, fun x hx => (c4 x hx).imp (fun g => g.type) (fun g => g.type), c5 (hplain _ _) (text_on (htext _ T)), c6 (hplain _ _) (text_on (htext _ T)), e2, e5, ?_⟩
  · intro y hy
    rcases List.mem_append.1 hy with hy | hy
    · rcases c4 y hy with g | g <;> exact ⟨⟨by rw [g.id]; exact hid, by have := g.contentLength; omega, by have := g.padding; omega⟩, g.version, g.id⟩
    · simp only [List.mem_singleton] at hy
      subst hy
      exact ⟨⟨by rw [e3]; exact hid, by rw [e4]; decide, by rw [e6]; decide⟩, e1, e3⟩
  · rw [a5, ← hk]
    exact ⟨fun x => x.2, fun x => ⟨f1, x⟩⟩

/-! ### A concrete run

The application of C148 with wide characters: the value of the second field is the percent-coded UTF-8 form of `é`. -/

def formAppW (env : EnvW) : List (Bool × SOp UInt32) :=
  [(false, .insert (env.posts.flatMap fun p => p.2 ++ [32])), (true, .insert (env.posts.flatMap Prod.fst))]
def formRespW : Unit → EnvW → Message → ActW Unit × Bool := fun u env _ => (⟨formAppW env, env, u⟩, true)
def formServerW : SrvProg (ReqW Unit) := wideServer 1 (defaultHandlersW formRespW) 100 () ⟨fun _ _ _ => 0, true⟩ (fun _ => 0) (fun _ => 0)
instance : OfLibrary formServerW := .wide ..

def formPairsW : List ((Bytes × Bytes) × Bytes) :=
  [((b!"CONTENT_LENGTH", b!"12"), [14, 2] ++ b!"CONTENT_LENGTH" ++ b!"12"),
   ((b!"CONTENT_TYPE", b!"application/x-www-form-urlencoded"), [12, 33] ++ b!"CONTENT_TYPE" ++ b!"application/x-www-form-urlencoded")]
def formInsW : List Record :=
  [demoRec 4 (formPairsW.flatMap Prod.snd), demoRec 4 [], demoRec 5 b!"a=1&b", demoRec 5 b!"=%C3%A9", demoRec 5 []]
def formBytesW : Bytes := stream (formBegin :: formInsW)
def formRunW : List SrvChoice := [.outer .start, .go 50, .op (.arrive 3 formBytesW)]

def formEndW (x : List MEvent × List TOp × Srv (ReqW Unit)) : Bool :=
  x.2.2.m.terminate == false && x.2.2.m.stop == false && (match x.2.2.m.th 0 with | .off | .finished => false | _ => true) &&
  (x.2.1.filterMap fun | .arrive c d => some (c, d) | _ => none) == [(3, formBytesW)] && (called ⟨3, 7⟩ x.1).isEmpty && (match x.2.2.m.pu 0 with | .idle => true | _ => false) &&
  x.2.1.all (fun o => match o with | .receive _ _ _ => false | .tx _ => false | .hangup _ => false | _ => true)

theorem formRunW_end : (srvPlay formServerW formRunW ([], [], srvInit)).any formEndW = true := by decide +kernel

theorem formWholeW : WholePairs (demoRec 4 (formPairsW.flatMap Prod.snd)) formPairsW := by
  refine ⟨by unfold Record.WF; decide, rfl, by decide, rfl, ?_, ?_, ⟨0, by decide, by decide⟩⟩
  · intro i hi
    simp only [formPairsW, List.mem_cons, List.not_mem_nil, or_false] at hi
    rcases hi with rfl | rfl
    · exact ⟨[14], [2], .short 14 (by decide), .short 2 (by decide), by decide⟩
    · exact ⟨[12], [33], .short 12 (by decide), .short 33 (by decide), by decide⟩
  · intro i hi
    simp only [formPairsW, List.mem_cons, List.not_mem_nil, or_false] at hi
    rcases hi with rfl | rfl
    · exact ⟨fun _ => ⟨12, by decide, by decide, by unfold IsDigit; decide, by decide⟩, fun h => absurd h (by decide)⟩
    · exact ⟨fun h => absurd h (by decide), fun h => absurd h (by decide)⟩

theorem formTextW_demo : FormText b!"a=1&b=%C3%A9" [(b!"a", b!"1"), (b!"b", [0xc3, 0xa9])] :=
  ⟨[b!"a=1", b!"b=%C3%A9"],
    .cons (rn := b!"a") (rv := b!"1") (.plain _ (by decide) .nil) (.plain _ (by decide) .nil) (by decide) (by decide) (by decide)
      (.cons (rn := b!"b") (rv := b!"%C3%A9") (.plain _ (by decide) .nil)
        (.esc (h := 12) (l := 3) 67 51 (by decide) (by decide) (.esc (h := 10) (l := 9) 65 57 (by decide) (by decide) .nil)) (by decide) (by decide) (by decide) .nil), rfl⟩

/-- What the application sees. -/
theorem formPostsW {nvs files} {w : EnvW} (T : TellsW nvs [(b!"a", b!"1"), (b!"b", [0xc3, 0xa9])] files w) :
    w.posts = [([97], [49]), ([98], [0xe9])] := by
  obtain ⟨env, T, S, _⟩ := T
  have h := S.posts
  rw [T.posts] at h
  revert h
  generalize w.posts = p
  intro h
  cases h with
  | cons h1 h =>
  cases h with
  | cons h2 h =>
  cases h
  obtain ⟨a1, a2⟩ := h1
  obtain ⟨b1, b2⟩ := h2
  have e1 := shows_fun a1
  have e2 := shows_fun a2
  have e3 := shows_fun b1
  have e4 := shows_fun b2
  rename_i x y
  obtain ⟨x1, x2⟩ := x
  obtain ⟨y1, y2⟩ := y
  dsimp only at e1 e2 e3 e4
  rw [e1, e2, e3, e4]
  decide

/-- The form arrives, the server comes to rest, and its peer has got `1 é ` as STDOUT, `ab` as STDERR, both in UTF-8, and END_REQUEST. -/
example : ∃ tr ops s tr' ops' s', SrvRun formServerW srvInit tr ops s ∧ SrvUp s ∧ OwnRun formServerW s tr' ops' s' ∧ SrvRest formServerW s' ∧
    arrived 3 ops = formBytesW ∧ Calm 3 (ops ++ ops') ∧ called ⟨3, 7⟩ (tr ++ tr') = [] ∧
    ∃ answer end_, (s'.t.conns 3).output = stream (answer ++ [end_]) ∧
      (answer.filter (fun x => x.type = 6)).flatMap Record.content = (b!"1 é " : Bytes) ∧
      (answer.filter (fun x => x.type = 7)).flatMap Record.content = b!"ab" ∧ end_.type = 3 ∧ (s'.t.conns 3).valid = false := by
  cases hp : srvPlay formServerW formRunW ([], [], srvInit) with
  | none => have := formRunW_end; rw [hp] at this; cases this
  | some y =>
  have he : formEndW y = true := by have := formRunW_end; rw [hp] at this; exact this
  have g := srvPlay_good formRunW (P := formServerW) (x := ([], [], srvInit)) ⟨.refl _, fun _ _ => rfl⟩ hp
  obtain ⟨tr, ops, s⟩ := y
  have h1 : SrvRun formServerW srvInit tr ops s := g.1
  simp only [formEndW, Bool.and_eq_true, beq_iff_eq, List.isEmpty_iff, List.all_eq_true] at he
  obtain ⟨⟨⟨⟨⟨⟨a1, a2⟩, a3⟩, a4⟩, a5⟩, a6⟩, a7⟩ := he
  have ha : ∀ c, arrived c ops = if c = 3 then formBytesW else [] := by
    intro c
    rw [(arrived_pairs c ops).trans (congrArg (fun l : List (Nat × Bytes) => (l.filter (fun x => x.1 = c)).flatMap (·.2)) a4)]
    by_cases hc : c = 3
    · subst hc; simp
    · have : ¬ 3 = c := fun e => hc e.symm
      simp [hc, this]
  have R : SrvUp s := ⟨⟨0, by revert a3; cases s.m.th 0 <;> simp⟩, a1, a2⟩
  have hwf : ∀ r ∈ formBegin :: formInsW, r.WF ∧ r.id = 7 := by
    intro r hr
    simp only [formInsW, formBegin, List.mem_cons, List.not_mem_nil, or_false] at hr
    rcases hr with rfl | rfl | rfl | rfl | rfl | rfl <;> exact ⟨by unfold Record.WF; decide, rfl⟩
  have C : Conversation ops 3 7 (formBegin :: formInsW) [] formBegin formInsW := by
    refine ⟨fun r hr => (hwf r hr).1, Or.inl (by simp), by rw [ha, if_pos rfl, List.append_nil]; rfl, by decide, fun r hr => ?_, ?_, rfl, ?_, ?_, ?_⟩
    · intro h0; rw [(hwf r hr).2] at h0; cases h0
    · apply List.filter_eq_self.2
      intro r hr; rw [(hwf r hr).2]; rfl
    · intro r hr
      simp only [formInsW, List.mem_cons, List.not_mem_nil, or_false] at hr
      rcases hr with rfl | rfl | rfl | rfl | rfl <;> decide
    · simp [formBegin, demoRec]
    · intro r hr h4 h0
      simp only [formInsW, List.mem_cons, List.not_mem_nil, or_false] at hr
      rcases hr with rfl | rfl | rfl | rfl | rfl
      · exact ⟨_, formWholeW⟩
      · exact absurd rfl h0
      all_goals exact absurd h4 (by decide)
  have hn : NoValues ops := by
    intro c
    by_cases hc : c = 3
    · subst hc
      exact ⟨_, _, C.wf, C.rest, C.bytes, fun r hr h0 h9 => absurd h9 (C.app r hr h0)⟩
    · exact ⟨[], [], by simp, Or.inl (by simp), by rw [ha, if_neg hc]; rfl, by simp⟩
  obtain ⟨tr', ops', s', q1, q2, q3⟩ := C111_reaches_calm h1
  have hrest := (C111_rests h1 hn).2 tr' ops' s' q1 q3
  have hidle : NoCaller s.m := by
    intro p k x hx
    have : s.m.pu p = .idle := by
      by_cases hp0 : p = 0
      · subst hp0; revert a6; cases s.m.pu 0 <;> simp
      · exact g.2 p hp0
    rw [this] at hx
    rcases hx with hx | hx <;> cases hx
  have hcalm : Calm 3 (ops ++ ops') := by
    obtain ⟨b1, b2, b3⟩ := q2 3
    refine ⟨fun hm => ?_, fun k1 k2 hm => ?_, fun hm => ?_⟩
    · rcases List.mem_append.1 hm with hm | hm
      · have := a7 _ hm; cases this
      · exact b1 hm
    · rcases List.mem_append.1 hm with hm | hm
      · have := a7 _ hm; cases this
      · exact b2 k1 k2 hm
    · rcases List.mem_append.1 hm with hm | hm
      · have := a7 _ hm; cases this
      · exact b3 hm
  have hcalled : called ⟨3, 7⟩ (tr ++ tr') = [] := by
    rw [called_append, a5, (own_called q1 hidle _).2]; rfl
  have hreq : WholeRequest formInsW (formPairsW.map Prod.fst) b!"a=1&b=%C3%A9" :=
    ⟨[(demoRec 4 (formPairsW.flatMap Prod.snd), formPairsW)], demoRec 4 [], [demoRec 5 b!"a=1&b", demoRec 5 b!"=%C3%A9"], demoRec 5 [], rfl,
      by intro p hp; simp only [List.mem_singleton] at hp; subst hp; exact formWholeW, by simp, ⟨rfl, rfl⟩,
      by intro b hb; simp only [List.mem_cons, List.not_mem_nil, or_false] at hb; rcases hb with rfl | rfl <;> exact ⟨rfl, by decide⟩, by decide, ⟨rfl, rfl⟩⟩
  obtain ⟨env, answer, en, T, o1, _, _, o2, o3, o4, _, o5⟩ := C150_form_closed (app := formAppW) (fun _ _ => ⟨rfl, rfl⟩)
    (by
      intro env e op ho
      simp only [formAppW, writtenOn, List.mem_map, List.mem_filter, List.mem_cons, List.not_mem_nil, or_false] at ho
      obtain ⟨x, ⟨rfl | rfl, _⟩, rfl⟩ := ho <;> simp)
    (by
      intro env T o ho
      simp only [formAppW, formPostsW T, List.mem_cons, List.not_mem_nil, or_false] at ho
      rcases ho with rfl | rfl
      · intro c hc
        simp only [List.flatMap_cons, List.flatMap_nil, List.mem_append, List.mem_cons, List.not_mem_nil, or_false] at hc
        rcases hc with (rfl | rfl) | rfl | rfl <;> exact Or.inl (by decide)
      · intro c hc
        simp only [List.flatMap_cons, List.flatMap_nil, List.mem_append, List.mem_cons, List.not_mem_nil, or_false] at hc
        rcases hc with rfl | rfl <;> exact Or.inl (by decide))
    h1 R C (fun r hr => (hwf r hr).2) (Or.inl (by decide)) hreq
    (.urlencoded (t := b!"application/x-www-form-urlencoded") (by decide) (by decide) formTextW_demo)
    (Or.inr ⟨b!"12", by decide, by decide, by unfold IsDigit; decide, by decide⟩) (by decide) (by decide) q1 hrest hcalm hcalled
  refine ⟨tr, ops, s, tr', ops', s', h1, R, q1, hrest, by rw [ha, if_pos rfl], hcalm, hcalled, answer, en, o1, ?_, ?_, o4, o5.2 (by decide)⟩
  · rw [o2]
    simp only [formAppW, writtenOn, formPostsW T]
    decide
  · rw [o3]
    simp only [formAppW, writtenOn, formPostsW T]
    decide

end Fcgi.Props

