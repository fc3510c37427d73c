import Verif.Spec.EndToEnd
import Verif.Lemmas.EndToEnd
import Verif.Props.ServerLive
/-! # C148: a form sent to the server is what the application answers -/
namespace Fcgi.Props
open Fcgi.Spec Fcgi.Model

/-- The records `ins` after BEGIN_REQUEST: the parameters `nvs` in any whole-pair records and their end, the bytes `body` in any records and
their end. -/
structure WholeRequest (ins : List Record) (nvs : List (Bytes × Bytes)) (body : Bytes) : Prop where
  split : ∃ (ps : List (Record × List ((Bytes × Bytes) × Bytes))) (p0 : Record) (bs : List Record) (i0 : Record),
    ins = ps.map Prod.fst ++ [p0] ++ bs ++ [i0] ∧
    (∀ p ∈ ps, WholePairs p.1 p.2) ∧ nvs = (ps.flatMap Prod.snd).map Prod.fst ∧ (p0.type = 4 ∧ p0.content = []) ∧
    (∀ b ∈ bs, b.type = 5 ∧ b.content ≠ []) ∧ body = bs.flatMap Record.content ∧ (i0.type = 5 ∧ i0.content = [])

/-- The environment that `response()` sees says what the variables `nvs` and the body say. -/
structure Tells (nvs : List (Bytes × Bytes)) (fields : List (Bytes × Bytes)) (files : List (Bytes × Bytes × Bytes × Bytes)) (env : Env) : Prop where
  posts : env.posts = fields
  files : env.files = files.map fun x => (x.1, ⟨x.2.1, x.2.2.1, x.2.2.2⟩)
  postBuffer : env.postBuffer = []
  gets : ∀ ds : List (Bytes × List (Bytes × Bytes)), ds.map Prod.fst = allValues b!"QUERY_STRING" nvs → (∀ d ∈ ds, FormText d.1 d.2) →
    env.gets = ds.flatMap Prod.snd
  cookies : ∀ ds : List (Bytes × List (Bytes × Bytes)), ds.map Prod.fst = allValues b!"HTTP_COOKIE" nvs → (∀ d ∈ ds, CookieText d.1 d.2) →
    env.cookies = ds.flatMap Prod.snd
  pathInfo : ∀ ds : List (Bytes × List Bytes), ds.map Prod.fst = allValues b!"PATH_INFO" nvs → (∀ d ∈ ds, PathText d.1 d.2) →
    env.pathInfo = ds.flatMap Prod.snd
  languages : ∀ ds : List (Bytes × List Bytes), ds.map Prod.fst = allValues b!"HTTP_ACCEPT_LANGUAGE" nvs → (∀ d ∈ ds, LangText d.1 d.2) →
    env.acceptLanguages = ds.flatMap Prod.snd
  others : ∀ key, key ∉ wellKnown → env.others.lookup key = lastValue key nvs
  host : env.host = (lastValue b!"HTTP_HOST" nvs).getD []
  origin : env.origin = (lastValue b!"HTTP_ORIGIN" nvs).getD []
  userAgent : env.userAgent = (lastValue b!"HTTP_USER_AGENT" nvs).getD []
  accept : env.acceptContentTypes = (lastValue b!"HTTP_ACCEPT" nvs).getD []
  charsets : env.acceptCharsets = (lastValue b!"HTTP_ACCEPT_CHARSET" nvs).getD []
  authorization : env.authorization = (lastValue b!"HTTP_AUTHORIZATION" nvs).getD []
  referer : env.referer = (lastValue b!"HTTP_REFERER" nvs).getD []
  root : env.root = (lastValue b!"DOCUMENT_ROOT" nvs).getD []
  scriptName : env.scriptName = (lastValue b!"SCRIPT_NAME" nvs).getD []
  requestUri : env.requestUri = (lastValue b!"REQUEST_URI" nvs).getD []
  serverAddress : ∀ v a, lastValue b!"SERVER_ADDR" nvs = some v → AddrText v a → env.serverAddress.toList = a
  remoteAddress : ∀ v a, lastValue b!"REMOTE_ADDR" nvs = some v → AddrText v a → env.remoteAddress.toList = a
  serverPort : ∀ v n, lastValue b!"SERVER_PORT" nvs = some v → IsDecimal v n → n ≤ 65535 → env.serverPort.toNat = n
  remotePort : ∀ v n, lastValue b!"REMOTE_PORT" nvs = some v → IsDecimal v n → n ≤ 65535 → env.remotePort.toNat = n
  method : ∀ v, lastValue b!"REQUEST_METHOD" nvs = some v → env.requestMethod = parseMethod v

theorem fillPairs_posts (t : Bytes) : ∀ (its : List ((Bytes × Bytes) × Bytes)) (e e' : Env), fillPairs t its e = .ok e' →
    e'.posts = e.posts ∧ e'.files = e.files := by
  intro its
  induction its with
  | nil => intro e e' h; cases h; exact ⟨rfl, rfl⟩
  | cons i its ih =>
    intro e e' h
    obtain ⟨⟨n, v⟩, b⟩ := i
    simp only [fillPairs] at h
    obtain ⟨e1, h1, h2⟩ := Res.bind_eq_ok.1 h
    obtain ⟨a1, a2⟩ := ih _ _ h2
    rw [a1, a2]
    cases fillStep_effect h1 <;> exact ⟨rfl, rfl⟩

theorem encPairs_of (its : List ((Bytes × Bytes) × Bytes)) (h : ∀ i ∈ its, EncPair i.1 i.2) : EncPairs (its.map Prod.fst) (its.flatMap Prod.snd) := by
  induction its with
  | nil => exact .nil
  | cons i its ih => exact .cons (h i (by simp)) (ih fun j hj => h j (by simp [hj]))

theorem tells_fill {its : List ((Bytes × Bytes) × Bytes)} (he : ∀ i ∈ its, EncPair i.1 i.2) {env : Env} (h : fillPairs [0] its {} = .ok env)
    (fields : List (Bytes × Bytes)) (files : List (Bytes × Bytes × Bytes × Bytes)) :
    Tells (its.map Prod.fst) fields files
      { env with postBuffer := [], posts := fields, files := files.map fun x => (x.1, ⟨x.2.1, x.2.2.1, x.2.2.2⟩) } := by
  have e := encPairs_of its he
  have hf : fill ([] ++ its.flatMap Prod.snd ++ [0]) ([] : Bytes).length ([] ++ its.flatMap Prod.snd).length {} = .ok env := by
    rw [fill_items its [] [0] {} he]; exact h
  obtain ⟨t1, t2, t3, t4, t5, t6, t7, t8, t9, t10⟩ := C24_text (he := e) (hf := hf)
  obtain ⟨l1, l2, l3, l4⟩ := C24_lists (he := e) (hf := hf)
  obtain ⟨a1, a2, _⟩ := C24_addresses (he := e) (hf := hf)
  obtain ⟨_, _, _, n4, n5, _⟩ := C24_numbers (he := e) (hf := hf)
  exact {
    posts := rfl, files := rfl, postBuffer := rfl
    gets := fun ds h1 h2 => by rw [show _ = _ from l1 ds h1 h2]; rfl
    cookies := fun ds h1 h2 => by rw [show _ = _ from l2 ds h1 h2]; rfl
    pathInfo := fun ds h1 h2 => by rw [show _ = _ from l3 ds h1 h2]; rfl
    languages := fun ds h1 h2 => by rw [show _ = _ from l4 ds h1 h2]; rfl
    others := fun key hk => by
      have := C24_others (he := e) (hf := hf) (key := key) (hk := hk)
      dsimp only
      rw [this]
      cases lastValue key (its.map Prod.fst) <;> rfl
    host := t1, origin := t2, userAgent := t3, accept := t4, charsets := t5, authorization := t6, referer := t7, root := t8
    scriptName := t9, requestUri := t10
    serverAddress := a1, remoteAddress := a2, serverPort := n4, remotePort := n5
    method := fun v hv => by
      have := (C24_parsed (he := e) (hf := hf)).2.1
      rw [hv] at this
      exact this }

/-- Parsing the body. -/
theorem parse_body {its : List ((Bytes × Bytes) × Bytes)} (he : ∀ i ∈ its, EncPair i.1 i.2) {env : Env} (h : fillPairs [0] its {} = .ok env)
    {body fields files} (hb : FormBody (its.map Prod.fst) body fields files) :
    parsePostBuffer { env with postBuffer := body } = .ok ({ env with postBuffer := body, posts := fields, files := files.map fun x => (x.1, ⟨x.2.1, x.2.2.1, x.2.2.2⟩) }, true) := by
  have e := encPairs_of its he
  have hf : fill ([] ++ its.flatMap Prod.snd ++ [0]) ([] : Bytes).length ([] ++ its.flatMap Prod.snd).length {} = .ok env := by
    rw [fill_items its [] [0] {} he]; exact h
  obtain ⟨p1, p2⟩ := fillPairs_posts [0] its _ _ h
  cases hb with
  | empty =>
    have : ({ env with postBuffer := [], posts := [], files := [] } : Env) = { env with postBuffer := [] } := by
      rw [← (show env.posts = [] from p1), ← (show env.files = [] from p2)]
    simp only [List.map_nil, this]
    rfl
  | urlencoded type name text =>
    have ht := (C24_parsed (he := e) (hf := hf)).2.2
    rw [type] at ht
    rw [C21_post text { env with postBuffer := body } (ht.trans name) rfl]
    simp only [List.map_nil, (show env.posts = [] from p1), ← (show env.files = [] from p2), List.nil_append]
  | @multipart boundary parts type wf pwf =>
    obtain ⟨b1, b2⟩ := fillPairs_boundary [0] its _ _ h b!"multipart/form-data" boundary (by decide) type
    rw [C29_roundtrip { env with postBuffer := multipart boundary parts } parts (by rw [show env.boundary = _ from b1]; exact wf)
      (by rw [show env.boundary = _ from b1]; exact pwf) b2 (by rw [show env.boundary = _ from b1])]
    simp only [(show env.posts = [] from p1), (show env.files = [] from p2), List.nil_append]

/-- A record is determined by its bytes. -/
theorem record_bytes_inj {x y : Record} (hx : x.WF) (hy : y.WF) (h : x.bytes = y.bytes) : x = y := by
  obtain ⟨xv, xt, xi, xc, xp, xr⟩ := x
  obtain ⟨yv, yt, yi, yc, yp, yr⟩ := y
  simp only [Record.WF] at hx hy
  simp only [Record.bytes, beDigits2, List.cons_append, List.nil_append, List.append_assoc, List.cons.injEq] at h
  obtain ⟨h1, h2, h3, h4, h5, h6, h7, h8, h9⟩ := h
  have n : ∀ a b : Nat, UInt8.ofNat a = UInt8.ofNat b → a % 256 = b % 256 := by
    intro a b hab
    have := congrArg UInt8.toNat hab
    simpa using this
  have hi : xi = yi := by have := n _ _ h3; have := n _ _ h4; omega
  have hl : xc.length = yc.length := by have := n _ _ h5; have := n _ _ h6; omega
  obtain ⟨h10, h11⟩ := List.append_inj h9 hl
  subst h1 h2 hi h8 h10 h11
  rfl

theorem records_bytes_inj : ∀ {xs ys : List Record}, (∀ x ∈ xs, x.WF) → (∀ y ∈ ys, y.WF) → xs.map Record.bytes = ys.map Record.bytes → xs = ys := by
  intro xs
  induction xs with
  | nil => intro ys _ _ h; cases ys <;> simp_all
  | cons x xs ih =>
    intro ys hx hy h
    cases ys with
    | nil => simp at h
    | cons y ys =>
      simp only [List.map_cons, List.cons.injEq] at h
      rw [record_bytes_inj (hx x (by simp)) (hy y (by simp)) h.1, ih (fun z hz => hx z (by simp [hz])) (fun z hz => hy z (by simp [hz])) h.2]

theorem inputs_records : ∀ {is : List Input}, callbacks is = [] → is = (records is).map .record := by
  intro is
  induction is with
  | nil => intro _; rfl
  | cons i is ih =>
    intro h
    cases i with
    | record r => simp only [records, List.map_cons]; rw [← ih h]
    | callback t d => simp [callbacks] at h

/-- A request on its own with a whole form. -/
theorem form_alone {U : Type} {n : Nat} {resp : U → Env → Message → Act U × Bool} {app : Env → List (Bool × SOp UInt8)} {max : Nat} {u : U}
    {heap rh ph} {c : Nat} {id : UInt16} {b : Record} {ins : List Record} {nvs : List (Bytes × Bytes)} {body : Bytes} {fields files}
    {kill : Bool} {q : Req U} {rest : List Message} {fin : Bool}
    (happ : ∀ env m, (resp u env m).1.ops = app env ∧ (resp u env m).2 = true)
    (hwf : ∀ r ∈ ins, r.WF) (hrole : b.role = 1 ∨ b.role = 2) (hreq : WholeRequest ins nvs body) (hbody : FormBody nvs body fields files)
    (hlen : LengthTold nvs body.length) (hmax : body.length ≤ max) (hint : body.length ≤ 2147483647)
    (ha : Alone (narrowServer n (defaultHandlers resp) max u heap rh ph) c id b (ins.map .record) kill q rest fin) :
    ∃ env, Tells nvs fields files env ∧ fin = true ∧ (∀ e, writes e q.log = writtenOn e (app env)) ∧
      ∃ before, ∃ rs : List Record, ∃ end_, q.log = before ++ [.sent c end_ kill] ∧ IsEndRequest id.toNat 0 end_ ∧
        sentOf before = rs.map (fun x => (c, x.bytes, false)) ∧ (∀ x ∈ rs, GoodRecord id 6 x ∨ GoodRecord id 7 x) ∧
        (noEnc (writtenOn false (app env)) → (rs.filter (fun x => x.type = 6)).flatMap Record.content = (writtenOn false (app env)).flatMap (writtenBy _root_.id)) ∧
        (noEnc (writtenOn true (app env)) → (rs.filter (fun x => x.type = 7)).flatMap Record.content = (writtenOn true (app env)).flatMap (writtenBy _root_.id)) := by
  obtain ⟨role, r1, _, h⟩ := alone_narrow.1 ha
  obtain ⟨ps, p0, bs, i0, rfl, s2, rfl, s4, s5, rfl, s7⟩ := hreq.split
  have hrole' : role = 1 ∨ role = 2 := by
    unfold Record.role at hrole
    rw [← r1] at hrole
    exact hrole.imp (fun h => UInt16.toNat.inj h) (fun h => UInt16.toNat.inj h)
  have he : ∀ i ∈ ps.flatMap Prod.snd, EncPair i.1 i.2 := by
    intro i hi
    obtain ⟨p, hp, hi⟩ := List.mem_flatMap.1 hi
    exact (s2 p hp).enc i hi
  obtain ⟨env, henv, _⟩ := handler_params (defaultHandlers resp) heap ps (freshReq c id role kill max u) (freshReq_alive ..) rfl hrole' s2
  have henv' : fillPairs [0] (ps.flatMap Prod.snd) {} = .ok env := henv
  have hcl : env.contentLength.toNat = (bs.flatMap Record.content).length := by
    have e := encPairs_of _ he
    have hf : fill ([] ++ (ps.flatMap Prod.snd).flatMap Prod.snd ++ [0]) ([] : Bytes).length ([] ++ (ps.flatMap Prod.snd).flatMap Prod.snd).length {} = .ok env := by
      rw [fill_items _ [] [0] {} he]; exact henv'
    obtain ⟨n1, _, _, _, _, n6, _⟩ := C24_numbers (he := e) (hf := hf)
    rcases hlen with ⟨h0, h1⟩ | ⟨v, h1, h2⟩
    · rw [n6 h1, h0]; rfl
    · exact n1 v _ h1 h2 hint
  have hparse := parse_body he henv' hbody
  have wf : ∀ r, r ∈ ps.map Prod.fst ++ [p0] ++ bs ++ [i0] → r.WF := hwf
  obtain ⟨r, b1, b2, _, b3⟩ := body_run resp heap c id role kill max u hrole' ps s2 p0 i0 ⟨wf _ (by simp), s4⟩ ⟨wf _ (by simp), s7⟩ bs
    (fun b hb => ⟨wf _ (by simp [hb]), s5 b hb⟩) henv' (by rw [hcl]; exact hmax) (by rw [hcl]; exact Nat.le_refl _) hparse
  rw [(happ _ _).2] at b1
  have hm : ((ps.map Prod.fst ++ [p0] ++ bs ++ [i0]).map Input.record).map Input.message = (ps.map Prod.fst ++ [p0] ++ bs ++ [i0]).map fcgiMsg := by
    rw [List.map_map]; rfl
  rw [hm, b1] at h
  cases h
  have T := tells_fill he henv' fields files
  refine ⟨_, T, rfl, fun e => ?_, ?_⟩
  · rw [b3 e, (happ _ _).1]
  · obtain ⟨before, rs, en, c1, c2, c3, c4, c5, c6⟩ := C39_complete _ heap c id role kill max u _ b1
    rw [b2] at c2
    simp only [b3, (happ _ _).1] at c5 c6
    exact ⟨before, rs, en, c1, c2, c3, c4, c5, c6⟩

/-- The whole path.  A web server sends a request for `id` on connection `c`, in any pieces and among any other requests; the application's
class keeps the library's handlers and its `response()` writes `app env` for the environment `env` it sees and says it is finished.  When
the server has come to rest and the connection is open, then the application saw an environment that says what was sent (C24, C21, C29), and
the records for `id` on the connection are records of STDOUT and STDERR with exactly what it wrote, and after them END_REQUEST with status 0. -/
theorem C148_form_answered {U : Type} {n : Nat} {resp : U → Env → Message → Act U × Bool} {app : Env → List (Bool × SOp UInt8)} {max : Nat} {u : U}
    {heap rh ph} {tr tr' : List MEvent} {ops ops' : List TOp} {s s' : Srv (Req U)} {c : Nat} {id : UInt16} {rs : List Record} {tail : Bytes}
    {b : Record} {ins : List Record} {nvs : List (Bytes × Bytes)} {body : Bytes} {fields files}
    (happ : ∀ env m, (resp u env m).1.ops = app env ∧ (resp u env m).2 = true) (hplain : ∀ env e, noEnc (writtenOn e (app env)))
    (h : SrvRun (narrowServer n (defaultHandlers resp) max u heap rh ph) srvInit tr ops s) (R : SrvUp s)
    (C : Conversation ops c id rs tail b ins) (hlost : ∀ r ∈ rs, r.id ≠ 0xffff)
    (hrole : b.role = 1 ∨ b.role = 2) (hreq : WholeRequest ins nvs body) (hbody : FormBody nvs body fields files)
    (hlen : LengthTold nvs body.length) (hmax : body.length ≤ max) (hint : body.length ≤ 2147483647)
    (h' : OwnRun (narrowServer n (defaultHandlers resp) max u heap rh ph) s tr' ops' s') (hr : SrvRest (narrowServer n (defaultHandlers resp) max u heap rh ph) s')
    (hv : (s'.t.conns c).valid = true) (hcall : called ⟨c, id⟩ (tr ++ tr') = []) :
    ∃ env, Tells nvs fields files env ∧
      ∀ outs otail, (∀ r ∈ outs, r.WF) → Incomplete otail → (s'.t.conns c).output = stream outs ++ otail →
        otail = [] ∧ ∃ answer end_, outs.filter (fun r => r.id = id.toNat) = answer ++ [end_] ∧
          (∀ x ∈ answer, x.type = 6 ∨ x.type = 7) ∧
          (answer.filter (fun x => x.type = 6)).flatMap Record.content = (writtenOn false (app env)).flatMap (writtenBy _root_.id) ∧
          (answer.filter (fun x => x.type = 7)).flatMap Record.content = (writtenOn true (app env)).flatMap (writtenBy _root_.id) ∧
          end_.type = 3 ∧ end_.content.take 5 = [0, 0, 0, 0, 0] := by
  haveI : OfLibrary (narrowServer n (defaultHandlers resp) max u heap rh ph) := .narrow ..
  obtain ⟨is, kill, q, rest, fin, A, a1, a2, _, a4⟩ := C111_answered h R C hlost h' hr hv
  rw [hcall] at a2
  have his := inputs_records (List.prefix_nil.1 a2)
  rw [a1] at his
  subst his
  have hwf : ∀ r ∈ ins, r.WF := by
    intro r hr
    have : r ∈ rs.filter (fun r => r.id = id.toNat) := by rw [C.mine]; simp [hr]
    exact C.wf r (List.mem_filter.1 this).1
  obtain ⟨env, T, _, _, before, ans, en, c1, ⟨er, e1, e2, e3, e4, e5, e6, rfl⟩, c3, c4, c5, c6⟩ := form_alone happ hwf hrole hreq hbody hlen hmax hint A
  refine ⟨env, T, fun outs otail ho hi hs => ?_⟩
  obtain ⟨o1, o2⟩ := a4 outs otail ho hi hs
  have hsent : (Transmits.sent q).map (·.2.1) = (ans ++ [er]).map Record.bytes := by
    show (sentOf q.log).map (·.2.1) = _
    rw [c1, sentOf_append, c3]
    simp [sentOf]
  rw [hsent] at o2
  have hid : id.toNat < 2 ^ 16 := id.toNat_lt
  have hwa : ∀ y ∈ ans ++ [er], y.WF := by
    intro y hy
    rcases List.mem_append.1 hy with hy | hy
    · rcases c4 y hy with g | g <;> exact ⟨by rw [g.id]; exact hid, by have := g.contentLength; omega, by have := g.padding; omega⟩
    · simp only [List.mem_singleton] at hy
      subst hy
      exact ⟨by rw [e3]; exact hid, by rw [e4]; decide, by rw [e6]; decide⟩
  have heq := records_bytes_inj (fun x hx => ho x (List.mem_filter.1 hx).1) hwa o2
  exact ⟨o1, ans, er, heq, fun x hx => (c4 x hx).imp (fun g => g.type) (fun g => g.type), c5 (hplain _ _), c6 (hplain _ _), e2, e5⟩

/-- For a connection with this one request on which nothing goes wrong, the bytes are exactly those, and the connection has been closed exactly if
the web server did not ask to keep it. -/
theorem C148_form_closed {U : Type} {n : Nat} {resp : U → Env → Message → Act U × Bool} {app : Env → List (Bool × SOp UInt8)} {max : Nat} {u : U}
    {heap rh ph} {tr tr' : List MEvent} {ops ops' : List TOp} {s s' : Srv (Req U)} {c : Nat} {id : UInt16} {rs : List Record} {tail : Bytes}
    {b : Record} {ins : List Record} {nvs : List (Bytes × Bytes)} {body : Bytes} {fields files}
    (happ : ∀ env m, (resp u env m).1.ops = app env ∧ (resp u env m).2 = true) (hplain : ∀ env e, noEnc (writtenOn e (app env)))
    (h : SrvRun (narrowServer n (defaultHandlers resp) max u heap rh ph) srvInit tr ops s) (R : SrvUp s)
    (C : Conversation ops c id rs tail b ins) (hone : ∀ r ∈ rs, r.id = id.toNat)
    (hrole : b.role = 1 ∨ b.role = 2) (hreq : WholeRequest ins nvs body) (hbody : FormBody nvs body fields files)
    (hlen : LengthTold nvs body.length) (hmax : body.length ≤ max) (hint : body.length ≤ 2147483647)
    (h' : OwnRun (narrowServer n (defaultHandlers resp) max u heap rh ph) s tr' ops' s') (hr : SrvRest (narrowServer n (defaultHandlers resp) max u heap rh ph) s')
    (hcalm : Calm c (ops ++ ops')) (hcall : called ⟨c, id⟩ (tr ++ tr') = []) :
    ∃ env answer end_, Tells nvs fields files env ∧ (s'.t.conns c).output = stream (answer ++ [end_]) ∧
      (∀ x ∈ answer ++ [end_], x.WF ∧ x.version = 1 ∧ x.id = id.toNat) ∧ (∀ x ∈ answer, x.type = 6 ∨ x.type = 7) ∧
      (answer.filter (fun x => x.type = 6)).flatMap Record.content = (writtenOn false (app env)).flatMap (writtenBy _root_.id) ∧
      (answer.filter (fun x => x.type = 7)).flatMap Record.content = (writtenOn true (app env)).flatMap (writtenBy _root_.id) ∧
      end_.type = 3 ∧ end_.content.take 5 = [0, 0, 0, 0, 0] ∧
      ((s'.t.conns c).valid = false ↔ (b.content.getD 2 0).toNat % 2 = 0) := by
  haveI : OfLibrary (narrowServer n (defaultHandlers resp) max u heap rh ph) := .narrow ..
  obtain ⟨is, kill, q, rest, fin, A, a1, a2, _, a4, a5⟩ := C111_closed h R C hone h' hr hcalm
  rw [hcall] at a2
  have his := inputs_records (List.prefix_nil.1 a2)
  rw [a1] at his
  subst his
  have hwf : ∀ r ∈ ins, r.WF := by
    intro r hr
    have : r ∈ rs.filter (fun r => r.id = id.toNat) := by rw [C.mine]; simp [hr]
    exact C.wf r (List.mem_filter.1 this).1
  obtain ⟨env, T, f1, _, before, ans, en, c1, ⟨er, e1, e2, e3, e4, e5, e6, rfl⟩, c3, c4, c5, c6⟩ := form_alone happ hwf hrole hreq hbody hlen hmax hint A
  obtain ⟨_, _, hk, _⟩ := A
  have hsent : (Transmits.sent q).flatMap (·.2.1) = stream (ans ++ [er]) := by
    show (sentOf q.log).flatMap (·.2.1) = _
    rw [c1, sentOf_append, c3]
    simp [sentOf, stream, List.flatMap_map]
  rw [hsent] at a4
  have hid : id.toNat < 2 ^ 16 := id.toNat_lt
  refine ⟨env, ans, er, T, a4, ?_, fun x hx => (c4 x hx).imp (fun g => g.type) (fun g => g.type), c5 (hplain _ _), c6 (hplain _ _), e2, e5, ?_⟩
  · intro y hy
    rcases List.mem_append.1 hy with hy | hy
    · rcases c4 y hy with g | g <;> exact ⟨⟨by rw [g.id]; exact hid, by have := g.contentLength; omega, by have := g.padding; omega⟩, g.version, g.id⟩
    · simp only [List.mem_singleton] at hy
      subst hy
      exact ⟨⟨by rw [e3]; exact hid, by rw [e4]; decide, by rw [e6]; decide⟩, e1, e3⟩
  · rw [a5, ← hk]
    exact ⟨fun x => x.2, fun x => ⟨f1, x⟩⟩

/-! ### A concrete run

An application that answers with the values of the fields it was sent, in the order of their arrival, and logs the names; a form with two
fields, the second one's value with a percent-coded byte, its body in two records. -/

def formApp (env : Env) : List (Bool × SOp UInt8) :=
  [(false, .insert (env.posts.flatMap fun p => p.2 ++ [32])), (true, .insert (env.posts.flatMap Prod.fst))]
def formResp : Unit → Env → Message → Act Unit × Bool := fun u env _ => (⟨formApp env, env, u⟩, true)
def formServer : SrvProg (Req Unit) := narrowServer 1 (defaultHandlers formResp) 100 () (fun _ _ _ => 0) (fun _ => 0) (fun _ => 0)
instance : OfLibrary formServer := .narrow ..

def formPairs : List ((Bytes × Bytes) × Bytes) :=
  [((b!"CONTENT_LENGTH", b!"10"), [14, 2] ++ b!"CONTENT_LENGTH" ++ b!"10"),
   ((b!"CONTENT_TYPE", b!"application/x-www-form-urlencoded"), [12, 33] ++ b!"CONTENT_TYPE" ++ b!"application/x-www-form-urlencoded")]
def formIns : List Record :=
  [demoRec 4 (formPairs.flatMap Prod.snd), demoRec 4 [], demoRec 5 b!"a=1&b", demoRec 5 b!"=%20x", demoRec 5 []]
def formBegin : Record := demoRec 1 [0, 1, 0, 0, 0, 0, 0, 0]
def formBytes : Bytes := stream (formBegin :: formIns)

def formRun : List SrvChoice := [.outer .start, .go 50, .op (.arrive 3 formBytes)]

/-- No callback is being called at the moment. -/
def NoCaller {σ : Type} (m : MSt σ) : Prop := ∀ p k x, m.pu p = .call k x ∨ m.pu p = .route k x → x.type = 0

theorem called_append (k : RequestId) (a b : List MEvent) : called k (a ++ b) = called k a ++ called k b := List.filterMap_append ..

theorem hstep_called {σ : Type} {P : Prog σ} (t : Nat) (s : MSt σ) (es s') (h : hstep P t s = some (es, s')) (k : RequestId) : s'.pu = s.pu ∧ called k es = [] := by
  refine ⟨(hstep_table P t _ _ _ h).1, ?_⟩
  unfold hstep at h
  split at h
  all_goals repeat' split at h
  all_goals first
    | (cases h; done)
    | (cases h; rfl)

theorem pstep_called {σ : Type} {P : Prog σ} {p w : Nat} {m : MSt σ} {es m'} (h : pstep P p w m = some (es, m')) (hn : NoCaller m) (k : RequestId) :
    NoCaller m' ∧ called k es = [] := by
  have key : ∀ pc, m'.pu = put m.pu p pc → (∀ k x, pc = .call k x ∨ pc = .route k x → x.type = 0) → NoCaller m' := by
    intro pc h1 h2 q k x hx
    rw [h1] at hx
    by_cases hq : q = p
    · subst hq; simp only [put_same] at hx; exact h2 k x hx
    · rw [put_other _ _ _ hq] at hx; exact hn q k x hx
  unfold pstep at h
  split at h
  case h_1 => cases h
  all_goals rename_i hpc
  case h_7 k' x =>
    have ht := hn p k' x (Or.inr hpc)
    split at h
    · rw [if_pos ht] at h
      split at h
      · cases h; exact ⟨key .idle rfl (by simp), rfl⟩
      · split at h <;> cases h <;> exact ⟨key .idle rfl (by simp), rfl⟩
    · split at h
      · cases h; exact ⟨key (.task k') rfl (by simp), by simp [called, ht]⟩
      · cases h
  case h_6 k' x =>
    have ht := hn p k' x (Or.inl hpc)
    split at h
    · cases h; exact ⟨key (.route k' x) rfl (by rintro _ _ (h | h) <;> cases h; exact ht), rfl⟩
    · cases h
  all_goals repeat' split at h
  all_goals first
    | (cases h; done)
    | (cases h; exact ⟨key _ rfl (by simp), rfl⟩)

theorem own_called {U : Type} [Transmits U] {P : SrvProg U} {s s' : Srv U} {tr ops} (h : OwnRun P s tr ops s') (hn : NoCaller s.m) (k : RequestId) :
    NoCaller s'.m ∧ called k tr = [] := by
  induction h with
  | refl => exact ⟨hn, rfl⟩
  | step run h ih =>
    obtain ⟨a, b⟩ := ih
    rw [called_append, b, List.nil_append]
    cases h with
    | read => exact ⟨a, rfl⟩
    | write => exact ⟨a, rfl⟩
    | send => exact ⟨a, rfl⟩
    | work t ho hl h =>
      obtain ⟨c, d⟩ := hstep_called _ _ _ _ h k
      exact ⟨by unfold NoCaller; dsimp only; rw [c]; exact a, d⟩
    | pusher p w h => exact pstep_called h a k
    | give x hx h =>
      unfold estep at h
      dsimp only at h
      split at h
      · cases h
        refine ⟨?_, by split <;> rfl⟩
        intro q k' y hy
        dsimp only [MSt.pgoto] at hy
        by_cases hq : q = 0
        · subst hq
          rw [put_same] at hy
          split at hy
          · rcases hy with hy | hy <;> cases hy
          · split at hy
            · rcases hy with hy | hy <;> cases hy
            · rcases hy with hy | hy <;> cases hy; rfl
        · rw [put_other _ _ _ hq] at hy; exact a q k' y hy
      · cases h


def formEnd (x : List MEvent × List TOp × Srv (Req Unit)) : Bool :=
  x.2.2.m.terminate == false && x.2.2.m.stop == false && (match x.2.2.m.th 0 with | .off | .finished => false | _ => true) &&
  (x.2.1.filterMap fun | .arrive c d => some (c, d) | _ => none) == [(3, formBytes)] && (called ⟨3, 7⟩ x.1).isEmpty && (match x.2.2.m.pu 0 with | .idle => true | _ => false) &&
  x.2.1.all (fun o => match o with | .receive _ _ _ => false | .tx _ => false | .hangup _ => false | _ => true)

theorem formRun_end : (srvPlay formServer formRun ([], [], srvInit)).any formEnd = true := by decide +kernel

theorem formPair_enc : ∀ i ∈ formPairs, EncPair i.1 i.2 := by
  intro i hi
  simp only [formPairs, List.mem_cons, List.not_mem_nil, or_false] at hi
  rcases hi with rfl | rfl
  · exact ⟨[14], [2], .short 14 (by decide), .short 2 (by decide), by decide⟩
  · exact ⟨[12], [33], .short 12 (by decide), .short 33 (by decide), by decide⟩
theorem formPair_ok : ∀ i ∈ formPairs, ParamOk i.1 := by
  intro i hi
  simp only [formPairs, List.mem_cons, List.not_mem_nil, or_false] at hi
  rcases hi with rfl | rfl
  · exact ⟨fun _ => ⟨10, by decide, by decide, by unfold IsDigit; decide, by decide⟩, fun h => absurd h (by decide)⟩
  · exact ⟨fun h => absurd h (by decide), fun h => absurd h (by decide)⟩

theorem formWhole : WholePairs (demoRec 4 (formPairs.flatMap Prod.snd)) formPairs :=
  ⟨by unfold Record.WF; decide, rfl, by decide, rfl, formPair_enc, formPair_ok, ⟨0, by decide, by decide⟩⟩

theorem formText_demo : FormText b!"a=1&b=%20x" [(b!"a", b!"1"), (b!"b", b!" x")] :=
  ⟨[b!"a=1", b!"b=%20x"],
    .cons (rn := b!"a") (rv := b!"1") (.plain _ (by decide) .nil) (.plain _ (by decide) .nil) (by decide) (by decide) (by decide)
      (.cons (rn := b!"b") (rv := b!"%20x") (.plain _ (by decide) .nil)
        (.esc (h := 2) (l := 0) 50 48 (by decide) (by decide) (.plain _ (by decide) .nil)) (by decide) (by decide) (by decide) .nil), rfl⟩

/-- The form arrives, the server comes to rest, and its peer has got `1  x ` as STDOUT, `ab` as STDERR and END_REQUEST. -/
example : ∃ tr ops s tr' ops' s', SrvRun formServer srvInit tr ops s ∧ SrvUp s ∧ OwnRun formServer s tr' ops' s' ∧ SrvRest formServer s' ∧
    arrived 3 ops = formBytes ∧ Calm 3 (ops ++ ops') ∧ called ⟨3, 7⟩ (tr ++ tr') = [] ∧
    ∃ answer end_, (s'.t.conns 3).output = stream (answer ++ [end_]) ∧
      (answer.filter (fun x => x.type = 6)).flatMap Record.content = b!"1  x " ∧
      (answer.filter (fun x => x.type = 7)).flatMap Record.content = b!"ab" ∧ end_.type = 3 ∧ (s'.t.conns 3).valid = false := by
  cases hp : srvPlay formServer formRun ([], [], srvInit) with
  | none => have := formRun_end; rw [hp] at this; cases this
  | some y =>
  have he : formEnd y = true := by have := formRun_end; rw [hp] at this; exact this
  have g := srvPlay_good formRun (P := formServer) (x := ([], [], srvInit)) ⟨.refl _, fun _ _ => rfl⟩ hp
  obtain ⟨tr, ops, s⟩ := y
  have h1 : SrvRun formServer srvInit tr ops s := g.1
  simp only [formEnd, Bool.and_eq_true, beq_iff_eq, List.isEmpty_iff, List.all_eq_true] at he
  obtain ⟨⟨⟨⟨⟨⟨a1, a2⟩, a3⟩, a4⟩, a5⟩, a6⟩, a7⟩ := he
  have ha : ∀ c, arrived c ops = if c = 3 then formBytes else [] := by
    intro c
    rw [(arrived_pairs c ops).trans (congrArg (fun l : List (Nat × Bytes) => (l.filter (fun x => x.1 = c)).flatMap (·.2)) a4)]
    by_cases hc : c = 3
    · subst hc; simp
    · have : ¬ 3 = c := fun e => hc e.symm
      simp [hc, this]
  have R : SrvUp s := ⟨⟨0, by revert a3; cases s.m.th 0 <;> simp⟩, a1, a2⟩
  have hwf : ∀ r ∈ formBegin :: formIns, r.WF ∧ r.id = 7 := by
    intro r hr
    simp only [formIns, formBegin, List.mem_cons, List.not_mem_nil, or_false] at hr
    rcases hr with rfl | rfl | rfl | rfl | rfl | rfl <;> exact ⟨by unfold Record.WF; decide, rfl⟩
  have C : Conversation ops 3 7 (formBegin :: formIns) [] formBegin formIns := by
    refine ⟨fun r hr => (hwf r hr).1, Or.inl (by simp), by rw [ha, if_pos rfl, List.append_nil]; rfl, by decide, fun r hr => ?_, ?_, rfl, ?_, ?_, ?_⟩
    · intro h0; rw [(hwf r hr).2] at h0; cases h0
    · apply List.filter_eq_self.2
      intro r hr; rw [(hwf r hr).2]; rfl
    · intro r hr
      simp only [formIns, List.mem_cons, List.not_mem_nil, or_false] at hr
      rcases hr with rfl | rfl | rfl | rfl | rfl <;> decide
    · simp [formBegin, demoRec]
    · intro r hr h4 h0
      simp only [formIns, List.mem_cons, List.not_mem_nil, or_false] at hr
      rcases hr with rfl | rfl | rfl | rfl | rfl
      · exact ⟨_, formWhole⟩
      · exact absurd rfl h0
      all_goals exact absurd h4 (by decide)
  have hn : NoValues ops := by
    intro c
    by_cases hc : c = 3
    · subst hc
      exact ⟨_, _, C.wf, C.rest, C.bytes, fun r hr h0 h9 => absurd h9 (C.app r hr h0)⟩
    · exact ⟨[], [], by simp, Or.inl (by simp), by rw [ha, if_neg hc]; rfl, by simp⟩
  obtain ⟨tr', ops', s', q1, q2, q3⟩ := C111_reaches_calm h1
  have hrest := (C111_rests h1 hn).2 tr' ops' s' q1 q3
  have hidle : NoCaller s.m := by
    intro p k x hx
    have : s.m.pu p = .idle := by
      by_cases hp0 : p = 0
      · subst hp0; revert a6; cases s.m.pu 0 <;> simp
      · exact g.2 p hp0
    rw [this] at hx
    rcases hx with hx | hx <;> cases hx
  have hcalm : Calm 3 (ops ++ ops') := by
    obtain ⟨b1, b2, b3⟩ := q2 3
    refine ⟨fun hm => ?_, fun k1 k2 hm => ?_, fun hm => ?_⟩
    · rcases List.mem_append.1 hm with hm | hm
      · have := a7 _ hm; cases this
      · exact b1 hm
    · rcases List.mem_append.1 hm with hm | hm
      · have := a7 _ hm; cases this
      · exact b2 k1 k2 hm
    · rcases List.mem_append.1 hm with hm | hm
      · have := a7 _ hm; cases this
      · exact b3 hm
  have hcalled : called ⟨3, 7⟩ (tr ++ tr') = [] := by
    rw [called_append, a5, (own_called q1 hidle _).2]; rfl
  have hreq : WholeRequest formIns (formPairs.map Prod.fst) b!"a=1&b=%20x" :=
    ⟨[(demoRec 4 (formPairs.flatMap Prod.snd), formPairs)], demoRec 4 [], [demoRec 5 b!"a=1&b", demoRec 5 b!"=%20x"], demoRec 5 [], rfl,
      by intro p hp; simp only [List.mem_singleton] at hp; subst hp; exact formWhole, by simp, ⟨rfl, rfl⟩,
      by intro b hb; simp only [List.mem_cons, List.not_mem_nil, or_false] at hb; rcases hb with rfl | rfl <;> exact ⟨rfl, by decide⟩, by decide, ⟨rfl, rfl⟩⟩
  obtain ⟨env, answer, en, T, o1, _, _, o2, o3, o4, _, o5⟩ := C148_form_closed (app := formApp) (fun _ _ => ⟨rfl, rfl⟩)
    (by
      intro env e op ho
      simp only [formApp, writtenOn, List.mem_map, List.mem_filter, List.mem_cons, List.not_mem_nil, or_false] at ho
      obtain ⟨x, ⟨rfl | rfl, _⟩, rfl⟩ := ho <;> simp)
    h1 R C (fun r hr => (hwf r hr).2) (Or.inl (by decide)) hreq
    (.urlencoded (t := b!"application/x-www-form-urlencoded") (by decide) (by decide) formText_demo)
    (Or.inr ⟨b!"10", by decide, by decide, by unfold IsDigit; decide, by decide⟩) (by decide) (by decide) q1 hrest hcalm hcalled
  refine ⟨tr, ops, s, tr', ops', s', h1, R, q1, hrest, by rw [ha, if_pos rfl], hcalm, hcalled, answer, en, o1, ?_, ?_, o4, o5.2 (by decide)⟩
  · rw [o2]
    simp only [formApp, writtenOn, T.posts]
    decide
  · rw [o3]
    simp only [formApp, writtenOn, T.posts]
    decide

end Fcgi.Props
