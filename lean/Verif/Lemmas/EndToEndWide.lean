import Verif.Lemmas.EndToEnd
import Verif.Lemmas.ErrorPageWide
import Verif.Props.RequestWide
import Verif.Props.HttpWide
/-! # A request of a wide-character application with a whole form (for C150) -/
namespace Fcgi.Model
open Fcgi Fcgi.Spec

theorem writtenOnW_false (l : List (Bool × SOp UInt32)) : (l.filter (!·.1)).map Prod.snd = writtenOn false l := by
  unfold writtenOn; congr 2; funext o; cases o.1 <;> rfl
theorem writtenOnW_true (l : List (Bool × SOp UInt32)) : (l.filter (·.1)).map Prod.snd = writtenOn true l := by
  unfold writtenOn; congr 2; funext o; cases o.1 <;> rfl

theorem handle_paramsW {U} (hd : HandlersW U) (g) (r : ReqW U) (h : AliveW r) (hs : r.state = 4) (hr : r.role = 1 ∨ r.role = 2)
    (x : Record) (items) (hx : WholePairs x items) {e : Env} (hsame : SameEnv e r.env) {nvs : List (Bytes × Bytes)} (ht : TextsOf nvs r.env) :
    ∃ env envW, fillPairs [0] items e = .ok env ∧ SameEnv env envW ∧ TextsOf (nvs ++ items.map Prod.fst) envW ∧
      handleMsgW hd g r (fcgiMsg x) = .ok ({ r with env := envW }, false) := by
  obtain ⟨env, he⟩ := fillPairs_ok [0] ParamOk fillStep_ok ⟨0, by simp, by decide⟩ items e hx.ok
  have e1 := fill_items items (recordHead x) x.padding e hx.enc
  rw [fillPairs_after x.padding [0] hx.padded ⟨0, by simp, by decide⟩ items e hx.ok, he, ← hx.content, ← (record_split x).1] at e1
  rw [List.length_append, (record_split x).2] at e1
  obtain ⟨envW, f1, f2⟩ := sameRes_ok (fill_wide x.bytes 8 (8 + x.content.length) hsame) e1
  have hpairs : EncPairs (items.map Prod.fst) x.content := by
    rw [hx.content]
    have : ∀ its : List ((Bytes × Bytes) × Bytes), (∀ i ∈ its, EncPair i.1 i.2) → EncPairs (its.map Prod.fst) (its.flatMap Prod.snd) := by
      intro its
      induction its with
      | nil => intro _; exact .nil
      | cons i its ih => intro h; exact .cons (h i (by simp)) (ih fun j hj => h j (by simp [hj]))
    exact this items hx.enc
  have f3 : TextsOf (nvs ++ items.map Prod.fst) envW := by
    refine texts_fill (recordHead x) x.content x.padding ht hpairs ?_
    rw [← (record_split x).1, List.length_append, (record_split x).2]
    exact f1
  refine ⟨env, envW, he, f2, f3, ?_⟩
  rcases record_outcomeW hd g r h x hx.wf .params hs with
      ⟨t, _⟩ | ⟨_, t, _⟩ | ⟨_, _, t, _⟩ | ⟨_, _, _, t, _⟩ | ⟨_, _, _, t, _⟩ | ⟨_, _, _, _, h1⟩ | ⟨t, _⟩ | ⟨t, _⟩ | ⟨t, _⟩
  · rw [hx.type] at t; exact absurd t (by decide)
  · rw [hx.type] at t; exact absurd rfl t
  · exact absurd hr t
  · exact absurd t hx.nonempty
  · exact absurd t hx.nonempty
  · rw [h1, f1]; rfl
  · cases t
  · cases t
  · cases t

theorem handler_paramsW {U} (hd : HandlersW U) (g) : ∀ (ps : List (Record × List ((Bytes × Bytes) × Bytes))) (r : ReqW U) (e : Env)
    (nvs : List (Bytes × Bytes)), AliveW r → r.state = 4 → (r.role = 1 ∨ r.role = 2) → (∀ p ∈ ps, WholePairs p.1 p.2) → SameEnv e r.env →
    TextsOf nvs r.env →
    ∃ env envW, fillPairs [0] (ps.flatMap Prod.snd) e = .ok env ∧ SameEnv env envW ∧ TextsOf (nvs ++ (ps.flatMap Prod.snd).map Prod.fst) envW ∧
      handlerW hd g r (ps.map (fun p => fcgiMsg p.1)) = .ok ({ r with env := envW }, [], false) := by
  intro ps
  induction ps with
  | nil => intro r e nvs _ _ _ _ hsame ht; exact ⟨e, r.env, rfl, hsame, by simpa using ht, rfl⟩
  | cons p ps ih =>
    intro r e nvs h hs hr hp hsame ht
    obtain ⟨env, envW, e1, e2, e3, e4⟩ := handle_paramsW hd g r h hs hr p.1 p.2 (hp p (by simp)) hsame ht
    obtain ⟨env', envW', f1, f2, f3, f4⟩ := ih { r with env := envW } env _ (h.of_eq rfl rfl rfl rfl rfl) hs hr (fun q hq => hp q (by simp [hq])) e2 e3
    refine ⟨env', envW', ?_, f2, by simpa using f3, ?_⟩
    · rw [List.flatMap_cons, fillPairs_split, fillPairs_after _ [0] (endsColons_append ⟨0, by simp, by decide⟩ _) ⟨0, by simp, by decide⟩ p.2 e (hp p (by simp)).ok, e1]
      exact f1
    · simp only [List.map_cons, handlerW, e4, Res.ok_bind, Bool.false_eq_true, if_false]
      exact f4

theorem handler_stdinW {U} (hd : HandlersW U) (hin : ∀ u e n, (hd.inHandler u e n).env = e ∧ (hd.inHandler u e n).user = u) (g) :
    ∀ (bs : List Record) (r : ReqW U), AliveW r → r.state = 5 → (∀ b ∈ bs, b.WF ∧ b.type = 5 ∧ b.content ≠ []) →
    r.env.postBuffer.length + (bs.flatMap Record.content).length ≤ r.env.contentLength.toNat →
    ∃ r', handlerW hd g r (bs.map fcgiMsg) = .ok (r', [], false) ∧ AliveW r' ∧ r'.state = 5 ∧
      r'.env = { r.env with postBuffer := r.env.postBuffer ++ bs.flatMap Record.content } ∧ r'.user = r.user ∧
      callsOfW r'.log = callsOfW r.log ++ bs.map (fun b => .inHandler b.content.length) := by
  intro bs
  induction bs with
  | nil => intro r h hs _ _; exact ⟨r, rfl, h, hs, by simp, rfl, by simp⟩
  | cons b bs ih =>
    intro r h hs hb hl
    obtain ⟨hw, ht, hc⟩ := hb b (by simp)
    simp only [List.flatMap_cons, List.length_append] at hl
    rcases record_outcomeW hd g r h b hw .stdin hs with
      ⟨t, _⟩ | ⟨_, t, _⟩ | ⟨t, _⟩ | ⟨t, _⟩ | ⟨t, _⟩ | ⟨t, _⟩ | ⟨_, _, t, _⟩ | ⟨_, _, _, t, _⟩ | ⟨_, _, _, _, r1, h1, h2, h3, h4, h5⟩
    · rw [ht] at t; exact absurd t (by decide)
    · rw [ht] at t; exact absurd rfl t
    · cases t
    · cases t
    · cases t
    · cases t
    · exact absurd t hc
    · omega
    · have s := handleMsg_specW hd g r r1 h _ _ h1
      rw [(hin _ _ _).1] at h4
      rw [(hin _ _ _).2] at h5
      have al := (s.2.1 rfl).1
      obtain ⟨r', e1, e2, e3, e4, e5, e6⟩ := ih r1 al (h3.trans hs) (fun c hc => hb c (by simp [hc]))
        (by rw [h4]; simp only [fillPostBufferW, List.length_append]; omega)
      refine ⟨r', ?_, e2, e3, ?_, e5.trans h5, ?_⟩
      · simp only [List.map_cons, handlerW, h1, Res.ok_bind, Bool.false_eq_true, if_false, e1]
      · rw [e4, h4]; simp [fillPostBufferW]
      · rw [e6, h2]; simp

/-- The end of the input, for a class with the library's handlers. -/
theorem inputEnd_defaultW {U} (resp : U → EnvW → Message → ActW U × Bool) (g) (r : ReqW U) (h : AliveW r) (m : Message) {parsed : EnvW}
    (hp : parsePostBufferW r.env = .ok (parsed, true)) :
    ∃ r', inputEndW (defaultHandlersW resp) g r m = .ok (r', (resp r.user { parsed with postBuffer := [] } m).2) ∧ r'.status = r.status ∧
      ((resp r.user { parsed with postBuffer := [] } m).2 = false → AliveW r' ∧ r'.env = (resp r.user { parsed with postBuffer := [] } m).1.env ∧
        r'.user = (resp r.user { parsed with postBuffer := [] } m).1.user) ∧
      ∀ e, writesW e r'.log = writesW e r.log ++ writtenOn e (resp r.user { parsed with postBuffer := [] } m).1.ops := by
  unfold inputEndW
  have ha : (defaultHandlersW resp).inProcessor r.user r.env = (⟨[], r.env, r.user⟩, false) := rfl
  rw [ha]
  obtain ⟨r1, a1, a2, a3, a4, a5, l, a6, a7, a8, a9⟩ := call_specW g r h (.inProcessor r.env) ⟨[], r.env, r.user⟩
  dsimp only at a4 a5 ⊢
  simp only [a1, Res.ok_bind, a4, parsePostW, Bool.false_eq_true, if_false, hp, not_true]
  have al : AliveW { r1 with env := { parsed with postBuffer := [] }, state := 6 } := a2.of_eq rfl rfl rfl rfl rfl
  obtain ⟨r2, b1, b2, b3, b4, l', b5, b6, b7, b8⟩ := respond_specW (defaultHandlersW resp) g _ al m
  have hr : (defaultHandlersW resp).response = resp := rfl
  simp only [a5, hr] at b1 b3 b7 b8
  refine ⟨r2, by simp only [a5]; exact b1, b2.status.trans a3.status, b3, fun e => ?_⟩
  rw [b5]
  dsimp only
  rw [a6]
  cases e
  · simp only [writes_appendW, writesW, a8, b7, writtenOnW_false]; simp [writtenOn]
  · simp only [writes_appendW, writesW, a9, b8, writtenOnW_true]; simp [writtenOn]

/-- Parsing the body changes no text of the environment. -/
theorem texts_parse {ps : List (Bytes × Bytes)} {w w' : EnvW} {b : Bool} (h : TextsOf ps w) (e : parsePostBufferW w = .ok (w', b)) :
    TextsOf ps { w' with postBuffer := [] } := by
  have same : ∀ p f, TextsOf ps { w with posts := p, files := f, postBuffer := [] } := fun p f =>
    ⟨h.host, h.origin, h.userAgent, h.acceptContentTypes, h.acceptCharsets, h.authorization, h.referer, h.contentType, h.root, h.scriptName,
      h.requestUri, h.others⟩
  unfold parsePostBufferW at e
  split at e
  · cases e; exact same _ _
  split at e
  · obtain ⟨x, hx, e⟩ := Res.bind_eq_ok.1 e
    obtain ⟨y, hy, hx⟩ := Res.bind_eq_ok.1 hx
    cases e; cases hx; exact same _ _
  split at e
  · obtain ⟨x, hx, e⟩ := Res.bind_eq_ok.1 e
    cases e; exact same _ _
  · cases e; exact same _ _

/-- A whole request whose body the library can parse: it is complete if `response()` says so, with status 0, and has written exactly what `response()` wrote. -/
theorem body_runW {U} (resp : U → EnvW → Message → ActW U × Bool) (g) (sock id role kill max) (u : U)
    (hr : role = 1 ∨ role = 2) (ps : List (Record × List ((Bytes × Bytes) × Bytes))) (hps : ∀ p ∈ ps, WholePairs p.1 p.2)
    (p0 i0 : Record) (hp0 : p0.WF ∧ p0.type = 4 ∧ p0.content = []) (hi0 : i0.WF ∧ i0.type = 5 ∧ i0.content = [])
    (bs : List Record) (hbs : ∀ b ∈ bs, b.WF ∧ b.type = 5 ∧ b.content ≠ [])
    {env : Env} (henv : fillPairs [0] (ps.flatMap Prod.snd) {} = .ok env) (hmax : env.contentLength.toNat ≤ max)
    (hlen : (bs.flatMap Record.content).length ≤ env.contentLength.toNat) {parsed : Env}
    (hparse : parsePostBuffer { env with postBuffer := bs.flatMap Record.content } = .ok (parsed, true))
    (htype : bs.flatMap Record.content = [] ∨ ∃ t, IsText t ∧ env.contentType = utf8Text t) :
    ∃ (w : EnvW) (r : ReqW U), SameEnv { parsed with postBuffer := [] } w ∧ TextsOf ((ps.flatMap Prod.snd).map Prod.fst) w ∧
      handlerW (defaultHandlersW resp) g (freshReqW sock id role kill max u)
        ((ps.map Prod.fst ++ [p0] ++ bs ++ [i0]).map fcgiMsg) = .ok (r, [], (resp u w (fcgiMsg i0)).2) ∧ r.status = 0 ∧
      ((resp u w (fcgiMsg i0)).2 = false → AliveW r ∧ r.env = (resp u w (fcgiMsg i0)).1.env ∧ r.user = (resp u w (fcgiMsg i0)).1.user) ∧
      ∀ e, writesW e r.log = writtenOn e (resp u w (fcgiMsg i0)).1.ops := by
  obtain ⟨env', envW, a1, as, at', a2⟩ := handler_paramsW (defaultHandlersW resp) g ps (freshReqW sock id role kill max u) {} [] (freshReq_aliveW ..)
    rfl hr hps sameEnv_fresh texts_fresh
  rw [henv] at a1
  cases a1
  rw [List.nil_append] at at'
  have hpbn : env.postBuffer = [] := by
    have : ∀ (its : List ((Bytes × Bytes) × Bytes)) (e e' : Env), fillPairs [0] its e = .ok e' → e'.postBuffer = e.postBuffer := by
      intro its
      induction its with
      | nil => intro e e' h; cases h; rfl
      | cons i its ih =>
        intro e e' h
        obtain ⟨⟨n, v⟩, b⟩ := i
        simp only [fillPairs] at h
        obtain ⟨e1, h1, h2⟩ := Res.bind_eq_ok.1 h
        rw [ih _ _ h2]
        cases fillStep_effect h1 <;> rfl
    exact this _ _ _ henv
  have hpb : envW.postBuffer = [] := by rw [← as.postBuffer]; exact hpbn
  have al : AliveW { freshReqW sock id role kill max u with env := envW, state := 5 } :=
    (freshReq_aliveW sock id role kill max u).of_eq rfl rfl rfl rfl rfl
  have s2 : handleMsgW (defaultHandlersW resp) g { freshReqW sock id role kill max u with env := envW } (fcgiMsg p0) =
      .ok ({ freshReqW sock id role kill max u with env := envW, state := 5 }, false) := by
    have al' : AliveW { freshReqW sock id role kill max u with env := envW } :=
      (freshReq_aliveW sock id role kill max u).of_eq rfl rfl rfl rfl rfl
    rcases record_outcomeW (defaultHandlersW resp) g _ al' p0 hp0.1 .params rfl with
      ⟨t, _⟩ | ⟨_, t, _⟩ | ⟨_, _, t, _⟩ | ⟨_, _, _, _, t, _⟩ | ⟨_, _, _, _, c, h1⟩ | ⟨_, _, _, c, _⟩ | ⟨p, _⟩ | ⟨p, _⟩ | ⟨p, _⟩
    · rw [hp0.2.1] at t; exact absurd t (by decide)
    · rw [hp0.2.1] at t; exact absurd rfl t
    · exact absurd hr t
    · dsimp only at t
      rw [← as.contentLength] at t
      exact absurd hmax (Nat.not_le_of_gt t)
    · exact h1
    · exact absurd hp0.2.2 c
    all_goals cases p
  obtain ⟨r3, b1, b2, b3, b4, b6, b5⟩ := handler_stdinW (defaultHandlersW resp) (fun _ _ _ => ⟨rfl, rfl⟩) g bs _ al rfl hbs
    (by simpa [hpb, ← as.contentLength] using hlen)
  have hu3 : r3.user = u := b6
  have henv3 : r3.env = { envW with postBuffer := bs.flatMap Record.content } := by rw [b4]; simp [hpb]
  have hst3 : r3.status = 0 := ((handler_specW _ g _ _ _ _ _ al b1).2.1 rfl).2.1
  have hw3 : ∀ e, writesW e r3.log = [] := by
    have hcs : callsOfW r3.log = bs.map (fun b => .inHandler b.content.length) := by rw [b5]; rfl
    have hpl := (page_runW (keepsPages_defaultW resp) g _ _ _ _ _ al (fun _ => ⟨rfl, rfl⟩) (by intro c hc; cases hc) b1).1
    have hno : NoResponseW (callsOfW r3.log) := by
      intro env m hm
      rw [hcs] at hm
      obtain ⟨b, _, hb⟩ := List.mem_map.1 hm
      cases hb
    obtain ⟨w1, w2⟩ := hpl hno
    intro e
    cases e
    · rw [w1, hcs]
      rw [List.flatMap_eq_nil_iff]
      intro c hc
      obtain ⟨b, _, rfl⟩ := List.mem_map.1 hc
      rfl
    · exact w2
  have s4 : handleMsgW (defaultHandlersW resp) g r3 (fcgiMsg i0) = inputEndW (defaultHandlersW resp) g r3 (fcgiMsg i0) := by
    rcases record_outcomeW (defaultHandlersW resp) g r3 b2 i0 hi0.1 .stdin b3 with
      ⟨t, _⟩ | ⟨_, t, _⟩ | ⟨p, _⟩ | ⟨p, _⟩ | ⟨p, _⟩ | ⟨p, _⟩ | ⟨_, _, _, h1⟩ | ⟨_, _, c, _⟩ | ⟨_, _, c, _⟩
    · rw [hi0.2.1] at t; exact absurd t (by decide)
    · rw [hi0.2.1] at t; exact absurd rfl t
    · cases p
    · cases p
    · cases p
    · cases p
    · exact h1
    · exact absurd hi0.2.2 c
    · exact absurd hi0.2.2 c
  have same3 : SameEnv { env with postBuffer := bs.flatMap Record.content } { envW with postBuffer := bs.flatMap Record.content } :=
    { as with postBuffer := rfl }
  obtain ⟨⟨pw, ok⟩, p1, p2, p3⟩ := sameRes_ok (parsePost_wide same3 htype) hparse
  dsimp only at p2 p3
  subst p3
  have hpw : parsePostBufferW r3.env = .ok (pw, true) := by rw [henv3]; exact p1
  have htx : TextsOf ((ps.flatMap Prod.snd).map Prod.fst) { pw with postBuffer := [] } :=
    texts_parse (w := { envW with postBuffer := bs.flatMap Record.content })
      ⟨at'.host, at'.origin, at'.userAgent, at'.acceptContentTypes, at'.acceptCharsets, at'.authorization, at'.referer, at'.contentType, at'.root,
        at'.scriptName, at'.requestUri, at'.others⟩ p1
  obtain ⟨r4, f1, f2, f4, f3⟩ := inputEnd_defaultW resp g r3 b2 (fcgiMsg i0) (parsed := pw) hpw
  rw [hu3] at f1 f4
  refine ⟨{ pw with postBuffer := [] }, r4, { p2 with postBuffer := rfl }, htx, ?_, f2.trans hst3, f4, fun e => ?_⟩
  · rw [List.map_append, List.map_append, List.map_append, handler_appendW, handler_appendW, handler_appendW, List.map_map,
      show (fcgiMsg ∘ Prod.fst : Record × List ((Bytes × Bytes) × Bytes) → Message) = fun p => fcgiMsg p.1 from rfl, a2]
    simp only [Res.ok_bind, Bool.false_eq_true, if_false, List.map_cons, List.map_nil, handlerW, s2, b1, s4, f1]
    cases (resp u { pw with postBuffer := [] } (fcgiMsg i0)).2 <;> rfl
  · rw [f3 e, hw3 e, hu3, List.nil_append]

end Fcgi.Model
