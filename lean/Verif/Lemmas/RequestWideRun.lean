import Verif.Lemmas.RequestWide
import Verif.Lemmas.RequestInv
import Verif.Spec.RequestWideTerms
namespace Fcgi.Model
open Fcgi Fcgi.Spec

/-- No text is written as this byte. -/
theorem reads_junk (w : List UInt32) : Reads [0xff] w := by
  intro t ht e
  have h : utf8All [0xff] = none := by decide
  rw [e, utf8All_text t ht] at h
  cases h

/-- A narrow environment that agrees with a wide one where they must. -/
def shadow (w : EnvW) : Env where
  host := [0xff]
  origin := [0xff]
  userAgent := [0xff]
  acceptContentTypes := [0xff]
  acceptLanguages := w.acceptLanguages
  acceptCharsets := [0xff]
  authorization := [0xff]
  referer := [0xff]
  contentType := [0xff]
  root := [0xff]
  scriptName := [0xff]
  requestMethod := w.requestMethod
  requestUri := [0xff]
  pathInfo := w.pathInfo.map fun _ => [0xff]
  etag := w.etag
  keepAlive := w.keepAlive
  contentLength := w.contentLength
  serverAddress := w.serverAddress
  remoteAddress := w.remoteAddress
  serverPort := w.serverPort
  remotePort := w.remotePort
  ifModifiedSince := w.ifModifiedSince
  others := [([0xff], [])]
  cookies := w.cookies.map fun _ => ([0xff], [0xff])
  gets := w.gets.map fun _ => ([0xff], [0xff])
  posts := w.posts.map fun _ => ([0xff], [0xff])
  files := w.files.map fun f => ([0xff], ⟨[0xff], [0xff], f.2.data⟩)
  boundary := w.boundary
  postBuffer := w.postBuffer

theorem each_map {α β} {R : α → β → Prop} (f : β → α) (l : List β) (h : ∀ b, R (f b) b) : Each R (l.map f) l := by
  induction l with
  | nil => exact .nil
  | cons a l ih => exact .cons (h a) ih

theorem shadow_same (w : EnvW) : SameEnvBy Reads (shadow w) w where
  host := reads_junk _
  origin := reads_junk _
  userAgent := reads_junk _
  acceptContentTypes := reads_junk _
  acceptLanguages := rfl
  acceptCharsets := reads_junk _
  authorization := reads_junk _
  referer := reads_junk _
  contentType := reads_junk _
  root := reads_junk _
  scriptName := reads_junk _
  requestMethod := rfl
  requestUri := reads_junk _
  pathInfo := each_map _ _ fun _ => reads_junk _
  etag := rfl
  keepAlive := rfl
  contentLength := rfl
  serverAddress := rfl
  remoteAddress := rfl
  serverPort := rfl
  remotePort := rfl
  ifModifiedSince := rfl
  others := by
    intro h
    obtain ⟨t, ht, e⟩ := h ([0xff], []) (by simp [shadow])
    have := reads_junk (t ++ [0]) t ht e
    have := congrArg List.length this
    simp at this
  cookies := each_map _ _ fun _ => ⟨reads_junk _, reads_junk _⟩
  gets := each_map _ _ fun _ => ⟨reads_junk _, reads_junk _⟩
  posts := each_map _ _ fun _ => ⟨reads_junk _, reads_junk _⟩
  files := each_map _ _ fun _ => ⟨reads_junk _, reads_junk _, reads_junk _, rfl⟩
  boundary := rfl
  postBuffer := rfl

theorem sameRes_ok {α β} {R : α → β → Prop} {x : Res α} {y : Res β} (h : SameRes R x y) {a} (e : x = .ok a) : ∃ b, y = .ok b ∧ R a b := by
  subst e
  cases y with
  | ok b => exact ⟨b, rfl, h⟩
  | ub k => exact h.elim
  | stuck => exact h.elim

theorem sameRes_ok' {α β} {R : α → β → Prop} {x : Res α} {y : Res β} (h : SameRes R x y) {b} (e : y = .ok b) : ∃ a, x = .ok a ∧ R a b := by
  subst e
  cases x with
  | ok a => exact ⟨a, rfl, h⟩
  | ub k => exact h.elim
  | stuck => exact h.elim

theorem parsePostBuffer_totalW (env : EnvW) : ∃ r, parsePostBufferW env = .ok r := by
  unfold parsePostBufferW
  split
  · exact ⟨_, rfl⟩
  split
  · obtain ⟨e, he⟩ := parsePostsMultipart_total (shadow env)
    obtain ⟨b, hb, _⟩ := sameRes_ok (multipart_wide (shadow_same env)) he
    rw [hb]; exact ⟨_, rfl⟩
  split
  · obtain ⟨r, hr⟩ := urlLoop_total env.postBuffer b!"&" (by decide) (env.postBuffer.length + 2) 0 0 none
      (env.posts.map fun _ => ([0xff], [0xff])) (by omega) (by omega)
    have hr' : decodeUrlEncoded env.postBuffer b!"&" (env.posts.map fun _ => ([0xff], [0xff])) = .ok r := hr
    obtain ⟨b, hb, _⟩ := sameRes_ok (decodeUrl_wide (R := Reads) env.postBuffer b!"&" (each_map (fun _ => ([0xff], [0xff])) env.posts
      fun _ => ⟨reads_junk _, reads_junk _⟩)) hr'
    rw [hb]; exact ⟨_, rfl⟩
  · exact ⟨_, rfl⟩

theorem fillLoop_keepsW (obj : Bytes) (n : Nat) (fuel d : Nat) (env env' : EnvW) (h : fillLoopW obj n fuel d env = .ok env') :
    env'.postBuffer = env.postBuffer := by
  obtain ⟨e, he, hs⟩ := sameRes_ok' (fillLoop_wide obj n fuel d _ env (shadow_same env)) h
  rw [← hs.postBuffer, fillLoop_keeps obj n fuel d _ e he]
  rfl

/-- The outcome of the end of input. -/
theorem inputEnd_specW {U} (hd : HandlersW U) (g) (r : ReqW U) (h : AliveW r) (m : Message) :
    ∃ a p, a = hd.inProcessor r.user r.env ∧ parsePostW a.2 a.1.env = .ok p ∧
    ∃ r' fin, inputEndW hd g r m = .ok (r', fin) ∧ (fin = true → DoneW r') ∧ (fin = false → AliveW r') ∧
      ((p.2 = false ∧ fin = true ∧ FrameW r r' ∧
        ∃ l l', r'.log = r.log ++ .call (.inProcessor r.env) :: l ++ .call .unknownContent :: l' ∧ callsOfW l = [] ∧ callsOfW l' = []) ∨
       (p.2 = true ∧ FrameW { r with state := 6 } r' ∧
        fin = (hd.response a.1.user { p.1 with postBuffer := [] } m).2 ∧
        (fin = false → r'.env = (hd.response a.1.user { p.1 with postBuffer := [] } m).1.env) ∧
        ∃ l l', r'.log = r.log ++ .call (.inProcessor r.env) :: l ++ .call (.response { p.1 with postBuffer := [] } m) :: l' ∧
          callsOfW l = [] ∧ callsOfW l' = [])) := by
  obtain ⟨a, ha⟩ : ∃ a, a = hd.inProcessor r.user r.env := ⟨_, rfl⟩
  have hp : ∃ p, parsePostW a.2 a.1.env = .ok p := by
    unfold parsePostW
    split
    · exact ⟨_, rfl⟩
    · exact parsePostBuffer_totalW _
  obtain ⟨p, hp⟩ := hp
  refine ⟨a, p, ha, hp, ?_⟩
  unfold inputEndW
  rw [← ha]
  obtain ⟨r1, a1, a2, a3, a4, a5, l, a6, a7, _⟩ := call_specW g r h (.inProcessor r.env) a.1
  simp only [a1, Res.ok_bind, a4, hp, a5]
  cases hb : p.2 with
  | false =>
    have al : AliveW { r1 with env := p.1 } := a2.of_eq rfl rfl rfl rfl rfl
    obtain ⟨r2, b1, b2, b3, l', b4, b5, _⟩ := failWith_specW g _ al .unknownContent (hd.unknownContent a.1.user p.1)
    refine ⟨r2, true, ?_, fun _ => b2, by simp, Or.inl ⟨rfl, rfl, ?_, l, l', ?_, a7, b5⟩⟩
    · rw [← a5] at b1 ⊢; simpa using b1
    · exact ⟨b3.1.trans a3.1, b3.2.trans a3.2, b3.3.trans a3.3, b3.4.trans a3.4, b3.5.trans a3.5, b3.6.trans a3.6, b3.7.trans a3.7⟩
    · rw [b4]; simp [a6]
  | true =>
    have al : AliveW { r1 with env := { p.1 with postBuffer := [] }, state := 6 } := a2.of_eq rfl rfl rfl rfl rfl
    obtain ⟨r2, b1, b2, b3, b4, l', b5, b6, _⟩ := respond_specW hd g _ al m
    simp only [a5] at b1 b3 b4
    refine ⟨r2, _, ?_, b4, fun e => (b3 e).1, Or.inr ⟨rfl, ?_, rfl, fun e => (b3 e).2.1, l, l', ?_, a7, b6⟩⟩
    · simp only [not_true, if_false]
      exact b1
    · exact ⟨b2.1.trans a3.1, b2.2.trans a3.2, b2.3.trans a3.3, b2.4.trans a3.4, b2.5.trans a3.5, b2.6, b2.7.trans a3.7⟩
    · rw [b5]; simp [a6]

/-- One message, whatever it is: the request stays well formed and its log grows. -/
theorem handleMsg_specW {U} (hd : HandlersW U) (g) (r r' : ReqW U) (h : AliveW r) (m : Message) (fin : Bool)
    (e : handleMsgW hd g r m = .ok (r', fin)) :
    (fin = true → DoneW r') ∧ (fin = false → AliveW r' ∧ r'.status = r.status) ∧ (r'.sock = r.sock ∧ r'.id = r.id ∧ r'.kill = r.kill ∧
      r'.role = r.role ∧ r'.maxPostSize = r.maxPostSize) ∧
      ∃ l, r'.log = r.log ++ l := by
  have fw : ∀ (r0 : ReqW U) c a, AliveW r0 → r0.log = r.log → (r0.sock = r.sock ∧ r0.id = r.id ∧ r0.kill = r.kill ∧
      r0.role = r.role ∧ r0.maxPostSize = r.maxPostSize) →
      failWithW g r0 c a = .ok (r', fin) → (fin = true → DoneW r') ∧ (fin = false → AliveW r' ∧ r'.status = r.status) ∧
      (r'.sock = r.sock ∧ r'.id = r.id ∧ r'.kill = r.kill ∧ r'.role = r.role ∧ r'.maxPostSize = r.maxPostSize) ∧ ∃ l, r'.log = r.log ++ l := by
    intro r0 c a h0 hl hf e
    obtain ⟨r1, a1, a2, a3, l, a4, _⟩ := failWith_specW g r0 h0 c a
    rw [a1] at e; cases e
    exact ⟨fun _ => a2, by simp, ⟨a3.sock.trans hf.1, a3.id.trans hf.2.1, a3.kill.trans hf.2.2.1, a3.role.trans hf.2.2.2.1,
      a3.maxPostSize.trans hf.2.2.2.2⟩, _, by rw [a4, hl]⟩
  have same : r.sock = r.sock ∧ r.id = r.id ∧ r.kill = r.kill ∧ r.role = r.role ∧ r.maxPostSize = r.maxPostSize :=
    ⟨rfl, rfl, rfl, rfl, rfl⟩
  by_cases hm : m.type = 0
  · unfold handleMsgW at e
    rw [if_pos hm] at e
    obtain ⟨t, _, e⟩ := Res.bind_eq_ok.1 e
    obtain ⟨len, _, e⟩ := Res.bind_eq_ok.1 e
    dsimp only at e
    split at e
    · obtain ⟨r1, a1, a2, a3, a4, a5, rs, a6, a7⟩ := complete_specW g r h
      rw [a1] at e; cases e
      exact ⟨fun _ => a2, by simp, ⟨a3.sock, a3.id, a3.kill, a3.role, a3.maxPostSize⟩, _, by rw [a7, List.append_assoc]⟩
    split at e
    · exact fw r _ _ h rfl same e
    split at e
    · split at e
      · exact fw { r with status := 3 } _ _ (h.of_eq rfl rfl rfl rfl rfl) rfl same e
      split at e
      · split at e
        · exact fw r _ _ h rfl same e
        · cases e
          exact ⟨by simp, fun _ => ⟨h.of_eq rfl rfl rfl rfl rfl, rfl⟩, same, [], by simp⟩
      split at e
      · cases e
      · obtain ⟨env, _, e⟩ := Res.bind_eq_ok.1 e
        cases e
        exact ⟨by simp, fun _ => ⟨h.of_eq rfl rfl rfl rfl rfl, rfl⟩, same, [], by simp⟩
    split at e
    · split at e
      · obtain ⟨a, p, _, _, r1, fin1, e1, e2, e3, e4⟩ := inputEnd_specW hd g r h m
        rw [e1] at e; cases e
        rcases e4 with ⟨_, _, f, l, l', hl, _⟩ | ⟨_, f, _, _, l, l', hl, _⟩
        · exact ⟨e2, fun hf => ⟨e3 hf, f.status⟩, ⟨f.sock, f.id, f.kill, f.role, f.maxPostSize⟩, _, by rw [hl, List.append_assoc]⟩
        · exact ⟨e2, fun hf => ⟨e3 hf, f.status⟩, ⟨f.sock, f.id, f.kill, f.role, f.maxPostSize⟩, _, by rw [hl, List.append_assoc]⟩
      split at e
      · exact fw r _ _ h rfl same e
      split at e
      · cases e
      · have al : AliveW { r with env := fillPostBufferW r.env (slice m.data 8 (8 + len.toNat)) } := h.of_eq rfl rfl rfl rfl rfl
        obtain ⟨r1, a1, a2, a3, _, _, l, a6, _⟩ := call_specW g _ al (.inHandler len.toNat)
          (hd.inHandler r.user (fillPostBufferW r.env (slice m.data 8 (8 + len.toNat))) len.toNat)
        rw [a1] at e; cases e
        exact ⟨by simp, fun _ => ⟨a2, a3.status⟩, ⟨a3.sock, a3.id, a3.kill, a3.role, a3.maxPostSize⟩, _, a6⟩
    · exact fw r _ _ h rfl same e
  · rw [handleMsg_callbackW hd g r m hm] at e
    obtain ⟨r1, a1, a2, a3, a4, l, a5, _⟩ := respond_specW hd g r h m
    rw [a1] at e
    obtain ⟨rfl, rfl⟩ : r1 = r' ∧ (hd.response r.user r.env m).2 = fin := by simpa using e
    exact ⟨a4, fun e => ⟨(a3 e).1, a2.status⟩, ⟨a2.sock, a2.id, a2.kill, a2.role, a2.maxPostSize⟩, _, a5⟩

theorem handler_specW {U} (hd : HandlersW U) (g) : ∀ (ms : List Message) (r r' : ReqW U) (rest : List Message) (fin : Bool),
    AliveW r → handlerW hd g r ms = .ok (r', rest, fin) →
    (fin = true → DoneW r') ∧ (fin = false → AliveW r' ∧ r'.status = r.status ∧ rest = []) ∧
      (r'.sock = r.sock ∧ r'.id = r.id ∧ r'.kill = r.kill ∧ r'.role = r.role ∧ r'.maxPostSize = r.maxPostSize) ∧
      (∃ l, r'.log = r.log ++ l) ∧ ∃ done, ms = done ++ rest := by
  intro ms
  induction ms with
  | nil =>
    intro r r' rest fin h e
    simp only [handlerW, Res.ok.injEq, Prod.mk.injEq] at e
    obtain ⟨rfl, rfl, rfl⟩ := e
    exact ⟨by simp, fun _ => ⟨h, rfl, rfl⟩, ⟨rfl, rfl, rfl, rfl, rfl⟩, ⟨[], by simp⟩, [], rfl⟩
  | cons m ms ih =>
    intro r r' rest fin h e
    simp only [handlerW] at e
    obtain ⟨⟨r1, f1⟩, e1, e⟩ := Res.bind_eq_ok.1 e
    have s := handleMsg_specW hd g r r1 h m f1 e1
    cases f1 with
    | true =>
      simp only [if_true, Res.pure_eq, Res.ok.injEq, Prod.mk.injEq] at e
      obtain ⟨rfl, rfl, rfl⟩ := e
      exact ⟨s.1, by simp, s.2.2.1, s.2.2.2, [m], rfl⟩
    | false =>
      simp only [Bool.false_eq_true, if_false] at e
      obtain ⟨h1, h1s⟩ := s.2.1 rfl
      obtain ⟨i1, i2, i3, ⟨l, i4⟩, d, i5⟩ := ih r1 r' rest fin h1 e
      obtain ⟨_, _, k, ⟨l0, h4⟩⟩ := s
      refine ⟨i1, fun hf => ?_, ⟨i3.1.trans k.1, i3.2.1.trans k.2.1, i3.2.2.1.trans k.2.2.1, i3.2.2.2.1.trans k.2.2.2.1,
        i3.2.2.2.2.trans k.2.2.2.2⟩, ⟨l0 ++ l, by rw [i4, h4, List.append_assoc]⟩, m :: d, by rw [i5]; rfl⟩
      obtain ⟨j1, j2, j3⟩ := i2 hf
      exact ⟨j1, j2.trans h1s, j3⟩

theorem record_outcomeW {U} (hd : HandlersW U) (g) (r : ReqW U) (h : AliveW r) (x : Record) (hx : x.WF) (p : Phase)
    (hp : r.state = phaseCode p) :
    (x.type = 2 ∧ ∃ r', handleMsgW hd g r (fcgiMsg x) = .ok (r', true) ∧ callsOfW r'.log = callsOfW r.log ∧ r'.status = r.status) ∨
    (x.type ≠ 2 ∧ p.accepts ≠ some x.type ∧
      ∃ r', handleMsgW hd g r (fcgiMsg x) = .ok (r', true) ∧ callsOfW r'.log = callsOfW r.log ++ [.error] ∧ r'.status = r.status) ∨
    (p = .params ∧ x.type = 4 ∧ ¬ (r.role = 1 ∨ r.role = 2) ∧
      ∃ r', handleMsgW hd g r (fcgiMsg x) = .ok (r', true) ∧ callsOfW r'.log = callsOfW r.log ++ [.error] ∧ r'.status = 3) ∨
    (p = .params ∧ x.type = 4 ∧ (r.role = 1 ∨ r.role = 2) ∧ x.content = [] ∧ r.env.contentLength.toNat > r.maxPostSize ∧
      ∃ r', handleMsgW hd g r (fcgiMsg x) = .ok (r', true) ∧ callsOfW r'.log = callsOfW r.log ++ [.bigPost] ∧ r'.status = r.status) ∨
    (p = .params ∧ x.type = 4 ∧ (r.role = 1 ∨ r.role = 2) ∧ x.content = [] ∧ r.env.contentLength.toNat ≤ r.maxPostSize ∧
      handleMsgW hd g r (fcgiMsg x) = .ok ({ r with state := 5 }, false)) ∨
    (p = .params ∧ x.type = 4 ∧ (r.role = 1 ∨ r.role = 2) ∧ x.content ≠ [] ∧
      handleMsgW hd g r (fcgiMsg x) = (fillW x.bytes 8 (8 + x.content.length) r.env >>= fun env => .ok ({ r with env := env }, false))) ∨
    (p = .stdin ∧ x.type = 5 ∧ x.content = [] ∧ handleMsgW hd g r (fcgiMsg x) = inputEndW hd g r (fcgiMsg x)) ∨
    (p = .stdin ∧ x.type = 5 ∧ x.content ≠ [] ∧ r.env.postBuffer.length + x.content.length > r.env.contentLength.toNat ∧
      ∃ r', handleMsgW hd g r (fcgiMsg x) = .ok (r', true) ∧ callsOfW r'.log = callsOfW r.log ++ [.bigPost] ∧ r'.status = r.status) ∨
    (p = .stdin ∧ x.type = 5 ∧ x.content ≠ [] ∧ r.env.postBuffer.length + x.content.length ≤ r.env.contentLength.toNat ∧
      ∃ r', handleMsgW hd g r (fcgiMsg x) = .ok (r', false) ∧ callsOfW r'.log = callsOfW r.log ++ [.inHandler x.content.length] ∧
        r'.state = r.state ∧ r'.env = (hd.inHandler r.user (fillPostBufferW r.env x.content) x.content.length).env ∧
        r'.user = (hd.inHandler r.user (fillPostBufferW r.env x.content) x.content.length).user) := by
  rw [handleMsg_recordW hd g r x hx]
  have fw : ∀ (r0 : ReqW U) c a, AliveW r0 → r0.log = r.log →
      ∃ r', failWithW g r0 c a = .ok (r', true) ∧ callsOfW r'.log = callsOfW r.log ++ [c] ∧ r'.status = r0.status := by
    intro r0 c a h0 hl
    obtain ⟨r1, a1, a2, a3, l, a4, a5, _⟩ := failWith_specW g r0 h0 c a
    exact ⟨r1, a1, by rw [a4, hl]; simp [callsOf_appendW, callsOfW, a5], a3.status⟩
  have empty : x.content.length = 0 ↔ x.content = [] := List.length_eq_zero_iff
  by_cases t2 : x.type = 2
  · left
    obtain ⟨r1, a1, a2, a3, a4, a5, rs, a6, a7⟩ := complete_specW g r h
    refine ⟨t2, r1, ?_, by rw [a7]; simp [callsOf_appendW, callsOfW], a3.status⟩
    rw [if_pos t2, a1]; rfl
  · right
    rw [if_neg t2]
    cases p with
    | params =>
      have hs : r.state = 4 := hp
      by_cases t4 : x.type = 4
      · right
        rw [if_neg (by rw [hs, t4]; simp), if_pos hs]
        by_cases hr : r.role = 1 ∨ r.role = 2
        · right
          rw [if_neg (not_not_intro hr)]
          by_cases h0 : x.content = []
          · rw [if_pos (empty.2 h0)]
            by_cases hc : r.env.contentLength.toNat > r.maxPostSize
            · left; rw [if_pos hc]
              exact ⟨rfl, t4, hr, h0, hc, fw r _ _ h rfl⟩
            · right; left; rw [if_neg hc]
              exact ⟨rfl, t4, hr, h0, by omega, rfl⟩
          · right; right; left
            rw [if_neg (fun e => h0 (empty.1 e))]
            exact ⟨rfl, t4, hr, h0, rfl⟩
        · left
          rw [if_pos hr]
          exact ⟨rfl, t4, hr, fw _ _ _ (h.of_eq rfl rfl rfl rfl rfl) rfl⟩
      · left
        rw [if_pos (by rw [hs]; exact t4)]
        exact ⟨t2, by simp only [Phase.accepts, ne_eq, Option.some.injEq]; exact fun e => t4 e.symm, fw r _ _ h rfl⟩
    | stdin =>
      have hs : r.state = 5 := hp
      by_cases t5 : x.type = 5
      · rw [if_neg (by rw [hs, t5]; simp), if_neg (by rw [hs]; decide), if_pos hs]
        right; right; right; right; right
        by_cases h0 : x.content = []
        · left; rw [if_pos (empty.2 h0)]
          exact ⟨rfl, t5, h0, rfl⟩
        · right
          rw [if_neg (fun e => h0 (empty.1 e))]
          by_cases hc : r.env.postBuffer.length + x.content.length > r.env.contentLength.toNat
          · left; rw [if_pos hc]
            exact ⟨rfl, t5, h0, hc, fw r _ _ h rfl⟩
          · right; rw [if_neg hc]
            have al : AliveW { r with env := fillPostBufferW r.env x.content } := h.of_eq rfl rfl rfl rfl rfl
            obtain ⟨r1, a1, a2, a3, a4, a5, l, a6, a7, _⟩ := call_specW g _ al (.inHandler x.content.length)
              (hd.inHandler r.user (fillPostBufferW r.env x.content) x.content.length)
            refine ⟨rfl, t5, h0, by omega, r1, by rw [a1]; rfl, by rw [a6]; simp [callsOf_appendW, callsOfW, a7], a3.state, a4, a5⟩
      · left
        rw [if_pos (by rw [hs]; exact t5)]
        exact ⟨t2, by simp only [Phase.accepts, ne_eq, Option.some.injEq]; exact fun e => t5 e.symm, fw r _ _ h rfl⟩
    | output =>
      left
      have hs : r.state = 6 := hp
      refine ⟨t2, by simp [Phase.accepts], ?_⟩
      by_cases t6 : x.type = 6
      · rw [if_neg (by rw [hs, t6]; simp), if_neg (by rw [hs]; decide), if_neg (by rw [hs]; decide)]
        exact fw r _ _ h rfl
      · rw [if_pos (by rw [hs]; exact t6)]
        exact fw r _ _ h rfl

theorem run_invW {U} (hd : HandlersW U) (g) (Inv Fin : List Input → ReqW U → Prop)
    (step : ∀ done i r r' fin, i.WF → Inv done r → handleMsgW hd g r i.message = .ok (r', fin) →
      (fin = false → Inv (done ++ [i]) r') ∧ (fin = true → Fin (done ++ [i]) r')) :
    ∀ (ins done : List Input) (r r' : ReqW U) rest fin, (∀ i ∈ ins, i.WF) → Inv done r →
      handlerW hd g r (ins.map Input.message) = .ok (r', rest, fin) →
      ∃ d rest', ins = d ++ rest' ∧ rest = rest'.map Input.message ∧ (fin = false → rest' = [] ∧ Inv (done ++ d) r') ∧
        (fin = true → Fin (done ++ d) r') := by
  intro ins
  induction ins with
  | nil =>
    intro done r r' rest fin _ h e
    simp only [List.map_nil, handlerW, Res.ok.injEq, Prod.mk.injEq] at e
    obtain ⟨rfl, rfl, rfl⟩ := e
    exact ⟨[], [], rfl, rfl, fun _ => ⟨rfl, by simpa using h⟩, by simp⟩
  | cons i ins ih =>
    intro done r r' rest fin hw h e
    simp only [List.map_cons, handlerW] at e
    obtain ⟨⟨r1, f1⟩, e1, e⟩ := Res.bind_eq_ok.1 e
    have s := step done i r r1 f1 (hw i (by simp)) h e1
    cases f1 with
    | true =>
      simp only [if_true, Res.pure_eq, Res.ok.injEq, Prod.mk.injEq] at e
      obtain ⟨rfl, rfl, rfl⟩ := e
      exact ⟨[i], ins, rfl, rfl, by simp, fun _ => s.2 rfl⟩
    | false =>
      simp only [Bool.false_eq_true, if_false] at e
      obtain ⟨d, rest', a1, a2, a3, a4⟩ := ih (done ++ [i]) r1 r' rest fin (fun j hj => hw j (by simp [hj])) (s.1 rfl) e
      exact ⟨i :: d, rest', by rw [a1]; rfl, a2, fun hf => by simpa using a3 hf, fun hf => by simpa using a4 hf⟩

/-- `response()` was called for a record only when the input was completeW. -/
def RespOkW (rs : List Record) (l : List EvW) : Prop :=
  ∀ env m, CallW.response env m ∈ callsOfW l → m.type = 0 → ∃ d1 d2, rs = d1 ++ d2 ∧ InputComplete d1

theorem RespOkW.mono {rs rs' l} (h : RespOkW rs l) : RespOkW (rs ++ rs') l := by
  intro env m hm ht
  obtain ⟨d1, d2, rfl, hc⟩ := h env m hm ht
  exact ⟨d1, d2 ++ rs', by simp, hc⟩

structure GInvW {U} (r0 : ReqW U) (done : List Input) (r : ReqW U) : Prop where
  alive : AliveW r
  status : r.status = 0
  consts : r.sock = r0.sock ∧ r.id = r0.id ∧ r.kill = r0.kill ∧ r.role = r0.role ∧ r.maxPostSize = r0.maxPostSize
  phase : r.state = phaseCode (phaseAfter (records done))
  order : InOrder .params (records done)
  resp : RespOkW (records done) r.log

structure GFinW {U} (r0 : ReqW U) (done : List Input) (r : ReqW U) : Prop where
  dn : DoneW r
  consts : r.sock = r0.sock ∧ r.id = r0.id ∧ r.kill = r0.kill ∧ r.role = r0.role ∧ r.maxPostSize = r0.maxPostSize
  resp : RespOkW (records done) r.log

theorem step_gW {U} (hd : HandlersW U) (g) (r0 : ReqW U) (done : List Input) (i : Input) (r r' : ReqW U) (fin : Bool)
    (hw : i.WF) (h : GInvW r0 done r) (e : handleMsgW hd g r i.message = .ok (r', fin)) :
    (fin = false → GInvW r0 (done ++ [i]) r') ∧ (fin = true → GFinW r0 (done ++ [i]) r') := by
  have s := handleMsg_specW hd g r r' h.alive i.message fin e
  have hc := h.consts
  have k := s.2.2.1
  have hcon : r'.sock = r0.sock ∧ r'.id = r0.id ∧ r'.kill = r0.kill ∧ r'.role = r0.role ∧ r'.maxPostSize = r0.maxPostSize :=
    ⟨k.1.trans hc.1, k.2.1.trans hc.2.1, k.2.2.1.trans hc.2.2.1, k.2.2.2.1.trans hc.2.2.2.1, k.2.2.2.2.trans hc.2.2.2.2⟩
  suffices hmain : (fin = false → r'.state = phaseCode (phaseAfter (records (done ++ [i]))) ∧ InOrder .params (records (done ++ [i]))) ∧
      RespOkW (records (done ++ [i])) r'.log by
    refine ⟨fun hf => ⟨(s.2.1 hf).1, (s.2.1 hf).2.trans h.status, hcon, (hmain.1 hf).1, (hmain.1 hf).2, hmain.2⟩,
      fun hf => ⟨s.1 hf, hcon, hmain.2⟩⟩
  cases i with
  | callback t d =>
    have ht : t ≠ 0 := hw
    rw [show records (done ++ [Input.callback t d]) = records done by simp [records_append, records]]
    obtain ⟨r1, a1, a2, a3, a4, l, a5, a6, _⟩ := respond_specW hd g r h.alive ⟨t, d⟩
    have e' : handleMsgW hd g r ⟨t, d⟩ = .ok (r', fin) := e
    rw [handleMsg_callbackW hd g r ⟨t, d⟩ ht, a1] at e'
    obtain ⟨rfl, -⟩ : r1 = r' ∧ (hd.response r.user r.env ⟨t, d⟩).2 = fin := by simpa using e'
    refine ⟨fun _ => ⟨a2.state.trans h.phase, h.order⟩, ?_⟩
    intro env m hm hm0
    rw [a5, callsOf_appendW] at hm
    rcases List.mem_append.1 hm with hm | hm
    · exact h.resp env m hm hm0
    · rw [callsOfW, a6] at hm
      simp only [List.mem_singleton, CallW.response.injEq] at hm
      obtain ⟨_, rfl⟩ := hm
      exact absurd hm0 ht
  | record x =>
    have hx : x.WF := hw
    rw [show records (done ++ [Input.record x]) = records done ++ [x] by simp [records_append, records]]
    have e' : handleMsgW hd g r (fcgiMsg x) = .ok (r', fin) := e
    have stop : ∀ r1 c, handleMsgW hd g r (fcgiMsg x) = .ok (r1, true) → callsOfW r1.log = callsOfW r.log ++ c →
        (∀ env m, CallW.response env m ∉ c) →
        (fin = false → r'.state = phaseCode (phaseAfter (records done ++ [x])) ∧ InOrder .params (records done ++ [x])) ∧
      RespOkW (records done ++ [x]) r'.log := by
      intro r1 c h1 h2 h3
      rw [h1] at e'
      obtain ⟨rfl, rfl⟩ : r1 = r' ∧ true = fin := by simpa using e'
      refine ⟨by simp, ?_⟩
      intro env m hm hm0
      rw [h2] at hm
      rcases List.mem_append.1 hm with hm | hm
      · exact h.resp.mono env m hm hm0
      · exact absurd hm (h3 env m)
    have go : ∀ r1 c, handleMsgW hd g r (fcgiMsg x) = .ok (r1, false) → callsOfW r1.log = callsOfW r.log ++ c →
        (∀ env m, CallW.response env m ∉ c) → (phaseAfter (records done)).accepts = some x.type →
        r1.state = phaseCode ((phaseAfter (records done)).next x) →
        (fin = false → r'.state = phaseCode (phaseAfter (records done ++ [x])) ∧ InOrder .params (records done ++ [x])) ∧
      RespOkW (records done ++ [x]) r'.log := by
      intro r1 c h1 h2 h3 h4 h5
      rw [h1] at e'
      obtain ⟨rfl, rfl⟩ : r1 = r' ∧ false = fin := by simpa using e'
      refine ⟨fun _ => ⟨by rw [phaseAfter_snoc, h5], (inOrder_append _ _ _).2 ⟨h.order, h4, trivial⟩⟩, ?_⟩
      intro env m hm hm0
      rw [h2] at hm
      rcases List.mem_append.1 hm with hm | hm
      · exact h.resp.mono env m hm hm0
      · exact absurd hm (h3 env m)
    rcases record_outcomeW hd g r h.alive x hx _ h.phase with
      ⟨_, r1, h1, h2, _⟩ | ⟨_, _, r1, h1, h2, _⟩ | ⟨_, _, _, r1, h1, h2, _⟩ | ⟨_, _, _, _, _, r1, h1, h2, _⟩ |
      ⟨hp, ht, _, h0, _, h1⟩ | ⟨hp, ht, _, h0, h1⟩ | ⟨hp, ht, h0, h1⟩ | ⟨_, _, _, _, r1, h1, h2, _⟩ | ⟨hp, ht, h0, _, r1, h1, h2, h3, _⟩
    · exact stop r1 [] h1 (by simpa using h2) (by simp)
    · exact stop r1 _ h1 h2 (by simp)
    · exact stop r1 _ h1 h2 (by simp)
    · exact stop r1 _ h1 h2 (by simp)
    · exact go _ [] h1 (by simp) (by simp) (by rw [hp, ht]; rfl) (by rw [hp]; simp [Phase.next, h0, phaseCode])
    · rw [h1] at e'
      obtain ⟨env, e1, e2⟩ := Res.bind_eq_ok.1 e'
      rw [e1] at h1
      exact go _ [] h1 (by simp) (by simp) (by rw [hp, ht]; rfl)
        (by rw [hp]; simp only [Phase.next, if_neg h0]; rw [h.phase, hp])
    · rw [h1] at e'
      obtain ⟨a, p, _, _, r1, fin1, f1, f2, f3, f4⟩ := inputEnd_specW hd g r h.alive (fcgiMsg x)
      rw [f1] at e'
      obtain ⟨rfl, rfl⟩ : r1 = r' ∧ fin1 = fin := by simpa using e'
      have hord : InOrder .params (records done ++ [x]) :=
        (inOrder_append _ _ _).2 ⟨h.order, by show (phaseAfter (records done)).accepts = _; rw [hp, ht]; rfl, trivial⟩
      have hcompl : InputComplete (records done ++ [x]) := by
        apply inOrder_params _ hord
        show phaseAfter _ = _
        rw [phaseAfter_snoc, hp]; simp [Phase.next, h0]
      refine ⟨fun hf => ⟨?_, hord⟩, fun _ _ _ _ => ⟨_, [], by simp, hcompl⟩⟩
      rcases f4 with ⟨_, hft, _⟩ | ⟨_, fr, _⟩
      · rw [hf] at hft; cases hft
      · rw [phaseAfter_snoc, hp, fr.state]; simp [Phase.next, h0, phaseCode]
    · exact stop r1 _ h1 h2 (by simp)
    · exact go _ _ h1 h2 (by simp) (by rw [hp, ht]; rfl)
        (by rw [h3, h.phase, hp]; simp [Phase.next, h0])

theorem freshReq_ginvW {U} (sock id role kill max) (u : U) :
    GInvW (freshReqW sock id role kill max u) [] (freshReqW sock id role kill max u) :=
  ⟨freshReq_aliveW .., rfl, ⟨rfl, rfl, rfl, rfl, rfl⟩, rfl, trivial, by intro env m hm; simp [freshReqW, callsOfW] at hm⟩

/-- The state of a request after a run. -/
theorem run_gW {U} (hd : HandlersW U) (g) (sock id role kill max) (u : U) (ins : List Input) (hw : ∀ i ∈ ins, i.WF) {r rest fin}
    (e : handlerW hd g (freshReqW sock id role kill max u) (ins.map Input.message) = .ok (r, rest, fin)) :
    ∃ d rest', ins = d ++ rest' ∧ rest = rest'.map Input.message ∧
      (fin = false → rest' = [] ∧ GInvW (freshReqW sock id role kill max u) d r) ∧
      (fin = true → GFinW (freshReqW sock id role kill max u) d r) := by
  have := run_invW hd g (GInvW (freshReqW sock id role kill max u)) (GFinW (freshReqW sock id role kill max u))
    (fun done i r r' fin => step_gW hd g _ done i r r' fin) ins [] _ r rest fin hw (freshReq_ginvW ..) e
  simpa using this

/-! ### the size limit -/

/-- Input data handed to the user respects the limits. -/
def BoundedW (max : Nat) (l : List EvW) : Prop :=
  ∀ env, CallW.inProcessor env ∈ callsOfW l → env.postBuffer.length ≤ env.contentLength.toNat ∧ env.contentLength.toNat ≤ max

structure SizeInvW {U} (r0 : ReqW U) (done : List Input) (r : ReqW U) : Prop where
  g : GInvW r0 done r
  params : phaseAfter (records done) = .params → r.env.postBuffer = []
  stdin : phaseAfter (records done) = .stdin → r.env.postBuffer.length ≤ r.env.contentLength.toNat ∧ r.env.contentLength.toNat ≤ r.maxPostSize
  output : phaseAfter (records done) = .output → r.env.postBuffer = []
  log : BoundedW r0.maxPostSize r.log

theorem BoundedW.add {max : Nat} {l l' : List EvW} {c : List CallW} (h : BoundedW max l) (e : callsOfW l' = callsOfW l ++ c)
    (hc : ∀ env, CallW.inProcessor env ∈ c → env.postBuffer.length ≤ env.contentLength.toNat ∧ env.contentLength.toNat ≤ max) : BoundedW max l' := by
  intro env hm
  rw [e] at hm
  rcases List.mem_append.1 hm with hm | hm
  · exact h env hm
  · exact hc env hm

theorem step_sizeW {U} (hd : HandlersW U) (ht : TameW hd) (g) (r0 : ReqW U) (done : List Input) (i : Input) (r r' : ReqW U) (fin : Bool)
    (hw : i.WF) (h : SizeInvW r0 done r) (e : handleMsgW hd g r i.message = .ok (r', fin)) :
    (fin = false → SizeInvW r0 (done ++ [i]) r') ∧ (fin = true → BoundedW r0.maxPostSize r'.log) := by
  have hg := (step_gW hd g r0 done i r r' fin hw h.g e).1
  have hmax : r.maxPostSize = r0.maxPostSize := h.g.consts.2.2.2.2
  cases i with
  | callback t d =>
    have e' : handleMsgW hd g r ⟨t, d⟩ = .ok (r', fin) := e
    obtain ⟨r1, a1, a2, a3, a4, l, a5, a6, _⟩ := respond_specW hd g r h.g.alive ⟨t, d⟩
    rw [handleMsg_callbackW hd g r ⟨t, d⟩ hw, a1] at e'
    obtain ⟨rfl, rfl⟩ : r1 = r' ∧ (hd.response r.user r.env ⟨t, d⟩).2 = fin := by simpa using e'
    have hb : BoundedW r0.maxPostSize r1.log :=
      h.log.add (c := [.response r.env ⟨t, d⟩]) (by rw [a5, callsOf_appendW, callsOfW, a6]) (by simp)
    refine ⟨fun hf => ?_, fun _ => hb⟩
    have tm := ht.response r.user r.env ⟨t, d⟩
    obtain ⟨_, henv, _⟩ := a3 hf
    rw [← henv] at tm
    have hr : records (done ++ [Input.callback t d]) = records done := by simp [records_append, records]
    refine ⟨hg hf, ?_, ?_, ?_, hb⟩ <;> rw [hr] <;> intro hp
    · rw [tm.2]; exact h.params hp
    · rw [tm.1, tm.2, a2.maxPostSize]; exact h.stdin hp
    · rw [tm.2]; exact h.output hp
  | record x =>
    have hx : x.WF := hw
    have e' : handleMsgW hd g r (fcgiMsg x) = .ok (r', fin) := e
    have hr : records (done ++ [Input.record x]) = records done ++ [x] := by simp [records_append, records]
    have stop : ∀ r1 c, handleMsgW hd g r (fcgiMsg x) = .ok (r1, true) → callsOfW r1.log = callsOfW r.log ++ c →
        (∀ env, CallW.inProcessor env ∉ c) → (fin = false → SizeInvW r0 (done ++ [.record x]) r') ∧ (fin = true → BoundedW r0.maxPostSize r'.log) := by
      intro r1 c h1 h2 h3
      rw [h1] at e'
      obtain ⟨rfl, rfl⟩ : r1 = r' ∧ true = fin := by simpa using e'
      exact ⟨by simp, fun _ => h.log.add h2 (fun env hm => absurd hm (h3 env))⟩
    rcases record_outcomeW hd g r h.g.alive x hx _ h.g.phase with
      ⟨_, r1, h1, h2, _⟩ | ⟨_, _, r1, h1, h2, _⟩ | ⟨_, _, _, r1, h1, h2, _⟩ | ⟨_, _, _, _, _, r1, h1, h2, _⟩ |
      ⟨hp, _, _, h0, hle, h1⟩ | ⟨hp, _, _, h0, h1⟩ | ⟨hp, _, h0, h1⟩ | ⟨_, _, _, _, r1, h1, h2, _⟩ | ⟨hp, _, h0, hle, r1, h1, h2, _, h4, _⟩
    · exact stop r1 [] h1 (by simpa using h2) (by simp)
    · exact stop r1 _ h1 h2 (by simp)
    · exact stop r1 _ h1 h2 (by simp)
    · exact stop r1 _ h1 h2 (by simp)
    · rw [h1] at e'
      obtain ⟨rfl, rfl⟩ : ({ r with state := 5 } : ReqW U) = r' ∧ false = fin := by simpa using e'
      have hp' : phaseAfter (records done ++ [x]) = .stdin := by rw [phaseAfter_snoc, hp]; simp [Phase.next, h0]
      refine ⟨fun hf => ⟨hg hf, ?_, ?_, ?_, h.log⟩, by simp⟩ <;> rw [hr, hp']
      · simp
      · intro _; simp only [h.params hp]; exact ⟨by simp, hle⟩
      · simp
    · rw [h1] at e'
      obtain ⟨env, e1, e2⟩ := Res.bind_eq_ok.1 e'
      obtain ⟨rfl, rfl⟩ : ({ r with env := env } : ReqW U) = r' ∧ false = fin := by simpa using e2
      have hp' : phaseAfter (records done ++ [x]) = .params := by rw [phaseAfter_snoc, hp]; simp [Phase.next, h0]
      refine ⟨fun hf => ⟨hg hf, ?_, ?_, ?_, h.log⟩, by simp⟩ <;> rw [hr, hp']
      · intro _
        show env.postBuffer = []
        rw [fillLoop_keepsW _ _ _ _ _ _ e1]; exact h.params hp
      · simp
      · simp
    · rw [h1] at e'
      obtain ⟨a, p, ha, hpp, r1, fin1, f1, f2, f3, f4⟩ := inputEnd_specW hd g r h.g.alive (fcgiMsg x)
      rw [f1] at e'
      obtain ⟨rfl, rfl⟩ : r1 = r' ∧ fin1 = fin := by simpa using e'
      have hst := h.stdin hp
      rw [hmax] at hst
      have hb : BoundedW r0.maxPostSize r1.log := by
        rcases f4 with ⟨_, _, _, l, l', hl, c1, c2⟩ | ⟨_, _, _, _, l, l', hl, c1, c2⟩
        · refine h.log.add (c := [.inProcessor r.env, .unknownContent]) (by rw [hl]; simp [callsOf_appendW, callsOfW, c1, c2]) ?_
          intro env hm
          simp at hm; subst hm; exact hst
        · refine h.log.add (c := [.inProcessor r.env, .response { p.1 with postBuffer := [] } (fcgiMsg x)])
            (by rw [hl]; simp [callsOf_appendW, callsOfW, c1, c2]) ?_
          intro env hm
          simp at hm; subst hm; exact hst
      have hp' : phaseAfter (records done ++ [x]) = .output := by rw [phaseAfter_snoc, hp]; simp [Phase.next, h0]
      refine ⟨fun hf => ⟨hg hf, ?_, ?_, ?_, hb⟩, fun _ => hb⟩ <;> rw [hr, hp']
      · simp
      · simp
      · intro _
        rcases f4 with ⟨_, hft, _⟩ | ⟨_, _, _, henv, _⟩
        · rw [hf] at hft; cases hft
        · rw [henv hf, (ht.response _ _ _).2]
    · exact stop r1 _ h1 h2 (by simp)
    · rw [h1] at e'
      obtain ⟨rfl, rfl⟩ : r1 = r' ∧ false = fin := by simpa using e'
      have hp' : phaseAfter (records done ++ [x]) = .stdin := by rw [phaseAfter_snoc, hp]; simp [Phase.next, h0]
      refine ⟨fun hf => ⟨hg hf, ?_, ?_, ?_, h.log.add h2 (by simp)⟩, by simp⟩ <;> rw [hr, hp']
      · simp
      · intro _
        have tm := ht.inHandler r.user (fillPostBufferW r.env x.content) x.content.length
        have hmax' : r1.maxPostSize = r.maxPostSize := by rw [hmax]; exact (hg hf).consts.2.2.2.2
        rw [h4, tm.1, tm.2, hmax']
        simp only [fillPostBufferW, List.length_append]
        exact ⟨hle, (h.stdin hp).2⟩
      · simp

theorem run_sizeW {U} (hd : HandlersW U) (ht : TameW hd) (g) (sock id role kill max) (u : U) (ins : List Input) (hw : ∀ i ∈ ins, i.WF) {r rest fin}
    (e : handlerW hd g (freshReqW sock id role kill max u) (ins.map Input.message) = .ok (r, rest, fin)) :
    BoundedW max r.log ∧ (fin = false → r.env.postBuffer.length ≤ max) := by
  have h0 : SizeInvW (freshReqW sock id role kill max u) [] (freshReqW sock id role kill max u) :=
    ⟨freshReq_ginvW .., fun _ => rfl, by simp [records, phaseAfter], by simp [records, phaseAfter], by intro env hm; simp [freshReqW, callsOfW] at hm⟩
  obtain ⟨d, rest', rfl, _, h1, h2⟩ := run_invW hd g (SizeInvW (freshReqW sock id role kill max u))
    (fun _ r => BoundedW max r.log)
    (fun done i r r' fin => step_sizeW hd ht g _ done i r r' fin) ins [] _ r rest fin hw h0 e
  cases fin with
  | true => exact ⟨h2 rfl, by simp⟩
  | false =>
    obtain ⟨_, s⟩ := h1 rfl
    refine ⟨s.log, fun _ => ?_⟩
    have hm : r.maxPostSize = max := s.g.consts.2.2.2.2
    cases hp : phaseAfter (records ([] ++ d)) with
    | params => rw [s.params hp]; simp
    | stdin => have := s.stdin hp; omega
    | output => rw [s.output hp]; simp


end Fcgi.Model
