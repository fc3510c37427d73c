import Verif.Lemmas.Taken
import Verif.Lemmas.EndToEndWide
/-! # A request of a wide-character application that takes the body itself (for C152) -/
namespace Fcgi.Model
open Fcgi Fcgi.Spec

/-- The records of the body. -/
theorem handler_piecesW {U} (hd : HandlersW U) (hin : ∀ u e n, (hd.inHandler u e n).env = e) (g) :
    ∀ (bs : List Record) (r : ReqW U), AliveW r → r.state = 5 → (∀ b ∈ bs, b.WF ∧ b.type = 5 ∧ b.content ≠ []) →
    r.env.postBuffer.length + (bs.flatMap Record.content).length ≤ r.env.contentLength.toNat →
    ∃ r', handlerW hd g r (bs.map fcgiMsg) = .ok (r', [], false) ∧ AliveW r' ∧ r'.state = 5 ∧ r'.status = r.status ∧
      r'.env = { r.env with postBuffer := r.env.postBuffer ++ bs.flatMap Record.content } ∧
      r'.user = (whileComingW hd.inHandler r.user r.env (bs.map Record.content)).2 ∧
      ∀ e, writesW e r'.log = writesW e r.log ++ writtenOn e (whileComingW hd.inHandler r.user r.env (bs.map Record.content)).1 := by
  intro bs
  induction bs with
  | nil => intro r h hs _ _; exact ⟨r, rfl, h, hs, rfl, by simp, rfl, by simp [whileComingW, writtenOn]⟩
  | cons b bs ih =>
    intro r h hs hb hl
    obtain ⟨hw, ht, hc⟩ := hb b (by simp)
    simp only [List.flatMap_cons, List.length_append] at hl
    have h1 : handleMsgW hd g r (fcgiMsg b) = (callW g { r with env := fillPostBufferW r.env b.content } (.inHandler b.content.length)
        (hd.inHandler r.user (fillPostBufferW r.env b.content) b.content.length) >>= fun r => .ok (r, false)) := by
      rw [handleMsg_recordW hd g r b hw, if_neg (by rw [ht]; decide), if_neg (by rw [ht, hs]; simp), if_neg (by rw [hs]; decide), if_pos hs,
        if_neg (by rw [List.length_eq_zero_iff]; exact hc), if_neg (by omega)]
    have al : AliveW { r with env := fillPostBufferW r.env b.content } := h.of_eq rfl rfl rfl rfl rfl
    obtain ⟨r1, a1, a2, a3, a4, a5, l, a6, a7, a8, a9⟩ := call_specW g _ al (.inHandler b.content.length)
      (hd.inHandler r.user (fillPostBufferW r.env b.content) b.content.length)
    rw [a1] at h1
    rw [hin] at a4
    obtain ⟨r', e1, e2, e3, e4, e5, e6, e7⟩ := ih r1 a2 (a3.state.trans hs) (fun c hc => hb c (by simp [hc]))
      (by rw [a4]; simp only [fillPostBufferW, List.length_append]; omega)
    refine ⟨r', ?_, e2, e3, e4.trans a3.status, ?_, ?_, fun e => ?_⟩
    · simp only [List.map_cons, handlerW, h1, Res.ok_bind, Bool.false_eq_true, if_false, e1]
    · rw [e5, a4]; simp [fillPostBufferW]
    · rw [e6, a5, a4]; rfl
    · rw [e7, a5, a4, a6]
      simp only [List.map_cons, whileComingW, writtenOn_append2]
      cases e
      · simp only [writes_appendW, writesW, a8, writtenOnW_false, List.append_assoc]; rfl
      · simp only [writes_appendW, writesW, a9, writtenOnW_true, List.append_assoc]; rfl

/-- The end of the input, for an application that takes the body. -/
theorem inputEnd_takenW {U} (hd : HandlersW U) (g) (r : ReqW U) (h : AliveW r) (m : Message) (ht : (hd.inProcessor r.user r.env).2 = true)
    (hf : ∀ u env m, (hd.response u env m).2 = true) :
    ∃ r', inputEndW hd g r m = .ok (r', true) ∧ r'.status = r.status ∧
      ∀ e, writesW e r'.log = writesW e r.log ++ writtenOn e (hd.inProcessor r.user r.env).1.ops ++
        writtenOn e (hd.response (hd.inProcessor r.user r.env).1.user { (hd.inProcessor r.user r.env).1.env with postBuffer := [] } m).1.ops := by
  unfold inputEndW
  generalize hd.inProcessor r.user r.env = a at *
  obtain ⟨a, b⟩ := a
  dsimp only at ht
  subst ht
  obtain ⟨r1, a1, a2, a3, a4, a5, l, a6, a7, a8, a9⟩ := call_specW g r h (.inProcessor r.env) a
  dsimp only
  simp only [a1, Res.ok_bind, a4, parsePostW, if_true, not_true, if_false]
  have al : AliveW { r1 with env := { a.env with postBuffer := [] }, state := 6 } := a2.of_eq rfl rfl rfl rfl rfl
  obtain ⟨r2, b1, b2, _, b4, l', b5, b6, b7, b8⟩ := respond_specW hd g _ al m
  simp only [a5, hf] at b1 b7 b8
  refine ⟨r2, by simp only [a5]; exact b1, b2.status.trans a3.status, fun e => ?_⟩
  rw [b5]
  dsimp only
  rw [a6]
  cases e
  · simp only [writes_appendW, writesW, a8, b7, writtenOnW_false]
  · simp only [writes_appendW, writesW, a9, b8, writtenOnW_true]

/-- A whole request whose body the application takes. -/
theorem taken_runW {U} (hd : HandlersW U) (hin : ∀ u e n, (hd.inHandler u e n).env = e) {app : U → EnvW → List (Bool × SOp UInt32)}
    (happ : ∀ u env m, (hd.response u env m).1.ops = app u env ∧ (hd.response u env m).2 = true) (g) (sock id role kill max) (u : U)
    (hr : role = 1 ∨ role = 2) (ps : List (Record × List ((Bytes × Bytes) × Bytes))) (hps : ∀ p ∈ ps, WholePairs p.1 p.2)
    (p0 i0 : Record) (hp0 : p0.WF ∧ p0.type = 4 ∧ p0.content = []) (hi0 : i0.WF ∧ i0.type = 5 ∧ i0.content = [])
    (bs : List Record) (hbs : ∀ b ∈ bs, b.WF ∧ b.type = 5 ∧ b.content ≠ [])
    {env : Env} (henv : fillPairs [0] (ps.flatMap Prod.snd) {} = .ok env) (hmax : env.contentLength.toNat ≤ max)
    (hlen : (bs.flatMap Record.content).length ≤ env.contentLength.toNat)
    (ht : ∀ u w, SameEnv { env with postBuffer := bs.flatMap Record.content } w → TextsOf ((ps.flatMap Prod.snd).map Prod.fst) w → (hd.inProcessor u w).2 = true) :
    ∃ (w : EnvW) (r : ReqW U), w.postBuffer = [] ∧ SameEnv env w ∧ TextsOf ((ps.flatMap Prod.snd).map Prod.fst) w ∧ handlerW hd g (freshReqW sock id role kill max u)
        ((ps.map Prod.fst ++ [p0] ++ bs ++ [i0]).map fcgiMsg) = .ok (r, [], true) ∧ r.status = 0 ∧
      ∀ e, writesW e r.log = writtenOn e (takenWritesW hd app u w (bs.map Record.content)) := by
  obtain ⟨env', envW, a1, as, at', a2⟩ := handler_paramsW hd g ps (freshReqW sock id role kill max u) {} [] (freshReq_aliveW ..)
    rfl hr hps sameEnv_fresh texts_fresh
  rw [henv] at a1
  cases a1
  rw [List.nil_append] at at'
  have hpbn : env.postBuffer = [] := by
    have : ∀ (its : List ((Bytes × Bytes) × Bytes)) (e e' : Env), fillPairs [0] its e = .ok e' → e'.postBuffer = e.postBuffer := by
      intro its
      induction its with
      | nil => intro e e' h; cases h; rfl
      | cons i its ih =>
        intro e e' h
        obtain ⟨⟨n, v⟩, b⟩ := i
        simp only [fillPairs] at h
        obtain ⟨e1, h1, h2⟩ := Res.bind_eq_ok.1 h
        rw [ih _ _ h2]
        cases fillStep_effect h1 <;> rfl
    exact this _ _ _ henv
  have hpb : envW.postBuffer = [] := by rw [← as.postBuffer]; exact hpbn
  have al : AliveW { freshReqW sock id role kill max u with env := envW, state := 5 } :=
    (freshReq_aliveW sock id role kill max u).of_eq rfl rfl rfl rfl rfl
  have s2 : handleMsgW hd g { freshReqW sock id role kill max u with env := envW } (fcgiMsg p0) =
      .ok ({ freshReqW sock id role kill max u with env := envW, state := 5 }, false) := by
    rw [handleMsg_recordW hd g _ p0 hp0.1, if_neg (by rw [hp0.2.1]; decide), if_neg (by rw [hp0.2.1]; simp [freshReqW]), if_pos (by rfl),
      if_neg (by exact not_not_intro hr), if_pos (by rw [hp0.2.2]; rfl), if_neg (by exact by rw [← as.contentLength]; exact Nat.not_lt.2 hmax)]
  obtain ⟨r3, b1, b2, b3, b4, b5, b6, b7⟩ := handler_piecesW hd hin g bs _ al rfl hbs (by simpa [hpb, ← as.contentLength] using hlen)
  dsimp only at b4 b5 b6 b7
  rw [hpb, List.nil_append] at b5
  have s4 : handleMsgW hd g r3 (fcgiMsg i0) = inputEndW hd g r3 (fcgiMsg i0) := by
    rw [handleMsg_recordW hd g _ i0 hi0.1, if_neg (by rw [hi0.2.1]; decide), if_neg (by rw [hi0.2.1, b3]; simp), if_neg (by rw [b3]; decide), if_pos b3,
      if_pos (by rw [hi0.2.2]; rfl)]
  obtain ⟨r4, f1, f2, f3⟩ := inputEnd_takenW hd g r3 b2 (fcgiMsg i0) (ht _ _ (by rw [b5]; exact { as with postBuffer := rfl }) (by rw [b5]; exact ⟨at'.host, at'.origin, at'.userAgent, at'.acceptContentTypes, at'.acceptCharsets, at'.authorization, at'.referer, at'.contentType, at'.root,
        at'.scriptName, at'.requestUri, at'.others⟩)) (fun u env m => (happ u env m).2)
  refine ⟨envW, r4, hpb, as, at', ?_, f2.trans b4, fun e => ?_⟩
  · rw [List.map_append, List.map_append, List.map_append, handler_appendW, handler_appendW, handler_appendW, List.map_map,
      show (fcgiMsg ∘ Prod.fst : Record × List ((Bytes × Bytes) × Bytes) → Message) = fun p => fcgiMsg p.1 from rfl, a2]
    simp only [Res.ok_bind, Bool.false_eq_true, if_false, List.map_cons, List.map_nil, handlerW, s2, b1, s4, f1]
    rfl
  · rw [f3 e, b7 e, (happ _ _ _).1, b5, b6]
    simp only [takenWritesW, writtenOn_append2, List.flatMap_def]
    rfl

end Fcgi.Model
