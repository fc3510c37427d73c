import Verif.Lemmas.EndToEnd
import Verif.Spec.Taken
/-! # A request whose body the application takes itself (for C152) -/
namespace Fcgi.Model
open Fcgi Fcgi.Spec

theorem writtenOn_append2 {α} (e : Bool) (a b : List (Bool × SOp α)) : writtenOn e (a ++ b) = writtenOn e a ++ writtenOn e b := by
  simp [writtenOn]

/-- The records of the body. -/
theorem handler_pieces {U} (hd : Handlers U) (hin : ∀ u e n, (hd.inHandler u e n).env = e) (g) :
    ∀ (bs : List Record) (r : Req U), Alive r → r.state = 5 → (∀ b ∈ bs, b.WF ∧ b.type = 5 ∧ b.content ≠ []) →
    r.env.postBuffer.length + (bs.flatMap Record.content).length ≤ r.env.contentLength.toNat →
    ∃ r', handler hd g r (bs.map fcgiMsg) = .ok (r', [], false) ∧ Alive r' ∧ r'.state = 5 ∧ r'.status = r.status ∧
      r'.env = { r.env with postBuffer := r.env.postBuffer ++ bs.flatMap Record.content } ∧
      r'.user = (whileComing hd.inHandler r.user r.env (bs.map Record.content)).2 ∧
      ∀ e, writes e r'.log = writes e r.log ++ writtenOn e (whileComing hd.inHandler r.user r.env (bs.map Record.content)).1 := by
  intro bs
  induction bs with
  | nil => intro r h hs _ _; exact ⟨r, rfl, h, hs, rfl, by simp, rfl, by simp [whileComing, writtenOn]⟩
  | cons b bs ih =>
    intro r h hs hb hl
    obtain ⟨hw, ht, hc⟩ := hb b (by simp)
    simp only [List.flatMap_cons, List.length_append] at hl
    have h1 : handleMsg hd g r (fcgiMsg b) = (call g { r with env := fillPostBuffer r.env b.content } (.inHandler b.content.length)
        (hd.inHandler r.user (fillPostBuffer r.env b.content) b.content.length) >>= fun r => .ok (r, false)) := by
      rw [handleMsg_record hd g r b hw, if_neg (by rw [ht]; decide), if_neg (by rw [ht, hs]; simp), if_neg (by rw [hs]; decide), if_pos hs,
        if_neg (by rw [List.length_eq_zero_iff]; exact hc), if_neg (by omega)]
    have al : Alive { r with env := fillPostBuffer r.env b.content } := h.of_eq rfl rfl rfl rfl rfl
    obtain ⟨r1, a1, a2, a3, a4, a5, l, a6, a7, a8, a9⟩ := call_spec g _ al (.inHandler b.content.length)
      (hd.inHandler r.user (fillPostBuffer r.env b.content) b.content.length)
    rw [a1] at h1
    rw [hin] at a4
    obtain ⟨r', e1, e2, e3, e4, e5, e6, e7⟩ := ih r1 a2 (a3.state.trans hs) (fun c hc => hb c (by simp [hc]))
      (by rw [a4]; simp only [fillPostBuffer, List.length_append]; omega)
    refine ⟨r', ?_, e2, e3, e4.trans a3.status, ?_, ?_, fun e => ?_⟩
    · simp only [List.map_cons, handler, h1, Res.ok_bind, Bool.false_eq_true, if_false, e1]
    · rw [e5, a4]; simp [fillPostBuffer]
    · rw [e6, a5, a4]; rfl
    · rw [e7, a5, a4, a6]
      simp only [List.map_cons, whileComing, writtenOn_append2]
      cases e
      · simp only [writes_append, writes, a8, writtenOn_false, List.append_assoc]; rfl
      · simp only [writes_append, writes, a9, writtenOn_true, List.append_assoc]; rfl

/-- The end of the input, for an application that takes the body. -/
theorem inputEnd_taken {U} (hd : Handlers U) (g) (r : Req U) (h : Alive r) (m : Message) (ht : (hd.inProcessor r.user r.env).2 = true)
    (hf : ∀ u env m, (hd.response u env m).2 = true) :
    ∃ r', inputEnd hd g r m = .ok (r', true) ∧ r'.status = r.status ∧
      ∀ e, writes e r'.log = writes e r.log ++ writtenOn e (hd.inProcessor r.user r.env).1.ops ++
        writtenOn e (hd.response (hd.inProcessor r.user r.env).1.user { (hd.inProcessor r.user r.env).1.env with postBuffer := [] } m).1.ops := by
  unfold inputEnd
  generalize hd.inProcessor r.user r.env = a at *
  obtain ⟨a, b⟩ := a
  dsimp only at ht
  subst ht
  obtain ⟨r1, a1, a2, a3, a4, a5, l, a6, a7, a8, a9⟩ := call_spec g r h (.inProcessor r.env) a
  dsimp only
  simp only [a1, Res.ok_bind, a4, parsePost, if_true, not_true, if_false]
  have al : Alive { r1 with env := { a.env with postBuffer := [] }, state := 6 } := a2.of_eq rfl rfl rfl rfl rfl
  obtain ⟨r2, b1, b2, _, b4, l', b5, b6, b7, b8⟩ := respond_spec hd g _ al m
  simp only [a5, hf] at b1 b7 b8
  refine ⟨r2, by simp only [a5]; exact b1, b2.status.trans a3.status, fun e => ?_⟩
  rw [b5]
  dsimp only
  rw [a6]
  cases e
  · simp only [writes_append, writes, a8, b7, writtenOn_false]
  · simp only [writes_append, writes, a9, b8, writtenOn_true]

/-- A whole request whose body the application takes. -/
theorem taken_run {U} (hd : Handlers U) (hin : ∀ u e n, (hd.inHandler u e n).env = e) {app : U → Env → List (Bool × SOp UInt8)}
    (happ : ∀ u env m, (hd.response u env m).1.ops = app u env ∧ (hd.response u env m).2 = true) (g) (sock id role kill max) (u : U)
    (hr : role = 1 ∨ role = 2) (ps : List (Record × List ((Bytes × Bytes) × Bytes))) (hps : ∀ p ∈ ps, WholePairs p.1 p.2)
    (p0 i0 : Record) (hp0 : p0.WF ∧ p0.type = 4 ∧ p0.content = []) (hi0 : i0.WF ∧ i0.type = 5 ∧ i0.content = [])
    (bs : List Record) (hbs : ∀ b ∈ bs, b.WF ∧ b.type = 5 ∧ b.content ≠ [])
    {env : Env} (henv : fillPairs [0] (ps.flatMap Prod.snd) {} = .ok env) (hmax : env.contentLength.toNat ≤ max)
    (hlen : (bs.flatMap Record.content).length ≤ env.contentLength.toNat)
    (ht : ∀ u, (hd.inProcessor u { env with postBuffer := bs.flatMap Record.content }).2 = true) :
    env.postBuffer = [] ∧ ∃ r, handler hd g (freshReq sock id role kill max u)
        ((ps.map Prod.fst ++ [p0] ++ bs ++ [i0]).map fcgiMsg) = .ok (r, [], true) ∧ r.status = 0 ∧
      ∀ e, writes e r.log = writtenOn e (takenWrites hd app u env (bs.map Record.content)) := by
  obtain ⟨env', a1, a2⟩ := handler_params hd g ps (freshReq sock id role kill max u) (freshReq_alive ..) rfl hr hps
  rw [show (freshReq sock id role kill max u).env = {} from rfl, henv] at a1
  cases a1
  have hpb : env.postBuffer = [] := by
    have : ∀ (its : List ((Bytes × Bytes) × Bytes)) (e e' : Env), fillPairs [0] its e = .ok e' → e'.postBuffer = e.postBuffer := by
      intro its
      induction its with
      | nil => intro e e' h; cases h; rfl
      | cons i its ih =>
        intro e e' h
        obtain ⟨⟨n, v⟩, b⟩ := i
        simp only [fillPairs] at h
        obtain ⟨e1, h1, h2⟩ := Res.bind_eq_ok.1 h
        rw [ih _ _ h2]
        cases fillStep_effect h1 <;> rfl
    exact this _ _ _ henv
  refine ⟨hpb, ?_⟩
  have al : Alive { freshReq sock id role kill max u with env := env, state := 5 } :=
    (freshReq_alive sock id role kill max u).of_eq rfl rfl rfl rfl rfl
  have s2 : handleMsg hd g { freshReq sock id role kill max u with env := env } (fcgiMsg p0) =
      .ok ({ freshReq sock id role kill max u with env := env, state := 5 }, false) := by
    rw [handleMsg_record hd g _ p0 hp0.1, if_neg (by rw [hp0.2.1]; decide), if_neg (by rw [hp0.2.1]; simp [freshReq]), if_pos (by rfl),
      if_neg (by exact not_not_intro hr), if_pos (by rw [hp0.2.2]; rfl), if_neg (by exact Nat.not_lt.2 hmax)]
  obtain ⟨r3, b1, b2, b3, b4, b5, b6, b7⟩ := handler_pieces hd hin g bs _ al rfl hbs (by simpa [hpb] using hlen)
  dsimp only at b4 b5 b6 b7
  rw [hpb, List.nil_append] at b5
  have s4 : handleMsg hd g r3 (fcgiMsg i0) = inputEnd hd g r3 (fcgiMsg i0) := by
    rw [handleMsg_record hd g _ i0 hi0.1, if_neg (by rw [hi0.2.1]; decide), if_neg (by rw [hi0.2.1, b3]; simp), if_neg (by rw [b3]; decide), if_pos b3,
      if_pos (by rw [hi0.2.2]; rfl)]
  obtain ⟨r4, f1, f2, f3⟩ := inputEnd_taken hd g r3 b2 (fcgiMsg i0) (by rw [b5]; exact ht _) (fun u env m => (happ u env m).2)
  refine ⟨r4, ?_, f2.trans b4, fun e => ?_⟩
  · rw [List.map_append, List.map_append, List.map_append, handler_append, handler_append, handler_append, List.map_map,
      show (fcgiMsg ∘ Prod.fst : Record × List ((Bytes × Bytes) × Bytes) → Message) = fun p => fcgiMsg p.1 from rfl, a2]
    simp only [Res.ok_bind, Bool.false_eq_true, if_false, List.map_cons, List.map_nil, handler, s2, b1, s4, f1]
    rfl
  · rw [f3 e, b7 e, (happ _ _ _).1, b5, b6]
    simp only [takenWrites, writtenOn_append2, List.flatMap_def]
    rfl

end Fcgi.Model
