import Verif.Lemmas.ErrorPage
import Verif.Props.Request
import Verif.Props.Http
import Verif.Spec.RequestTerms
/-! # A request with a whole form, from its records to what is written (for C148) -/
namespace Fcgi.Model
open Fcgi Fcgi.Spec

theorem writtenOn_false (l : List (Bool × SOp UInt8)) : (l.filter (!·.1)).map Prod.snd = writtenOn false l := by
  unfold writtenOn; congr 2; funext o; cases o.1 <;> rfl
theorem writtenOn_true (l : List (Bool × SOp UInt8)) : (l.filter (·.1)).map Prod.snd = writtenOn true l := by
  unfold writtenOn; congr 2; funext o; cases o.1 <;> rfl

/-- The end of the input, for a class with the library's handlers. -/
theorem inputEnd_default {U} (resp : U → Env → Message → Act U × Bool) (g) (r : Req U) (h : Alive r) (m : Message) {parsed : Env}
    (hp : parsePostBuffer r.env = .ok (parsed, true)) :
    ∃ r', inputEnd (defaultHandlers resp) g r m = .ok (r', (resp r.user { parsed with postBuffer := [] } m).2) ∧ r'.status = r.status ∧
      ((resp r.user { parsed with postBuffer := [] } m).2 = false → Alive r' ∧ r'.env = (resp r.user { parsed with postBuffer := [] } m).1.env ∧
        r'.user = (resp r.user { parsed with postBuffer := [] } m).1.user) ∧
      ∀ e, writes e r'.log = writes e r.log ++ writtenOn e (resp r.user { parsed with postBuffer := [] } m).1.ops := by
  unfold inputEnd
  have ha : (defaultHandlers resp).inProcessor r.user r.env = (⟨[], r.env, r.user⟩, false) := rfl
  rw [ha]
  obtain ⟨r1, a1, a2, a3, a4, a5, l, a6, a7, a8, a9⟩ := call_spec g r h (.inProcessor r.env) ⟨[], r.env, r.user⟩
  dsimp only at a4 a5 ⊢
  simp only [a1, Res.ok_bind, a4, parsePost, Bool.false_eq_true, if_false, hp, not_true]
  have al : Alive { r1 with env := { parsed with postBuffer := [] }, state := 6 } := a2.of_eq rfl rfl rfl rfl rfl
  obtain ⟨r2, b1, b2, b3, b4, l', b5, b6, b7, b8⟩ := respond_spec (defaultHandlers resp) g _ al m
  have hr : (defaultHandlers resp).response = resp := rfl
  simp only [a5, hr] at b1 b3 b7 b8
  refine ⟨r2, by simp only [a5]; exact b1, b2.status.trans a3.status, b3, fun e => ?_⟩
  rw [b5]
  dsimp only
  rw [a6]
  cases e
  · simp only [writes_append, writes, a8, b7, writtenOn_false]; simp [writtenOn]
  · simp only [writes_append, writes, a9, b8, writtenOn_true]; simp [writtenOn]

/-- A whole request whose body the library can parse: it is complete if `response()` says so, with status 0, and has written exactly what `response()` wrote. -/
theorem body_run {U} (resp : U → Env → Message → Act U × Bool) (g) (sock id role kill max) (u : U)
    (hr : role = 1 ∨ role = 2) (ps : List (Record × List ((Bytes × Bytes) × Bytes))) (hps : ∀ p ∈ ps, WholePairs p.1 p.2)
    (p0 i0 : Record) (hp0 : p0.WF ∧ p0.type = 4 ∧ p0.content = []) (hi0 : i0.WF ∧ i0.type = 5 ∧ i0.content = [])
    (bs : List Record) (hbs : ∀ b ∈ bs, b.WF ∧ b.type = 5 ∧ b.content ≠ [])
    {env : Env} (henv : fillPairs [0] (ps.flatMap Prod.snd) {} = .ok env) (hmax : env.contentLength.toNat ≤ max)
    (hlen : (bs.flatMap Record.content).length ≤ env.contentLength.toNat) {parsed : Env}
    (hparse : parsePostBuffer { env with postBuffer := bs.flatMap Record.content } = .ok (parsed, true)) :
    ∃ r, handler (defaultHandlers resp) g (freshReq sock id role kill max u)
        ((ps.map Prod.fst ++ [p0] ++ bs ++ [i0]).map fcgiMsg) = .ok (r, [], (resp u { parsed with postBuffer := [] } (fcgiMsg i0)).2) ∧ r.status = 0 ∧
      ((resp u { parsed with postBuffer := [] } (fcgiMsg i0)).2 = false → Alive r ∧ r.env = (resp u { parsed with postBuffer := [] } (fcgiMsg i0)).1.env ∧
        r.user = (resp u { parsed with postBuffer := [] } (fcgiMsg i0)).1.user) ∧
      ∀ e, writes e r.log = writtenOn e (resp u { parsed with postBuffer := [] } (fcgiMsg i0)).1.ops := by
  obtain ⟨env', a1, a2⟩ := handler_params (defaultHandlers resp) g ps (freshReq sock id role kill max u) (freshReq_alive ..) rfl hr hps
  rw [show (freshReq sock id role kill max u).env = {} from rfl, henv] at a1
  cases a1
  have hpb : env.postBuffer = [] := by
    have : ∀ (its : List ((Bytes × Bytes) × Bytes)) (e e' : Env), fillPairs [0] its e = .ok e' → e'.postBuffer = e.postBuffer := by
      intro its
      induction its with
      | nil => intro e e' h; cases h; rfl
      | cons i its ih =>
        intro e e' h
        obtain ⟨⟨n, v⟩, b⟩ := i
        simp only [fillPairs] at h
        obtain ⟨e1, h1, h2⟩ := Res.bind_eq_ok.1 h
        rw [ih _ _ h2]
        cases fillStep_effect h1 <;> rfl
    exact this _ _ _ henv
  have al : Alive { freshReq sock id role kill max u with env := env, state := 5 } :=
    (freshReq_alive sock id role kill max u).of_eq rfl rfl rfl rfl rfl
  have s2 : handleMsg (defaultHandlers resp) g { freshReq sock id role kill max u with env := env } (fcgiMsg p0) =
      .ok ({ freshReq sock id role kill max u with env := env, state := 5 }, false) := by
    have al' : Alive { freshReq sock id role kill max u with env := env } :=
      (freshReq_alive sock id role kill max u).of_eq rfl rfl rfl rfl rfl
    rcases record_outcome (defaultHandlers resp) g _ al' p0 hp0.1 .params rfl with
      ⟨t, _⟩ | ⟨_, t, _⟩ | ⟨_, _, t, _⟩ | ⟨_, _, _, _, t, _⟩ | ⟨_, _, _, _, c, h1⟩ | ⟨_, _, _, c, _⟩ | ⟨p, _⟩ | ⟨p, _⟩ | ⟨p, _⟩
    · rw [hp0.2.1] at t; exact absurd t (by decide)
    · rw [hp0.2.1] at t; exact absurd rfl t
    · exact absurd hr t
    · exact absurd hmax (Nat.not_le_of_gt t)
    · exact h1
    · exact absurd hp0.2.2 c
    all_goals cases p
  obtain ⟨r3, b1, b2, b3, b4, b5⟩ := handler_stdin (defaultHandlers resp) (fun _ _ _ => rfl) g bs _ al rfl hbs
    (by simpa [hpb] using hlen)
  have hu : ∀ (bs : List Record) (r r' : Req U), (∀ b ∈ bs, b.WF ∧ b.type = 5 ∧ b.content ≠ []) → Alive r → r.state = 5 →
      handler (defaultHandlers resp) g r (bs.map fcgiMsg) = .ok (r', [], false) → r'.user = r.user := by
    intro bs
    induction bs with
    | nil => intro r r' _ _ _ e; simp [handler] at e; rw [e]
    | cons b bs ih =>
      intro r r' hb hal hst e
      obtain ⟨hw, ht, hc⟩ := hb b (by simp)
      simp only [List.map_cons, handler] at e
      obtain ⟨⟨r1, f1⟩, e1, e⟩ := Res.bind_eq_ok.1 e
      have sp := handleMsg_spec (defaultHandlers resp) g r r1 hal _ f1 e1
      cases f1 with
      | true => simp at e
      | false =>
        simp only [Bool.false_eq_true, if_false] at e
        rcases record_outcome (defaultHandlers resp) g r hal b hw .stdin hst with
          ⟨t, _⟩ | ⟨_, t, _⟩ | ⟨p, _⟩ | ⟨p, _⟩ | ⟨p, _⟩ | ⟨p, _⟩ | ⟨_, _, c, _⟩ | ⟨_, _, _, _, q, h1, _⟩ | ⟨_, _, _, _, q, h1, _, h3, _, h5⟩
        · rw [ht] at t; exact absurd t (by decide)
        · rw [ht] at t; exact absurd rfl t
        · cases p
        · cases p
        · cases p
        · cases p
        · exact absurd c hc
        · rw [h1] at e1; simp at e1
        · rw [h1] at e1
          obtain rfl : q = r1 := by simpa using e1
          rw [ih q r' (fun c hc => hb c (by simp [hc])) (sp.2.1 rfl).1 (h3.trans hst) e, h5]
          rfl
  have hu3 : r3.user = u := hu bs _ r3 hbs al rfl b1
  have henv3 : r3.env = { env with postBuffer := bs.flatMap Record.content } := by rw [b4]; simp [hpb]
  have hst3 : r3.status = 0 := ((handler_spec _ g _ _ _ _ _ al b1).2.1 rfl).2.1
  have hw3 : ∀ e, writes e r3.log = [] := by
    have hcs : callsOf r3.log = bs.map (fun b => .inHandler b.content.length) := by rw [b5]; rfl
    have hpl := (page_run (keepsPages_default resp) g _ _ _ _ _ al (fun _ => ⟨rfl, rfl⟩) (by intro c hc; cases hc) b1).1
    have hno : NoResponse (callsOf r3.log) := by
      intro env m hm
      rw [hcs] at hm
      obtain ⟨b, _, hb⟩ := List.mem_map.1 hm
      cases hb
    obtain ⟨w1, w2⟩ := hpl hno
    intro e
    cases e
    · rw [w1, hcs]
      rw [List.flatMap_eq_nil_iff]
      intro c hc
      obtain ⟨b, _, rfl⟩ := List.mem_map.1 hc
      rfl
    · exact w2
  have s4 : handleMsg (defaultHandlers resp) g r3 (fcgiMsg i0) = inputEnd (defaultHandlers resp) g r3 (fcgiMsg i0) := by
    rcases record_outcome (defaultHandlers resp) g r3 b2 i0 hi0.1 .stdin b3 with
      ⟨t, _⟩ | ⟨_, t, _⟩ | ⟨p, _⟩ | ⟨p, _⟩ | ⟨p, _⟩ | ⟨p, _⟩ | ⟨_, _, _, h1⟩ | ⟨_, _, c, _⟩ | ⟨_, _, c, _⟩
    · rw [hi0.2.1] at t; exact absurd t (by decide)
    · rw [hi0.2.1] at t; exact absurd rfl t
    · cases p
    · cases p
    · cases p
    · cases p
    · exact h1
    · exact absurd hi0.2.2 c
    · exact absurd hi0.2.2 c
  obtain ⟨r4, f1, f2, f4, f3⟩ := inputEnd_default resp g r3 b2 (fcgiMsg i0) (parsed := parsed) (by rw [henv3]; exact hparse)
  rw [hu3] at f1 f4
  refine ⟨r4, ?_, f2.trans hst3, f4, fun e => ?_⟩
  · rw [List.map_append, List.map_append, List.map_append, handler_append, handler_append, handler_append, List.map_map,
      show (fcgiMsg ∘ Prod.fst : Record × List ((Bytes × Bytes) × Bytes) → Message) = fun p => fcgiMsg p.1 from rfl, a2]
    simp only [Res.ok_bind, Bool.false_eq_true, if_false, List.map_cons, List.map_nil, handler, s2, b1, s4, f1]
    cases (resp u { parsed with postBuffer := [] } (fcgiMsg i0)).2 <;> rfl
  · rw [f3 e, hw3 e, hu3, List.nil_append]

/-- The boundary that the last CONTENT_TYPE names. -/
theorem fillPairs_boundary (tail : Bytes) (items : List ((Bytes × Bytes) × Bytes)) (env env' : Env) (h : fillPairs tail items env = .ok env')
    (t b : Bytes) (ht : 59 ∉ t ∧ 61 ∉ t) (hl : lastValue b!"CONTENT_TYPE" (items.map Prod.fst) = some (t ++ b!"; boundary=" ++ b)) :
    env'.boundary = b ∧ env'.contentType = t := by
  have h1 := fillPairs_last (fun e => (e.boundary, e.contentType)) b!"CONTENT_TYPE"
    (fun v x => ∃ old, x = (boundaryOf old v, v.takeWhile (· ≠ 59))) (by
      intro env v a env' h
      cases h <;> first | exact ⟨_, rfl⟩ | (rename_i hh; exact absurd hh (by decide)) | (rename_i hh _ ; exact absurd hh (by decide)) | (rename_i hh _ _; exact absurd hh (by decide)))
    (by intro env n v a env' hn h; cases h <;> first | rfl | exact absurd ‹_› hn) tail items env env' h
  rw [hl] at h1
  obtain ⟨old, h1⟩ := h1
  have tw : (t ++ b!"; boundary=" ++ b).takeWhile (· ≠ 59) = t := by
    rw [List.append_assoc, List.takeWhile_append_of_pos (by intro c hc; simp only [ne_eq, decide_not, Bool.not_eq_eq_eq_not, Bool.not_true, decide_eq_false_iff_not]; rintro rfl; exact ht.1 hc)]
    rw [show (b!"; boundary=" : Bytes) = 59 :: b!" boundary=" from by decide]
    simp
  have tw2 : (b!"; boundary=" ++ b).takeWhile (· ≠ 61) = b!"; boundary" := by
    rw [show (b!"; boundary=" : Bytes) = b!"; boundary" ++ [61] from by decide, List.append_assoc,
      List.takeWhile_append_of_pos (by decide)]
    simp
  have e1 : env'.boundary = boundaryOf old (t ++ b!"; boundary=" ++ b) := congrArg Prod.fst h1
  have e2 : env'.contentType = _ := congrArg Prod.snd h1
  rw [tw] at e2
  refine ⟨?_, e2⟩
  rw [e1]
  unfold boundaryOf
  rw [tw]
  have hd : (t ++ b!"; boundary=" ++ b).drop t.length = b!"; boundary=" ++ b := by
    rw [List.append_assoc, List.drop_left]
  have hlen : (b!"; boundary=" : Bytes).length = 11 := by decide
  have hlen2 : (b!"; boundary" : Bytes).length = 10 := by decide
  dsimp only
  rw [hd, tw2, if_pos (by simp only [List.length_append, hlen]; omega), if_pos (by simp only [List.length_append, hlen, hlen2]; omega)]
  rw [show t.length + (b!"; boundary" : Bytes).length + 1 = (t ++ b!"; boundary=").length from by simp only [List.length_append, hlen, hlen2],
    List.drop_left]

end Fcgi.Model
