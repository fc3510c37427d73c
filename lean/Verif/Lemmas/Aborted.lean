import Verif.Lemmas.Taken
/-! # A request that the web server gives up (for C153) -/
namespace Fcgi.Model
open Fcgi Fcgi.Spec

theorem postBuffer_fillPairs (t : Bytes) : ∀ (its : List ((Bytes × Bytes) × Bytes)) (e e' : Env), fillPairs t its e = .ok e' → e'.postBuffer = e.postBuffer := by
  intro its
  induction its with
  | nil => intro e e' h; cases h; rfl
  | cons i its ih =>
    intro e e' h
    obtain ⟨⟨n, v⟩, b⟩ := i
    simp only [fillPairs] at h
    obtain ⟨e1, h1, h2⟩ := Res.bind_eq_ok.1 h
    rw [ih _ _ h2]
    cases fillStep_effect h1 <;> rfl

/-- The parameters, their end, and a beginning of the body. -/
theorem begun_run {U} (hd : Handlers U) (hin : ∀ u e n, (hd.inHandler u e n).env = e) (g) (sock id role kill max) (u : U)
    (hr : role = 1 ∨ role = 2) (ps : List (Record × List ((Bytes × Bytes) × Bytes))) (hps : ∀ p ∈ ps, WholePairs p.1 p.2)
    (p0 : Record) (hp0 : p0.WF ∧ p0.type = 4 ∧ p0.content = [])
    (bs : List Record) (hbs : ∀ b ∈ bs, b.WF ∧ b.type = 5 ∧ b.content ≠ [])
    {env : Env} (henv : fillPairs [0] (ps.flatMap Prod.snd) {} = .ok env) (hmax : env.contentLength.toNat ≤ max)
    (hlen : (bs.flatMap Record.content).length ≤ env.contentLength.toNat) :
    ∃ r, handler hd g (freshReq sock id role kill max u) ((ps.map Prod.fst ++ [p0] ++ bs).map fcgiMsg) = .ok (r, [], false) ∧ Alive r ∧ r.status = 0 ∧
      ∀ e, writes e r.log = writtenOn e (whileComing hd.inHandler u env (bs.map Record.content)).1 := by
  obtain ⟨env', a1, a2⟩ := handler_params hd g ps (freshReq sock id role kill max u) (freshReq_alive ..) rfl hr hps
  rw [show (freshReq sock id role kill max u).env = {} from rfl, henv] at a1
  cases a1
  have hpb : env.postBuffer = [] := postBuffer_fillPairs _ _ _ _ henv
  have al : Alive { freshReq sock id role kill max u with env := env, state := 5 } :=
    (freshReq_alive sock id role kill max u).of_eq rfl rfl rfl rfl rfl
  have s2 : handleMsg hd g { freshReq sock id role kill max u with env := env } (fcgiMsg p0) =
      .ok ({ freshReq sock id role kill max u with env := env, state := 5 }, false) := by
    rw [handleMsg_record hd g _ p0 hp0.1, if_neg (by rw [hp0.2.1]; decide), if_neg (by rw [hp0.2.1]; simp [freshReq]), if_pos (by rfl),
      if_neg (by exact not_not_intro hr), if_pos (by rw [hp0.2.2]; rfl), if_neg (by exact Nat.not_lt.2 hmax)]
  obtain ⟨r3, b1, b2, b3, b4, b5, b6, b7⟩ := handler_pieces hd hin g bs _ al rfl hbs (by simpa [hpb] using hlen)
  refine ⟨r3, ?_, b2, b4, fun e => b7 e⟩
  rw [List.map_append, List.map_append, handler_append, handler_append, List.map_map,
    show (fcgiMsg ∘ Prod.fst : Record × List ((Bytes × Bytes) × Bytes) → Message) = fun p => fcgiMsg p.1 from rfl, a2]
  simp only [Res.ok_bind, Bool.false_eq_true, if_false, List.map_cons, List.map_nil, handler, s2, b1]

/-- ABORT_REQUEST finishes a request; what comes after it is ignored. -/
theorem abort_run {U} (hd : Handlers U) (g) (r0 r : Req U) (pre : List Record) (h : handler hd g r0 (pre.map fcgiMsg) = .ok (r, [], false))
    (al : Alive r) (a : Record) (ha : a.WF ∧ a.type = 2) (post : List Record) :
    ∃ r', handler hd g r0 ((pre ++ a :: post).map fcgiMsg) = .ok (r', post.map fcgiMsg, true) ∧ r'.status = r.status ∧
      ∀ e, writes e r'.log = writes e r.log := by
  obtain ⟨r1, a1, _, a3, _, _, rs, _, a7⟩ := complete_spec g r al
  refine ⟨r1, ?_, a3.status, fun e => ?_⟩
  · rw [List.map_append, handler_append, h]
    simp only [Res.ok_bind, Bool.false_eq_true, if_false, List.map_cons, handler, handleMsg_record hd g _ a ha.1, if_pos ha.2, a1, if_true]
    rfl
  · rw [a7]; simp [writes_append, writes]

/-- A record that is not the end of the input does not lead to `response()`. -/
theorem handleMsg_silent {U} (hd : Handlers U) (g) (r : Req U) (al : Alive r) (x : Record) (hx : x.WF) (h5 : ¬ (x.type = 5 ∧ x.content = []))
    {r' : Req U} {fin : Bool} (e : handleMsg hd g r (fcgiMsg x) = .ok (r', fin)) :
    (fin = false → Alive r') ∧ ∀ env m, .response env m ∈ callsOf r'.log → .response env m ∈ callsOf r.log := by
  have fail : ∀ (q : Req U) (c : Call) (a : Act U), Alive q → q.log = r.log → (∀ env m, c ≠ .response env m) → failWith g q c a = .ok (r', fin) →
      (fin = false → Alive r') ∧ ∀ env m, .response env m ∈ callsOf r'.log → .response env m ∈ callsOf r.log := by
    intro q c a hq hl hc h
    obtain ⟨r1, a1, _, _, l, a2, a3, _⟩ := failWith_spec g q hq c a
    rw [a1] at h
    cases h
    refine ⟨fun h => (by cases h), fun env m hm => ?_⟩
    rw [a2, callsOf_append, hl] at hm
    rcases List.mem_append.1 hm with hm | hm
    · exact hm
    · simp only [callsOf, a3, List.mem_singleton] at hm
      exact absurd hm.symm (hc env m)
  rw [handleMsg_record hd g r x hx] at e
  split at e
  · obtain ⟨r1, a1, _, _, _, _, rs, _, a2⟩ := complete_spec g r al
    rw [a1] at e
    cases e
    refine ⟨fun h => (by cases h), fun env m hm => ?_⟩
    rw [a2] at hm
    simpa [callsOf_append, callsOf_sents, callsOf] using hm
  split at e
  · exact fail r _ _ al rfl (fun _ _ h => by cases h) e
  rename_i _ hty
  split at e
  · split at e
    · exact fail { r with status := 3 } _ _ (al.of_eq rfl rfl rfl rfl rfl) rfl (fun _ _ h => by cases h) e
    split at e
    · split at e
      · exact fail r _ _ al rfl (fun _ _ h => by cases h) e
      · cases e
        exact ⟨fun _ => al.of_eq rfl rfl rfl rfl rfl, fun _ _ h => h⟩
    · obtain ⟨env1, _, e2⟩ := Res.bind_eq_ok.1 e
      cases e2
      exact ⟨fun _ => al.of_eq rfl rfl rfl rfl rfl, fun _ _ h => h⟩
  split at e
  · rename_i hs
    split at e
    · rename_i h0
      exact absurd ⟨(Decidable.not_not.1 hty).trans hs, List.eq_nil_of_length_eq_zero h0⟩ h5
    split at e
    · exact fail r _ _ al rfl (fun _ _ h => by cases h) e
    · obtain ⟨r1, a1, a2, _, _, _, l, a3, a4, _⟩ := call_spec g { r with env := fillPostBuffer r.env x.content } (al.of_eq rfl rfl rfl rfl rfl)
        (.inHandler x.content.length) (hd.inHandler r.user (fillPostBuffer r.env x.content) x.content.length)
      rw [a1] at e
      cases e
      refine ⟨fun _ => a2, fun env m hm => ?_⟩
      rw [a3, callsOf_append] at hm
      rcases List.mem_append.1 hm with hm | hm
      · exact hm
      · simp only [callsOf, a4, List.mem_singleton] at hm
        cases hm
  · exact fail r _ _ al rfl (fun _ _ h => by cases h) e

/-- Before the end of the input and after the request has been given up `response()` is not called. -/
theorem handler_silent {U} (hd : Handlers U) (g) (a : Record) (ha : a.WF ∧ a.type = 2) (post : List Record) : ∀ (pre : List Record) (r : Req U), Alive r →
    (∀ x ∈ pre, x.WF ∧ ¬ (x.type = 5 ∧ x.content = [])) → ∀ {r' : Req U} {rest fin}, handler hd g r ((pre ++ a :: post).map fcgiMsg) = .ok (r', rest, fin) →
    ∀ env m, .response env m ∈ callsOf r'.log → .response env m ∈ callsOf r.log := by
  intro pre
  induction pre with
  | nil =>
    intro r al _ r' rest fin e
    simp only [List.nil_append, List.map_cons, handler] at e
    obtain ⟨⟨r1, f1⟩, e1, e2⟩ := Res.bind_eq_ok.1 e
    obtain ⟨_, h2⟩ := handleMsg_silent hd g r al a ha.1 (by rw [ha.2]; simp) e1
    rw [handleMsg_record hd g r a ha.1, if_pos ha.2] at e1
    obtain ⟨r2, _, e3⟩ := Res.bind_eq_ok.1 e1
    cases e3
    cases e2
    exact h2
  | cons x pre ih =>
    intro r al hp r' rest fin e
    simp only [List.cons_append, List.map_cons, handler] at e
    obtain ⟨⟨r1, f1⟩, e1, e2⟩ := Res.bind_eq_ok.1 e
    obtain ⟨h1, h2⟩ := handleMsg_silent hd g r al x (hp x (by simp)).1 (hp x (by simp)).2 e1
    cases f1 with
    | true => cases e2; exact h2
    | false =>
      intro env m hm
      exact h2 env m (ih r1 (h1 rfl) (fun y hy => hp y (by simp [hy])) e2 env m hm)

end Fcgi.Model
