import Verif.Lemmas.TakenWide
import Verif.Lemmas.Aborted
/-! # A request of a wide-character application that the web server gives up (for C153) -/
namespace Fcgi.Model
open Fcgi Fcgi.Spec

/-- The parameters, their end, and a beginning of the body. -/
theorem begun_runW {U} (hd : HandlersW U) (hin : ∀ u e n, (hd.inHandler u e n).env = e) (g) (sock id role kill max) (u : U)
    (hr : role = 1 ∨ role = 2) (ps : List (Record × List ((Bytes × Bytes) × Bytes))) (hps : ∀ p ∈ ps, WholePairs p.1 p.2)
    (p0 : Record) (hp0 : p0.WF ∧ p0.type = 4 ∧ p0.content = [])
    (bs : List Record) (hbs : ∀ b ∈ bs, b.WF ∧ b.type = 5 ∧ b.content ≠ [])
    {env : Env} (henv : fillPairs [0] (ps.flatMap Prod.snd) {} = .ok env) (hmax : env.contentLength.toNat ≤ max)
    (hlen : (bs.flatMap Record.content).length ≤ env.contentLength.toNat) :
    ∃ (w : EnvW) (r : ReqW U), SameEnv env w ∧ TextsOf ((ps.flatMap Prod.snd).map Prod.fst) w ∧
      handlerW hd g (freshReqW sock id role kill max u) ((ps.map Prod.fst ++ [p0] ++ bs).map fcgiMsg) = .ok (r, [], false) ∧ AliveW r ∧ r.status = 0 ∧
      ∀ e, writesW e r.log = writtenOn e (whileComingW hd.inHandler u w (bs.map Record.content)).1 := by
  obtain ⟨env', envW, a1, as, at', a2⟩ := handler_paramsW hd g ps (freshReqW sock id role kill max u) {} [] (freshReq_aliveW ..)
    rfl hr hps sameEnv_fresh texts_fresh
  rw [henv] at a1
  cases a1
  rw [List.nil_append] at at'
  have hpb : envW.postBuffer = [] := by rw [← as.postBuffer]; exact postBuffer_fillPairs _ _ _ _ henv
  have al : AliveW { freshReqW sock id role kill max u with env := envW, state := 5 } :=
    (freshReq_aliveW sock id role kill max u).of_eq rfl rfl rfl rfl rfl
  have s2 : handleMsgW hd g { freshReqW sock id role kill max u with env := envW } (fcgiMsg p0) =
      .ok ({ freshReqW sock id role kill max u with env := envW, state := 5 }, false) := by
    rw [handleMsg_recordW hd g _ p0 hp0.1, if_neg (by rw [hp0.2.1]; decide), if_neg (by rw [hp0.2.1]; simp [freshReqW]), if_pos (by rfl),
      if_neg (by exact not_not_intro hr), if_pos (by rw [hp0.2.2]; rfl), if_neg (by rw [← as.contentLength]; exact Nat.not_lt.2 hmax)]
  obtain ⟨r3, b1, b2, b3, b4, b5, b6, b7⟩ := handler_piecesW hd hin g bs _ al rfl hbs (by simpa [hpb, ← as.contentLength] using hlen)
  refine ⟨envW, r3, as, at', ?_, b2, b4, fun e => b7 e⟩
  rw [List.map_append, List.map_append, handler_appendW, handler_appendW, List.map_map,
    show (fcgiMsg ∘ Prod.fst : Record × List ((Bytes × Bytes) × Bytes) → Message) = fun p => fcgiMsg p.1 from rfl, a2]
  simp only [Res.ok_bind, Bool.false_eq_true, if_false, List.map_cons, List.map_nil, handlerW, s2, b1]

/-- ABORT_REQUEST finishes a request; what comes after it is ignored. -/
theorem abort_runW {U} (hd : HandlersW U) (g) (r0 r : ReqW U) (pre : List Record) (h : handlerW hd g r0 (pre.map fcgiMsg) = .ok (r, [], false))
    (al : AliveW r) (a : Record) (ha : a.WF ∧ a.type = 2) (post : List Record) :
    ∃ r', handlerW hd g r0 ((pre ++ a :: post).map fcgiMsg) = .ok (r', post.map fcgiMsg, true) ∧ r'.status = r.status ∧
      ∀ e, writesW e r'.log = writesW e r.log := by
  obtain ⟨r1, a1, _, a3, _, _, rs, _, a7⟩ := complete_specW g r al
  refine ⟨r1, ?_, a3.status, fun e => ?_⟩
  · rw [List.map_append, handler_appendW, h]
    simp only [Res.ok_bind, Bool.false_eq_true, if_false, List.map_cons, handlerW, handleMsg_recordW hd g _ a ha.1, if_pos ha.2, a1, if_true]
    rfl
  · rw [a7]; simp [writes_appendW, writesW]

/-- A record that is not the end of the input does not lead to `response()`. -/
theorem handleMsg_silentW {U} (hd : HandlersW U) (g) (r : ReqW U) (al : AliveW r) (x : Record) (hx : x.WF) (h5 : ¬ (x.type = 5 ∧ x.content = []))
    {r' : ReqW U} {fin : Bool} (e : handleMsgW hd g r (fcgiMsg x) = .ok (r', fin)) :
    (fin = false → AliveW r') ∧ ∀ env m, .response env m ∈ callsOfW r'.log → .response env m ∈ callsOfW r.log := by
  have fail : ∀ (q : ReqW U) (c : CallW) (a : ActW U), AliveW q → q.log = r.log → (∀ env m, c ≠ .response env m) → failWithW g q c a = .ok (r', fin) →
      (fin = false → AliveW r') ∧ ∀ env m, .response env m ∈ callsOfW r'.log → .response env m ∈ callsOfW r.log := by
    intro q c a hq hl hc h
    obtain ⟨r1, a1, _, _, l, a2, a3, _⟩ := failWith_specW g q hq c a
    rw [a1] at h
    cases h
    refine ⟨fun h => (by cases h), fun env m hm => ?_⟩
    rw [a2, callsOf_appendW, hl] at hm
    rcases List.mem_append.1 hm with hm | hm
    · exact hm
    · simp only [callsOfW, a3, List.mem_singleton] at hm
      exact absurd hm.symm (hc env m)
  rw [handleMsg_recordW hd g r x hx] at e
  split at e
  · obtain ⟨r1, a1, _, _, _, _, rs, _, a2⟩ := complete_specW g r al
    rw [a1] at e
    cases e
    refine ⟨fun h => (by cases h), fun env m hm => ?_⟩
    rw [a2] at hm
    simpa [callsOf_appendW, callsOf_sentsW, callsOfW] using hm
  split at e
  · exact fail r _ _ al rfl (fun _ _ h => by cases h) e
  rename_i _ hty
  split at e
  · split at e
    · exact fail { r with status := 3 } _ _ (al.of_eq rfl rfl rfl rfl rfl) rfl (fun _ _ h => by cases h) e
    split at e
    · split at e
      · exact fail r _ _ al rfl (fun _ _ h => by cases h) e
      · cases e
        exact ⟨fun _ => al.of_eq rfl rfl rfl rfl rfl, fun _ _ h => h⟩
    · obtain ⟨env1, _, e2⟩ := Res.bind_eq_ok.1 e
      cases e2
      exact ⟨fun _ => al.of_eq rfl rfl rfl rfl rfl, fun _ _ h => h⟩
  split at e
  · rename_i hs
    split at e
    · rename_i h0
      exact absurd ⟨(Decidable.not_not.1 hty).trans hs, List.eq_nil_of_length_eq_zero h0⟩ h5
    split at e
    · exact fail r _ _ al rfl (fun _ _ h => by cases h) e
    · obtain ⟨r1, a1, a2, _, _, _, l, a3, a4, _⟩ := call_specW g { r with env := fillPostBufferW r.env x.content } (al.of_eq rfl rfl rfl rfl rfl)
        (.inHandler x.content.length) (hd.inHandler r.user (fillPostBufferW r.env x.content) x.content.length)
      rw [a1] at e
      cases e
      refine ⟨fun _ => a2, fun env m hm => ?_⟩
      rw [a3, callsOf_appendW] at hm
      rcases List.mem_append.1 hm with hm | hm
      · exact hm
      · simp only [callsOfW, a4, List.mem_singleton] at hm
        cases hm
  · exact fail r _ _ al rfl (fun _ _ h => by cases h) e

/-- Before the end of the input and after the request has been given up `response()` is not called. -/
theorem handler_silentW {U} (hd : HandlersW U) (g) (a : Record) (ha : a.WF ∧ a.type = 2) (post : List Record) : ∀ (pre : List Record) (r : ReqW U), AliveW r →
    (∀ x ∈ pre, x.WF ∧ ¬ (x.type = 5 ∧ x.content = [])) → ∀ {r' : ReqW U} {rest fin}, handlerW hd g r ((pre ++ a :: post).map fcgiMsg) = .ok (r', rest, fin) →
    ∀ env m, .response env m ∈ callsOfW r'.log → .response env m ∈ callsOfW r.log := by
  intro pre
  induction pre with
  | nil =>
    intro r al _ r' rest fin e
    simp only [List.nil_append, List.map_cons, handlerW] at e
    obtain ⟨⟨r1, f1⟩, e1, e2⟩ := Res.bind_eq_ok.1 e
    obtain ⟨_, h2⟩ := handleMsg_silentW hd g r al a ha.1 (by rw [ha.2]; simp) e1
    rw [handleMsg_recordW hd g r a ha.1, if_pos ha.2] at e1
    obtain ⟨r2, _, e3⟩ := Res.bind_eq_ok.1 e1
    cases e3
    cases e2
    exact h2
  | cons x pre ih =>
    intro r al hp r' rest fin e
    simp only [List.cons_append, List.map_cons, handlerW] at e
    obtain ⟨⟨r1, f1⟩, e1, e2⟩ := Res.bind_eq_ok.1 e
    obtain ⟨h1, h2⟩ := handleMsg_silentW hd g r al x (hp x (by simp)).1 (hp x (by simp)).2 e1
    cases f1 with
    | true => cases e2; exact h2
    | false =>
      intro env m hm
      exact h2 env m (ih r1 (h1 rfl) (fun y hy => hp y (by simp [hy])) e2 env m hm)

end Fcgi.Model
