import Verif.Lemmas.Request
import Verif.Spec.Request
import Verif.Spec.RequestTerms
namespace Fcgi.Model
open Fcgi Fcgi.Spec

theorem parsePostBuffer_total (env : Env) : ∃ r, parsePostBuffer env = .ok r := by
  unfold parsePostBuffer
  split
  · exact ⟨_, rfl⟩
  split
  · obtain ⟨e, he⟩ := parsePostsMultipart_total env
    rw [he]; exact ⟨_, rfl⟩
  split
  · obtain ⟨r, hr⟩ := urlLoop_total env.postBuffer b!"&" (by decide) (env.postBuffer.length + 2) 0 0 none env.posts (by omega) (by omega)
    unfold decodeUrlEncoded
    rw [hr]; exact ⟨_, rfl⟩
  · exact ⟨_, rfl⟩

/-- The outcome of the end of input. -/
theorem inputEnd_spec {U} (hd : Handlers U) (g) (r : Req U) (h : Alive r) (m : Message) :
    ∃ a p, a = hd.inProcessor r.user r.env ∧ parsePost a.2 a.1.env = .ok p ∧
    ∃ r' fin, inputEnd hd g r m = .ok (r', fin) ∧ (fin = true → Done r') ∧ (fin = false → Alive r') ∧
      ((p.2 = false ∧ fin = true ∧ Frame r r' ∧
        ∃ l l', r'.log = r.log ++ .call (.inProcessor r.env) :: l ++ .call .unknownContent :: l' ∧ callsOf l = [] ∧ callsOf l' = []) ∨
       (p.2 = true ∧ Frame { r with state := 6 } r' ∧
        fin = (hd.response a.1.user { p.1 with postBuffer := [] } m).2 ∧
        (fin = false → r'.env = (hd.response a.1.user { p.1 with postBuffer := [] } m).1.env) ∧
        ∃ l l', r'.log = r.log ++ .call (.inProcessor r.env) :: l ++ .call (.response { p.1 with postBuffer := [] } m) :: l' ∧
          callsOf l = [] ∧ callsOf l' = [])) := by
  obtain ⟨a, ha⟩ : ∃ a, a = hd.inProcessor r.user r.env := ⟨_, rfl⟩
  have hp : ∃ p, parsePost a.2 a.1.env = .ok p := by
    unfold parsePost
    split
    · exact ⟨_, rfl⟩
    · exact parsePostBuffer_total _
  obtain ⟨p, hp⟩ := hp
  refine ⟨a, p, ha, hp, ?_⟩
  unfold inputEnd
  rw [← ha]
  obtain ⟨r1, a1, a2, a3, a4, a5, l, a6, a7, _⟩ := call_spec g r h (.inProcessor r.env) a.1
  simp only [a1, Res.ok_bind, a4, hp, a5]
  cases hb : p.2 with
  | false =>
    have al : Alive { r1 with env := p.1 } := a2.of_eq rfl rfl rfl rfl rfl
    obtain ⟨r2, b1, b2, b3, l', b4, b5, _⟩ := failWith_spec g _ al .unknownContent (hd.unknownContent a.1.user p.1)
    refine ⟨r2, true, ?_, fun _ => b2, by simp, Or.inl ⟨rfl, rfl, ?_, l, l', ?_, a7, b5⟩⟩
    · rw [← a5] at b1 ⊢; simpa using b1
    · exact ⟨b3.1.trans a3.1, b3.2.trans a3.2, b3.3.trans a3.3, b3.4.trans a3.4, b3.5.trans a3.5, b3.6.trans a3.6, b3.7.trans a3.7⟩
    · rw [b4]; simp [a6]
  | true =>
    have al : Alive { r1 with env := { p.1 with postBuffer := [] }, state := 6 } := a2.of_eq rfl rfl rfl rfl rfl
    obtain ⟨r2, b1, b2, b3, b4, l', b5, b6, _⟩ := respond_spec hd g _ al m
    simp only [a5] at b1 b3 b4
    refine ⟨r2, _, ?_, b4, fun e => (b3 e).1, Or.inr ⟨rfl, ?_, rfl, fun e => (b3 e).2.1, l, l', ?_, a7, b6⟩⟩
    · simp only [not_true, if_false]
      exact b1
    · exact ⟨b2.1.trans a3.1, b2.2.trans a3.2, b2.3.trans a3.3, b2.4.trans a3.4, b2.5.trans a3.5, b2.6, b2.7.trans a3.7⟩
    · rw [b5]; simp [a6]

/-- One message, whatever it is: the request stays well formed and its log grows. -/
theorem handleMsg_spec {U} (hd : Handlers U) (g) (r r' : Req U) (h : Alive r) (m : Message) (fin : Bool)
    (e : handleMsg hd g r m = .ok (r', fin)) :
    (fin = true → Done r') ∧ (fin = false → Alive r' ∧ r'.status = r.status) ∧ (r'.sock = r.sock ∧ r'.id = r.id ∧ r'.kill = r.kill ∧
      r'.role = r.role ∧ r'.maxPostSize = r.maxPostSize) ∧
      ∃ l, r'.log = r.log ++ l := by
  have fw : ∀ (r0 : Req U) c a, Alive r0 → r0.log = r.log → (r0.sock = r.sock ∧ r0.id = r.id ∧ r0.kill = r.kill ∧
      r0.role = r.role ∧ r0.maxPostSize = r.maxPostSize) →
      failWith g r0 c a = .ok (r', fin) → (fin = true → Done r') ∧ (fin = false → Alive r' ∧ r'.status = r.status) ∧
      (r'.sock = r.sock ∧ r'.id = r.id ∧ r'.kill = r.kill ∧ r'.role = r.role ∧ r'.maxPostSize = r.maxPostSize) ∧ ∃ l, r'.log = r.log ++ l := by
    intro r0 c a h0 hl hf e
    obtain ⟨r1, a1, a2, a3, l, a4, _⟩ := failWith_spec g r0 h0 c a
    rw [a1] at e; cases e
    exact ⟨fun _ => a2, by simp, ⟨a3.sock.trans hf.1, a3.id.trans hf.2.1, a3.kill.trans hf.2.2.1, a3.role.trans hf.2.2.2.1,
      a3.maxPostSize.trans hf.2.2.2.2⟩, _, by rw [a4, hl]⟩
  have same : r.sock = r.sock ∧ r.id = r.id ∧ r.kill = r.kill ∧ r.role = r.role ∧ r.maxPostSize = r.maxPostSize :=
    ⟨rfl, rfl, rfl, rfl, rfl⟩
  by_cases hm : m.type = 0
  · unfold handleMsg at e
    rw [if_pos hm] at e
    obtain ⟨t, _, e⟩ := Res.bind_eq_ok.1 e
    obtain ⟨len, _, e⟩ := Res.bind_eq_ok.1 e
    dsimp only at e
    split at e
    · obtain ⟨r1, a1, a2, a3, a4, a5, rs, a6, a7⟩ := complete_spec g r h
      rw [a1] at e; cases e
      exact ⟨fun _ => a2, by simp, ⟨a3.sock, a3.id, a3.kill, a3.role, a3.maxPostSize⟩, _, by rw [a7, List.append_assoc]⟩
    split at e
    · exact fw r _ _ h rfl same e
    split at e
    · split at e
      · exact fw { r with status := 3 } _ _ (h.of_eq rfl rfl rfl rfl rfl) rfl same e
      split at e
      · split at e
        · exact fw r _ _ h rfl same e
        · cases e
          exact ⟨by simp, fun _ => ⟨h.of_eq rfl rfl rfl rfl rfl, rfl⟩, same, [], by simp⟩
      split at e
      · cases e
      · obtain ⟨env, _, e⟩ := Res.bind_eq_ok.1 e
        cases e
        exact ⟨by simp, fun _ => ⟨h.of_eq rfl rfl rfl rfl rfl, rfl⟩, same, [], by simp⟩
    split at e
    · split at e
      · obtain ⟨a, p, _, _, r1, fin1, e1, e2, e3, e4⟩ := inputEnd_spec hd g r h m
        rw [e1] at e; cases e
        rcases e4 with ⟨_, _, f, l, l', hl, _⟩ | ⟨_, f, _, _, l, l', hl, _⟩
        · exact ⟨e2, fun hf => ⟨e3 hf, f.status⟩, ⟨f.sock, f.id, f.kill, f.role, f.maxPostSize⟩, _, by rw [hl, List.append_assoc]⟩
        · exact ⟨e2, fun hf => ⟨e3 hf, f.status⟩, ⟨f.sock, f.id, f.kill, f.role, f.maxPostSize⟩, _, by rw [hl, List.append_assoc]⟩
      split at e
      · exact fw r _ _ h rfl same e
      split at e
      · cases e
      · have al : Alive { r with env := fillPostBuffer r.env (slice m.data 8 (8 + len.toNat)) } := h.of_eq rfl rfl rfl rfl rfl
        obtain ⟨r1, a1, a2, a3, _, _, l, a6, _⟩ := call_spec g _ al (.inHandler len.toNat)
          (hd.inHandler r.user (fillPostBuffer r.env (slice m.data 8 (8 + len.toNat))) len.toNat)
        rw [a1] at e; cases e
        exact ⟨by simp, fun _ => ⟨a2, a3.status⟩, ⟨a3.sock, a3.id, a3.kill, a3.role, a3.maxPostSize⟩, _, a6⟩
    · exact fw r _ _ h rfl same e
  · rw [handleMsg_callback hd g r m hm] at e
    obtain ⟨r1, a1, a2, a3, a4, l, a5, _⟩ := respond_spec hd g r h m
    rw [a1] at e
    obtain ⟨rfl, rfl⟩ : r1 = r' ∧ (hd.response r.user r.env m).2 = fin := by simpa using e
    exact ⟨a4, fun e => ⟨(a3 e).1, a2.status⟩, ⟨a2.sock, a2.id, a2.kill, a2.role, a2.maxPostSize⟩, _, a5⟩

theorem handler_spec {U} (hd : Handlers U) (g) : ∀ (ms : List Message) (r r' : Req U) (rest : List Message) (fin : Bool),
    Alive r → handler hd g r ms = .ok (r', rest, fin) →
    (fin = true → Done r') ∧ (fin = false → Alive r' ∧ r'.status = r.status ∧ rest = []) ∧
      (r'.sock = r.sock ∧ r'.id = r.id ∧ r'.kill = r.kill ∧ r'.role = r.role ∧ r'.maxPostSize = r.maxPostSize) ∧
      (∃ l, r'.log = r.log ++ l) ∧ ∃ done, ms = done ++ rest := by
  intro ms
  induction ms with
  | nil =>
    intro r r' rest fin h e
    simp only [handler, Res.ok.injEq, Prod.mk.injEq] at e
    obtain ⟨rfl, rfl, rfl⟩ := e
    exact ⟨by simp, fun _ => ⟨h, rfl, rfl⟩, ⟨rfl, rfl, rfl, rfl, rfl⟩, ⟨[], by simp⟩, [], rfl⟩
  | cons m ms ih =>
    intro r r' rest fin h e
    simp only [handler] at e
    obtain ⟨⟨r1, f1⟩, e1, e⟩ := Res.bind_eq_ok.1 e
    have s := handleMsg_spec hd g r r1 h m f1 e1
    cases f1 with
    | true =>
      simp only [if_true, Res.pure_eq, Res.ok.injEq, Prod.mk.injEq] at e
      obtain ⟨rfl, rfl, rfl⟩ := e
      exact ⟨s.1, by simp, s.2.2.1, s.2.2.2, [m], rfl⟩
    | false =>
      simp only [Bool.false_eq_true, if_false] at e
      obtain ⟨h1, h1s⟩ := s.2.1 rfl
      obtain ⟨i1, i2, i3, ⟨l, i4⟩, d, i5⟩ := ih r1 r' rest fin h1 e
      obtain ⟨_, _, k, ⟨l0, h4⟩⟩ := s
      refine ⟨i1, fun hf => ?_, ⟨i3.1.trans k.1, i3.2.1.trans k.2.1, i3.2.2.1.trans k.2.2.1, i3.2.2.2.1.trans k.2.2.2.1,
        i3.2.2.2.2.trans k.2.2.2.2⟩, ⟨l0 ++ l, by rw [i4, h4, List.append_assoc]⟩, m :: d, by rw [i5]; rfl⟩
      obtain ⟨j1, j2, j3⟩ := i2 hf
      exact ⟨j1, j2.trans h1s, j3⟩

/-! ### phases -/

def phaseCode : Phase → UInt8
  | .params => 4
  | .stdin => 5
  | .output => 6

/-- Outcome of one record in terms of phases. -/
theorem record_outcome {U} (hd : Handlers U) (g) (r : Req U) (h : Alive r) (x : Record) (hx : x.WF) (p : Phase)
    (hp : r.state = phaseCode p) :
    (x.type = 2 ∧ ∃ r', handleMsg hd g r (fcgiMsg x) = .ok (r', true) ∧ callsOf r'.log = callsOf r.log ∧ r'.status = r.status) ∨
    (x.type ≠ 2 ∧ p.accepts ≠ some x.type ∧
      ∃ r', handleMsg hd g r (fcgiMsg x) = .ok (r', true) ∧ callsOf r'.log = callsOf r.log ++ [.error] ∧ r'.status = r.status) ∨
    (p = .params ∧ x.type = 4 ∧ ¬ (r.role = 1 ∨ r.role = 2) ∧
      ∃ r', handleMsg hd g r (fcgiMsg x) = .ok (r', true) ∧ callsOf r'.log = callsOf r.log ++ [.error] ∧ r'.status = 3) ∨
    (p = .params ∧ x.type = 4 ∧ (r.role = 1 ∨ r.role = 2) ∧ x.content = [] ∧ r.env.contentLength.toNat > r.maxPostSize ∧
      ∃ r', handleMsg hd g r (fcgiMsg x) = .ok (r', true) ∧ callsOf r'.log = callsOf r.log ++ [.bigPost] ∧ r'.status = r.status) ∨
    (p = .params ∧ x.type = 4 ∧ (r.role = 1 ∨ r.role = 2) ∧ x.content = [] ∧ r.env.contentLength.toNat ≤ r.maxPostSize ∧
      handleMsg hd g r (fcgiMsg x) = .ok ({ r with state := 5 }, false)) ∨
    (p = .params ∧ x.type = 4 ∧ (r.role = 1 ∨ r.role = 2) ∧ x.content ≠ [] ∧
      handleMsg hd g r (fcgiMsg x) = (fill x.bytes 8 (8 + x.content.length) r.env >>= fun env => .ok ({ r with env := env }, false))) ∨
    (p = .stdin ∧ x.type = 5 ∧ x.content = [] ∧ handleMsg hd g r (fcgiMsg x) = inputEnd hd g r (fcgiMsg x)) ∨
    (p = .stdin ∧ x.type = 5 ∧ x.content ≠ [] ∧ r.env.postBuffer.length + x.content.length > r.env.contentLength.toNat ∧
      ∃ r', handleMsg hd g r (fcgiMsg x) = .ok (r', true) ∧ callsOf r'.log = callsOf r.log ++ [.bigPost] ∧ r'.status = r.status) ∨
    (p = .stdin ∧ x.type = 5 ∧ x.content ≠ [] ∧ r.env.postBuffer.length + x.content.length ≤ r.env.contentLength.toNat ∧
      ∃ r', handleMsg hd g r (fcgiMsg x) = .ok (r', false) ∧ callsOf r'.log = callsOf r.log ++ [.inHandler x.content.length] ∧
        r'.state = r.state ∧ r'.env = (hd.inHandler r.user (fillPostBuffer r.env x.content) x.content.length).env ∧
        r'.user = (hd.inHandler r.user (fillPostBuffer r.env x.content) x.content.length).user) := by
  rw [handleMsg_record hd g r x hx]
  have fw : ∀ (r0 : Req U) c a, Alive r0 → r0.log = r.log →
      ∃ r', failWith g r0 c a = .ok (r', true) ∧ callsOf r'.log = callsOf r.log ++ [c] ∧ r'.status = r0.status := by
    intro r0 c a h0 hl
    obtain ⟨r1, a1, a2, a3, l, a4, a5, _⟩ := failWith_spec g r0 h0 c a
    exact ⟨r1, a1, by rw [a4, hl]; simp [callsOf_append, callsOf, a5], a3.status⟩
  have empty : x.content.length = 0 ↔ x.content = [] := List.length_eq_zero_iff
  by_cases t2 : x.type = 2
  · left
    obtain ⟨r1, a1, a2, a3, a4, a5, rs, a6, a7⟩ := complete_spec g r h
    refine ⟨t2, r1, ?_, by rw [a7]; simp [callsOf_append, callsOf], a3.status⟩
    rw [if_pos t2, a1]; rfl
  · right
    rw [if_neg t2]
    cases p with
    | params =>
      have hs : r.state = 4 := hp
      by_cases t4 : x.type = 4
      · right
        rw [if_neg (by rw [hs, t4]; simp), if_pos hs]
        by_cases hr : r.role = 1 ∨ r.role = 2
        · right
          rw [if_neg (not_not_intro hr)]
          by_cases h0 : x.content = []
          · rw [if_pos (empty.2 h0)]
            by_cases hc : r.env.contentLength.toNat > r.maxPostSize
            · left; rw [if_pos hc]
              exact ⟨rfl, t4, hr, h0, hc, fw r _ _ h rfl⟩
            · right; left; rw [if_neg hc]
              exact ⟨rfl, t4, hr, h0, by omega, rfl⟩
          · right; right; left
            rw [if_neg (fun e => h0 (empty.1 e))]
            exact ⟨rfl, t4, hr, h0, rfl⟩
        · left
          rw [if_pos hr]
          exact ⟨rfl, t4, hr, fw _ _ _ (h.of_eq rfl rfl rfl rfl rfl) rfl⟩
      · left
        rw [if_pos (by rw [hs]; exact t4)]
        exact ⟨t2, by simp only [Phase.accepts, ne_eq, Option.some.injEq]; exact fun e => t4 e.symm, fw r _ _ h rfl⟩
    | stdin =>
      have hs : r.state = 5 := hp
      by_cases t5 : x.type = 5
      · rw [if_neg (by rw [hs, t5]; simp), if_neg (by rw [hs]; decide), if_pos hs]
        right; right; right; right; right
        by_cases h0 : x.content = []
        · left; rw [if_pos (empty.2 h0)]
          exact ⟨rfl, t5, h0, rfl⟩
        · right
          rw [if_neg (fun e => h0 (empty.1 e))]
          by_cases hc : r.env.postBuffer.length + x.content.length > r.env.contentLength.toNat
          · left; rw [if_pos hc]
            exact ⟨rfl, t5, h0, hc, fw r _ _ h rfl⟩
          · right; rw [if_neg hc]
            have al : Alive { r with env := fillPostBuffer r.env x.content } := h.of_eq rfl rfl rfl rfl rfl
            obtain ⟨r1, a1, a2, a3, a4, a5, l, a6, a7, _⟩ := call_spec g _ al (.inHandler x.content.length)
              (hd.inHandler r.user (fillPostBuffer r.env x.content) x.content.length)
            refine ⟨rfl, t5, h0, by omega, r1, by rw [a1]; rfl, by rw [a6]; simp [callsOf_append, callsOf, a7], a3.state, a4, a5⟩
      · left
        rw [if_pos (by rw [hs]; exact t5)]
        exact ⟨t2, by simp only [Phase.accepts, ne_eq, Option.some.injEq]; exact fun e => t5 e.symm, fw r _ _ h rfl⟩
    | output =>
      left
      have hs : r.state = 6 := hp
      refine ⟨t2, by simp [Phase.accepts], ?_⟩
      by_cases t6 : x.type = 6
      · rw [if_neg (by rw [hs, t6]; simp), if_neg (by rw [hs]; decide), if_neg (by rw [hs]; decide)]
        exact fw r _ _ h rfl
      · rw [if_pos (by rw [hs]; exact t6)]
        exact fw r _ _ h rfl

end Fcgi.Model
