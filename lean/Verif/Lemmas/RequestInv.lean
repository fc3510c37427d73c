import Verif.Lemmas.RequestRun
import Verif.Spec.RequestTerms
namespace Fcgi.Model
open Fcgi Fcgi.Spec

theorem run_inv {U} (hd : Handlers U) (g) (Inv Fin : List Input → Req U → Prop)
    (step : ∀ done i r r' fin, i.WF → Inv done r → handleMsg hd g r i.message = .ok (r', fin) →
      (fin = false → Inv (done ++ [i]) r') ∧ (fin = true → Fin (done ++ [i]) r')) :
    ∀ (ins done : List Input) (r r' : Req U) rest fin, (∀ i ∈ ins, i.WF) → Inv done r →
      handler hd g r (ins.map Input.message) = .ok (r', rest, fin) →
      ∃ d rest', ins = d ++ rest' ∧ rest = rest'.map Input.message ∧ (fin = false → rest' = [] ∧ Inv (done ++ d) r') ∧
        (fin = true → Fin (done ++ d) r') := by
  intro ins
  induction ins with
  | nil =>
    intro done r r' rest fin _ h e
    simp only [List.map_nil, handler, Res.ok.injEq, Prod.mk.injEq] at e
    obtain ⟨rfl, rfl, rfl⟩ := e
    exact ⟨[], [], rfl, rfl, fun _ => ⟨rfl, by simpa using h⟩, by simp⟩
  | cons i ins ih =>
    intro done r r' rest fin hw h e
    simp only [List.map_cons, handler] at e
    obtain ⟨⟨r1, f1⟩, e1, e⟩ := Res.bind_eq_ok.1 e
    have s := step done i r r1 f1 (hw i (by simp)) h e1
    cases f1 with
    | true =>
      simp only [if_true, Res.pure_eq, Res.ok.injEq, Prod.mk.injEq] at e
      obtain ⟨rfl, rfl, rfl⟩ := e
      exact ⟨[i], ins, rfl, rfl, by simp, fun _ => s.2 rfl⟩
    | false =>
      simp only [Bool.false_eq_true, if_false] at e
      obtain ⟨d, rest', a1, a2, a3, a4⟩ := ih (done ++ [i]) r1 r' rest fin (fun j hj => hw j (by simp [hj])) (s.1 rfl) e
      exact ⟨i :: d, rest', by rw [a1]; rfl, a2, fun hf => by simpa using a3 hf, fun hf => by simpa using a4 hf⟩

theorem records_append (a b : List Input) : records (a ++ b) = records a ++ records b := by
  induction a with
  | nil => rfl
  | cons x a ih => cases x <;> simp [records, ih]

theorem phaseAfter_snoc (rs : List Record) (x : Record) : phaseAfter (rs ++ [x]) = (phaseAfter rs).next x := by
  simp [phaseAfter]

theorem inOrder_append (p : Phase) (a b : List Record) : InOrder p (a ++ b) ↔ InOrder p a ∧ InOrder (a.foldl Phase.next p) b := by
  induction a generalizing p with
  | nil => simp [InOrder]
  | cons x a ih => simp [InOrder, ih, and_assoc]

theorem inOrder_output {rs : List Record} (h : InOrder .output rs) : rs = [] := by
  cases rs with
  | nil => rfl
  | cons x rs => simp [InOrder, Phase.accepts] at h

theorem inOrder_stdin : ∀ rs : List Record, InOrder .stdin rs → rs.foldl Phase.next .stdin = .output →
    ∃ is i0, rs = is ++ [i0] ∧ (∀ i ∈ is, i.type = 5 ∧ i.content ≠ []) ∧ (i0.type = 5 ∧ i0.content = []) := by
  intro rs
  induction rs with
  | nil => intro _ h; simp at h
  | cons x rs ih =>
    intro h e
    obtain ⟨h1, h2⟩ := h
    have ht : x.type = 5 := by simp [Phase.accepts] at h1; exact h1.symm
    by_cases hx : x.content = []
    · simp only [Phase.next, hx, if_true] at h2
      rw [inOrder_output h2]
      exact ⟨[], x, rfl, by simp, ht, hx⟩
    · simp only [Phase.next, if_neg hx] at h2
      simp only [List.foldl_cons, Phase.next, if_neg hx] at e
      obtain ⟨is, i0, rfl, h3, h4⟩ := ih h2 e
      refine ⟨x :: is, i0, rfl, ?_, h4⟩
      intro i hi
      rcases List.mem_cons.1 hi with rfl | hi
      · exact ⟨ht, hx⟩
      · exact h3 i hi

theorem inOrder_params : ∀ rs : List Record, InOrder .params rs → rs.foldl Phase.next .params = .output → InputComplete rs := by
  intro rs
  induction rs with
  | nil => intro _ h; simp at h
  | cons x rs ih =>
    intro h e
    obtain ⟨h1, h2⟩ := h
    have ht : x.type = 4 := by simp [Phase.accepts] at h1; exact h1.symm
    by_cases hx : x.content = []
    · simp only [Phase.next, hx, if_true] at h2
      simp only [List.foldl_cons, Phase.next, if_pos hx] at e
      obtain ⟨is, i0, rfl, h3, h4⟩ := inOrder_stdin rs h2 e
      exact ⟨[], x, is, i0, by simp, by simp, ⟨ht, hx⟩, h3, h4⟩
    · simp only [Phase.next, if_neg hx] at h2
      simp only [List.foldl_cons, Phase.next, if_neg hx] at e
      obtain ⟨ps, p0, is, i0, rfl, h3, h4, h5, h6⟩ := ih h2 e
      refine ⟨x :: ps, p0, is, i0, rfl, ?_, h4, h5, h6⟩
      intro p hp
      rcases List.mem_cons.1 hp with rfl | hp
      · exact ⟨ht, hx⟩
      · exact h3 p hp

/-- `response()` was called for a record only when the input was complete. -/
def RespOk (rs : List Record) (l : List Ev) : Prop :=
  ∀ env m, Call.response env m ∈ callsOf l → m.type = 0 → ∃ d1 d2, rs = d1 ++ d2 ∧ InputComplete d1

theorem RespOk.mono {rs rs' l} (h : RespOk rs l) : RespOk (rs ++ rs') l := by
  intro env m hm ht
  obtain ⟨d1, d2, rfl, hc⟩ := h env m hm ht
  exact ⟨d1, d2 ++ rs', by simp, hc⟩

structure GInv {U} (r0 : Req U) (done : List Input) (r : Req U) : Prop where
  alive : Alive r
  status : r.status = 0
  consts : r.sock = r0.sock ∧ r.id = r0.id ∧ r.kill = r0.kill ∧ r.role = r0.role ∧ r.maxPostSize = r0.maxPostSize
  phase : r.state = phaseCode (phaseAfter (records done))
  order : InOrder .params (records done)
  resp : RespOk (records done) r.log

structure GFin {U} (r0 : Req U) (done : List Input) (r : Req U) : Prop where
  dn : Done r
  consts : r.sock = r0.sock ∧ r.id = r0.id ∧ r.kill = r0.kill ∧ r.role = r0.role ∧ r.maxPostSize = r0.maxPostSize
  resp : RespOk (records done) r.log

theorem step_g {U} (hd : Handlers U) (g) (r0 : Req U) (done : List Input) (i : Input) (r r' : Req U) (fin : Bool)
    (hw : i.WF) (h : GInv r0 done r) (e : handleMsg hd g r i.message = .ok (r', fin)) :
    (fin = false → GInv r0 (done ++ [i]) r') ∧ (fin = true → GFin r0 (done ++ [i]) r') := by
  have s := handleMsg_spec hd g r r' h.alive i.message fin e
  have hc := h.consts
  have k := s.2.2.1
  have hcon : r'.sock = r0.sock ∧ r'.id = r0.id ∧ r'.kill = r0.kill ∧ r'.role = r0.role ∧ r'.maxPostSize = r0.maxPostSize :=
    ⟨k.1.trans hc.1, k.2.1.trans hc.2.1, k.2.2.1.trans hc.2.2.1, k.2.2.2.1.trans hc.2.2.2.1, k.2.2.2.2.trans hc.2.2.2.2⟩
  suffices hmain : (fin = false → r'.state = phaseCode (phaseAfter (records (done ++ [i]))) ∧ InOrder .params (records (done ++ [i]))) ∧
      RespOk (records (done ++ [i])) r'.log by
    refine ⟨fun hf => ⟨(s.2.1 hf).1, (s.2.1 hf).2.trans h.status, hcon, (hmain.1 hf).1, (hmain.1 hf).2, hmain.2⟩,
      fun hf => ⟨s.1 hf, hcon, hmain.2⟩⟩
  cases i with
  | callback t d =>
    have ht : t ≠ 0 := hw
    rw [show records (done ++ [Input.callback t d]) = records done by simp [records_append, records]]
    obtain ⟨r1, a1, a2, a3, a4, l, a5, a6, _⟩ := respond_spec hd g r h.alive ⟨t, d⟩
    have e' : handleMsg hd g r ⟨t, d⟩ = .ok (r', fin) := e
    rw [handleMsg_callback hd g r ⟨t, d⟩ ht, a1] at e'
    obtain ⟨rfl, -⟩ : r1 = r' ∧ (hd.response r.user r.env ⟨t, d⟩).2 = fin := by simpa using e'
    refine ⟨fun _ => ⟨a2.state.trans h.phase, h.order⟩, ?_⟩
    intro env m hm hm0
    rw [a5, callsOf_append] at hm
    rcases List.mem_append.1 hm with hm | hm
    · exact h.resp env m hm hm0
    · rw [callsOf, a6] at hm
      simp only [List.mem_singleton, Call.response.injEq] at hm
      obtain ⟨_, rfl⟩ := hm
      exact absurd hm0 ht
  | record x =>
    have hx : x.WF := hw
    rw [show records (done ++ [Input.record x]) = records done ++ [x] by simp [records_append, records]]
    have e' : handleMsg hd g r (fcgiMsg x) = .ok (r', fin) := e
    have stop : ∀ r1 c, handleMsg hd g r (fcgiMsg x) = .ok (r1, true) → callsOf r1.log = callsOf r.log ++ c →
        (∀ env m, Call.response env m ∉ c) →
        (fin = false → r'.state = phaseCode (phaseAfter (records done ++ [x])) ∧ InOrder .params (records done ++ [x])) ∧
      RespOk (records done ++ [x]) r'.log := by
      intro r1 c h1 h2 h3
      rw [h1] at e'
      obtain ⟨rfl, rfl⟩ : r1 = r' ∧ true = fin := by simpa using e'
      refine ⟨by simp, ?_⟩
      intro env m hm hm0
      rw [h2] at hm
      rcases List.mem_append.1 hm with hm | hm
      · exact h.resp.mono env m hm hm0
      · exact absurd hm (h3 env m)
    have go : ∀ r1 c, handleMsg hd g r (fcgiMsg x) = .ok (r1, false) → callsOf r1.log = callsOf r.log ++ c →
        (∀ env m, Call.response env m ∉ c) → (phaseAfter (records done)).accepts = some x.type →
        r1.state = phaseCode ((phaseAfter (records done)).next x) →
        (fin = false → r'.state = phaseCode (phaseAfter (records done ++ [x])) ∧ InOrder .params (records done ++ [x])) ∧
      RespOk (records done ++ [x]) r'.log := by
      intro r1 c h1 h2 h3 h4 h5
      rw [h1] at e'
      obtain ⟨rfl, rfl⟩ : r1 = r' ∧ false = fin := by simpa using e'
      refine ⟨fun _ => ⟨by rw [phaseAfter_snoc, h5], (inOrder_append _ _ _).2 ⟨h.order, h4, trivial⟩⟩, ?_⟩
      intro env m hm hm0
      rw [h2] at hm
      rcases List.mem_append.1 hm with hm | hm
      · exact h.resp.mono env m hm hm0
      · exact absurd hm (h3 env m)
    rcases record_outcome hd g r h.alive x hx _ h.phase with
      ⟨_, r1, h1, h2, _⟩ | ⟨_, _, r1, h1, h2, _⟩ | ⟨_, _, _, r1, h1, h2, _⟩ | ⟨_, _, _, _, _, r1, h1, h2, _⟩ |
      ⟨hp, ht, _, h0, _, h1⟩ | ⟨hp, ht, _, h0, h1⟩ | ⟨hp, ht, h0, h1⟩ | ⟨_, _, _, _, r1, h1, h2, _⟩ | ⟨hp, ht, h0, _, r1, h1, h2, h3, _⟩
    · exact stop r1 [] h1 (by simpa using h2) (by simp)
    · exact stop r1 _ h1 h2 (by simp)
    · exact stop r1 _ h1 h2 (by simp)
    · exact stop r1 _ h1 h2 (by simp)
    · exact go _ [] h1 (by simp) (by simp) (by rw [hp, ht]; rfl) (by rw [hp]; simp [Phase.next, h0, phaseCode])
    · rw [h1] at e'
      obtain ⟨env, e1, e2⟩ := Res.bind_eq_ok.1 e'
      rw [e1] at h1
      exact go _ [] h1 (by simp) (by simp) (by rw [hp, ht]; rfl)
        (by rw [hp]; simp only [Phase.next, if_neg h0]; rw [h.phase, hp])
    · rw [h1] at e'
      obtain ⟨a, p, _, _, r1, fin1, f1, f2, f3, f4⟩ := inputEnd_spec hd g r h.alive (fcgiMsg x)
      rw [f1] at e'
      obtain ⟨rfl, rfl⟩ : r1 = r' ∧ fin1 = fin := by simpa using e'
      have hord : InOrder .params (records done ++ [x]) :=
        (inOrder_append _ _ _).2 ⟨h.order, by show (phaseAfter (records done)).accepts = _; rw [hp, ht]; rfl, trivial⟩
      have hcompl : InputComplete (records done ++ [x]) := by
        apply inOrder_params _ hord
        show phaseAfter _ = _
        rw [phaseAfter_snoc, hp]; simp [Phase.next, h0]
      refine ⟨fun hf => ⟨?_, hord⟩, fun _ _ _ _ => ⟨_, [], by simp, hcompl⟩⟩
      rcases f4 with ⟨_, hft, _⟩ | ⟨_, fr, _⟩
      · rw [hf] at hft; cases hft
      · rw [phaseAfter_snoc, hp, fr.state]; simp [Phase.next, h0, phaseCode]
    · exact stop r1 _ h1 h2 (by simp)
    · exact go _ _ h1 h2 (by simp) (by rw [hp, ht]; rfl)
        (by rw [h3, h.phase, hp]; simp [Phase.next, h0])

theorem freshReq_ginv {U} (sock id role kill max) (u : U) :
    GInv (freshReq sock id role kill max u) [] (freshReq sock id role kill max u) :=
  ⟨freshReq_alive .., rfl, ⟨rfl, rfl, rfl, rfl, rfl⟩, rfl, trivial, by intro env m hm; simp [freshReq, callsOf] at hm⟩

/-- The state of a request after a run. -/
theorem run_g {U} (hd : Handlers U) (g) (sock id role kill max) (u : U) (ins : List Input) (hw : ∀ i ∈ ins, i.WF) {r rest fin}
    (e : handler hd g (freshReq sock id role kill max u) (ins.map Input.message) = .ok (r, rest, fin)) :
    ∃ d rest', ins = d ++ rest' ∧ rest = rest'.map Input.message ∧
      (fin = false → rest' = [] ∧ GInv (freshReq sock id role kill max u) d r) ∧
      (fin = true → GFin (freshReq sock id role kill max u) d r) := by
  have := run_inv hd g (GInv (freshReq sock id role kill max u)) (GFin (freshReq sock id role kill max u))
    (fun done i r r' fin => step_g hd g _ done i r r' fin) ins [] _ r rest fin hw (freshReq_ginv ..) e
  simpa using this

/-! ### the size limit -/

theorem fillLoop_keeps (obj : Bytes) (n : Nat) : ∀ (fuel d : Nat) (env env' : Env), fillLoop obj n fuel d env = .ok env' →
    env'.postBuffer = env.postBuffer := by
  intro fuel
  induction fuel with
  | zero => intro d env env' h; simp [fillLoop] at h
  | succ f ih =>
    intro d env env' h
    simp only [fillLoop] at h
    obtain ⟨o, _, h⟩ := Res.bind_eq_ok.1 h
    cases o with
    | none => cases h; rfl
    | some x =>
      obtain ⟨env1, h1, h2⟩ := Res.bind_eq_ok.1 h
      rw [ih _ _ _ h2]
      cases fillStep_effect h1 <;> rfl

/-- Input data handed to the user respects the limits. -/
def Bounded (max : Nat) (l : List Ev) : Prop :=
  ∀ env, Call.inProcessor env ∈ callsOf l → env.postBuffer.length ≤ env.contentLength.toNat ∧ env.contentLength.toNat ≤ max

structure SizeInv {U} (r0 : Req U) (done : List Input) (r : Req U) : Prop where
  g : GInv r0 done r
  params : phaseAfter (records done) = .params → r.env.postBuffer = []
  stdin : phaseAfter (records done) = .stdin → r.env.postBuffer.length ≤ r.env.contentLength.toNat ∧ r.env.contentLength.toNat ≤ r.maxPostSize
  output : phaseAfter (records done) = .output → r.env.postBuffer = []
  log : Bounded r0.maxPostSize r.log

theorem Bounded.add {max : Nat} {l l' : List Ev} {c : List Call} (h : Bounded max l) (e : callsOf l' = callsOf l ++ c)
    (hc : ∀ env, Call.inProcessor env ∈ c → env.postBuffer.length ≤ env.contentLength.toNat ∧ env.contentLength.toNat ≤ max) : Bounded max l' := by
  intro env hm
  rw [e] at hm
  rcases List.mem_append.1 hm with hm | hm
  · exact h env hm
  · exact hc env hm

theorem step_size {U} (hd : Handlers U) (ht : Tame hd) (g) (r0 : Req U) (done : List Input) (i : Input) (r r' : Req U) (fin : Bool)
    (hw : i.WF) (h : SizeInv r0 done r) (e : handleMsg hd g r i.message = .ok (r', fin)) :
    (fin = false → SizeInv r0 (done ++ [i]) r') ∧ (fin = true → Bounded r0.maxPostSize r'.log) := by
  have hg := (step_g hd g r0 done i r r' fin hw h.g e).1
  have hmax : r.maxPostSize = r0.maxPostSize := h.g.consts.2.2.2.2
  cases i with
  | callback t d =>
    have e' : handleMsg hd g r ⟨t, d⟩ = .ok (r', fin) := e
    obtain ⟨r1, a1, a2, a3, a4, l, a5, a6, _⟩ := respond_spec hd g r h.g.alive ⟨t, d⟩
    rw [handleMsg_callback hd g r ⟨t, d⟩ hw, a1] at e'
    obtain ⟨rfl, rfl⟩ : r1 = r' ∧ (hd.response r.user r.env ⟨t, d⟩).2 = fin := by simpa using e'
    have hb : Bounded r0.maxPostSize r1.log :=
      h.log.add (c := [.response r.env ⟨t, d⟩]) (by rw [a5, callsOf_append, callsOf, a6]) (by simp)
    refine ⟨fun hf => ?_, fun _ => hb⟩
    have tm := ht.response r.user r.env ⟨t, d⟩
    obtain ⟨_, henv, _⟩ := a3 hf
    rw [← henv] at tm
    have hr : records (done ++ [Input.callback t d]) = records done := by simp [records_append, records]
    refine ⟨hg hf, ?_, ?_, ?_, hb⟩ <;> rw [hr] <;> intro hp
    · rw [tm.2]; exact h.params hp
    · rw [tm.1, tm.2, a2.maxPostSize]; exact h.stdin hp
    · rw [tm.2]; exact h.output hp
  | record x =>
    have hx : x.WF := hw
    have e' : handleMsg hd g r (fcgiMsg x) = .ok (r', fin) := e
    have hr : records (done ++ [Input.record x]) = records done ++ [x] := by simp [records_append, records]
    have stop : ∀ r1 c, handleMsg hd g r (fcgiMsg x) = .ok (r1, true) → callsOf r1.log = callsOf r.log ++ c →
        (∀ env, Call.inProcessor env ∉ c) → (fin = false → SizeInv r0 (done ++ [.record x]) r') ∧ (fin = true → Bounded r0.maxPostSize r'.log) := by
      intro r1 c h1 h2 h3
      rw [h1] at e'
      obtain ⟨rfl, rfl⟩ : r1 = r' ∧ true = fin := by simpa using e'
      exact ⟨by simp, fun _ => h.log.add h2 (fun env hm => absurd hm (h3 env))⟩
    rcases record_outcome hd g r h.g.alive x hx _ h.g.phase with
      ⟨_, r1, h1, h2, _⟩ | ⟨_, _, r1, h1, h2, _⟩ | ⟨_, _, _, r1, h1, h2, _⟩ | ⟨_, _, _, _, _, r1, h1, h2, _⟩ |
      ⟨hp, _, _, h0, hle, h1⟩ | ⟨hp, _, _, h0, h1⟩ | ⟨hp, _, h0, h1⟩ | ⟨_, _, _, _, r1, h1, h2, _⟩ | ⟨hp, _, h0, hle, r1, h1, h2, _, h4, _⟩
    · exact stop r1 [] h1 (by simpa using h2) (by simp)
    · exact stop r1 _ h1 h2 (by simp)
    · exact stop r1 _ h1 h2 (by simp)
    · exact stop r1 _ h1 h2 (by simp)
    · rw [h1] at e'
      obtain ⟨rfl, rfl⟩ : ({ r with state := 5 } : Req U) = r' ∧ false = fin := by simpa using e'
      have hp' : phaseAfter (records done ++ [x]) = .stdin := by rw [phaseAfter_snoc, hp]; simp [Phase.next, h0]
      refine ⟨fun hf => ⟨hg hf, ?_, ?_, ?_, h.log⟩, by simp⟩ <;> rw [hr, hp']
      · simp
      · intro _; simp only [h.params hp]; exact ⟨by simp, hle⟩
      · simp
    · rw [h1] at e'
      obtain ⟨env, e1, e2⟩ := Res.bind_eq_ok.1 e'
      obtain ⟨rfl, rfl⟩ : ({ r with env := env } : Req U) = r' ∧ false = fin := by simpa using e2
      have hp' : phaseAfter (records done ++ [x]) = .params := by rw [phaseAfter_snoc, hp]; simp [Phase.next, h0]
      refine ⟨fun hf => ⟨hg hf, ?_, ?_, ?_, h.log⟩, by simp⟩ <;> rw [hr, hp']
      · intro _
        show env.postBuffer = []
        rw [fillLoop_keeps _ _ _ _ _ _ e1]; exact h.params hp
      · simp
      · simp
    · rw [h1] at e'
      obtain ⟨a, p, ha, hpp, r1, fin1, f1, f2, f3, f4⟩ := inputEnd_spec hd g r h.g.alive (fcgiMsg x)
      rw [f1] at e'
      obtain ⟨rfl, rfl⟩ : r1 = r' ∧ fin1 = fin := by simpa using e'
      have hst := h.stdin hp
      rw [hmax] at hst
      have hb : Bounded r0.maxPostSize r1.log := by
        rcases f4 with ⟨_, _, _, l, l', hl, c1, c2⟩ | ⟨_, _, _, _, l, l', hl, c1, c2⟩
        · refine h.log.add (c := [.inProcessor r.env, .unknownContent]) (by rw [hl]; simp [callsOf_append, callsOf, c1, c2]) ?_
          intro env hm
          simp at hm; subst hm; exact hst
        · refine h.log.add (c := [.inProcessor r.env, .response { p.1 with postBuffer := [] } (fcgiMsg x)])
            (by rw [hl]; simp [callsOf_append, callsOf, c1, c2]) ?_
          intro env hm
          simp at hm; subst hm; exact hst
      have hp' : phaseAfter (records done ++ [x]) = .output := by rw [phaseAfter_snoc, hp]; simp [Phase.next, h0]
      refine ⟨fun hf => ⟨hg hf, ?_, ?_, ?_, hb⟩, fun _ => hb⟩ <;> rw [hr, hp']
      · simp
      · simp
      · intro _
        rcases f4 with ⟨_, hft, _⟩ | ⟨_, _, _, henv, _⟩
        · rw [hf] at hft; cases hft
        · rw [henv hf, (ht.response _ _ _).2]
    · exact stop r1 _ h1 h2 (by simp)
    · rw [h1] at e'
      obtain ⟨rfl, rfl⟩ : r1 = r' ∧ false = fin := by simpa using e'
      have hp' : phaseAfter (records done ++ [x]) = .stdin := by rw [phaseAfter_snoc, hp]; simp [Phase.next, h0]
      refine ⟨fun hf => ⟨hg hf, ?_, ?_, ?_, h.log.add h2 (by simp)⟩, by simp⟩ <;> rw [hr, hp']
      · simp
      · intro _
        have tm := ht.inHandler r.user (fillPostBuffer r.env x.content) x.content.length
        have hmax' : r1.maxPostSize = r.maxPostSize := by rw [hmax]; exact (hg hf).consts.2.2.2.2
        rw [h4, tm.1, tm.2, hmax']
        simp only [fillPostBuffer, List.length_append]
        exact ⟨hle, (h.stdin hp).2⟩
      · simp

theorem run_size {U} (hd : Handlers U) (ht : Tame hd) (g) (sock id role kill max) (u : U) (ins : List Input) (hw : ∀ i ∈ ins, i.WF) {r rest fin}
    (e : handler hd g (freshReq sock id role kill max u) (ins.map Input.message) = .ok (r, rest, fin)) :
    Bounded max r.log ∧ (fin = false → r.env.postBuffer.length ≤ max) := by
  have h0 : SizeInv (freshReq sock id role kill max u) [] (freshReq sock id role kill max u) :=
    ⟨freshReq_ginv .., fun _ => rfl, by simp [records, phaseAfter], by simp [records, phaseAfter], by intro env hm; simp [freshReq, callsOf] at hm⟩
  obtain ⟨d, rest', rfl, _, h1, h2⟩ := run_inv hd g (SizeInv (freshReq sock id role kill max u))
    (fun _ r => Bounded max r.log)
    (fun done i r r' fin => step_size hd ht g _ done i r r' fin) ins [] _ r rest fin hw h0 e
  cases fin with
  | true => exact ⟨h2 rfl, by simp⟩
  | false =>
    obtain ⟨_, s⟩ := h1 rfl
    refine ⟨s.log, fun _ => ?_⟩
    have hm : r.maxPostSize = max := s.g.consts.2.2.2.2
    cases hp : phaseAfter (records ([] ++ d)) with
    | params => rw [s.params hp]; simp
    | stdin => have := s.stdin hp; omega
    | output => rw [s.output hp]; simp

end Fcgi.Model
