import Verif.Lemmas.RequestPort
import Verif.Props.RequestWide
/-! # C121: the narrow and the wide version of an application answer the same -/
namespace Fcgi.Props
open Fcgi Fcgi.Model Fcgi.Spec

section
variable {U V : Type} {R : U → V → Prop} {P : Env → Prop} {h : Handlers U} {H : HandlersW V}

/-- Two applications, one written for `char` and one for `wchar_t`, that do the same with environments that have `P` - the content type
being text - go through the same calls in the same order, whatever messages arrive, as long as the environments they see have `P`: they
finish with the same message and the same protocol status, or fail in the same way, and have written the same. -/
theorem C121_lockstep_partial (ha : SameApps R P h H) (hct : ∀ e, P e → ∃ t, IsText t ∧ e.contentType = utf8Text t)
    (hpb : ∀ e d, P e → P { e with postBuffer := d }) (g G) (sock id role kill max) {u : U} {v : V} (hu : R u v) (ms : List Message)
    (hs : Sees P h g (freshReq sock id role kill max u) ms) :
    SameRes (fun x y => x.2 = y.2 ∧ SameReq R x.1 y.1)
      (handler h g (freshReq sock id role kill max u) ms) (handlerW H G (freshReqW sock id role kill max v) ms) :=
  handler_port ha hct hpb g G ms (freshReq_alive ..) (freshReq_aliveW ..) (fresh_port _ _ _ _ _ hu) hs

/-- And what the web server is sent is the same: the contents of the OUT and ERR records, byte for byte, whatever encodings were selected (the
records may be divided differently), and then the END_REQUEST record. -/
theorem C121_bytes_partial (ha : SameApps R P h H) (hct : ∀ e, P e → ∃ t, IsText t ∧ e.contentType = utf8Text t)
    (hpb : ∀ e d, P e → P { e with postBuffer := d }) (g G) (sock id role kill max) {u : U} {v : V} (hu : R u v) (ms : List Message)
    (hs : Sees P h g (freshReq sock id role kill max u) ms) {r rest}
    (e : handler h g (freshReq sock id role kill max u) ms = .ok (r, rest, true)) :
    ∃ w, handlerW H G (freshReqW sock id role kill max v) ms = .ok (w, rest, true) ∧ Each SameCall (callsOf r.log) (callsOfW w.log) ∧
      ∃ rs rs' : List Record, ∃ end1 end2,
        sentOf r.log = rs.map (fun x => (sock, x.bytes, false)) ++ [(sock, end1, kill)] ∧
        sentOfW w.log = rs'.map (fun x => (sock, x.bytes, false)) ++ [(sock, end2, kill)] ∧
        (∀ x ∈ rs ++ rs', GoodRecord id 6 x ∨ GoodRecord id 7 x) ∧
        (rs.filter (fun x => x.type = 6)).flatMap Record.content = (rs'.filter (fun x => x.type = 6)).flatMap Record.content ∧
        (rs.filter (fun x => x.type = 7)).flatMap Record.content = (rs'.filter (fun x => x.type = 7)).flatMap Record.content ∧
        IsEndRequest id.toNat r.status end1 ∧ IsEndRequest id.toNat r.status end2 := by
  obtain ⟨⟨w, rest', fin⟩, e', hx, hy⟩ := sameRes_ok (C121_lockstep_partial ha hct hpb g G sock id role kill max hu ms hs) e
  cases hx
  obtain ⟨h1, _, hc, _⟩ := handler_spec h g ms _ r rest true (freshReq_alive ..) e
  obtain ⟨k1, _, kc, _⟩ := handler_specW H G ms _ w rest true (freshReq_aliveW ..) e'
  obtain ⟨c1, c2, c3, _⟩ : r.sock = sock ∧ r.id = id ∧ r.kill = kill ∧ _ := hc
  obtain ⟨d1, d2, d3, _⟩ : w.sock = sock ∧ w.id = id ∧ w.kill = kill ∧ _ := kc
  obtain ⟨pre, rs, en, e1, e2, e3, ⟨g1, e4⟩, e5, e6⟩ := (h1 rfl).recs
  obtain ⟨pre', rs', en', f1, f2, f3, ⟨g2, f4⟩, f5, f6⟩ := (k1 rfl).recs
  refine ⟨w, e', hy.calls, rs, rs', en, en', ?_, ?_, ?_, ?_, ?_, ?_, ?_⟩
  · rw [e1, sentOf_append, e2, c1, c3]; rfl
  · rw [f1, sentOf_appendW, f2, d1, d3]; rfl
  · intro x hx
    rcases List.mem_append.1 hx with hx | hx
    · rcases e3 x hx with k | k
      · exact Or.inl ⟨k.version, k.type, c2 ▸ k.id, ⟨k.content_pos, k.content_max⟩, k.padding, k.aligned⟩
      · exact Or.inr ⟨k.version, k.type, c2 ▸ k.id, ⟨k.content_pos, k.content_max⟩, k.padding, k.aligned⟩
    · rcases f3 x hx with k | k
      · exact Or.inl ⟨k.version, k.type, d2 ▸ k.id, ⟨k.content_pos, k.content_max⟩, k.padding, k.aligned⟩
      · exact Or.inr ⟨k.version, k.type, d2 ▸ k.id, ⟨k.content_pos, k.content_max⟩, k.padding, k.aligned⟩
  · rw [e5, f5 hy.outText, hy.out, expected_port _ _ hy.outText]
  · rw [e6, f6 hy.errText, hy.err, expected_port _ _ hy.errText]
  · rw [e4, c2]; exact endRequestRecord_spec ..
  · rw [f4, d2, ← show r.status = w.status from hy.status]; exact endRequestRecord_spec ..

end

/-! ## A concrete pair of applications

They show the host, with HTML encoding, after an é. -/

def echo : Handlers Nat :=
  defaultHandlers fun n e m => (⟨[(false, .setEnc .html), (false, .insert ([0xc3, 0xa9] ++ e.host)), (false, .put 60)], e, n + 1⟩, m.type = 0)
def echoW : HandlersW Nat :=
  defaultHandlersW fun n e m => (⟨[(false, .setEnc .html), (false, .insert ([0xe9] ++ e.host)), (false, .put 60)], e, n + 1⟩, m.type = 0)
/-- Host and content type are text. -/
def EchoOk (e : Env) : Prop := (∃ t, IsText t ∧ e.host = utf8Text t) ∧ ∃ t, IsText t ∧ e.contentType = utf8Text t

theorem same_page (page : Bytes) (hp : ∀ b ∈ page, b < 128) {n : Nat} {e w} (he : EchoOk e) (hs : SameEnv e w) :
    SameAct Eq EchoOk ⟨[(false, .insert page)], e, n⟩ ⟨[(false, .insert (page.map UInt8.toUInt32))], w, n⟩ where
  ops := by
    show [(false, SOp.insert page)] = [(false, SOp.insert (utf8Text _))]
    rw [(utf8Text_ascii page hp).2]
  text := by
    intro p hp'
    cases List.mem_singleton.1 hp'
    exact (utf8Text_ascii page hp).1
  env := hs
  user := rfl
  holds := he

theorem same_nothing {n : Nat} {e w} (he : EchoOk e) (hs : SameEnv e w) : SameAct Eq EchoOk ⟨[], e, n⟩ ⟨[], w, n⟩ where
  ops := rfl
  text := by intro p hp; cases hp
  env := hs
  user := rfl
  holds := he

theorem echo_same : SameApps Eq EchoOk echo echoW where
  error := by intro u v e w hu he hs; cases hu; exact same_page _ (by decide +kernel) he hs
  bigPost := by intro u v e w hu he hs; cases hu; exact same_page _ (by decide +kernel) he hs
  unknownContent := by intro u v e w hu he hs; cases hu; exact same_page _ (by decide +kernel) he hs
  inHandler := by intro u v e w n hu he hs; cases hu; exact same_nothing he hs
  inProcessor := by intro u v e w hu he hs; cases hu; exact ⟨same_nothing he hs, rfl⟩
  response := by
    intro u v e w m hu he hs
    cases hu
    obtain ⟨t, ht, et⟩ := he.1
    have hw : w.host = t := hs.host t ht et
    refine ⟨⟨?_, ?_, hs, rfl, he⟩, rfl⟩
    · show [(false, SOp.setEnc .html), (false, .insert ([0xc3, 0xa9] ++ e.host)), (false, .put 60)] =
        [(false, SOp.setEnc .html), (false, .insert (utf8Text ([0xe9] ++ w.host))), (false, .put 60)]
      rw [et, hw]
      rfl
    · intro p hp
      rcases List.mem_cons.1 hp with rfl | hp
      · trivial
      rcases List.mem_cons.1 hp with rfl | hp
      · intro c hc
        rcases List.mem_append.1 hc with hc | hc
        · cases List.mem_singleton.1 hc; show isScalar _; unfold isScalar; decide
        · rw [hw] at hc; exact ht c hc
      · cases List.mem_singleton.1 hp
        show isScalar _; unfold isScalar; decide

def echoFresh : Req Nat := freshReq 3 7 1 true 100 0
def echoCheck (e : Env) : Bool := (e.host == [] || e.host == b!"h") && e.contentType == []
theorem echoCheck_ok {e} (h : echoCheck e = true) : EchoOk e := by
  unfold echoCheck at h
  simp only [Bool.and_eq_true, Bool.or_eq_true, beq_iff_eq] at h
  refine ⟨?_, [], ⟨(by intro c hc; cases hc), h.2⟩⟩
  rcases h.1 with h | h
  · exact ⟨[], ⟨(by intro c hc; cases hc), h⟩⟩
  · refine ⟨[0x68], ?_, h⟩
    intro c hc
    cases List.mem_singleton.1 hc; unfold isScalar; decide
def echoRun (ms : List Message) : Bool :=
  match handler echo (fun _ _ _ => 0) echoFresh ms with
  | .ok (r, _, _) => echoCheck r.env && r.log.all fun
    | .call (.response e _) => echoCheck e
    | _ => true
  | _ => true
theorem echoRun_ok {ms r rest fin} (h : echoRun ms = true) (e : handler echo (fun _ _ _ => 0) echoFresh ms = .ok (r, rest, fin)) :
    EchoOk r.env ∧ ∀ e m, Ev.call (.response e m) ∈ r.log → EchoOk e := by
  unfold echoRun at h
  rw [e] at h
  simp only [Bool.and_eq_true, List.all_eq_true] at h
  exact ⟨echoCheck_ok h.1, fun e m hm => echoCheck_ok (h.2 _ hm)⟩
theorem echo_sees : Sees EchoOk echo (fun _ _ _ => 0) echoFresh (demoInput.map Input.message) := by
  intro ms1 ms2 r rest fin hm e
  have hk : ms1 = (demoInput.map Input.message).take ms1.length := by rw [hm]; simp
  have hl : ms1.length ≤ 4 := by
    have := congrArg List.length hm
    simp [demoInput] at this
    omega
  have hall : ∀ k : Fin 5, echoRun ((demoInput.map Input.message).take k.val) = true := by decide +kernel
  rw [hk] at e
  exact echoRun_ok (hall ⟨ms1.length, by omega⟩) e
/-- The theorem applies to them. -/
example : SameRes (fun x y => x.2 = y.2 ∧ SameReq Eq x.1 y.1) (handler echo (fun _ _ _ => 0) echoFresh (demoInput.map Input.message))
    (handlerW echoW ⟨fun _ _ _ => 7, false⟩ (freshReqW 3 7 1 true 100 0) (demoInput.map Input.message)) :=
  C121_lockstep_partial echo_same (fun _ h => h.2) (fun _ _ h => h) _ _ _ _ _ _ _ rfl _ echo_sees
example : (match handler echo (fun _ _ _ => 0) echoFresh (demoInput.map Input.message) with
    | .ok (r, rest, fin) => fin && rest.isEmpty && (sentOf r.log).map (fun x => (x.2.1.drop 8).take 8) ==
        [[0xc3, 0xa9, 0x68, 60, 0xc3, 0xa9, 0x68, 60], [0, 0, 0, 0, 0, 0, 0, 0]]
    | _ => false) = true := by decide +kernel

/-- A host in Latin-1. -/
def latinInput : List Input :=
  [.record (demoRec 4 ([9, 1] ++ b!"HTTP_HOST" ++ [0xe9])), .record (demoRec 4 []), .record (demoRec 5 [])]

/-- Violated: if the environment is not text the two differ: the narrow application sends the host as
it came, the wide one nothing in its place. -/
theorem C121_violated :
    (match handler echo (fun _ _ _ => 0) echoFresh (latinInput.map Input.message) with
      | .ok (r, _, true) => some ((sentOf r.log).map fun x => (x.2.1.drop 8).take 4)
      | _ => none) = some [[0xc3, 0xa9, 0xe9, 60], [0, 0, 0, 0]] ∧
    (match handlerW echoW ⟨fun _ _ _ => 0, false⟩ (freshReqW 3 7 1 true 100 0) (latinInput.map Input.message) with
      | .ok (w, _, true) => some ((sentOfW w.log).map fun x => (x.2.1.drop 8).take 3)
      | _ => none) = some [[0xc3, 0xa9, 60], [0, 0, 0]] := by
  decide +kernel

end Fcgi.Props
