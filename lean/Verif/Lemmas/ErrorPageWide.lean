import Verif.Lemmas.ErrorPage
namespace Fcgi.Model
open Fcgi Fcgi.Spec

/-- The status of the page of an error handler. -/
def statusOfW : CallW → Option Bytes
  | .error => some b!"500 Internal Server Error"
  | .bigPost => some b!"413 Request Entity Too Large"
  | .unknownContent => some b!"415 Unsupported Media Type"
  | _ => none

/-- The class keeps the library's error handlers and says nothing before it is asked to respondW. -/
structure KeepsPagesW {U} (h : HandlersW U) : Prop where
  error : ∀ u e, (h.error u e).ops = ((defaultHandlersW h.response).error u e).ops
  bigPost : ∀ u e, (h.bigPost u e).ops = ((defaultHandlersW h.response).bigPost u e).ops
  unknownContent : ∀ u e, (h.unknownContent u e).ops = ((defaultHandlersW h.response).unknownContent u e).ops
  inHandler : ∀ u e n, (h.inHandler u e n).ops = []
  inProcessor : ∀ u e, (h.inProcessor u e).1.ops = []

theorem keepsPages_defaultW {U} (resp : U → EnvW → Message → ActW U × Bool) : KeepsPagesW (defaultHandlersW resp) :=
  ⟨fun _ _ => rfl, fun _ _ => rfl, fun _ _ => rfl, fun _ _ _ => rfl, fun _ _ => rfl⟩

/-- What the calls wrote, if `response()` is not among them. -/
def pageOpsW (c : CallW) : List (SOp UInt32) := match statusOfW c with
  | some s => [.insert ((errorPage s s).map UInt8.toUInt32)]
  | none => []

def NoResponseW (l : List CallW) : Prop := ∀ env m, CallW.response env m ∉ l

def PageLogW (l : List EvW) : Prop :=
  NoResponseW (callsOfW l) → writesW false l = (callsOfW l).flatMap pageOpsW ∧ writesW true l = []

theorem PageLogW.add {l l'} {c : CallW} (h : PageLogW l) (h1 : callsOfW l' = []) (h2 : (∀ env m, c ≠ .response env m) → writesW false l' = pageOpsW c)
    (h3 : (∀ env m, c ≠ .response env m) → writesW true l' = []) : PageLogW (l ++ .call c :: l') := by
  intro hn
  have hn' : NoResponseW (callsOfW l ++ [c]) := by simpa [callsOf_appendW, callsOfW, h1] using hn
  have hc : ∀ env m, c ≠ .response env m := fun env m hc => hn' env m (by simp [hc])
  have := h (fun env m hm => hn' env m (by simp [hm]))
  simp [writes_appendW, writesW, callsOf_appendW, callsOfW, h1, h2 hc, h3 hc, this]

/-- One message: as long as the request lives no error handlerW was called, and when it ends at most the last callW is one. -/
theorem page_stepW {U} {hd : HandlersW U} (hk : KeepsPagesW hd) (g) {r r' : ReqW U} (h : AliveW r) {m : Message} {fin : Bool}
    (e : handleMsgW hd g r m = .ok (r', fin)) (hp : PageLogW r.log) (hc : ∀ c ∈ callsOfW r.log, statusOfW c = none) :
    PageLogW r'.log ∧ ∃ cs, (callsOfW r'.log = cs ∨ (fin = true ∧ ∃ c s, statusOfW c = some s ∧ callsOfW r'.log = cs ++ [c])) ∧
      (∀ c ∈ cs, statusOfW c = none) ∧ ∃ l, cs = callsOfW r.log ++ l := by
  have fw : ∀ (r0 : ReqW U) c a, AliveW r0 → r0.log = r.log → (∀ env m, c ≠ .response env m) → (∃ s, statusOfW c = some s) →
      a.ops.map Prod.snd = pageOpsW c → (∀ o ∈ a.ops, o.1 = false) →
      failWithW g r0 c a = .ok (r', fin) → PageLogW r'.log ∧ ∃ cs, (callsOfW r'.log = cs ∨ (fin = true ∧ ∃ c s, statusOfW c = some s ∧
        callsOfW r'.log = cs ++ [c])) ∧ (∀ c ∈ cs, statusOfW c = none) ∧ ∃ l, cs = callsOfW r.log ++ l := by
    intro r0 c a h0 hl hcr ⟨s, hs⟩ hops hout e
    obtain ⟨r1, a1, a2, a3, l, a4, a5, a6, a7⟩ := failWith_specW g r0 h0 c a
    rw [a1] at e; cases e
    have f1 : a.ops.filter (!·.1) = a.ops := List.filter_eq_self.2 (fun o ho => by rw [hout o ho]; rfl)
    have f2 : a.ops.filter (·.1) = [] := List.filter_eq_nil_iff.2 (fun o ho => by rw [hout o ho]; simp)
    refine ⟨?_, callsOfW r.log, Or.inr ⟨rfl, c, s, hs, ?_⟩, hc, [], by simp⟩
    · rw [a4, hl]
      exact hp.add a5 (fun _ => by rw [a6, f1, hops]) (fun _ => by rw [a7, f2]; rfl)
    · rw [a4, hl]; simp [callsOf_appendW, callsOfW, a5]
  have quiet : ∀ l, callsOfW l = [] → writesW false l = [] → writesW true l = [] → PageLogW (r.log ++ l) := by
    intro l h1 h2 h3 hn
    rw [callsOf_appendW, h1, List.append_nil] at hn ⊢
    simp [writes_appendW, h2, h3, hp hn]
  have resp : ∀ (r0 : ReqW U) (m : Message), AliveW r0 → PageLogW r0.log → (∀ c ∈ callsOfW r0.log, statusOfW c = none) →
      (∃ l, callsOfW r0.log = callsOfW r.log ++ l) →
      respondW hd g r0 m = .ok (r', fin) → PageLogW r'.log ∧ ∃ cs, (callsOfW r'.log = cs ∨ (fin = true ∧ ∃ c s, statusOfW c = some s ∧
        callsOfW r'.log = cs ++ [c])) ∧ (∀ c ∈ cs, statusOfW c = none) ∧ ∃ l, cs = callsOfW r.log ++ l := by
    intro r0 m h0 hp0 hc0 ⟨l0, hl0⟩ e
    obtain ⟨r1, a1, a2, a3, a4, l, a5, a6, _⟩ := respond_specW hd g r0 h0 m
    rw [a1] at e
    obtain ⟨rfl, rfl⟩ : r1 = r' ∧ (hd.response r0.user r0.env m).2 = fin := by simpa using e
    refine ⟨?_, callsOfW r0.log ++ [.response r0.env m], Or.inl ?_, ?_, l0 ++ [.response r0.env m], by rw [hl0, List.append_assoc]⟩
    · rw [a5]
      exact hp0.add a6 (fun h => absurd rfl (h _ _)) (fun h => absurd rfl (h _ _))
    · rw [a5]; simp [callsOf_appendW, callsOfW, a6]
    · intro c hcm
      rcases List.mem_append.1 hcm with hcm | hcm
      · exact hc0 c hcm
      · simp only [List.mem_singleton] at hcm
        subst hcm; rfl
  by_cases hm : m.type = 0
  · unfold handleMsgW at e
    rw [if_pos hm] at e
    obtain ⟨t, _, e⟩ := Res.bind_eq_ok.1 e
    obtain ⟨len, _, e⟩ := Res.bind_eq_ok.1 e
    dsimp only at e
    have err : ∀ {r0 : ReqW U}, AliveW r0 → r0.log = r.log → failWithW g r0 .error (hd.error r.user r.env) = .ok (r', fin) → _ :=
      fun {r0} h0 hl => fw r0 .error _ h0 hl (by simp) ⟨_, rfl⟩ (by rw [hk.error]; rfl) (by rw [hk.error]; simp [defaultHandlersW])
    have big : failWithW g r .bigPost (hd.bigPost r.user r.env) = .ok (r', fin) → _ :=
      fw r .bigPost _ h rfl (by simp) ⟨_, rfl⟩ (by rw [hk.bigPost]; rfl) (by rw [hk.bigPost]; simp [defaultHandlersW])
    split at e
    · obtain ⟨r1, a1, a2, a3, a4, a5, rs, a6, a7⟩ := complete_specW g r h
      rw [a1] at e; cases e
      refine ⟨?_, callsOfW r.log, Or.inl ?_, hc, [], by simp⟩
      · rw [a7, List.append_assoc]
        exact quiet _ (by simp [callsOf_appendW, callsOfW]) (by simp [writes_appendW, writesW]) (by simp [writes_appendW, writesW])
      · rw [a7]; simp [callsOf_appendW, callsOfW]
    split at e
    · exact err h rfl e
    split at e
    · split at e
      · exact err (r0 := { r with status := 3 }) (h.of_eq rfl rfl rfl rfl rfl) rfl e
      split at e
      · split at e
        · exact big e
        · cases e
          exact ⟨hp, _, Or.inl rfl, hc, [], by simp⟩
      split at e
      · cases e
      · obtain ⟨env, _, e⟩ := Res.bind_eq_ok.1 e
        cases e
        exact ⟨hp, _, Or.inl rfl, hc, [], by simp⟩
    split at e
    · split at e
      · unfold inputEndW at e
        obtain ⟨r1, a1, a2, a3, a4, a5, l, a6, a7, a8, a9⟩ := call_specW g r h (.inProcessor r.env) (hd.inProcessor r.user r.env).1
        simp only [a1, Res.ok_bind] at e
        obtain ⟨p, _, e⟩ := Res.bind_eq_ok.1 e
        rw [hk.inProcessor] at a8 a9
        have hp1 : PageLogW r1.log := by
          rw [a6]; exact hp.add a7 (fun _ => by rw [a8]; rfl) (fun _ => by rw [a9]; rfl)
        have hcs : callsOfW r1.log = callsOfW r.log ++ [.inProcessor r.env] := by rw [a6]; simp [callsOf_appendW, callsOfW, a7]
        have hc1 : ∀ c ∈ callsOfW r1.log, statusOfW c = none := by
          rw [hcs]
          intro c hcm
          rcases List.mem_append.1 hcm with hcm | hcm
          · exact hc c hcm
          · simp only [List.mem_singleton] at hcm
            subst hcm; rfl
        split at e
        · obtain ⟨r2, b1, b2, b3, l', b4, b5, b6, b7⟩ := failWith_specW g { r1 with env := p.1 } (a2.of_eq rfl rfl rfl rfl rfl) .unknownContent
            (hd.unknownContent r1.user p.1)
          rw [b1] at e; cases e
          rw [hk.unknownContent] at b6 b7
          refine ⟨?_, callsOfW r1.log, Or.inr ⟨rfl, .unknownContent, _, rfl, ?_⟩, hc1, [.inProcessor r.env], hcs⟩
          · rw [b4]
            exact hp1.add b5 (fun _ => by rw [b6]; rfl) (fun _ => by rw [b7]; rfl)
          · rw [b4]; simp [callsOf_appendW, callsOfW, b5]
        · exact resp { r1 with env := { p.1 with postBuffer := [] }, state := 6 } m (a2.of_eq rfl rfl rfl rfl rfl) hp1 hc1 ⟨_, hcs⟩ e
      split at e
      · exact big e
      split at e
      · cases e
      · have al : AliveW { r with env := fillPostBufferW r.env (slice m.data 8 (8 + len.toNat)) } := h.of_eq rfl rfl rfl rfl rfl
        obtain ⟨r1, a1, a2, a3, _, _, l, a6, a7, a8, a9⟩ := call_specW g _ al (.inHandler len.toNat)
          (hd.inHandler r.user (fillPostBufferW r.env (slice m.data 8 (8 + len.toNat))) len.toNat)
        rw [a1] at e; cases e
        rw [hk.inHandler] at a8 a9
        refine ⟨?_, callsOfW r.log ++ [.inHandler len.toNat], Or.inl ?_, ?_, _, rfl⟩
        · rw [a6]; exact hp.add a7 (fun _ => by rw [a8]; rfl) (fun _ => by rw [a9]; rfl)
        · rw [a6]; simp [callsOf_appendW, callsOfW, a7]
        · intro c hcm
          rcases List.mem_append.1 hcm with hcm | hcm
          · exact hc c hcm
          · simp only [List.mem_singleton] at hcm
            subst hcm; rfl
    · exact err h rfl e
  · rw [handleMsg_callbackW hd g r m hm] at e
    exact resp r m h hp hc ⟨[], by simp⟩ e

theorem page_runW {U} {hd : HandlersW U} (hk : KeepsPagesW hd) (g) : ∀ (ms : List Message) (r r' : ReqW U) (rest : List Message) (fin : Bool),
    AliveW r → PageLogW r.log → (∀ c ∈ callsOfW r.log, statusOfW c = none) → handlerW hd g r ms = .ok (r', rest, fin) →
    PageLogW r'.log ∧ ∃ cs, (callsOfW r'.log = cs ∨ (fin = true ∧ ∃ c s, statusOfW c = some s ∧ callsOfW r'.log = cs ++ [c])) ∧
      (∀ c ∈ cs, statusOfW c = none) := by
  intro ms
  induction ms with
  | nil =>
    intro r r' rest fin h hp hc e
    simp only [handlerW] at e
    cases e
    exact ⟨hp, _, Or.inl rfl, hc⟩
  | cons m ms ih =>
    intro r r' rest fin h hp hc e
    simp only [handlerW] at e
    obtain ⟨⟨r1, f1⟩, e1, e⟩ := Res.bind_eq_ok.1 e
    have sp := handleMsg_specW hd g r r1 h m f1 e1
    obtain ⟨p1, cs, p2, p3, _⟩ := page_stepW hk g h e1 hp hc
    cases f1 with
    | true =>
      cases e
      exact ⟨p1, cs, p2, p3⟩
    | false =>
      simp only [Bool.false_eq_true, if_false] at e
      have hcs : callsOfW r1.log = cs := by
        rcases p2 with p2 | ⟨p2, _⟩
        · exact p2
        · cases p2
      exact ih r1 r' rest fin (sp.2.1 rfl).1 p1 (by rw [hcs]; exact p3) e

end Fcgi.Model
