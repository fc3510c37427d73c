import Verif.Lemmas.RequestPairs
import Verif.Lemmas.RequestWideRun
import Verif.Spec.ErrorPage
namespace Fcgi.Model
open Fcgi Fcgi.Spec

/-! ### responses can be read in one way only -/

theorem eol_split {a b x y : Bytes} (ha : Eol a) (hb : Eol b) (h : a ++ x = b ++ y) : a = b ∧ x = y := by
  rcases ha with rfl | rfl <;> rcases hb with rfl | rfl <;> simp_all

/-- Cutting at the first character with a property. -/
theorem cut_unique {P : UInt8 → Prop} : ∀ {a b x y : Bytes}, (∀ c ∈ a, ¬ P c) → (∀ c ∈ b, ¬ P c) → (∀ c, x.head? = some c → P c) → x ≠ [] →
    (∀ c, y.head? = some c → P c) → y ≠ [] → a ++ x = b ++ y → a = b ∧ x = y
  | [], [], _, _, _, _, _, _, _, _, h => ⟨rfl, h⟩
  | [], d :: b, x, y, _, hb, hx, _, _, _, h => by
    simp only [List.nil_append, List.cons_append] at h
    exact absurd (hx d (by rw [h]; rfl)) (hb d (by simp))
  | c :: a, [], x, y, ha, _, _, _, hy, _, h => by
    simp only [List.nil_append, List.cons_append] at h
    exact absurd (hy c (by rw [← h]; rfl)) (ha c (by simp))
  | c :: a, d :: b, x, y, ha, hb, hx, hx0, hy, hy0, h => by
    simp only [List.cons_append, List.cons.injEq] at h
    obtain ⟨e1, e2⟩ := cut_unique (fun c h => ha c (by simp [h])) (fun c h => hb c (by simp [h])) hx hx0 hy hy0 h.2
    exact ⟨by rw [h.1, e1], e2⟩

theorem eol_head {e x : Bytes} (h : Eol e) : ∃ c, (e ++ x).head? = some c ∧ (c = 10 ∨ c = 13) := by
  rcases h with rfl | rfl
  · exact ⟨10, rfl, Or.inl rfl⟩
  · exact ⟨13, rfl, Or.inr rfl⟩

theorem name_head {n x : Bytes} (h0 : n ≠ []) (h : ∀ c ∈ n, c ≠ 10 ∧ c ≠ 13 ∧ c ≠ 58) : ∃ c, (n ++ x).head? = some c ∧ c ≠ 10 ∧ c ≠ 13 := by
  cases n with
  | nil => exact absurd rfl h0
  | cons c n => exact ⟨c, rfl, (h c (by simp)).1, (h c (by simp)).2.1⟩

theorem isResponse_unique {fs body b} (h : IsResponse fs body b) : ∀ {fs' body'}, IsResponse fs' body' b → fs = fs' ∧ body = body' := by
  induction h with
  | blank eol body he =>
    intro fs' body' h'
    generalize hb : eol ++ body = b at h'
    cases h' with
    | blank eol' _ he' => exact ⟨rfl, (eol_split he he' hb).2⟩
    | field n v e' rest fs' _ hn0 hn hv he' hr =>
      exfalso
      obtain ⟨c, h1, h2⟩ := eol_head (x := body) he
      obtain ⟨d, k1, k2⟩ := name_head (x := [58, 32] ++ v ++ e' ++ rest) hn0 hn
      rw [hb] at h1
      simp only [List.append_assoc] at h1 k1
      rw [h1] at k1
      cases k1
      rcases h2 with h2 | h2
      · exact k2.1 h2
      · exact k2.2 h2
  | field n v e rest fs body hn0 hn hv he hr ih =>
    intro fs' body' h'
    generalize hb : n ++ [58, 32] ++ v ++ e ++ rest = b at h'
    cases h' with
    | blank eol' _ he' =>
      exfalso
      obtain ⟨c, h1, h2⟩ := eol_head (x := body') he'
      obtain ⟨d, k1, k2⟩ := name_head (x := [58, 32] ++ v ++ e ++ rest) hn0 hn
      rw [← hb] at h1
      simp only [List.append_assoc] at h1 k1
      rw [h1] at k1
      cases k1
      rcases h2 with h2 | h2
      · exact k2.1 h2
      · exact k2.2 h2
    | field n' v' e' rest' fs' _ hn0' hn' hv' he' hr' =>
      simp only [List.append_assoc] at hb
      obtain ⟨rfl, q⟩ := cut_unique (P := (· = 58)) (fun c h => (hn c h).2.2) (fun c h => (hn' c h).2.2)
        (by simp) (by simp) (by simp) (by simp) hb
      simp only [List.cons_append, List.nil_append, List.cons.injEq, true_and] at q
      have hd : ∀ {e x : Bytes}, Eol e → (∀ c, (e ++ x).head? = some c → (c = 10 ∨ c = 13)) ∧ e ++ x ≠ [] := by
        intro e x h
        rcases h with rfl | rfl <;> simp
      obtain ⟨rfl, q2⟩ := cut_unique (P := fun c => c = 10 ∨ c = 13) (fun c h => by simp [(hv c h).1, (hv c h).2])
        (fun c h => by simp [(hv' c h).1, (hv' c h).2]) (hd he).1 (hd he).2 (hd he').1 (hd he').2 q
      obtain ⟨rfl, rfl⟩ := eol_split he he' q2
      obtain ⟨rfl, rfl⟩ := ih hr'
      exact ⟨rfl, rfl⟩

/-! ### the default pages -/

/-- The status of the page of an error handler. -/
def statusOf : Call → Option Bytes
  | .error => some b!"500 Internal Server Error"
  | .bigPost => some b!"413 Request Entity Too Large"
  | .unknownContent => some b!"415 Unsupported Media Type"
  | _ => none

theorem errorPage_answer (s : Bytes) (hs : ∀ c ∈ s, c ≠ 10 ∧ c ≠ 13) : ErrorAnswer s (errorPage s s) := by
  have h2 : IsResponse [(b!"Content-Type", b!"text/html; charset=utf-8")] (shortPage s)
      (b!"Content-Type" ++ [58, 32] ++ b!"text/html; charset=utf-8" ++ [13, 10] ++ ([13, 10] ++ shortPage s)) :=
    .field _ _ _ _ _ _ (by decide) (by decide) (by decide) (Or.inr rfl) (.blank _ _ (Or.inr rfl))
  have h1 := IsResponse.field b!"Status" s [10] _ _ _ (by decide) (by decide) hs (Or.inl rfl) h2
  have : errorPage s s = b!"Status" ++ [58, 32] ++ s ++ [10] ++
      (b!"Content-Type" ++ [58, 32] ++ b!"text/html; charset=utf-8" ++ [13, 10] ++ ([13, 10] ++ shortPage s)) := by
    simp only [errorPage, shortPage, element, List.append_assoc, List.cons_append, List.nil_append]
  rw [ErrorAnswer, this]
  exact h1

/-- The class keeps the library's error handlers and says nothing before it is asked to respond. -/
structure KeepsPages {U} (h : Handlers U) : Prop where
  error : ∀ u e, (h.error u e).ops = ((defaultHandlers h.response).error u e).ops
  bigPost : ∀ u e, (h.bigPost u e).ops = ((defaultHandlers h.response).bigPost u e).ops
  unknownContent : ∀ u e, (h.unknownContent u e).ops = ((defaultHandlers h.response).unknownContent u e).ops
  inHandler : ∀ u e n, (h.inHandler u e n).ops = []
  inProcessor : ∀ u e, (h.inProcessor u e).1.ops = []

theorem keepsPages_default {U} (resp : U → Env → Message → Act U × Bool) : KeepsPages (defaultHandlers resp) :=
  ⟨fun _ _ => rfl, fun _ _ => rfl, fun _ _ => rfl, fun _ _ _ => rfl, fun _ _ => rfl⟩

/-- What the calls wrote, if `response()` is not among them. -/
def pageOps (c : Call) : List (SOp UInt8) := match statusOf c with
  | some s => [.insert (errorPage s s)]
  | none => []

def NoResponse (l : List Call) : Prop := ∀ env m, Call.response env m ∉ l

def PageLog (l : List Ev) : Prop :=
  NoResponse (callsOf l) → writes false l = (callsOf l).flatMap pageOps ∧ writes true l = []

theorem PageLog.add {l l'} {c : Call} (h : PageLog l) (h1 : callsOf l' = []) (h2 : (∀ env m, c ≠ .response env m) → writes false l' = pageOps c)
    (h3 : (∀ env m, c ≠ .response env m) → writes true l' = []) : PageLog (l ++ .call c :: l') := by
  intro hn
  have hn' : NoResponse (callsOf l ++ [c]) := by simpa [callsOf_append, callsOf, h1] using hn
  have hc : ∀ env m, c ≠ .response env m := fun env m hc => hn' env m (by simp [hc])
  have := h (fun env m hm => hn' env m (by simp [hm]))
  simp [writes_append, writes, callsOf_append, callsOf, h1, h2 hc, h3 hc, this]

/-- One message: as long as the request lives no error handler was called, and when it ends at most the last call is one. -/
theorem page_step {U} {hd : Handlers U} (hk : KeepsPages hd) (g) {r r' : Req U} (h : Alive r) {m : Message} {fin : Bool}
    (e : handleMsg hd g r m = .ok (r', fin)) (hp : PageLog r.log) (hc : ∀ c ∈ callsOf r.log, statusOf c = none) :
    PageLog r'.log ∧ ∃ cs, (callsOf r'.log = cs ∨ (fin = true ∧ ∃ c s, statusOf c = some s ∧ callsOf r'.log = cs ++ [c])) ∧
      (∀ c ∈ cs, statusOf c = none) ∧ ∃ l, cs = callsOf r.log ++ l := by
  have fw : ∀ (r0 : Req U) c a, Alive r0 → r0.log = r.log → (∀ env m, c ≠ .response env m) → (∃ s, statusOf c = some s) →
      a.ops.map Prod.snd = pageOps c → (∀ o ∈ a.ops, o.1 = false) →
      failWith g r0 c a = .ok (r', fin) → PageLog r'.log ∧ ∃ cs, (callsOf r'.log = cs ∨ (fin = true ∧ ∃ c s, statusOf c = some s ∧
        callsOf r'.log = cs ++ [c])) ∧ (∀ c ∈ cs, statusOf c = none) ∧ ∃ l, cs = callsOf r.log ++ l := by
    intro r0 c a h0 hl hcr ⟨s, hs⟩ hops hout e
    obtain ⟨r1, a1, a2, a3, l, a4, a5, a6, a7⟩ := failWith_spec g r0 h0 c a
    rw [a1] at e; cases e
    have f1 : a.ops.filter (!·.1) = a.ops := List.filter_eq_self.2 (fun o ho => by rw [hout o ho]; rfl)
    have f2 : a.ops.filter (·.1) = [] := List.filter_eq_nil_iff.2 (fun o ho => by rw [hout o ho]; simp)
    refine ⟨?_, callsOf r.log, Or.inr ⟨rfl, c, s, hs, ?_⟩, hc, [], by simp⟩
    · rw [a4, hl]
      exact hp.add a5 (fun _ => by rw [a6, f1, hops]) (fun _ => by rw [a7, f2]; rfl)
    · rw [a4, hl]; simp [callsOf_append, callsOf, a5]
  have quiet : ∀ l, callsOf l = [] → writes false l = [] → writes true l = [] → PageLog (r.log ++ l) := by
    intro l h1 h2 h3 hn
    rw [callsOf_append, h1, List.append_nil] at hn ⊢
    simp [writes_append, h2, h3, hp hn]
  have resp : ∀ (r0 : Req U) (m : Message), Alive r0 → PageLog r0.log → (∀ c ∈ callsOf r0.log, statusOf c = none) →
      (∃ l, callsOf r0.log = callsOf r.log ++ l) →
      respond hd g r0 m = .ok (r', fin) → PageLog r'.log ∧ ∃ cs, (callsOf r'.log = cs ∨ (fin = true ∧ ∃ c s, statusOf c = some s ∧
        callsOf r'.log = cs ++ [c])) ∧ (∀ c ∈ cs, statusOf c = none) ∧ ∃ l, cs = callsOf r.log ++ l := by
    intro r0 m h0 hp0 hc0 ⟨l0, hl0⟩ e
    obtain ⟨r1, a1, a2, a3, a4, l, a5, a6, _⟩ := respond_spec hd g r0 h0 m
    rw [a1] at e
    obtain ⟨rfl, rfl⟩ : r1 = r' ∧ (hd.response r0.user r0.env m).2 = fin := by simpa using e
    refine ⟨?_, callsOf r0.log ++ [.response r0.env m], Or.inl ?_, ?_, l0 ++ [.response r0.env m], by rw [hl0, List.append_assoc]⟩
    · rw [a5]
      exact hp0.add a6 (fun h => absurd rfl (h _ _)) (fun h => absurd rfl (h _ _))
    · rw [a5]; simp [callsOf_append, callsOf, a6]
    · intro c hcm
      rcases List.mem_append.1 hcm with hcm | hcm
      · exact hc0 c hcm
      · simp only [List.mem_singleton] at hcm
        subst hcm; rfl
  by_cases hm : m.type = 0
  · unfold handleMsg at e
    rw [if_pos hm] at e
    obtain ⟨t, _, e⟩ := Res.bind_eq_ok.1 e
    obtain ⟨len, _, e⟩ := Res.bind_eq_ok.1 e
    dsimp only at e
    have err : ∀ {r0 : Req U}, Alive r0 → r0.log = r.log → failWith g r0 .error (hd.error r.user r.env) = .ok (r', fin) → _ :=
      fun {r0} h0 hl => fw r0 .error _ h0 hl (by simp) ⟨_, rfl⟩ (by rw [hk.error]; rfl) (by rw [hk.error]; simp [defaultHandlers])
    have big : failWith g r .bigPost (hd.bigPost r.user r.env) = .ok (r', fin) → _ :=
      fw r .bigPost _ h rfl (by simp) ⟨_, rfl⟩ (by rw [hk.bigPost]; rfl) (by rw [hk.bigPost]; simp [defaultHandlers])
    split at e
    · obtain ⟨r1, a1, a2, a3, a4, a5, rs, a6, a7⟩ := complete_spec g r h
      rw [a1] at e; cases e
      refine ⟨?_, callsOf r.log, Or.inl ?_, hc, [], by simp⟩
      · rw [a7, List.append_assoc]
        exact quiet _ (by simp [callsOf_append, callsOf]) (by simp [writes_append, writes]) (by simp [writes_append, writes])
      · rw [a7]; simp [callsOf_append, callsOf]
    split at e
    · exact err h rfl e
    split at e
    · split at e
      · exact err (r0 := { r with status := 3 }) (h.of_eq rfl rfl rfl rfl rfl) rfl e
      split at e
      · split at e
        · exact big e
        · cases e
          exact ⟨hp, _, Or.inl rfl, hc, [], by simp⟩
      split at e
      · cases e
      · obtain ⟨env, _, e⟩ := Res.bind_eq_ok.1 e
        cases e
        exact ⟨hp, _, Or.inl rfl, hc, [], by simp⟩
    split at e
    · split at e
      · unfold inputEnd at e
        obtain ⟨r1, a1, a2, a3, a4, a5, l, a6, a7, a8, a9⟩ := call_spec g r h (.inProcessor r.env) (hd.inProcessor r.user r.env).1
        simp only [a1, Res.ok_bind] at e
        obtain ⟨p, _, e⟩ := Res.bind_eq_ok.1 e
        rw [hk.inProcessor] at a8 a9
        have hp1 : PageLog r1.log := by
          rw [a6]; exact hp.add a7 (fun _ => by rw [a8]; rfl) (fun _ => by rw [a9]; rfl)
        have hcs : callsOf r1.log = callsOf r.log ++ [.inProcessor r.env] := by rw [a6]; simp [callsOf_append, callsOf, a7]
        have hc1 : ∀ c ∈ callsOf r1.log, statusOf c = none := by
          rw [hcs]
          intro c hcm
          rcases List.mem_append.1 hcm with hcm | hcm
          · exact hc c hcm
          · simp only [List.mem_singleton] at hcm
            subst hcm; rfl
        split at e
        · obtain ⟨r2, b1, b2, b3, l', b4, b5, b6, b7⟩ := failWith_spec g { r1 with env := p.1 } (a2.of_eq rfl rfl rfl rfl rfl) .unknownContent
            (hd.unknownContent r1.user p.1)
          rw [b1] at e; cases e
          rw [hk.unknownContent] at b6 b7
          refine ⟨?_, callsOf r1.log, Or.inr ⟨rfl, .unknownContent, _, rfl, ?_⟩, hc1, [.inProcessor r.env], hcs⟩
          · rw [b4]
            exact hp1.add b5 (fun _ => by rw [b6]; rfl) (fun _ => by rw [b7]; rfl)
          · rw [b4]; simp [callsOf_append, callsOf, b5]
        · exact resp { r1 with env := { p.1 with postBuffer := [] }, state := 6 } m (a2.of_eq rfl rfl rfl rfl rfl) hp1 hc1 ⟨_, hcs⟩ e
      split at e
      · exact big e
      split at e
      · cases e
      · have al : Alive { r with env := fillPostBuffer r.env (slice m.data 8 (8 + len.toNat)) } := h.of_eq rfl rfl rfl rfl rfl
        obtain ⟨r1, a1, a2, a3, _, _, l, a6, a7, a8, a9⟩ := call_spec g _ al (.inHandler len.toNat)
          (hd.inHandler r.user (fillPostBuffer r.env (slice m.data 8 (8 + len.toNat))) len.toNat)
        rw [a1] at e; cases e
        rw [hk.inHandler] at a8 a9
        refine ⟨?_, callsOf r.log ++ [.inHandler len.toNat], Or.inl ?_, ?_, _, rfl⟩
        · rw [a6]; exact hp.add a7 (fun _ => by rw [a8]; rfl) (fun _ => by rw [a9]; rfl)
        · rw [a6]; simp [callsOf_append, callsOf, a7]
        · intro c hcm
          rcases List.mem_append.1 hcm with hcm | hcm
          · exact hc c hcm
          · simp only [List.mem_singleton] at hcm
            subst hcm; rfl
    · exact err h rfl e
  · rw [handleMsg_callback hd g r m hm] at e
    exact resp r m h hp hc ⟨[], by simp⟩ e

theorem page_run {U} {hd : Handlers U} (hk : KeepsPages hd) (g) : ∀ (ms : List Message) (r r' : Req U) (rest : List Message) (fin : Bool),
    Alive r → PageLog r.log → (∀ c ∈ callsOf r.log, statusOf c = none) → handler hd g r ms = .ok (r', rest, fin) →
    PageLog r'.log ∧ ∃ cs, (callsOf r'.log = cs ∨ (fin = true ∧ ∃ c s, statusOf c = some s ∧ callsOf r'.log = cs ++ [c])) ∧
      (∀ c ∈ cs, statusOf c = none) := by
  intro ms
  induction ms with
  | nil =>
    intro r r' rest fin h hp hc e
    simp only [handler] at e
    cases e
    exact ⟨hp, _, Or.inl rfl, hc⟩
  | cons m ms ih =>
    intro r r' rest fin h hp hc e
    simp only [handler] at e
    obtain ⟨⟨r1, f1⟩, e1, e⟩ := Res.bind_eq_ok.1 e
    have sp := handleMsg_spec hd g r r1 h m f1 e1
    obtain ⟨p1, cs, p2, p3, _⟩ := page_step hk g h e1 hp hc
    cases f1 with
    | true =>
      cases e
      exact ⟨p1, cs, p2, p3⟩
    | false =>
      simp only [Bool.false_eq_true, if_false] at e
      have hcs : callsOf r1.log = cs := by
        rcases p2 with p2 | ⟨p2, _⟩
        · exact p2
        · cases p2
      exact ih r1 r' rest fin (sp.2.1 rfl).1 p1 (by rw [hcs]; exact p3) e

end Fcgi.Model
