import Verif.Spec.RequestPort
import Verif.Lemmas.RequestWideRun
import Verif.Spec.RequestWideTerms
namespace Fcgi.Model
open Fcgi Fcgi.Spec

/-! ### what is written -/

theorem encode_ascii (c : UInt32) (h : c < 128) : utf8Encode c.toNat = [c.toUInt8] := by
  have h' : c.toNat < 128 := by simpa [UInt32.lt_iff_toNat_lt] using h
  unfold utf8Encode
  rw [if_pos (by omega)]
  congr 1

theorem encode_high (c : UInt32) (hs : isScalar c) (h : ¬ c < 128) : ∀ b ∈ utf8Encode c.toNat, 128 ≤ b := by
  have h' : ¬ c.toNat < 128 := by simpa [UInt32.lt_iff_toNat_lt] using h
  have hs' : c.toNat < 0x110000 := by
    rcases hs with hs | hs
    · rw [UInt32.lt_iff_toNat_lt] at hs
      exact Nat.lt_trans hs (by decide)
    · have := hs.2; rw [UInt32.lt_iff_toNat_lt] at this; exact this
  intro b hb
  unfold utf8Encode at hb
  rw [UInt8.le_iff_toNat_le]
  rw [if_neg (by omega)] at hb
  have hm : (128 : UInt8).toNat = 128 := rfl
  rw [hm]
  split at hb
  · simp only [List.mem_cons, List.not_mem_nil, or_false] at hb
    rcases hb with rfl | rfl <;> simp [UInt8.toNat_ofNat'] <;> omega
  · split at hb
    · simp only [List.mem_cons, List.not_mem_nil, or_false] at hb
      rcases hb with rfl | rfl | rfl <;> simp [UInt8.toNat_ofNat'] <;> omega
    · simp only [List.mem_cons, List.not_mem_nil, or_false] at hb
      rcases hb with rfl | rfl | rfl | rfl <;> simp [UInt8.toNat_ofNat'] <;> omega

theorem charTable_high (e : Enc) (b : UInt8) (h : 128 ≤ b) : charTable e b = none := by
  have key : ∀ (t : List (UInt8 × Bytes)), (∀ p ∈ t, p.1 < 128) → t.lookup b = none := by
    intro t ht
    cases hl : t.lookup b with
    | none => rfl
    | some x => exact absurd (ht _ (lookup_mem hl)) (UInt8.not_lt.2 h)
  cases e <;> exact key _ (by decide)

/-- Escaping the UTF-8 form of a character is the same as escaping the character. -/
theorem encode1_port (e : Enc) (c : UInt32) (hc : isScalar c) :
    (utf8Encode c.toNat).flatMap (encode1 charTable e) = (encode1 wideTable e c).flatMap cv8 := by
  by_cases he : e = .none
  · subst he
    have h1 : encode1 charTable .none = fun b => [b] := by funext b; simp [encode1]
    rw [h1]
    simp [encode1]
  · by_cases h : c < 128
    · rw [encode_ascii c h]
      have h2 : c < 256 := UInt32.lt_trans h (by decide)
      simp only [encode1, if_neg he, wideTable, if_pos h2, List.flatMap_cons, List.flatMap_nil, List.append_nil]
      cases ht : charTable e c.toUInt8 with
      | none => simp [encode_ascii c h]
      | some x =>
        have hx := (charTable_length e _ x ht).2.2
        simp only [Option.getD_some, Option.map_some]
        exact (utf8Text_ascii x hx).2.symm
    · have hh := encode_high c hc h
      have hl : (utf8Encode c.toNat).flatMap (encode1 charTable e) = utf8Encode c.toNat := by
        generalize utf8Encode c.toNat = l at hh
        induction l with
        | nil => rfl
        | cons b l ih =>
          rw [List.flatMap_cons, ih fun b' hb' => hh b' (by simp [hb'])]
          simp [encode1, he, charTable_high e b (hh b (by simp))]
      rw [hl]
      have hr : encode1 wideTable e c = [c] := by
        simp only [encode1, if_neg he, wideTable]
        split
        · rename_i h2
          rw [charTable_high e c.toUInt8]
          · rfl
          · rw [UInt8.le_iff_toNat_le]
            rw [UInt32.lt_iff_toNat_lt] at h h2
            have h3 : ¬ c.toNat < 128 := h
            have h4 : c.toNat < 256 := h2
            have : (128 : UInt8).toNat = 128 := rfl
            rw [this]
            simp; omega
        · rfl
      rw [hr]; simp

theorem expected_port (ops : List (SOp UInt32)) : ∀ (e : Enc), (∀ op ∈ ops, WritesText op) →
    expected charTable one e (ops.flatMap narrowOp) = expected wideTable cv8 e ops := by
  induction ops with
  | nil => intro e _; rfl
  | cons op ops ih =>
    intro e ht
    have ih := fun e => ih e fun o ho => ht o (by simp [ho])
    have h1 := ht op (by simp)
    cases op with
    | insert t =>
      simp only [List.flatMap_cons, narrowOp, List.cons_append, List.nil_append, expected, ih]
      congr 1
      rw [flatMap_one]
      have h2 : IsText t := h1
      unfold utf8Text
      clear ht h1
      induction t with
      | nil => rfl
      | cons c t iht =>
        simp only [List.flatMap_cons, List.flatMap_append]
        rw [iht fun x hx => h2 x (by simp [hx]), encode1_port e c (h2 c (by simp))]
    | put c =>
      simp only [List.flatMap_cons, narrowOp, expected, ← ih e]
      show _ = utf8Encode c.toNat ++ _
      generalize utf8Encode c.toNat = l
      induction l with
      | nil => rfl
      | cons b l ih => simp only [List.map_cons, List.cons_append, expected, ih]; rfl
    | flush => simp only [List.flatMap_cons, narrowOp, List.cons_append, List.nil_append, expected, ih]
    | setEnc e => simp only [List.flatMap_cons, narrowOp, List.cons_append, List.nil_append, expected, ih]
    | dump d => simp only [List.flatMap_cons, narrowOp, List.cons_append, List.nil_append, expected, ih]
    | dumpStream d => simp only [List.flatMap_cons, narrowOp, List.cons_append, List.nil_append, expected, ih]

/-! ### lock step -/

theorem ops_port {b : List (Bool × SOp UInt32)} (q : Bool → Bool) :
    ((b.flatMap fun p => (narrowOp p.2).map (p.1, ·)).filter (fun x => q x.1)).map Prod.snd =
      ((b.filter (fun x => q x.1)).map Prod.snd).flatMap narrowOp := by
  induction b with
  | nil => rfl
  | cons p b ih =>
    obtain ⟨e, op⟩ := p
    simp only [List.flatMap_cons, List.filter_append, List.map_append, ih, List.filter_cons]
    cases hq : q e with
    | true =>
      have : ((narrowOp op).map (e, ·)).filter (fun x => q x.1) = (narrowOp op).map (e, ·) := by
        apply List.filter_eq_self.2
        intro x hx
        obtain ⟨y, _, rfl⟩ := List.mem_map.1 hx
        exact hq
      rw [this]
      simp [Function.comp_def]
    | false =>
      have : ((narrowOp op).map (e, ·)).filter (fun x => q x.1) = [] := by
        apply List.filter_eq_nil_iff.2
        intro x hx
        obtain ⟨y, _, rfl⟩ := List.mem_map.1 hx
        simp [hq]
      rw [this]
      simp

section
variable {U V} {R : U → V → Prop} {P : Env → Prop}

theorem call_port (g G) {r : Req U} {w : ReqW V} (a1 : Alive r) (a2 : AliveW w) (s : SameReq R r w) {c d} (hc : SameCall c d)
    {a : Act U} {b : ActW V} (hs : SameAct R P a b) :
    ∃ r' w', call g r c a = .ok r' ∧ callW G w d b = .ok w' ∧ Alive r' ∧ AliveW w' ∧ SameReq R r' w' ∧ r'.env = a.env ∧ w'.env = b.env ∧
      r'.user = a.user ∧ w'.user = b.user := by
  obtain ⟨r', e1, e2, e3, e4, e5, l, e6, e7, e8, e9⟩ := call_spec g r a1 c a
  obtain ⟨w', f1, f2, f3, f4, f5, k, f6, f7, f8, f9⟩ := call_specW G w a2 d b
  refine ⟨r', w', e1, f1, e2, f2, ?_, e4, f4, e5, f5⟩
  have o1 := @ops_port b.ops (!·)
  have o2 := @ops_port b.ops id
  constructor
  · rw [e3.sock, f3.sock, s.sock]
  · rw [e3.id, f3.id, s.id]
  · rw [e3.role, f3.role, s.role]
  · rw [e3.kill, f3.kill, s.kill]
  · rw [e3.maxPostSize, f3.maxPostSize, s.maxPostSize]
  · rw [e3.state, f3.state, s.state]
  · rw [e3.status, f3.status, s.status]
  · rw [e4, f4]; exact hs.env
  · rw [e5, f5]; exact hs.user
  · rw [e6, f6]
    simp only [callsOf_append, callsOf_appendW, callsOf, callsOfW, e7, f7]
    exact each_append s.calls (.cons hc .nil)
  · rw [e6, f6]
    simp only [writes_append, writes_appendW, writes, writesW, List.flatMap_append, s.out, e8, f8, hs.ops]
    rw [← o1]
  · rw [e6, f6]
    simp only [writes_append, writes_appendW, writes, writesW, List.flatMap_append, s.err, e9, f9, hs.ops]
    rw [show ((b.ops.filter (·.1)).map Prod.snd).flatMap narrowOp = _ from o2.symm]
    rfl
  · rw [f6]
    simp only [writes_appendW, writesW, f8]
    intro op ho
    rcases List.mem_append.1 ho with ho | ho
    · exact s.outText op ho
    · obtain ⟨p, hp, rfl⟩ := List.mem_map.1 ho
      exact hs.text p (List.mem_filter.1 hp).1
  · rw [f6]
    simp only [writes_appendW, writesW, f9]
    intro op ho
    rcases List.mem_append.1 ho with ho | ho
    · exact s.errText op ho
    · obtain ⟨p, hp, rfl⟩ := List.mem_map.1 ho
      exact hs.text p (List.mem_filter.1 hp).1

theorem complete_port (g G) {r : Req U} {w : ReqW V} (a1 : Alive r) (a2 : AliveW w) (s : SameReq R r w) :
    ∃ r' w', complete g r = .ok r' ∧ completeW G w = .ok w' ∧ SameReq R r' w' ∧ ∃ l, r'.log = r.log ++ l := by
  obtain ⟨r', e1, e2, e3, e4, e5, l, e6, e7⟩ := complete_spec g r a1
  obtain ⟨w', f1, f2, f3, f4, f5, k, f6, f7⟩ := complete_specW G w a2
  refine ⟨r', w', e1, f1, ?_, ⟨_, by rw [e7, List.append_assoc]⟩⟩
  constructor
  · rw [e3.sock, f3.sock, s.sock]
  · rw [e3.id, f3.id, s.id]
  · rw [e3.role, f3.role, s.role]
  · rw [e3.kill, f3.kill, s.kill]
  · rw [e3.maxPostSize, f3.maxPostSize, s.maxPostSize]
  · rw [e3.state, f3.state, s.state]
  · rw [e3.status, f3.status, s.status]
  · rw [e4, f4]; exact s.env
  · rw [e5, f5]; exact s.user
  · rw [e7, f7]
    simpa [callsOf_append, callsOf_appendW, callsOf, callsOfW] using s.calls
  · rw [e7, f7]
    simpa [writes_append, writes_appendW, writes, writesW] using s.out
  · rw [e7, f7]
    simpa [writes_append, writes_appendW, writes, writesW] using s.err
  · rw [f7]
    simpa [writes_appendW, writesW] using s.outText
  · rw [f7]
    simpa [writes_appendW, writesW] using s.errText

/-- The two programs give the same answer and correspond. -/
def SameStep (R : U → V → Prop) (x : Req U × Bool) (y : ReqW V × Bool) : Prop := x.2 = y.2 ∧ SameReq R x.1 y.1

theorem failWith_port (g G) {r : Req U} {w : ReqW V} (a1 : Alive r) (a2 : AliveW w) (s : SameReq R r w) {c d} (hc : SameCall c d)
    {a : Act U} {b : ActW V} (hs : SameAct R P a b) : SameRes (SameStep R) (failWith g r c a) (failWithW G w d b) := by
  obtain ⟨r1, w1, e1, f1, b1, b2, s1, _⟩ := call_port g G a1 a2 s hc hs
  obtain ⟨r2, w2, e2, f2, s2, _⟩ := complete_port g G b1 b2 s1
  simp only [failWith, failWithW, e1, f1, Res.ok_bind, e2, f2, Res.pure_eq]
  exact ⟨rfl, s2⟩

theorem respond_port {h : Handlers U} {H : HandlersW V} (ha : SameApps R P h H) (g G) {r : Req U} {w : ReqW V} (a1 : Alive r) (a2 : AliveW w)
    (s : SameReq R r w) (m : Message) (hp : P r.env) : SameRes (SameStep R) (respond h g r m) (respondW H G w m) := by
  obtain ⟨hs, hb⟩ := ha.response r.user w.user r.env w.env m s.user hp s.env
  obtain ⟨r1, w1, e1, f1, b1, b2, s1, _⟩ := call_port g G a1 a2 s (.response s.env m) hs
  obtain ⟨r2, w2, e2, f2, s2, _⟩ := complete_port g G b1 b2 s1
  simp only [respond, respondW, e1, f1, Res.ok_bind, ← hb]
  cases (h.response r.user r.env m).2 with
  | true => simp only [if_true, e2, f2, Res.ok_bind, Res.pure_eq]; exact ⟨rfl, s2⟩
  | false => exact ⟨rfl, s1⟩

theorem inputEnd_port {h : Handlers U} {H : HandlersW V} (ha : SameApps R P h H) (hct : ∀ e, P e → ∃ t, IsText t ∧ e.contentType = utf8Text t)
    (g G) {r : Req U} {w : ReqW V} (a1 : Alive r) (a2 : AliveW w) (s : SameReq R r w) (m : Message) (hp : P r.env)
    (hr : ∀ r' fin, inputEnd h g r m = .ok (r', fin) → ∀ e m, Ev.call (.response e m) ∈ r'.log → P e) :
    SameRes (SameStep R) (inputEnd h g r m) (inputEndW H G w m) := by
  obtain ⟨hs, hb⟩ := ha.inProcessor r.user w.user r.env w.env s.user hp s.env
  obtain ⟨r1, w1, e1, f1, b1, b2, s1, e3, f3, _⟩ := call_port g G a1 a2 s (.inProcessor s.env) hs
  have hp1 : P r1.env := by rw [e3]; exact hs.holds
  unfold inputEnd inputEndW
  simp only [inputEnd, e1, Res.ok_bind] at hr
  simp only [e1, f1, Res.ok_bind, ← hb]
  generalize (h.inProcessor r.user r.env).2 = pr at *
  have hpp : SameRes (fun a b => SameEnv a.1 b.1 ∧ a.2 = b.2 ∧ (a.2 = false → a.1 = r1.env)) (parsePost pr r1.env) (parsePostW pr w1.env) := by
    have hx := parsePost_wide s1.env (Or.inr (hct _ hp1))
    cases pr with
    | true => exact ⟨s1.env, rfl, by simp⟩
    | false =>
      show SameRes _ (parsePostBuffer r1.env) (parsePostBufferW w1.env)
      cases hq : parsePostBuffer r1.env with
      | ok a =>
        rw [hq] at hx
        cases hq' : parsePostBufferW w1.env with
        | ok b =>
          rw [hq'] at hx
          refine ⟨hx.1, hx.2, ?_⟩
          intro hf
          unfold parsePostBuffer at hq
          split at hq
          · cases hq; rfl
          split at hq
          · obtain ⟨_, _, hq⟩ := Res.bind_eq_ok.1 hq; cases hq; cases hf
          split at hq
          · obtain ⟨_, _, hq⟩ := Res.bind_eq_ok.1 hq; cases hq; cases hf
          · cases hq; rfl
        | ub k => rw [hq'] at hx; exact hx.elim
        | stuck => rw [hq'] at hx; exact hx.elim
      | ub k =>
        rw [hq] at hx
        cases hq' : parsePostBufferW w1.env <;> rw [hq'] at hx <;> exact hx
      | stuck =>
        rw [hq] at hx
        cases hq' : parsePostBufferW w1.env <;> rw [hq'] at hx <;> exact hx
  cases hq : parsePost pr r1.env with
  | ok a =>
    rw [hq] at hpp hr
    obtain ⟨b, hq', q1, q2, q3⟩ := sameRes_ok hpp rfl
    simp only [hq', Res.ok_bind, ← q2] at hr ⊢
    cases ha2 : a.2 with
    | false =>
      simp only [Bool.false_eq_true, not_false_eq_true, if_true]
      have q4 := q3 ha2
      refine failWith_port g G (r := { r1 with env := a.1 }) (w := { w1 with env := b.1 }) (b1.of_eq rfl rfl rfl rfl rfl)
        (b2.of_eq rfl rfl rfl rfl rfl) ?_ .unknownContent
        (ha.unknownContent r1.user w1.user a.1 b.1 s1.user (q4 ▸ hp1) q1)
      exact { s1 with env := q1 }
    | true =>
      simp only [ha2, not_true_eq_false, if_false] at hr ⊢
      have c1 : Alive { r1 with env := { a.1 with postBuffer := [] }, state := 6 } := b1.of_eq rfl rfl rfl rfl rfl
      obtain ⟨r2, d1, _, _, _, l, d2, _⟩ := respond_spec h g _ c1 m
      refine respond_port ha g G (w := { w1 with env := { b.1 with postBuffer := [] }, state := 6 }) c1 (b2.of_eq rfl rfl rfl rfl rfl) ?_ m (hr _ _ d1 _ m (by rw [d2]; simp))
      exact { s1 with state := rfl, env := { q1 with postBuffer := rfl } }
  | ub k =>
    rw [hq] at hpp
    cases hq' : parsePostW pr w1.env <;> rw [hq'] at hpp <;> first | exact hpp.elim | exact hpp
  | stuck =>
    rw [hq] at hpp
    cases hq' : parsePostW pr w1.env <;> rw [hq'] at hpp <;> first | exact hpp.elim | exact hpp

theorem handleMsg_port {h : Handlers U} {H : HandlersW V} (ha : SameApps R P h H) (hct : ∀ e, P e → ∃ t, IsText t ∧ e.contentType = utf8Text t)
    (hpb : ∀ e d, P e → P { e with postBuffer := d }) (g G) {r : Req U} {w : ReqW V} (a1 : Alive r) (a2 : AliveW w) (s : SameReq R r w)
    (m : Message) (hp : P r.env) (hr : ∀ r' fin, handleMsg h g r m = .ok (r', fin) → ∀ e m, Ev.call (.response e m) ∈ r'.log → P e) :
    SameRes (SameStep R) (handleMsg h g r m) (handleMsgW H G w m) := by
  have herr := ha.error r.user w.user r.env w.env s.user hp s.env
  have hbig := ha.bigPost r.user w.user r.env w.env s.user hp s.env
  unfold handleMsg handleMsgW
  unfold handleMsg at hr
  by_cases ht : m.type = 0
  · simp only [if_pos ht] at hr ⊢
    cases h1 : rd m.data 1 with
    | ub k => exact rfl
    | stuck => exact trivial
    | ok ty =>
    cases h2 : read16 m.data 4 with
    | ub k => exact rfl
    | stuck => exact trivial
    | ok len =>
    simp only [h1, h2, Res.ok_bind] at hr ⊢
    by_cases c1 : ty = 2
    · simp only [if_pos c1]
      obtain ⟨r2, w2, e2, f2, s2, _⟩ := complete_port g G a1 a2 s
      simp only [e2, f2, Res.ok_bind, Res.pure_eq]
      exact ⟨rfl, s2⟩
    simp only [if_neg c1] at hr ⊢
    by_cases c2 : ty ≠ r.state
    · have d2 : ty ≠ w.state := s.state ▸ c2
      simp only [if_pos c2, if_pos d2]
      exact failWith_port g G a1 a2 s .error herr
    have d2 : ¬ ty ≠ w.state := s.state ▸ c2
    simp only [if_neg c2, if_neg d2] at hr ⊢
    by_cases c3 : r.state = 4
    · have d3 : w.state = 4 := s.state ▸ c3
      simp only [if_pos c3, if_pos d3]
      by_cases c4 : ¬ (r.role = 1 ∨ r.role = 2)
      · have d4 : ¬ (w.role = 1 ∨ w.role = 2) := s.role ▸ c4
        simp only [if_pos c4, if_pos d4]
        exact failWith_port g G (r := { r with status := 3 }) (w := { w with status := 3 }) (a1.of_eq rfl rfl rfl rfl rfl)
          (a2.of_eq rfl rfl rfl rfl rfl) { s with status := rfl } .error herr
      have d4 : ¬ ¬ (w.role = 1 ∨ w.role = 2) := s.role ▸ c4
      simp only [if_neg c4, if_neg d4]
      by_cases c5 : len.toNat = 0
      · simp only [if_pos c5]
        by_cases c6 : r.env.contentLength.toNat > r.maxPostSize
        · have d6 : w.env.contentLength.toNat > w.maxPostSize := by rw [← s.env.contentLength, ← s.maxPostSize]; exact c6
          simp only [if_pos c6, if_pos d6]
          exact failWith_port g G a1 a2 s .bigPost hbig
        · have d6 : ¬ w.env.contentLength.toNat > w.maxPostSize := by rw [← s.env.contentLength, ← s.maxPostSize]; exact c6
          simp only [if_neg c6, if_neg d6, Res.pure_eq]
          exact ⟨rfl, { s with state := rfl }⟩
      simp only [if_neg c5]
      by_cases c6 : 8 + len.toNat > m.data.length
      · simp only [if_pos c6]; exact rfl
      simp only [if_neg c6]
      exact sameRes_bind (fill_wide m.data 8 (8 + len.toNat) s.env) fun e w' he => ⟨rfl, { s with env := he }⟩
    have d3 : ¬ w.state = 4 := s.state ▸ c3
    simp only [if_neg c3, if_neg d3] at hr ⊢
    by_cases c4 : r.state = 5
    · have d4 : w.state = 5 := s.state ▸ c4
      simp only [if_pos c4, if_pos d4] at hr ⊢
      by_cases c5 : len.toNat = 0
      · simp only [if_pos c5] at hr ⊢
        exact inputEnd_port ha hct g G a1 a2 s m hp hr
      simp only [if_neg c5]
      by_cases c6 : r.env.postBuffer.length + len.toNat > r.env.contentLength.toNat
      · have d6 : w.env.postBuffer.length + len.toNat > w.env.contentLength.toNat := by
          rw [← s.env.contentLength, ← s.env.postBuffer]; exact c6
        simp only [if_pos c6, if_pos d6]
        exact failWith_port g G a1 a2 s .bigPost hbig
      have d6 : ¬ w.env.postBuffer.length + len.toNat > w.env.contentLength.toNat := by
        rw [← s.env.contentLength, ← s.env.postBuffer]; exact c6
      simp only [if_neg c6, if_neg d6]
      by_cases c7 : 8 + len.toNat > m.data.length
      · simp only [if_pos c7]; exact rfl
      simp only [if_neg c7]
      have se : SameEnv (fillPostBuffer r.env (slice m.data 8 (8 + len.toNat))) (fillPostBufferW w.env (slice m.data 8 (8 + len.toNat))) :=
        { s.env with postBuffer := by show _ ++ _ = _ ++ _; rw [s.env.postBuffer] }
      have hs := ha.inHandler r.user w.user (fillPostBuffer r.env (slice m.data 8 (8 + len.toNat))) _ len.toNat s.user (hpb _ _ hp) se
      obtain ⟨r1, w1, e1, f1, _, _, s1, _⟩ := call_port g G (r := { r with env := fillPostBuffer r.env (slice m.data 8 (8 + len.toNat)) })
        (w := { w with env := fillPostBufferW w.env (slice m.data 8 (8 + len.toNat)) })
        (a1.of_eq rfl rfl rfl rfl rfl) (a2.of_eq rfl rfl rfl rfl rfl) { s with env := se } (.inHandler len.toNat) hs
      show SameRes (SameStep R) (call g _ _ _ >>= _) (callW G _ _ _ >>= _)
      rw [e1, f1]
      exact ⟨rfl, s1⟩
    · have d4 : ¬ w.state = 5 := s.state ▸ c4
      simp only [if_neg c4, if_neg d4]
      exact failWith_port g G a1 a2 s .error herr
  · simp only [if_neg ht]
    exact respond_port ha g G a1 a2 s m hp

theorem handler_port {h : Handlers U} {H : HandlersW V} (ha : SameApps R P h H) (hct : ∀ e, P e → ∃ t, IsText t ∧ e.contentType = utf8Text t)
    (hpb : ∀ e d, P e → P { e with postBuffer := d }) (g G) : ∀ (ms : List Message) {r : Req U} {w : ReqW V}, Alive r → AliveW w →
    SameReq R r w → Sees P h g r ms →
    SameRes (fun x y => x.2 = y.2 ∧ SameReq R x.1 y.1) (handler h g r ms) (handlerW H G w ms) := by
  intro ms
  induction ms with
  | nil => intro r w _ _ s _; exact ⟨rfl, s⟩
  | cons m ms ih =>
    intro r w a1 a2 s hs
    have hone : ∀ r' fin, handleMsg h g r m = .ok (r', fin) → ∃ rest, handler h g r [m] = .ok (r', rest, fin) := by
      intro r' fin he
      cases fin <;> simp [handler, he, Res.ok_bind, Res.pure_eq]
    have hp : P r.env := (hs [] (m :: ms) r [] false rfl rfl).1
    have step := handleMsg_port ha hct hpb g G a1 a2 s m hp (by
      intro r' fin he
      obtain ⟨rest, hh⟩ := hone r' fin he
      exact (hs [m] ms r' rest fin rfl hh).2)
    simp only [handler, handlerW]
    cases hq : handleMsg h g r m with
    | ok x =>
      obtain ⟨y, hy, y1, y2⟩ := sameRes_ok (hq ▸ step) rfl
      simp only [hy, Res.ok_bind, ← y1]
      cases hx : x.2 with
      | true => simp only [if_true, Res.pure_eq]; exact ⟨rfl, y2⟩
      | false =>
        simp only [Bool.false_eq_true, if_false]
        have k1 := handleMsg_spec h g r x.1 a1 m x.2 hq
        have k2 := handleMsg_specW H G w y.1 a2 m y.2 hy
        refine ih (k1.2.1 hx).1 (k2.2.1 (y1 ▸ hx)).1 y2 ?_
        intro ms1 ms2 r' rest fin he hh
        refine hs (m :: ms1) ms2 r' rest fin (by rw [he]; rfl) ?_
        simp only [handler, hq, Res.ok_bind, hx, Bool.false_eq_true, if_false]
        exact hh
    | ub k => rw [hq] at step; cases hy : handleMsgW H G w m <;> rw [hy] at step <;> first | exact step.elim | exact step
    | stuck => rw [hq] at step; cases hy : handleMsgW H G w m <;> rw [hy] at step <;> first | exact step.elim | exact step

theorem fresh_port (sock id role kill max) {u : U} {v : V} (hu : R u v) :
    SameReq R (freshReq sock id role kill max u) (freshReqW sock id role kill max v) where
  sock := rfl
  id := rfl
  role := rfl
  kill := rfl
  maxPostSize := rfl
  state := rfl
  status := rfl
  env := sameEnv_fresh
  user := hu
  calls := .nil
  out := rfl
  err := rfl
  outText := by intro op ho; cases ho
  errText := by intro op ho; cases ho

end

end Fcgi.Model
