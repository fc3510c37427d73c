import Verif.Lemmas.MailWake
import Verif.Spec.MailTerms
/-! # The mailer: a whole session, the receiver of the data -/
namespace Fcgi.Model
open Fcgi.Spec

/-! ### The receiver -/

theorem receive_false_head : ∀ (l : Bytes) (x : Byte) (m r : Bytes), smtpReceive false l = some (x :: m, r) → ∃ t, l = x :: t := by
  intro l x m r h
  unfold smtpReceive at h
  split at h
  · rename_i hb; cases hb
  · rename_i hb; cases hb
  · obtain ⟨⟨m', r'⟩, _, h2⟩ := Option.map_eq_some_iff.1 h
    cases h2; exact ⟨_, rfl⟩
  · obtain ⟨⟨m', r'⟩, _, h2⟩ := Option.map_eq_some_iff.1 h
    cases h2; exact ⟨_, rfl⟩
  · cases h

theorem receive_len (b : Bool) (l : Bytes) : ∀ m r, smtpReceive b l = some (m, r) → m.length + 3 + r.length ≤ l.length := by
  fun_induction smtpReceive b l with
  | case1 rest => intro m r h; cases h; simp only [List.length_nil, List.length_cons]; omega
  | case2 b rest _ ih =>
    intro m r h
    cases hr : smtpReceive false (b :: rest) with
    | none => simp [hr] at h
    | some y =>
      obtain ⟨m', r'⟩ := y
      simp [hr] at h
      obtain ⟨rfl, rfl⟩ := h
      have := ih _ _ hr
      simp only [List.length_cons] at this ⊢; omega
  | case3 _ rest ih =>
    intro m r h
    cases hr : smtpReceive true rest with
    | none => simp [hr] at h
    | some y =>
      obtain ⟨m', r'⟩ := y
      simp [hr] at h
      obtain ⟨rfl, rfl⟩ := h
      have := ih _ _ hr
      simp only [List.length_cons] at this ⊢; omega
  | case4 _ b rest _ _ _ ih =>
    intro m r h
    cases hr : smtpReceive false rest with
    | none => simp [hr] at h
    | some y =>
      obtain ⟨m', r'⟩ := y
      simp [hr] at h
      obtain ⟨rfl, rfl⟩ := h
      have := ih _ _ hr
      simp only [List.length_cons] at this ⊢; omega
  | case5 => intro m r h; cases h

/-- No byte was removed: no line began with a dot. -/
theorem receive_exact (b : Bool) (l : Bytes) : ∀ m r, smtpReceive b l = some (m, r) → m.length + 3 + r.length = l.length →
    (b = true → ¬ b!"." <+: m) ∧ ¬ b!"\r\n." <:+: m := by
  fun_induction smtpReceive b l with
  | case1 rest => intro m r h _; cases h; simp
  | case2 b rest _ ih =>
    intro m r h hl
    cases hr : smtpReceive false (b :: rest) with
    | none => simp [hr] at h
    | some y =>
      obtain ⟨m', r'⟩ := y
      simp [hr] at h
      obtain ⟨rfl, rfl⟩ := h
      have := receive_len _ _ _ _ hr
      simp only [List.length_cons] at this hl; omega
  | case3 _ rest ih =>
    intro m r h hl
    cases hr : smtpReceive true rest with
    | none => simp [hr] at h
    | some y =>
      obtain ⟨m', r'⟩ := y
      simp [hr] at h
      obtain ⟨rfl, rfl⟩ := h
      have ⟨i1, i2⟩ := ih _ _ hr (by simp only [List.length_cons] at hl; omega)
      refine ⟨fun _ h => ?_, fun h => ?_⟩
      · simp [List.cons_prefix_cons] at h
      · rcases List.infix_cons_iff.1 h with h | h
        · simp only [List.cons_prefix_cons, true_and] at h
          exact i1 rfl (by simpa using h)
        · rcases List.infix_cons_iff.1 h with h | h
          · simp [List.cons_prefix_cons] at h
          · exact i2 h
  | case4 bb b rest h1 h2 h3 ih =>
    intro m r h hl
    cases hr : smtpReceive false rest with
    | none => simp [hr] at h
    | some y =>
      obtain ⟨m', r'⟩ := y
      simp [hr] at h
      obtain ⟨rfl, rfl⟩ := h
      have ⟨i1, i2⟩ := ih _ _ hr (by simp only [List.length_cons] at hl; omega)
      refine ⟨fun hb h => ?_, fun h => ?_⟩
      · simp only [List.cons_prefix_cons, List.nil_prefix, and_true] at h
        subst h hb
        cases rest with
        | nil => simp [smtpReceive] at hr
        | cons c rest => exact h2 c rest rfl rfl rfl
      · rcases List.infix_cons_iff.1 h with h | h
        · simp only [List.cons_prefix_cons] at h
          obtain ⟨rfl, t, ht⟩ := h
          obtain ⟨u, rfl⟩ := receive_false_head _ _ _ _ (ht ▸ hr)
          exact h3 u rfl rfl
        · exact i2 h
  | case5 => intro m r h; cases h

theorem receive_plain : ∀ (n : Nat) (b : Bool) (x rest : Bytes), x.length ≤ n → (b = true → ¬ b!"." <+: x) → ¬ b!"\r\n." <:+: x →
    smtpReceive b (x ++ dataMark ++ rest) = some (x ++ b!"\r\n", rest) := by
  intro n
  induction n with
  | zero =>
    intro b x rest hn _ _
    have : x = [] := List.length_eq_zero_iff.1 (by omega)
    subst this
    cases b <;> simp [dataMark, smtpReceive]
  | succ n ih =>
    intro b x rest hn h1 h2
    cases x with
    | nil => cases b <;> simp [dataMark, smtpReceive]
    | cons c x =>
      have hi : ¬ b!"\r\n." <:+: x := fun h => h2 (List.infix_cons_iff.2 (Or.inr h))
      simp only [List.length_cons] at hn
      -- is this a line end?
      by_cases hcr : c = 13 ∧ ∃ t, x = 10 :: t
      · obtain ⟨rfl, t, rfl⟩ := hcr
        simp only [List.length_cons] at hn
        have h3 : ¬ b!"." <+: t := fun h => h2 (List.infix_cons_iff.2 (Or.inl (by simpa [List.cons_prefix_cons] using h)))
        have h4 : ¬ b!"\r\n." <:+: t := fun h => hi (List.infix_cons_iff.2 (Or.inr h))
        have := ih true t rest (by omega) (fun _ => h3) h4
        have e : smtpReceive b (13 :: 10 :: (t ++ dataMark ++ rest)) = (smtpReceive true (t ++ dataMark ++ rest)).map fun (m, r) => (13 :: 10 :: m, r) := by
          cases b <;> simp [smtpReceive]
        simp only [List.cons_append]
        rw [e, this]
        rfl
      · have := ih false x rest (by omega) (fun h => by cases h) hi
        have hdot : b = true → c ≠ 46 := fun hb e => h1 hb (by simp [e, List.cons_prefix_cons])
        have e : smtpReceive b (c :: (x ++ dataMark ++ rest)) = (smtpReceive false (x ++ dataMark ++ rest)).map fun (m, r) => (c :: m, r) := by
          have hne : ¬ (c = 13 ∧ ∃ t, x ++ dataMark ++ rest = 10 :: t) := by
            rintro ⟨rfl, t, ht⟩
            refine hcr ⟨rfl, ?_⟩
            cases x with
            | nil => simp [dataMark] at ht
            | cons d x => simp only [List.cons_append, List.cons.injEq] at ht; exact ⟨x, by rw [ht.1]⟩
          generalize x ++ dataMark ++ rest = l at hne ⊢
          rw [smtpReceive.eq_4]
          · intro t hc hl; exact hne ⟨hc, t, hl⟩
          · intro _ hb hc _; exact hdot hb hc
          · intro _ _ hb hc _; exact hdot hb hc
        simp only [List.cons_append]
        rw [e, this]
        rfl

/-! ### A session -/

theorem conversation_cons {o : Bytes} {fs gs : List MFate} {s s1 s2 : MlSt} {t t' : List Talk} (h1 : mrun o fs s = some (t.map .talk, s1)) (h2 : mrun o gs s1 = some (t'.map .talk, s2)) :
    mrun o (fs ++ gs) s = some ((t ++ t').map .talk, s2) := by
  rw [List.map_append]; exact mrun_append _ _ _ _ _ _ _ h1 h2

theorem serve_cons (room : Nat) (x : Bytes) (xs : List Bytes) : serve room (x :: xs) = serve room [x] ++ serve room xs := by simp [serve]
theorem serve_append (room : Nat) (xs ys : List Bytes) : serve room (xs ++ ys) = serve room xs ++ serve room ys := by simp [serve]

theorem mstep_stop {o f s es} {s' : MlSt} (h : mstep o f s = some (es, s')) : s'.stop = s.stop := by
  unfold mstep at h
  split at h
  all_goals try (cases h; done)
  · repeat' split at h
    all_goals cases h
    all_goals first | rfl | exact (take_fields s).2.1
  · dsimp only at h
    split at h
    all_goals cases h
    · rfl
    · exact (take_fields { s with state := .disconnected }).2.1
  · repeat' split at h
    all_goals cases h
    all_goals rfl
  · repeat' split at h
    all_goals cases h
    all_goals rfl
  · split at h
    · rename_i b room
      split at h
      · generalize hr : s.reply o room = x at h
        obtain ⟨out, t⟩ := x
        dsimp only at h
        cases h
        have hf := reply_fields o s room
        rw [hr] at hf
        exact hf.2.1
      · cases h; rfl
    · rename_i closed stale
      dsimp only at h
      split at h
      · cases h; rfl
      · split at h
        · split at h
          · cases h
            exact (reply_fields o { s with valid := s.valid && !closed } 0).2.1
          · cases h; rfl
        · cases h; rfl
    · cases h

section
variable {o : Bytes} {room : Nat} {e : Email}

theorem skip_eights (he : e.to_ ≠ []) : ∀ (ext : List Bytes) (s : MlSt), Talking s e .eightbit → (∀ x ∈ ext, Reply b!"250-" x) →
    ∃ s', mrun o (serve room ext) s = some ((heard ext.flatten).map .talk, s') ∧ Talking s' e .eightbit ∧ s'.queue = s.queue := by
  intro ext
  induction ext with
  | nil => intro s h _; exact ⟨s, rfl, h, rfl⟩
  | cons x ext ih =>
    intro s h hx
    obtain ⟨s1, r1, t1, q1⟩ := skip_eight (o := o) (room := room) h he (hx x (by simp))
    obtain ⟨s2, r2, t2, q2⟩ := ih s1 t1 (fun y hy => hx y (by simp [hy]))
    refine ⟨s2, ?_, t2, q2.trans q1⟩
    rw [serve_cons, conversation_cons r1 r2]
    simp

theorem skip_ehlos (he : e.to_ ≠ []) : ∀ (ext : List Bytes) (s : MlSt), Talking s e .ehlo → (∀ x ∈ ext, Reply b!"250-" x) →
    ∃ s', mrun o (serve room ext) s = some ((heard ext.flatten).map .talk, s') ∧ (Talking s' e .ehlo ∨ Talking s' e .eightbit) ∧ s'.queue = s.queue := by
  intro ext
  induction ext with
  | nil => intro s h _; exact ⟨s, rfl, Or.inl h, rfl⟩
  | cons x ext ih =>
    intro s h hx
    obtain ⟨s1, r1, t1, q1⟩ := skip_ehlo (o := o) (room := room) h he (hx x (by simp))
    rcases t1 with t1 | ⟨_, t1⟩
    · obtain ⟨s2, r2, t2, q2⟩ := ih s1 t1 (fun y hy => hx y (by simp [hy]))
      refine ⟨s2, ?_, t2, q2.trans q1⟩
      rw [serve_cons, conversation_cons r1 r2]
      simp
    · obtain ⟨s2, r2, t2, q2⟩ := skip_eights (o := o) (room := room) he ext s1 t1 (fun y hy => hx y (by simp [hy]))
      refine ⟨s2, ?_, Or.inr t2, q2.trans q1⟩
      rw [serve_cons, conversation_cons r1 r2]
      simp

/-- The farewell. -/
theorem say_bye {s : MlSt} {raw : Bytes} (h : Talking s e .dump) (he : e.to_ ≠ []) (hr : Reply b!"250 " raw) (hroom : 5 ≤ room) :
    ∃ s', mrun o (serve room [raw]) s = some ((heard raw ++ said b!"QUIT\n").map .talk, s') ∧ s'.pc = .test ∧ s'.valid = true ∧ s'.state = .quit ∧ s'.line = [] ∧
      s'.cur = ⟨[], [], []⟩ ∧ s'.term = false ∧ s'.queue = s.queue ∧ s'.stop = s.stop := by
  obtain ⟨l, hl, hn, hp⟩ := reply_raw (by decide) hr
  obtain ⟨buf, h1⟩ := one_line (o := o) (room := room) h he (by simp) hn
  have := prefix_take hp
  simp only [List.length_cons, List.length_nil] at this
  refine ⟨(({ s with line := l, pc := .read buf } : MlSt).reply o room).2, ?_, ?_⟩
  · rw [hl, h1]
    unfold MlSt.reply
    simp only [h.state, if_pos this, write_all (cmd := b!"QUIT\n") hroom]
  · unfold MlSt.reply
    simp only [h.state, if_pos this, write_all (cmd := b!"QUIT\n") hroom]
    exact ⟨trivial, h.valid, trivial, trivial, rfl, h.term, rfl, rfl⟩

/-- The answer to QUIT; meanwhile the next email has been taken. -/
theorem hear_bye {s t : MlSt} {raw : Bytes} (h1 : s.pc = .test) (h3 : s.state = .quit) (h6 : s.ends = false) (ht : s.take = t)
    (v : t.valid = true) (st : t.state = .quit) (ln : t.line = []) (hr : Reply b!"221 " raw) :
    ∃ bad, mrun o (serve room [raw]) s = some ((heard raw).map .talk, { t with valid := false, state := .disconnected, bad := bad, pc := .test }) := by
  obtain ⟨l, rfl, hn, hp⟩ := reply_raw (by decide) hr
  have hcode := prefix_take hp
  simp only [List.length_cons, List.length_nil] at hcode
  have e3 : mrun o [.go, .go, .ready] s = some ([], { t with pc := .read none }) := by
    simp only [mrun, mstep, h1, h6, h3, ht, v]
    simp [v]
  obtain ⟨buf, e4⟩ := read_bytes (o := o) (room := room) l { t with pc := .read none } none hn rfl
  have e4' : mrun o (l.map fun b => .byte b room) { t with pc := .read none } = some ((heard l).map .talk, { t with line := l, pc := .read buf }) := by
    rw [e4]; dsimp only; rw [ln, List.nil_append]
  have e5 := mrun_append _ _ _ _ _ _ _ e3 e4'
  have e6 : mrun o [.byte c!"\n" room] { t with line := l, pc := .read buf } =
      some ((heard b!"\n").map .talk, { t with line := [], valid := false, state := .disconnected, bad := t.bad || l.isEmpty, pc := .test }) := by
    simp only [mrun]
    have : mstep o (.byte c!"\n" room) { t with line := l, pc := .read buf } =
        some ((heard b!"\n").map .talk, { t with line := [], valid := false, state := .disconnected, bad := t.bad || l.isEmpty, pc := .test }) := by
      unfold mstep
      dsimp only
      rw [if_pos rfl]
      unfold MlSt.reply
      simp only [st, if_pos hcode]
      rfl
    rw [this]; rfl
  have e7 := mrun_append _ _ _ _ _ _ _ e5 e6
  refine ⟨t.bad || l.isEmpty, ?_⟩
  have hl : { t with line := [], valid := false, state := .disconnected, bad := t.bad || l.isEmpty, pc := .test } =
      ({ t with valid := false, state := .disconnected, bad := t.bad || l.isEmpty, pc := .test } : MlSt) := by
    rw [← ln]
  rw [← hl]
  unfold serve
  simpa [heard, said] using e7

end

theorem one_session {o : Bytes} {room : Nat} {w : Willing} (hw : w.Good) {s : MlSt} {e : Email} {es : List Email} (h : ToSend s (e :: es)) (he : e.to_ ≠ []) (hes : ∀ x ∈ es, x.to_ ≠ []) (fits : Fits o room e) :
    ∃ c s', mrun o (session room w) s = some (.connected :: c.map .talk, s') ∧ Acked o e c ∧ ToSend s' es := by
  obtain ⟨f1, f2, f3, f4⟩ := fits
  have f5 : 5 ≤ room := by simp only [List.length_append, dataMark, List.length_cons, List.length_nil] at f4; omega
  have hends : s.ends = false := by simp [MlSt.ends, h.term, h.stop]
  have htk : ∃ t, s.take = t ∧ t.cur = e ∧ t.queue = es ∧ t.valid = false ∧ t.term = false ∧ t.stop = false := by
    refine ⟨_, rfl, ?_⟩
    unfold MlSt.take
    rcases h.todo with ⟨h1, h2⟩ | ⟨h1, h2⟩
    · rw [if_pos h1]
      exact ⟨(List.cons.inj h2).1, (List.cons.inj h2).2, h.valid, h.term, h.stop⟩
    · simp only [h1, h2]
      exact ⟨rfl, rfl, h.valid, h.term, h.stop⟩
  obtain ⟨t, ht, tc, tq, tv, tt, ts⟩ := htk
  have e0 : mrun o [.go, .connected, .signal] s = some ([.connected], { t with line := [], valid := true, null := false, state := .connected, pc := .test }) := by
    simp only [mrun, mstep, h.pc, hends, h.state, ht]
    simp [MlSt.inEmail, tc, he, tv]
  have T0 : Talking { t with line := [], valid := true, null := false, state := .connected, pc := .test } e .connected := ⟨rfl, rfl, rfl, rfl, tc, tt⟩
  have hst : ∀ (fs : List MFate) (s s' : MlSt) (tr : List MailEvent), mrun o fs s = some (tr, s') → s'.stop = s.stop := by
    intro fs
    induction fs with
    | nil => intro s s' tr h; cases h; rfl
    | cons f fs ih =>
      intro s s' tr h
      simp only [mrun] at h
      obtain ⟨⟨es, s1⟩, g1, g2⟩ := Option.bind_eq_some_iff.1 h
      obtain ⟨⟨t, s2⟩, g3, g4⟩ := Option.map_eq_some_iff.1 g2
      cases g4
      rw [ih _ _ _ g3]
      exact mstep_stop g1
  obtain ⟨s1, a1, T1, q1⟩ := say_ehlo (o := o) (room := room) T0 he hw.greet f1
  obtain ⟨s2, a2, T2, q2⟩ := skip_ehlos (o := o) (room := room) he w.ext1 s1 T1 hw.ext1
  have h8 : ∃ s3, mrun o (serve room [w.eight]) s2 = some ((heard w.eight ++ said []).map .talk, s3) ∧ Talking s3 e .eightbit ∧ s3.queue = s2.queue := by
    rcases T2 with T2 | T2
    · exact see_eight T2 he hw.eight
    · exact skip_eight T2 he ⟨b!"8BITMIME", hw.eight⟩
  obtain ⟨s3, a3, T3, q3⟩ := h8
  obtain ⟨s4, a4, T4, q4⟩ := skip_eights (o := o) (room := room) he w.ext2 s3 T3 hw.ext2
  obtain ⟨s5, a5, T5, q5⟩ := say_mail (o := o) (room := room) T4 he hw.last f2
  obtain ⟨s6, a6, T6, q6⟩ := say_rcpt (o := o) (room := room) T5 he hw.r1 f3
  obtain ⟨s7, a7, T7, q7⟩ := say_data (o := o) (room := room) T6 he hw.r2 f5
  obtain ⟨s8, a8, T8, q8⟩ := say_body (o := o) (room := room) T7 he hw.r3 f4
  obtain ⟨s9, a9, p9, v9, st9, l9, c9, t9, q9, sp9⟩ := say_bye (o := o) (room := room) T8 he hw.r4 f5
  have A := conversation_cons a1 (conversation_cons a2 (conversation_cons a3 (conversation_cons a4 (conversation_cons a5 (conversation_cons a6 (conversation_cons a7 (conversation_cons a8 a9)))))))
  have stop9 : s9.stop = false := by rw [hst _ _ _ _ A]; exact ts
  have hq : s9.queue = es := by rw [q9, q8, q7, q6, q5, q4, q3, q2, q1]; exact tq
  have i9 : s9.inEmail = false := by simp [MlSt.inEmail, c9]
  have htk9 : ∃ u, s9.take = u ∧ u.valid = true ∧ u.state = .quit ∧ u.line = [] ∧ u.term = false ∧ u.stop = false ∧
      (u.inEmail = true ∧ u.cur :: u.queue = es ∨ u.inEmail = false ∧ u.queue = es) := by
    refine ⟨_, rfl, ?_⟩
    unfold MlSt.take
    rw [i9, hq]
    cases es with
    | nil => exact ⟨v9, st9, l9, t9, stop9, Or.inr ⟨i9, hq⟩⟩
    | cons x xs => exact ⟨v9, st9, l9, t9, stop9, Or.inl ⟨by simpa [MlSt.inEmail] using hes x (by simp), rfl⟩⟩
  obtain ⟨u, hu, uv, us, ul, ut, up, utodo⟩ := htk9
  obtain ⟨bad, a10⟩ := hear_bye (o := o) (room := room) p9 st9 (by simp [MlSt.ends, t9, stop9]) hu uv us ul hw.bye
  have B := mrun_append _ _ _ _ _ _ _ e0 (conversation_cons a1 (conversation_cons a2 (conversation_cons a3 (conversation_cons a4 (conversation_cons a5 (conversation_cons a6
    (conversation_cons a7 (conversation_cons a8 (conversation_cons a9 a10)))))))))
  refine ⟨?c, { u with valid := false, state := .disconnected, bad := bad, pc := .test }, ?h1, ?h2, ⟨rfl, rfl, rfl, ut, up, utodo⟩⟩
  case h1 =>
    have hs : session room w = [.go, .connected, .signal] ++ (serve room [w.greet] ++ (serve room w.ext1 ++ (serve room [w.eight] ++ (serve room w.ext2 ++
        (serve room [w.last] ++ (serve room [w.r1] ++ (serve room [w.r2] ++ (serve room [w.r3] ++ (serve room [w.r4] ++ serve room [w.bye]))))))))) := by
      simp [session, serve]
    rw [hs]
    exact B
  case h2 =>
    refine ⟨_, w.r4, b!"QUIT\n", w.bye, ⟨w.greet, _, w.r1, w.r2, w.r3, hw.greet, ⟨w.ext1, w.ext2, w.eight, w.last, rfl, hw.ext1, hw.ext2, hw.eight, hw.last⟩, hw.r1, hw.r2, hw.r3, rfl⟩, hw.r4, List.prefix_rfl, ?_⟩
    simp

end Fcgi.Model
