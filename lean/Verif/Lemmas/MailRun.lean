import Verif.Lemmas.Mail
import Verif.Spec.MailTerms
/-! # The mailer's invariants -/
namespace Fcgi.Model
open Fcgi.Spec

theorem mailed_grow {o A cs R} (h : Mailed o A cs R) (B : List Email) : Mailed o (A ++ B) cs (R ++ B) := by
  induction h with
  | none => exact .none
  | acked _ h ih => exact .acked ih h
  | tried _ h ih => exact .tried ih h

/-- How far the conversations are. -/
inductive MailPhase (o : Bytes) (A : List Email) (s : MlSt) : List (List Talk) → Prop where
  | busy {cs p rest} (v : s.valid = true) (w : s.waiting = s.cur :: rest) (before : Mailed o A cs (s.cur :: rest)) (h : Pre o s.cur s.state p)
      (nl : c!"\n" ∉ s.line) : MailPhase o A s (cs ++ [p ++ heard s.line])
  | bye {cs e d r} (v : s.valid = true) (st : s.state = .quit) (before : Mailed o A cs (e :: s.waiting)) (h : HandedOver o e d) (hr : Reply b!"250 " r) :
      MailPhase o A s (cs ++ [d ++ heard r ++ said b!"QUIT\n" ++ heard s.line])
  | idle {cs} (v : s.valid = false) (before : Mailed o A cs s.waiting) : MailPhase o A s cs

theorem MailPhase.mailed {o A s cs} (h : MailPhase o A s cs) : Mailed o A cs s.waiting := by
  cases h with
  | busy v w before h nl => rw [w]; exact .tried before (h.tried nl)
  | bye v st before h hr => exact .acked before ⟨_, _, b!"QUIT\n", _, h, hr, List.prefix_rfl, rfl⟩
  | idle v before => exact before

theorem pre_inEmail {s : MlSt} {rest} (w : s.waiting = s.cur :: rest) (hne : s.cur.to_ = []) : False ∨ ∃ e ∈ s.waiting, e.to_ = [] := by
  exact Or.inr ⟨s.cur, by rw [w]; simp, hne⟩

theorem waiting_to {s : MlSt} : ∀ e ∈ s.waiting, e.to_ ≠ [] := by
  intro e he
  unfold MlSt.waiting at he
  rcases List.mem_append.1 he with h | h
  · split at h
    · rename_i hi
      rw [List.mem_singleton.1 h]
      intro e; simp [MlSt.inEmail, e] at hi
    · cases h
  · have := (List.mem_filter.1 h).2
    intro e; simp [e] at this

theorem waiting_cur {s : MlSt} {rest} (w : s.waiting = s.cur :: rest) : s.inEmail = true ∧ rest = s.queue.filter fun e => !e.to_.isEmpty := by
  have hi : s.inEmail = true := by
    cases h : s.inEmail with
    | true => rfl
    | false =>
      have := waiting_to (s := s) s.cur (by rw [w]; simp)
      simp [MlSt.inEmail] at h
      exact absurd h this
  unfold MlSt.waiting at w
  rw [if_pos hi] at w
  simp at w
  exact ⟨hi, w.symm⟩

theorem take_waiting (s : MlSt) : s.take.waiting = s.waiting := by
  unfold MlSt.take
  split
  · rfl
  · rename_i hi
    split
    · rfl
    · rename_i e q hq
      unfold MlSt.waiting
      rw [if_neg hi, hq]
      simp only [MlSt.inEmail, List.filter_cons]
      split <;> simp_all

structure MailInv (o : Bytes) (tr : List MailEvent) (s : MlSt) : Prop where
  phase : ∃ cs, talkIn tr = conversations cs ∧ MailPhase o (mailIn tr) s cs
  reading : ∀ b, s.pc = .read b → s.valid = true
  waits : s.pc = .wait → s.state = .error

theorem talkIn_append (a b : List MailEvent) : talkIn (a ++ b) = talkIn a ++ talkIn b := by simp [talkIn]
theorem mailIn_append (a b : List MailEvent) : mailIn (a ++ b) = mailIn a ++ mailIn b := by simp [mailIn, lettersIn]
theorem conversations_snoc (cs : List (List Talk)) (c : List Talk) : conversations (cs ++ [c]) = conversations cs ++ (.connected :: c.map .talk) := by simp [conversations]

/-- What is said and heard, added to the last conversation. -/
theorem talkIn_talk (t : List Talk) : talkIn (t.map .talk) = t.map .talk ∧ mailIn (t.map MailEvent.talk) = [] := by
  constructor
  · unfold talkIn
    rw [List.filter_eq_self]
    intro e he
    obtain ⟨_, _, rfl⟩ := List.mem_map.1 he
    rfl
  · induction t with
    | nil => rfl
    | cons x t ih => simpa [mailIn, lettersIn] using ih

/-- A change that does not concern the conversations. -/
theorem MailPhase.same {o A s cs} {s' : MlSt} (h : MailPhase o A s cs) (h1 : s'.valid = s.valid) (h2 : s'.waiting = s.waiting) (h3 : s.valid = true → s'.state = s.state ∧ s'.line = s.line)
    (h4 : s.valid = true → s.inEmail = true → s'.cur = s.cur) : MailPhase o A s' cs := by
  cases h with
  | busy v w before h nl =>
    obtain ⟨hi, _⟩ := waiting_cur w
    rw [← h4 v hi] at before h w
    rw [← (h3 v).1] at h
    rw [← (h3 v).2] at nl ⊢
    exact .busy (h1.trans v) (h2.trans w) before h nl
  | bye v st before h hr =>
    rw [← (h3 v).2]
    exact .bye (h1.trans v) ((h3 v).1.trans st) (h2 ▸ before) h hr
  | idle v before => exact .idle (h1.trans v) (h2 ▸ before)

/-- The connection is gone. -/
theorem MailPhase.gone {o A s cs} {s' : MlSt} (h : MailPhase o A s cs) (h1 : s'.valid = false) (h2 : s'.waiting = s.waiting) : MailPhase o A s' cs :=
  .idle h1 (h2 ▸ h.mailed)

/-- A line. -/
theorem MailPhase.line {o A s cs room out} {s' : MlSt} (h : MailPhase o A s cs) (v : s.valid = true) (he : s.reply o room = (out, s')) :
    ∃ cs0 c, cs = cs0 ++ [c] ∧ MailPhase o A s' (cs0 ++ [c ++ heard b!"\n" ++ said out]) := by
  cases h with
  | @busy cs0 p rest _ w before h nl =>
    refine ⟨cs0, _, rfl, ?_⟩
    obtain ⟨ha, hline, hq, _⟩ := reply_cases h nl he
    obtain ⟨hi, hrest⟩ := waiting_cur w
    have e1 : p ++ heard s.line ++ heard b!"\n" ++ said out = p ++ heard (s.line ++ b!"\n") ++ said out := by simp
    have hwait : s'.cur = s.cur → s'.waiting = s.waiting := by
      intro hc
      unfold MlSt.waiting MlSt.inEmail
      rw [hc, hq]
    have hwait' : s'.cur = ⟨[], [], []⟩ → s'.waiting = rest := by
      intro hc
      unfold MlSt.waiting MlSt.inEmail
      rw [hc, hq, hrest]
      rfl
    cases ha with
    | on v' c h' =>
      have := MailPhase.busy (o := o) (A := A) (s := s') (cs := cs0) (rest := rest) (v'.trans v) (by rw [hwait c, w, c]) (c ▸ before) (c ▸ h') (by rw [hline]; simp)
      rw [hline] at this
      rw [e1]
      simpa using this
    | off v' c h' =>
      rw [e1]
      exact .idle v' (by rw [hwait c, w]; exact .tried before h')
    | ok v' c st h' hr ho =>
      cases h' with
      | dump h' =>
        have := MailPhase.bye (o := o) (A := A) (s := s') (cs := cs0) (e := s.cur) (v'.trans v) st (by rw [hwait' c]; exact before) h' hr
        rw [hline] at this
        rw [e1, ho]
        simpa using this
    | okOff v' c h' hr ho =>
      cases h' with
      | dump h' =>
        rw [e1]
        exact .idle v' (by rw [hwait' c]; exact .acked before ⟨_, _, out, [], h', hr, ho, by simp⟩)
  | @bye cs0 e d r _ st before h hr =>
    refine ⟨cs0, _, rfl, ?_⟩
    unfold MlSt.reply at he
    dsimp only at he
    rw [st] at he
    dsimp only at he
    cases he
    refine .idle rfl (.acked before ⟨d, r, b!"QUIT\n", s.line ++ b!"\n", h, hr, List.prefix_rfl, by simp⟩)
  | idle v' _ => rw [v] at v'; cases v'

/-- An empty line that was not there. -/
theorem MailPhase.ghost {o A s cs} {c : Bool} (h : MailPhase o A s cs) (v : s.valid = true) (hl : s.line = []) :
    MailPhase o A (({ s with valid := s.valid && !c } : MlSt).reply o 0).2 cs := by
  have hw : ({ s with valid := s.valid && !c } : MlSt).waiting = s.waiting := rfl
  cases h with
  | busy _ w before h nl =>
    have ht := Mailed.tried before (h.tried nl)
    generalize hs : ({ s with valid := s.valid && !c } : MlSt) = t at hw
    have hf : (t.reply o 0).2.valid = false ∧ (t.reply o 0).2.waiting = t.waiting := by
      have hst : t.state = s.state := by rw [← hs]
      have hln : t.line = [] := by rw [← hs]; exact hl
      unfold MlSt.reply
      rw [hst, hln]
      generalize s.state = st at h
      cases h <;> exact ⟨rfl, rfl⟩
    refine .idle hf.1 ?_
    rw [hf.2, hw, w]
    exact ht
  | bye _ st before h hr =>
    refine .idle ?_ ?_
    · unfold MlSt.reply
      dsimp only
      rw [st]
    · have : (({ s with valid := s.valid && !c } : MlSt).reply o 0).2.waiting = s.waiting := by
        unfold MlSt.reply
        dsimp only
        rw [st]
        rfl
      rw [this]
      exact .acked before ⟨_, _, b!"QUIT\n", _, h, hr, List.prefix_rfl, rfl⟩
  | idle v' _ => rw [v] at v'; cases v'

theorem MailInv.silent {o tr s} {s' : MlSt} {es : List MailEvent} (I : MailInv o tr s) (h1 : talkIn es = []) (h2 : mailIn es = [])
    (h : ∀ cs, MailPhase o (mailIn tr) s cs → MailPhase o (mailIn tr) s' cs) (h3 : ∀ b, s'.pc = .read b → s'.valid = true) (h4 : s'.pc = .wait → s'.state = .error) : MailInv o (tr ++ es) s' := by
  obtain ⟨cs, e, hp⟩ := I.phase
  refine ⟨⟨cs, ?_, ?_⟩, h3, h4⟩
  · rw [talkIn_append, h1, List.append_nil, e]
  · rw [mailIn_append, h2, List.append_nil]; exact h cs hp

theorem reply_pc {o : Bytes} {s : MlSt} {room : Nat} : (s.reply o room).2.pc = .test := rfl

theorem MailInv.step {o tr s es} {s' : MlSt} (I : MailInv o tr s) (h : MailStep o s es s') : MailInv o (tr ++ es) s' := by
  cases h with
  | handler f h =>
    unfold mstep at h
    split at h
    all_goals try (rename_i hp)
    all_goals try (cases h; done)
    -- test
    · split at h
      · cases h; exact I.silent rfl rfl (fun cs p => p.same rfl rfl (fun _ => ⟨rfl, rfl⟩) (fun _ _ => rfl)) (by simp) (by simp)
      · split at h
        · rename_i he; cases h; exact I.silent rfl rfl (fun cs p => p.same rfl rfl (fun _ => ⟨rfl, rfl⟩) (fun _ _ => rfl)) (by simp) (fun _ => he)
        · cases h
          refine I.silent rfl rfl (fun cs p => p.same ?_ (take_waiting s) (fun _ => ?_) (fun _ hi => ?_)) (by simp) (by simp)
          · unfold MlSt.take; repeat' split
            all_goals rfl
          · unfold MlSt.take; repeat' split
            all_goals exact ⟨rfl, rfl⟩
          · unfold MlSt.take; rw [if_pos hi]
    -- wait
    · have hst := I.waits hp
      have hv : s.valid = false := by
        obtain ⟨cs, _, p⟩ := I.phase
        cases p with
        | busy v w before h nl => rw [hst] at h; cases h
        | bye v st before h hr => rw [hst] at st; cases st
        | idle v _ => exact v
      dsimp only at h
      split at h
      · cases h; exact I.silent rfl rfl (fun cs p => p.gone hv rfl) (by simp) (by simp)
      · cases h
        refine I.silent rfl rfl (fun cs p => p.gone ?_ (take_waiting { s with state := .disconnected })) (by simp) (by simp)
        unfold MlSt.take; repeat' split
        all_goals exact hv
    -- connect
    · split at h
      · rename_i hc
        split at h
        · cases h
          obtain ⟨cs, e, p⟩ := I.phase
          refine ⟨⟨cs ++ [[]], ?_, ?_⟩, by simp, by simp⟩
          · rw [talkIn_append, e, conversations_snoc]; rfl
          · rw [mailIn_append, show mailIn [MailEvent.connected] = [] from rfl, List.append_nil]
            have hw : s.waiting = s.cur :: s.queue.filter fun e => !e.to_.isEmpty := by unfold MlSt.waiting; rw [if_pos hc.1]; rfl
            have := MailPhase.busy (o := o) (A := mailIn tr) (s := { s with line := [], valid := true, null := false, state := .connected, pc := .poll }) (cs := cs) rfl hw (hw ▸ p.mailed) .connected (by simp)
            simpa using this
        · cases h
          refine I.silent rfl rfl (fun cs p => p.gone (by simpa using hc.2) rfl) (by simp) (by simp)
        · cases h
      · cases h; exact I.silent rfl rfl (fun cs p => p.same rfl rfl (fun _ => ⟨rfl, rfl⟩) (fun _ _ => rfl)) (by simp) (by simp)
    -- poll
    · split at h
      · rename_i hv
        split at h
        · split at h
          · cases h
            exact I.silent rfl rfl (fun cs p => p.same rfl rfl (fun _ => ⟨rfl, rfl⟩) (fun _ _ => rfl)) (fun _ _ => hv) (by dsimp only; split <;> simp)
          · cases h
        · cases h; exact I.silent rfl rfl (fun cs p => p.same rfl rfl (fun _ => ⟨rfl, rfl⟩) (fun _ _ => rfl)) (by simp) (by simp)
        · cases h; exact I.silent rfl rfl (fun cs p => p.same rfl rfl (fun _ => ⟨rfl, rfl⟩) (fun _ _ => rfl)) (fun _ _ => hv) (by simp)
        · cases h
      · cases h; exact I.silent rfl rfl (fun cs p => p.same rfl rfl (fun _ => ⟨rfl, rfl⟩) (fun _ _ => rfl)) (by simp) (by simp)
    -- read
    · rename_i buffer
      have hv := I.reading _ hp
      split at h
      · rename_i b room
        split at h
        · rename_i hb
          generalize hr : s.reply o room = x at h
          obtain ⟨out, t⟩ := x
          dsimp only at h
          cases h
          obtain ⟨cs, e, p⟩ := I.phase
          obtain ⟨cs0, c, rfl, p'⟩ := p.line hv hr
          have hpc : s'.pc = .test := by rw [show s' = (s.reply o room).2 by rw [hr]]; rfl
          refine ⟨⟨_, ?_, by
            rw [mailIn_append]
            have : mailIn (MailEvent.talk (.heard b) :: (said out).map .talk) = [] := (talkIn_talk (.heard b :: said out)).2
            rw [this, List.append_nil]
            exact p'⟩, by rw [hpc]; simp, by rw [hpc]; simp⟩
          rw [talkIn_append, e, conversations_snoc, conversations_snoc]
          have : talkIn (MailEvent.talk (.heard b) :: (said out).map .talk) = _ := (talkIn_talk (.heard b :: said out)).1
          rw [this, hb]
          simp [heard]
        · rename_i hb
          cases h
          obtain ⟨cs, e, p⟩ := I.phase
          have hmail : mailIn (tr ++ [MailEvent.talk (.heard b)]) = mailIn tr := by rw [mailIn_append]; simp [mailIn, lettersIn]
          have key : ∃ cs0 c, cs = cs0 ++ [c] ∧ MailPhase o (mailIn tr) { s with line := s.line ++ [b], pc := .read (some b) } (cs0 ++ [c ++ heard [b]]) := by
            cases p with
            | busy v w before h nl =>
              refine ⟨_, _, rfl, ?_⟩
              have := MailPhase.busy (o := o) (A := mailIn tr) (s := { s with line := s.line ++ [b], pc := .read (some b) }) v w before h (by
                rw [List.mem_append]; rintro (hm | hm)
                · exact nl hm
                · exact hb (List.mem_singleton.1 hm).symm)
              simpa using this
            | bye v st before h hr =>
              refine ⟨_, _, rfl, ?_⟩
              have := MailPhase.bye (o := o) (A := mailIn tr) (s := { s with line := s.line ++ [b], pc := .read (some b) }) v st before h hr
              simpa using this
            | idle v' _ => rw [hv] at v'; cases v'
          obtain ⟨cs0, c, rfl, p'⟩ := key
          refine ⟨⟨_, ?_, hmail ▸ p'⟩, fun _ _ => hv, by simp⟩
          rw [talkIn_append, e, conversations_snoc, conversations_snoc]
          simp [talkIn, heard]
      · rename_i closed stale
        have hsame : ∀ cs, MailPhase o (mailIn tr) s cs → ∀ bad pc, MailPhase o (mailIn tr) { s with valid := s.valid && !closed, bad := bad, pc := pc } cs := by
          intro cs p bad pc
          cases closed with
          | true => exact p.gone (by simp) rfl
          | false => exact p.same (by simp) rfl (fun _ => ⟨rfl, rfl⟩) (fun _ _ => rfl)
        dsimp only at h
        split at h
        · cases h; exact I.silent rfl rfl (fun cs p => hsame cs p _ _) (by simp) (by simp)
        · split at h
          · split at h
            · rename_i hl
              cases h
              refine I.silent rfl rfl (fun cs p => ?_) (by dsimp only; rw [reply_pc]; simp) (by dsimp only; rw [reply_pc]; simp)
              have := p.ghost (c := closed) hv (by simpa using hl)
              exact this.same rfl rfl (fun _ => ⟨rfl, rfl⟩) (fun _ _ => rfl)
            · cases h; exact I.silent rfl rfl (fun cs p => hsame cs p _ _) (by simp) (by simp)
          · cases h; exact I.silent rfl rfl (fun cs p => hsame cs p _ _) (by simp) (by simp)
      · cases h
  | call c h =>
    cases c with
    | queue e =>
      cases h
      obtain ⟨cs, ec, p⟩ := I.phase
      refine ⟨⟨cs, ?_, ?_⟩, I.reading, I.waits⟩
      · rw [talkIn_append, ec]; simp [talkIn]
      · rw [mailIn_append]
        have hw : ({ s with queue := s.queue ++ [e], waking := true } : MlSt).waiting = s.waiting ++ mailIn [.queued e] := by
          unfold MlSt.waiting
          simp only [List.filter_append, List.append_assoc]
          rfl
        cases p with
        | busy v w before h nl =>
          exact .busy v (by rw [hw, w]; rfl) (mailed_grow before _) h nl
        | bye v st before h hr => exact .bye v st (by rw [hw]; exact mailed_grow before _) h hr
        | idle v before => exact .idle v (by rw [hw]; exact mailed_grow before _)
    | stop => cases h; exact I.silent rfl rfl (fun cs p => p.same rfl rfl (fun _ => ⟨rfl, rfl⟩) (fun _ _ => rfl)) I.reading I.waits
    | terminate => cases h; exact I.silent rfl rfl (fun cs p => p.same rfl rfl (fun _ => ⟨rfl, rfl⟩) (fun _ _ => rfl)) I.reading I.waits
    | start =>
      simp only [mcall] at h
      split at h
      · cases h; exact I.silent rfl rfl (fun cs p => p.same rfl rfl (fun _ => ⟨rfl, rfl⟩) (fun _ _ => rfl)) (by simp) (by simp)
      · cases h

theorem MailRun.mail {o : Bytes} {a b : Bool} {tr s} (h : MailRun o (mailInit a b) tr s) : MailInv o tr s := by
  generalize hi : mailInit a b = s0 at h
  induction h with
  | refl =>
    subst hi
    refine ⟨⟨[], rfl, .idle rfl .none⟩, ?_, ?_⟩ <;> (intros; rename_i h; cases h)
  | step _ hs ih => exact ih.step hs

end Fcgi.Model
