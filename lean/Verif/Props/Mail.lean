import Verif.Lemmas.MailAll
/-! # The mailer: C54, C55, C83-C88

`MailRun o (mailInit a b) tr s` is any run: `tr` what can be seen of it, `s` the state reached; any number of threads call
`queue()`, `stop()` and `terminate()` at any moment, and the server and the network do what they like. -/
namespace Fcgi.Props
open Fcgi Fcgi.Model Fcgi.Spec
variable {o : Bytes} {a b : Bool} {tr : List MailEvent} {s : MlSt}

/-- A run made by choices. -/
def mdo (o : Bytes) : List (MFate ⊕ MCall) → MlSt → Option (List MailEvent × MlSt)
  | [], s => some ([], s)
  | .inl f :: cs, s => (mstep o f s).bind fun (es, s') => (mdo o cs s').map fun (tr, s'') => (es ++ tr, s'')
  | .inr c :: cs, s => (mcall c s).bind fun (es, s') => (mdo o cs s').map fun (tr, s'') => (es ++ tr, s'')

theorem MailRun_trans {s s' s'' : MlSt} {t t' : List MailEvent} (h : MailRun o s t s') (h' : MailRun o s' t' s'') : MailRun o s (t ++ t') s'' := by
  induction h' with
  | refl => rwa [List.append_nil]
  | step _ hs ih => rw [← List.append_assoc]; exact .step ih hs

theorem mdo_sound : ∀ (cs : List (MFate ⊕ MCall)) (s : MlSt) (tr : List MailEvent) (s' : MlSt), mdo o cs s = some (tr, s') → MailRun o s tr s' := by
  intro cs
  induction cs with
  | nil => intro s tr s' h; cases h; exact .refl _
  | cons c cs ih =>
    intro s tr s' h
    have one : ∀ (es : List MailEvent) (s1 : MlSt), MailStep o s es s1 → (mdo o cs s1).map (fun (tr, s'') => (es ++ tr, s'')) = some (tr, s') → MailRun o s tr s' := by
      intro es s1 hs h
      obtain ⟨⟨t, s2⟩, h1, h2⟩ := Option.map_eq_some_iff.1 h
      cases h2
      have := MailRun.step (.refl s) hs
      rw [List.nil_append] at this
      exact MailRun_trans this (ih _ _ _ h1)
    cases c with
    | inl f =>
      obtain ⟨⟨es, s1⟩, h1, h2⟩ := Option.bind_eq_some_iff.1 h
      exact one es s1 (.handler f h1) h2
    | inr f =>
      obtain ⟨⟨es, s1⟩, h1, h2⟩ := Option.bind_eq_some_iff.1 h
      exact one es s1 (.call f h1) h2

theorem mrun_sound : ∀ (fs : List MFate) (s : MlSt) (tr : List MailEvent) (s' : MlSt), mrun o fs s = some (tr, s') → MailRun o s tr s' := by
  intro fs
  induction fs with
  | nil => intro s tr s' h; cases h; exact .refl _
  | cons f fs ih =>
    intro s tr s' h
    obtain ⟨⟨es, s1⟩, h1, h2⟩ := Option.bind_eq_some_iff.1 h
    obtain ⟨⟨t, s2⟩, h3, h4⟩ := Option.map_eq_some_iff.1 h2
    cases h4
    have := MailRun.step (.refl s) (.handler f h1)
    rw [List.nil_append] at this
    exact MailRun_trans this (ih _ _ _ h3)

/-- A run found by trying. -/
theorem mfound {P : List MailEvent → MlSt → Bool} (cs : List (MFate ⊕ MCall)) (h : (mdo o cs (mailInit a b)).any (fun (tr, s) => P tr s) = true) :
    ∃ tr s, MailRun o (mailInit a b) tr s ∧ P tr s = true := by
  cases hq : mdo o cs (mailInit a b) with
  | none => rw [hq] at h; cases h
  | some x => rw [hq] at h; exact ⟨x.1, x.2, mdo_sound _ _ _ _ hq, h⟩

/-- An email for the examples. -/
def hello : Email := ⟨b!"you@x", b!"me@x", [b!"Subject: hi\r\n\r\n", b!"Hello!"]⟩
/-- A server for the examples. -/
def server : Willing := ⟨b!"220 mx ESMTP\r\n", [b!"250-mx\r\n", b!"250-SIZE 1000\r\n"], b!"250-8BITMIME\r\n", [], b!"250 HELP\r\n", b!"250 ok\r\n", b!"250 ok\r\n",
  b!"354 go ahead\r\n", b!"250 queued\r\n", b!"221 bye\r\n"⟩

theorem server_good : server.Good where
  greet := ⟨b!"mx ESMTP", by decide, Or.inr rfl⟩
  ext1 := by
    intro x hx
    rcases List.mem_cons.1 hx with rfl | hx
    · exact ⟨b!"mx", by decide, Or.inr rfl⟩
    · rcases List.mem_cons.1 hx with rfl | hx
      · exact ⟨b!"SIZE 1000", by decide, Or.inr rfl⟩
      · cases hx
  eight := ⟨by decide, Or.inr rfl⟩
  ext2 := by intro x hx; cases hx
  last := ⟨b!"HELP", by decide, Or.inr rfl⟩
  r1 := ⟨b!"ok", by decide, Or.inr rfl⟩
  r2 := ⟨b!"ok", by decide, Or.inr rfl⟩
  r3 := ⟨b!"go ahead", by decide, Or.inr rfl⟩
  r4 := ⟨b!"queued", by decide, Or.inr rfl⟩
  bye := ⟨b!"bye", by decide, Or.inr rfl⟩

/-! ### C54 -/

/-- What is left of `Mailed`. -/
theorem mailed_all {A : List Email} {cs : List (List Talk)} {R : List Email} (h : Mailed o A cs R) : ∀ e ∈ A, e ∈ R ∨ ∃ c ∈ cs, Acked o e c := by
  induction h with
  | none => intro e he; exact Or.inl he
  | acked _ ha ih =>
    intro e he
    rcases ih e he with h | ⟨c, hc, h⟩
    · rcases List.mem_cons.1 h with rfl | h
      · exact Or.inr ⟨_, by simp, ha⟩
      · exact Or.inl h
    · exact Or.inr ⟨c, by simp [hc], h⟩
  | tried _ _ ih =>
    intro e he
    rcases ih e he with h | ⟨c, hc, h⟩
    · exact Or.inl h
    · exact Or.inr ⟨c, by simp [hc], h⟩

/-- The emails the mailer still has to send. -/
def held (s : MlSt) : List Email := (s.cur :: s.queue).filter fun e => !e.to_.isEmpty

theorem held_eq (s : MlSt) : held s = s.waiting := by
  unfold held MlSt.waiting MlSt.inEmail
  cases h : s.cur.to_.isEmpty <;> simp [h]

/-- C54, in part: whatever the server says and whenever connections fail, the conversations with the server are about the
emails queued, in the order queued: each one is tried again until the server has acknowledged its data with 250, and only
then the next one is begun; what is not acknowledged is still to be sent.  Missing: emails without a recipient, see below. -/
theorem C54_mailed_partial (h : MailRun o (mailInit a b) tr s) : ∃ cs, talkIn tr = conversations cs ∧ Mailed o (mailIn tr) cs (held s) := by
  obtain ⟨cs, e, p⟩ := h.mail.phase
  exact ⟨cs, e, held_eq s ▸ p.mailed⟩

/-- C54, in part: an email with a recipient is removed only after the server has acknowledged its data with 250. -/
theorem C54_removed_partial (h : MailRun o (mailInit a b) tr s) :
    ∃ cs, talkIn tr = conversations cs ∧ ∀ e, .queued e ∈ tr → e.to_ ≠ [] → (e = s.cur ∨ e ∈ s.queue) ∨ ∃ c ∈ cs, Acked o e c := by
  obtain ⟨cs, h1, h2⟩ := C54_mailed_partial h
  refine ⟨cs, h1, fun e he hne => ?_⟩
  have hm : e ∈ mailIn tr := by
    unfold mailIn lettersIn
    rw [List.mem_filter, List.mem_filterMap]
    exact ⟨⟨_, he, rfl⟩, by simpa using hne⟩
  refine (mailed_all h2 e hm).imp (fun h => ?_) id
  have := (List.mem_filter.1 h).1
  exact List.mem_cons.1 this

/-- C54 fails: an email without a recipient is taken from the queue and never sent: nothing is connected to, nothing is said,
and it is gone. -/
theorem C54_empty_violated : ∃ tr s, MailRun b!"x" (mailInit false false) tr s ∧
    decide (tr = [.queued ⟨[], b!"me@x", [b!"Hello!"]⟩, .started, .queued hello] ∧ s.cur = hello ∧ s.queue = [] ∧ s.pc = .connect) = true :=
  mfound [.inr (.queue ⟨[], b!"me@x", [b!"Hello!"]⟩), .inr .start, .inl .go, .inr (.queue hello), .inl .go, .inl (.woken false), .inl .go] (by decide +kernel)

-- A run in which one email is acknowledged and another is tried.
example : ∃ tr s, MailRun b!"x" (mailInit false false) tr s ∧ decide (mailIn tr = [hello, hello] ∧ held s = [hello] ∧ (talkIn tr).length = 193) = true :=
  mfound ([.inr (.queue hello), .inr (.queue hello), .inr .start] ++ (session 100 server).map .inl ++ [.inl .go, .inl .connected, .inl (.ready), .inl (.byte c!"2" 0), .inl (.eof true false)]) (by decide +kernel)

/-! ### C55 -/

/-- C55, in part: what a server that follows RFC 5321 makes of the bytes sent after its answer to DATA is the text of the
email, exactly if no line of the text begins with a dot.  Missing: the texts that have such a line. -/
theorem C55_data_partial (h : MailRun o (mailInit a b) tr s) : ∃ cs, talkIn tr = conversations cs ∧ ∀ c ∈ cs, ∀ e, Acked o e c → ∃ before go data after,
    c = before ++ heard go ++ said data ++ after ∧ Reply b!"354 " go ∧ saidOf after <+: b!"QUIT\n" ∧
    (smtpReceive true data = some (e.body.flatten ++ b!"\r\n", []) ↔ ¬ dottedLine e.body.flatten) := by
  obtain ⟨cs, h1, _⟩ := C54_mailed_partial h
  refine ⟨cs, h1, fun c _ e he => ?_⟩
  obtain ⟨d, r, q, rest, ⟨greet, ext, r1, r2, r3, _, _, _, _, h3, rfl⟩, hr, hq, rfl⟩ := he
  refine ⟨heard greet ++ said (b!"EHLO " ++ o ++ b!"\n") ++ heard ext ++ said (mailCommand e) ++ heard r1 ++ said (rcptCommand e) ++ heard r2 ++ said b!"DATA\n", r3, e.body.flatten ++ dataMark, heard r ++ said q ++ heard rest,
    by simp only [List.append_assoc], h3, by simpa using hq, ?_, ?_⟩
  · rintro hrec (hd | hd)
    · exact (receive_exact _ _ _ _ hrec (by simp [dataMark])).1 rfl (hd.trans (List.prefix_append _ _))
    · exact (receive_exact _ _ _ _ hrec (by simp [dataMark])).2 (hd.trans (List.infix_append_left))
  · intro hd
    have := receive_plain _ true e.body.flatten [] (Nat.le_refl _) (fun _ h => hd (Or.inl h)) (fun h => hd (Or.inr h))
    rwa [List.append_nil] at this

/-- C55 fails: for every text x with no such line, and every y, the text x CRLF "." CRLF y ends the data early: the server
takes x as the message and y as commands. -/
theorem C55_violated (x y : Bytes) (hx : ¬ dottedLine x) (body : List Bytes) (hb : body.flatten = x ++ dataMark ++ y) :
    smtpReceive true (body.flatten ++ dataMark) = some (x ++ b!"\r\n", y ++ dataMark) := by
  rw [hb, List.append_assoc]
  exact receive_plain _ true x _ (Nat.le_refl _) (fun _ h => hx (Or.inl h)) (fun h => hx (Or.inr h))

/-- C55 fails: a dot at the beginning of a line is lost. -/
theorem C55_dot_violated : smtpReceive true (b!"a\r\n.b" ++ dataMark) = some (b!"a\r\nb\r\n", []) := by decide

example : ¬ dottedLine (hello.body.flatten) := by
  rintro (h | h) <;> revert h <;> decide

/-! ### C83 -/

theorem not_off_of_ended {es : List MailEvent} {s' : MlSt} (h : MailStep o s es s') (hm : MailEvent.ended ∈ es) : s.pc ≠ .off := by
  intro hp
  cases h with
  | handler f h => unfold mstep at h; rw [hp] at h; cases h
  | call c h =>
    cases c with
    | queue e => cases h; simp at hm
    | stop => cases h; simp at hm
    | terminate => cases h; simp at hm
    | start =>
      simp only [mcall] at h
      split at h
      · cases h; simp at hm
      · cases h

/-- C83: unless `terminate()` was called, when the thread ends every email queued before, that has a recipient, has been
acknowledged by the server, in order. -/
theorem C83_drained (h : MailRun o (mailInit a b) tr s) (before after : List MailEvent) (e : tr = before ++ .ended :: after) (ht : .terminated ∉ before) :
    ∃ cs, talkIn before = conversations cs ∧ Mailed o (mailIn before) cs [] := by
  obtain ⟨s1, s2, hr, hs⟩ := h.ended before after e
  have hm : MailEvent.ended ∈ [MailEvent.ended] := by simp
  obtain ⟨_, _, _, hd⟩ := hs.ended hm
  obtain ⟨cs, h1, h2⟩ := C54_mailed_partial hr
  rcases hd with hd | ⟨_, hq, hi⟩
  · exact absurd ((hr.wake.term.resolve_left (not_off_of_ended hs hm)) hd) ht
  · refine ⟨cs, h1, ?_⟩
    have : held s1 = [] := by rw [held_eq]; simp [MlSt.waiting, hq, hi]
    rwa [this] at h2

/-- C83, said otherwise. -/
theorem C83_each (h : MailRun o (mailInit a b) tr s) (before after : List MailEvent) (e : tr = before ++ .ended :: after) (ht : .terminated ∉ before) :
    ∃ cs, talkIn before = conversations cs ∧ ∀ m, .queued m ∈ before → m.to_ ≠ [] → ∃ c ∈ cs, Acked o m c := by
  obtain ⟨cs, h1, h2⟩ := C83_drained h before after e ht
  refine ⟨cs, h1, fun m hm hne => ?_⟩
  have hmem : m ∈ mailIn before := by
    unfold mailIn lettersIn
    rw [List.mem_filter, List.mem_filterMap]
    exact ⟨⟨_, hm, rfl⟩, by simpa using hne⟩
  exact (mailed_all h2 m hmem).resolve_left (by simp)

-- `stop()` while an email waits: it is sent first.
example : ∃ tr s, MailRun b!"x" (mailInit false false) tr s ∧ decide (.ended ∈ tr ∧ mailIn tr = [hello] ∧ s.pc = .done ∧ (talkIn tr).length = 182) = true :=
  mfound ([.inr (.queue hello), .inr .start, .inr .stop] ++ ((session 100 server).take 133).map .inl ++ [.inl .go]) (by decide +kernel)

/-! ### C84 -/

/-- C84, in part: if the server agrees at every step, all the emails are sent and acknowledged one after another.  Missing:
replies of several lines and servers that do not name 8BITMIME before their last extension, see below; calls of the other
threads in between. -/
theorem C84_all_partial (room : Nat) : ∀ (es : List Email) (ws : List Willing) (s : MlSt), ToSend s es → ws.length = es.length → (∀ e ∈ es, e.to_ ≠ [] ∧ Fits o room e) →
    (∀ w ∈ ws, w.Good) → ∃ cs s', mrun o (ws.flatMap (session room)) s = some (conversations cs, s') ∧ cs.length = es.length ∧ (∀ p ∈ es.zip cs, Acked o p.1 p.2) ∧ held s' = [] := by
  intro es
  induction es with
  | nil =>
    intro ws s hs hl _ _
    have : ws = [] := List.length_eq_zero_iff.1 (by simpa using hl)
    subst this
    refine ⟨[], s, rfl, rfl, by simp, ?_⟩
    rcases hs.todo with ⟨_, h⟩ | ⟨h1, h2⟩
    · cases h
    · rw [held_eq]; simp [MlSt.waiting, h1, h2]
  | cons e es ih =>
    intro ws s hs hl hes hws
    cases ws with
    | nil => simp at hl
    | cons w ws =>
      obtain ⟨c, s1, r1, ack, hs1⟩ := one_session (hws w (by simp)) hs (hes e (by simp)).1 (fun x hx => (hes x (by simp [hx])).1) (hes e (by simp)).2
      obtain ⟨cs, s2, r2, len, acks, hd⟩ := ih ws s1 hs1 (by simpa using hl) (fun x hx => hes x (by simp [hx])) (fun x hx => hws x (by simp [hx]))
      refine ⟨c :: cs, s2, ?_, by simp [len], ?_, hd⟩
      rotate_left
      · intro p hp
        rw [List.zip_cons_cons] at hp
        rcases List.mem_cons.1 hp with rfl | hp
        · exact ack
        · exact acks p hp
      rw [List.flatMap_cons]
      have := mrun_append _ _ _ _ _ _ _ r1 r2
      simpa [conversations] using this

-- The hypotheses can be met.
example : ∃ tr s, MailRun b!"x" (mailInit false false) tr s ∧ ToSend s [hello, hello] := by
  refine ⟨_, _, mdo_sound (o := b!"x") [.inr (.queue hello), .inr (.queue hello), .inr .start] (mailInit false false) _ _ rfl, rfl, rfl, rfl, rfl, rfl, Or.inr ⟨rfl, rfl⟩⟩

example : Fits b!"x" 100 hello := by unfold Fits; decide

/-- C84 fails: a greeting of several lines (RFC 5321, 4.2.1: "220-...") makes the mailer give up. -/
theorem C84_greeting_violated {s : MlSt} {e : Email} (h : Talking s e .connected) (he : e.to_ ≠ []) (rest : Bytes) (hn : c!"\n" ∉ rest) (room : Nat) :
    ∃ s', mrun o (serve room [b!"220-" ++ rest ++ b!"\r\n"]) s = some ((heard (b!"220-" ++ rest ++ b!"\r\n")).map .talk, s') ∧ s'.state = .error ∧ s'.valid = false ∧ s'.cur = e := by
  have hstrip : stripCr (b!"220-" ++ rest ++ b!"\r") = b!"220-" ++ rest := by unfold stripCr; rw [if_pos (List.getLast?_concat), List.dropLast_concat]
  have := give_up (o := o) (room := room) (l := b!"220-" ++ rest ++ b!"\r") h he (by simpa using hn) (Or.inl ⟨rfl, by rw [hstrip]; simp [List.cons_prefix_cons]⟩)
  simpa using this

/-- C84 fails: so does the answer to a command in several lines ("250-..."), though the server agrees. -/
theorem C84_lines_violated {s : MlSt} {e : Email} {st : MState} (hst : st = .mail ∨ st = .rcpt ∨ st = .dump) (h : Talking s e st) (he : e.to_ ≠ []) (rest : Bytes) (hn : c!"\n" ∉ rest) (room : Nat) :
    ∃ s', mrun o (serve room [b!"250-" ++ rest ++ b!"\r\n"]) s = some ((heard (b!"250-" ++ rest ++ b!"\r\n")).map .talk, s') ∧ s'.state = .error ∧ s'.valid = false ∧ s'.cur = e := by
  have hstrip : stripCr (b!"250-" ++ rest ++ b!"\r") = b!"250-" ++ rest := by unfold stripCr; rw [if_pos (List.getLast?_concat), List.dropLast_concat]
  have := give_up (o := o) (room := room) (l := b!"250-" ++ rest ++ b!"\r") h he (by simpa using hn) (Or.inr (Or.inl ⟨hst, by rw [hstrip]; simp [List.cons_prefix_cons]⟩))
  simpa using this

/-- C84 fails: so does a list of extensions that ends with 8BITMIME. -/
theorem C84_last_violated {s : MlSt} {e : Email} (h : Talking s e .ehlo) (he : e.to_ ≠ []) (room : Nat) :
    ∃ s', mrun o (serve room [b!"250 8BITMIME\r\n"]) s = some ((heard b!"250 8BITMIME\r\n").map .talk, s') ∧ s'.state = .error ∧ s'.valid = false ∧ s'.cur = e := by
  exact give_up (o := o) (room := room) (l := b!"250 8BITMIME\r") h he (by decide) (Or.inr (Or.inr (Or.inr ⟨rfl, by decide⟩)))

-- Such states are reached.
example : ∃ tr s, MailRun b!"x" (mailInit false false) tr s ∧ Talking s hello .connected :=
  ⟨_, _, mdo_sound (o := b!"x") [.inr (.queue hello), .inr .start, .inl .go, .inl .connected, .inl (.woken false)] (mailInit false false) _ _ rfl, rfl, rfl, rfl, rfl, rfl, rfl⟩

/-! ### C85 -/

/-- C85: the thread ends only if it has been asked to. -/
theorem C85_asked (h : MailRun o (mailInit a b) tr s) (before after : List MailEvent) (e : tr = before ++ .ended :: after) : .terminated ∈ before ∨ .stopped ∈ before := by
  obtain ⟨s1, s2, hr, hs⟩ := h.ended before after e
  have hm : MailEvent.ended ∈ [MailEvent.ended] := by simp
  have ho := not_off_of_ended hs hm
  rcases (hs.ended hm).2.2.2 with hd | ⟨hd, _⟩
  · exact Or.inl ((hr.wake.term.resolve_left ho) hd)
  · exact Or.inr ((hr.wake.stop.resolve_left ho) hd)

/-- How far the end is. -/
def toEnd : MPC → Nat
  | .off | .done | .ub => 0
  | .test | .wait => 1
  | .poll => 2
  | .connect => 3
  | .read _ => 2

/-- C85, in part: after `terminate()` the thread, unless it is reading, can always go on without anything from the server: it is
woken if it waits for the connection; and it comes nearer to its end with every step, unless that is to read what has
arrived.  Missing: reading, see below. -/
theorem C85_terminate_partial (h : MailRun o (mailInit a b) tr s) (ht : s.term = true) (hp : s.pc = .test ∨ s.pc = .wait ∨ s.pc = .connect ∨ s.pc = .poll) :
    (∃ f, f ≠ .ready ∧ f ≠ .signal ∧ (mstep o f s).isSome) ∧
    ∀ f es s', mstep o f s = some (es, s') → s'.term = true ∧ (toEnd s'.pc < toEnd s.pc ∨ s'.pc = .read none) ∧ (s.pc = .test ∨ s.pc = .wait → es = [.ended] ∧ s'.pc = .done) := by
  have hw := h.wake.wakeT
  have hends : s.ends = true := by simp [MlSt.ends, ht]
  have hends' : ({ s with state := .disconnected } : MlSt).ends = true := by simp [MlSt.ends, ht]
  rcases hp with hp | hp | hp | hp
  · refine ⟨⟨.go, by simp, by simp, by simp [mstep, hp, hends]⟩, ?_⟩
    intro f es s' hs
    simp only [mstep, hp, hends, if_true, Option.some.injEq, Prod.mk.injEq] at hs
    obtain ⟨rfl, rfl⟩ := hs
    exact ⟨ht, Or.inl (by simp [toEnd, hp]), fun _ => ⟨rfl, rfl⟩⟩
  · refine ⟨⟨.go, by simp, by simp, by unfold mstep; rw [hp]; dsimp only; rw [if_pos (by simp [MlSt.ends, ht])]; rfl⟩, ?_⟩
    intro f es s' hs
    unfold mstep at hs; rw [hp] at hs; dsimp only at hs; rw [if_pos (by simp [MlSt.ends, ht])] at hs
    simp only [Option.some.injEq, Prod.mk.injEq] at hs
    obtain ⟨rfl, rfl⟩ := hs
    exact ⟨ht, Or.inl (by simp [toEnd, hp]), fun _ => ⟨rfl, rfl⟩⟩
  · refine ⟨?_, ?_⟩
    · by_cases hc : s.inEmail = true ∧ (!s.valid) = true
      · exact ⟨.connected, by simp, by simp, by simp [mstep, hp]; rw [if_pos (by simpa using hc)]; rfl⟩
      · exact ⟨.go, by simp, by simp, by simp only [mstep, hp]; rw [if_neg hc]; rfl⟩
    · intro f es s' hs
      simp only [mstep, hp] at hs
      split at hs
      · split at hs
        · cases hs; exact ⟨ht, Or.inl (by simp [toEnd, hp]), by simp [hp]⟩
        · cases hs; exact ⟨ht, Or.inl (by simp [toEnd, hp]), by simp [hp]⟩
        · cases hs
      · cases hs; exact ⟨ht, Or.inl (by simp [toEnd, hp]), by simp [hp]⟩
  · have hwk := hw (Or.inr hp) ht
    refine ⟨?_, ?_⟩
    · by_cases hc : s.valid = true
      · exact ⟨.woken false, by simp, by simp, by simp [mstep, hp, hc, hwk]⟩
      · exact ⟨.go, by simp, by simp, by simp [mstep, hp, hc]⟩
    · intro f es s' hs
      simp only [mstep, hp] at hs
      split at hs
      · split at hs
        · rename_i ready
          simp only [Option.some.injEq, Prod.mk.injEq] at hs
          obtain ⟨rfl, rfl⟩ := hs
          cases ready <;> exact ⟨ht, by simp [toEnd, hp], by simp [hp]⟩
        · cases hs; exact ⟨ht, Or.inl (by simp [toEnd, hp]), by simp [hp]⟩
        · cases hs; exact ⟨ht, Or.inr rfl, by simp [hp]⟩
        · cases hs
      · cases hs; exact ⟨ht, Or.inl (by simp [toEnd, hp]), by simp [hp]⟩

/-- C85, in part: after `stop()`, with nothing to send, the thread is woken if it waits for the connection (if all emails had a
recipient). -/
theorem C85_stop_partial (h : MailRun o (mailInit a b) tr s) (hp : s.pc = .connect ∨ s.pc = .poll) (hs : s.stop = true) (hall : ∀ e, .queued e ∈ tr → e.to_ ≠ [])
    (hn : held s = []) : s.waking = true := by
  rw [held_eq] at hn
  have hi : s.inEmail = false := by
    cases hi : s.inEmail with
    | false => rfl
    | true => simp [MlSt.waiting, hi] at hn
  have hq : s.queue = [] := by
    cases hq : s.queue with
    | nil => rfl
    | cons e q =>
      have := hall e (h.wake.from_ e (by rw [hq]; simp))
      simp [MlSt.waiting, hi, hq, List.filter_cons, this] at hn
  rcases h.wake.wakeS (fun e he => by rw [hq] at he; cases he) hp hs hq hi with hw | ⟨e, he, hto⟩
  · exact hw
  · exact absurd hto (hall e he)

/-- C85 fails: while a line is being read only the server can move the thread, `terminate()` or not: without a byte or the
end of the connection there is no step ... -/
theorem C85_blocked_violated {s : MlSt} {buffer : Option Byte} (hp : s.pc = .read buffer) (f : MFate) (es : List MailEvent) (s' : MlSt) (h : mstep o f s = some (es, s')) :
    (∃ b room, f = .byte b room) ∨ ∃ c st, f = .eof c st := by
  unfold mstep at h
  rw [hp] at h
  cases f <;> simp at h ⊢

/-- ... and a server that sends a line without end keeps it for ever. -/
theorem C85_endless_violated (n : Nat) : ∃ tr s, MailRun b!"x" (mailInit false false) tr s ∧ s.term = true ∧
    tr = [.queued hello, .started, .connected, .terminated] ++ (heard (List.replicate n c!"a")).map .talk ∧ ∃ buffer, s.pc = .read buffer := by
  have h0 : ∃ s, mdo b!"x" [.inr (.queue hello), .inr .start, .inl .go, .inl .connected, .inr .terminate, .inl (.woken true)] (mailInit false false) =
      some ([.queued hello, .started, .connected, .terminated], s) ∧ s.term = true ∧ s.pc = .read none := ⟨_, rfl, rfl, rfl⟩
  obtain ⟨s0, h1, h2, h3⟩ := h0
  obtain ⟨buf, h4⟩ := read_bytes (o := b!"x") (room := 0) (List.replicate n c!"a") s0 none (by simp [List.mem_replicate]) h3
  exact ⟨_, _, MailRun_trans (mdo_sound _ _ _ _ h1) (mrun_sound _ _ _ _ h4), h2, rfl, buf, rfl⟩

/-! ### C86 -/

theorem take_bad (s : MlSt) : s.take.bad = s.bad := by
  unfold MlSt.take
  split
  · rfl
  · split <;> rfl

/-- C86, in part: an indeterminate value (or the last character of an empty string) is used only when the thread polls
without ever having been connected, when the connection ends or fails where a line was awaited, and when the server sends an
empty line. -/
theorem C86_when_partial {f : MFate} {es : List MailEvent} {s' : MlSt} (h : mstep o f s = some (es, s')) (h0 : s.bad = false) (h1 : s'.bad = true) :
    (s.pc = .poll ∧ s.null = true ∧ s.valid = false) ∨ (s.pc = .read none ∧ ∃ c st, f = .eof c st) ∨ (s.line = [] ∧ ∃ buffer room, s.pc = .read buffer ∧ f = .byte c!"\n" room) := by
  unfold mstep at h
  split at h
  all_goals try (rename_i hp)
  all_goals try (cases h; done)
  · repeat' split at h
    all_goals cases h
    · rw [h0] at h1; cases h1
    · rw [h0] at h1; cases h1
    · have : s.take.bad = s.bad := take_bad _
      dsimp only at h1; rw [this, h0] at h1; cases h1
  · dsimp only at h
    split at h
    all_goals cases h
    · dsimp only at h1; rw [h0] at h1; cases h1
    · have : ({ s with state := .disconnected } : MlSt).take.bad = s.bad := take_bad _
      dsimp only at h1; rw [this, h0] at h1; cases h1
  · repeat' split at h
    all_goals cases h
    all_goals (dsimp only at h1; rw [h0] at h1; cases h1)
  · split at h
    · repeat' split at h
      all_goals cases h
      all_goals (dsimp only at h1; rw [h0] at h1; cases h1)
    · rename_i hv
      cases h
      simp only [h0, Bool.false_or] at h1
      exact Or.inl ⟨hp, h1, by simpa using hv⟩
  · rename_i buffer
    split at h
    · rename_i b room
      split at h
      · rename_i hb
        have hbad : (s.reply o room).2.bad = (s.bad || s.line.isEmpty) := by
          have hw : ∀ (t : MlSt) cmd room next, (t.write cmd room next).2.bad = t.bad := by
            intro t cmd room next; unfold MlSt.write; split <;> rfl
          unfold MlSt.reply
          dsimp only
          repeat' split
          all_goals first | rfl | (rw [hw]; done) | (rw [hw]; rfl)
        generalize hr : s.reply o room = x at h hbad
        obtain ⟨out, t⟩ := x
        dsimp only at h hbad
        cases h
        rw [hbad, h0, Bool.false_or] at h1
        exact Or.inr (Or.inr ⟨by simpa using h1, buffer, room, hp, by rw [hb]⟩)
      · cases h; dsimp only at h1; rw [h0] at h1; cases h1
    · rename_i closed stale
      dsimp only at h
      split at h
      · cases h; dsimp only at h1; rw [h0] at h1; cases h1
      · exact Or.inr (Or.inl ⟨hp, closed, stale, rfl⟩)
    · cases h

/-- C86 fails: starting the mailer with nothing to send is enough ... -/
theorem C86_start_violated : ∃ tr s, MailRun b!"x" (mailInit false false) tr s ∧ decide (tr = [.started] ∧ s.bad = true) = true :=
  mfound [.inr .start, .inl .go, .inl .go, .inl .go] (by decide +kernel)

/-- ... and so is a server that closes the connection. -/
theorem C86_close_violated : ∃ tr s, MailRun b!"x" (mailInit false false) tr s ∧ decide (tr = [.queued hello, .started, .connected] ∧ s.bad = true) = true :=
  mfound [.inr (.queue hello), .inr .start, .inl .go, .inl .connected, .inl .ready, .inl (.eof true false)] (by decide +kernel)

example : ∃ tr s, MailRun b!"x" (mailInit false false) tr s ∧ decide (s.bad = false ∧ s.pc = .read none) = true :=
  mfound [.inr (.queue hello), .inr .start, .inl .go, .inl .connected, .inl .ready] (by decide +kernel)

/-! ### C87 -/

/-- C87, in part: if the addresses have no line break, MAIL and RCPT are one line each, ended by LF. -/
theorem C87_line_partial (e : Email) (h1 : c!"\n" ∉ e.sender) (h2 : c!"\n" ∉ e.to_) :
    IsLine (mailCommand e) (b!"MAIL FROM: <" ++ e.sender ++ b!">") ∧ IsLine (rcptCommand e) (b!"RCPT TO: <" ++ e.to_ ++ b!">") := by
  refine ⟨⟨?_, Or.inl (by simp [mailCommand])⟩, ⟨?_, Or.inl (by simp [rcptCommand])⟩⟩
  · simpa using h1
  · simpa using h2

/-- C87, in part: what is said on every connection is a prefix of the commands for one email, in order, and QUIT. -/
theorem C87_said_partial (h : MailRun o (mailInit a b) tr s) : ∃ cs, talkIn tr = conversations cs ∧ ∀ c ∈ cs, ∃ e ∈ mailIn tr,
    saidOf c <+: b!"EHLO " ++ o ++ b!"\n" ++ mailCommand e ++ rcptCommand e ++ b!"DATA\n" ++ e.body.flatten ++ dataMark ++ b!"QUIT\n" := by
  obtain ⟨cs, h1, h2⟩ := C54_mailed_partial h
  refine ⟨cs, h1, ?_⟩
  have full : ∀ e d, HandedOver o e d → saidOf d = b!"EHLO " ++ o ++ b!"\n" ++ mailCommand e ++ rcptCommand e ++ b!"DATA\n" ++ e.body.flatten ++ dataMark := by
    intro e d hd
    rw [handedOver_said hd]
    simp [fullSaid]
  have key : ∀ A cs R, Mailed o A cs R → (∀ e ∈ R, e ∈ A) ∧ ∀ c ∈ cs, ∃ e ∈ A,
      saidOf c <+: b!"EHLO " ++ o ++ b!"\n" ++ mailCommand e ++ rcptCommand e ++ b!"DATA\n" ++ e.body.flatten ++ dataMark ++ b!"QUIT\n" := by
    intro A cs R h
    induction h with
    | none => exact ⟨fun _ h => h, by simp⟩
    | @acked cs e R c _ ha ih =>
      refine ⟨fun x hx => ih.1 x (List.mem_cons_of_mem _ hx), fun c' hc' => ?_⟩
      rcases List.mem_append.1 hc' with hc' | hc'
      · exact ih.2 c' hc'
      · rw [List.mem_singleton.1 hc']
        obtain ⟨d, r, q, rest, hd, _, hq, rfl⟩ := ha
        refine ⟨e, ih.1 e List.mem_cons_self, ?_⟩
        simp only [saidOf_append, saidOf_heard, saidOf_said, List.append_nil, full e d hd]
        exact (List.prefix_append_right_inj _).2 hq
    | @tried cs e R c _ ht ih =>
      refine ⟨ih.1, fun c' hc' => ?_⟩
      rcases List.mem_append.1 hc' with hc' | hc'
      · exact ih.2 c' hc'
      · rw [List.mem_singleton.1 hc']
        obtain ⟨⟨p, d, rest, hd, hp, rfl⟩, _⟩ := ht
        refine ⟨e, ih.1 e List.mem_cons_self, ?_⟩
        obtain ⟨u, rfl⟩ := hp
        rw [saidOf_append, saidOf_heard, List.append_nil]
        have := full e _ hd
        rw [saidOf_append] at this
        rw [← this, List.append_assoc]
        exact List.prefix_append _ _
  exact (key _ _ _ h2).2

/-- C87 fails: no command of the mailer is ended by CRLF as RFC 5321 (2.3.8) demands ... -/
theorem C87_ending_violated (e : Email) : ¬ IsCommand (mailCommand e) ∧ ¬ IsCommand (rcptCommand e) ∧ ¬ IsCommand b!"DATA\n" ∧ ¬ IsCommand b!"QUIT\n" ∧
    (o.getLast? ≠ some c!"\r" → ¬ IsCommand (b!"EHLO " ++ o ++ b!"\n")) := by
  have key : ∀ x : Bytes, ∀ c : Byte, c ≠ c!"\r" → ¬ IsCommand (x ++ [c, c!"\n"]) := by
    rintro x c hc ⟨t, h, _⟩
    have := List.append_inj_right' h rfl
    simp at this
    exact hc this
  refine ⟨?_, ?_, key b!"DAT" c!"A" (by decide), key b!"QUI" c!"T" (by decide), fun ho => ?_⟩
  · have := key (b!"MAIL FROM: <" ++ e.sender) c!">" (by decide)
    simpa [mailCommand] using this
  · have := key (b!"RCPT TO: <" ++ e.to_) c!">" (by decide)
    simpa [rcptCommand] using this
  · rcases List.eq_nil_or_concat o with rfl | ⟨o', c, rfl⟩
    · exact key b!"EHLO" c!" " (by decide)
    · have := key (b!"EHLO " ++ o') c (fun e => ho (by simp [e]))
      simpa using this

/-- C87 fails: ... and an address with a line break is a way to give the server any commands, here a second recipient. -/
theorem C87_injection_violated : ∃ e : Email, mailCommand e = b!"MAIL FROM: <me@x>\n" ++ b!"RCPT TO: <victim@x>\n" ∧ rcptCommand e = b!"RCPT TO: <you@x>\n" :=
  ⟨⟨b!"you@x", b!"me@x>\nRCPT TO: <victim@x", []⟩, by decide, by decide⟩

example : c!"\n" ∉ hello.sender ∧ c!"\n" ∉ hello.to_ := by decide

/-! ### C88 -/

/-- C88 fails: a mailer with nothing to send and no connection does not wait: whatever happens, three steps lead it back to
where it was, for ever. -/
theorem C88_violated {s : MlSt} (h1 : s.pc = .test) (h2 : s.valid = false) (h3 : s.inEmail = false) (h4 : s.queue = []) (h5 : s.stop = false) (h6 : s.term = false) (h7 : s.state ≠ .error)
    (f1 f2 f3 : MFate) : ∃ bad, mrun o [f1, f2, f3] s = some ([], { s with bad := bad }) := by
  have he : s.ends = false := by simp [MlSt.ends, h5, h6]
  have ht : s.take = s := by simp [MlSt.take, h3, h4]
  have hc : s.cur.to_ = [] := by simpa [MlSt.inEmail] using h3
  refine ⟨s.bad || s.null, ?_⟩
  simp only [mrun, mstep, h1, he, h7, ht]
  simp [MlSt.inEmail, hc, h2, h1]

/-- C88 is met while a connection is open: then the thread has no step unless it is woken, a signal arrives or the server
says something. -/
theorem C88_connected_partial {s : MlSt} (hp : s.pc = .poll) (hv : s.valid = true) (f : MFate) (es : List MailEvent) (s' : MlSt) (h : mstep o f s = some (es, s')) :
    (s.waking = true ∧ ∃ r, f = .woken r) ∨ f = .signal ∨ f = .ready := by
  unfold mstep at h
  rw [hp] at h
  dsimp only at h
  rw [if_pos hv] at h
  cases f with
  | woken r =>
    dsimp only at h
    split at h
    · rename_i hw; exact Or.inl ⟨hw, r, rfl⟩
    · cases h
  | signal => simp
  | ready => simp
  | _ => cases h

example : ∃ tr s, MailRun b!"x" (mailInit false false) tr s ∧ decide (s.pc = .test ∧ s.valid = false ∧ s.inEmail = false ∧ s.queue = [] ∧ s.stop = false ∧ s.term = false ∧ s.state ≠ .error) = true :=
  mfound [.inr .start] (by decide +kernel)

/-! ### Further witnesses -/

-- C85_terminate_partial: `terminate()` while the mailer waits for the server's greeting
example : ∃ tr s, MailRun b!"x" (mailInit false false) tr s ∧ decide (s.term = true ∧ s.pc = .poll ∧ s.valid = true) = true :=
  mfound [.inr (.queue hello), .inr .start, .inl .go, .inl .connected, .inr .terminate] (by decide +kernel)
-- C85_stop_partial: `stop()` while it waits, everything being sent
example : ∃ tr s, MailRun b!"x" (mailInit false false) tr s ∧ decide ((s.pc = .connect ∨ s.pc = .poll) ∧ s.stop = true ∧ held s = [] ∧ mailIn tr = [hello]) = true :=
  mfound ([.inr (.queue hello), .inr .start] ++ ((session 100 server).take 133).map .inl ++ [.inl .go, .inl .go, .inr .stop]) (by decide +kernel)
-- C88_connected_partial: it sleeps with an open connection
example : ∃ tr s, MailRun b!"x" (mailInit false false) tr s ∧ decide (s.pc = .poll ∧ s.valid = true ∧ s.waking = false) = true :=
  mfound [.inr (.queue hello), .inr .start, .inl .go, .inl .connected, .inl (.woken false), .inl .go, .inl .go] (by decide +kernel)

end Fcgi.Props
