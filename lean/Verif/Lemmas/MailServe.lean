import Verif.Lemmas.MailRun
import Verif.Spec.MailTerms
/-! # The mailer and a willing server; waking and ending -/
namespace Fcgi.Model
open Fcgi.Spec

theorem mrun_append {o : Bytes} : ∀ (fs gs : List MFate) (s s1 s2 : MlSt) (t t' : List MailEvent), mrun o fs s = some (t, s1) → mrun o gs s1 = some (t', s2) →
    mrun o (fs ++ gs) s = some (t ++ t', s2) := by
  intro fs
  induction fs with
  | nil => intro gs s s1 s2 t t' h1 h2; cases h1; exact h2
  | cons f fs ih =>
    intro gs s s1 s2 t t' h1 h2
    simp only [mrun, List.cons_append] at h1 ⊢
    obtain ⟨⟨es, s0⟩, h3, h4⟩ := Option.bind_eq_some_iff.1 h1
    obtain ⟨⟨t0, s0'⟩, h5, h6⟩ := Option.map_eq_some_iff.1 h4
    cases h6
    rw [h3]
    simp only [Option.bind_some, ih gs s0 _ _ _ _ h5 h2, Option.map_some, List.append_assoc]

theorem read_bytes {o : Bytes} {room : Nat} : ∀ (l : Bytes) (s : MlSt) (buf : Option Byte), c!"\n" ∉ l → s.pc = .read buf →
    ∃ buf', mrun o (l.map fun b => .byte b room) s = some ((heard l).map .talk, { s with line := s.line ++ l, pc := .read buf' }) := by
  intro l
  induction l with
  | nil => intro s buf _ hp; exact ⟨buf, by simp [mrun, heard, ← hp]⟩
  | cons b l ih =>
    intro s buf hn hp
    simp only [List.mem_cons, not_or] at hn
    obtain ⟨buf', h⟩ := ih { s with line := s.line ++ [b], pc := .read (some b) } (some b) hn.2 rfl
    refine ⟨buf', ?_⟩
    simp only [List.map_cons, mrun]
    have : mstep o (.byte b room) s = some ([.talk (.heard b)], { s with line := s.line ++ [b], pc := .read (some b) }) := by
      unfold mstep
      rw [hp]
      dsimp only
      rw [if_neg (fun e => hn.1 e.symm)]
    rw [this]
    simp only [Option.bind_some, h, Option.map_some]
    simp [heard]

theorem one_line {o : Bytes} {room : Nat} {s : MlSt} {e : Email} {st : MState} {l : Bytes} (h : Talking s e st) (he : e.to_ ≠ []) (hst : st ≠ .error) (hn : c!"\n" ∉ l) :
    ∃ buf, mrun o (serve room [l ++ b!"\n"]) s =
      some ((heard (l ++ b!"\n") ++ said (({ s with line := l, pc := .read buf } : MlSt).reply o room).1).map .talk, (({ s with line := l, pc := .read buf } : MlSt).reply o room).2) := by
  have hi : s.inEmail = true := by simp [MlSt.inEmail, h.cur, he]
  have hends : s.ends = false := by simp [MlSt.ends, h.term, hi]
  have htake : s.take = s := by simp [MlSt.take, hi]
  have h3 : mrun o [.go, .go, .ready] s = some ([], { s with pc := .read none }) := by
    simp only [mrun, mstep, h.pc, hends, h.state, hst, htake, h.valid]
    simp
  obtain ⟨buf, h4⟩ := read_bytes (o := o) (room := room) l { s with pc := .read none } none hn rfl
  refine ⟨buf, ?_⟩
  dsimp only at h4
  rw [h.line, List.nil_append] at h4
  have h5 := mrun_append _ _ _ _ _ _ _ h3 (by rw [h.line]; exact h4)
  generalize hr : ({ s with line := l, pc := .read buf } : MlSt).reply o room = x
  have h6 : mrun o [.byte c!"\n" room] { s with line := l, pc := .read buf } = some ((heard b!"\n" ++ said x.1).map .talk, x.2) := by
    have : mstep o (.byte c!"\n" room) { s with line := l, pc := .read buf } = some ((heard b!"\n" ++ said x.1).map .talk, x.2) := by
      unfold mstep
      dsimp only
      rw [if_pos rfl, hr]
      rfl
    simp only [mrun, this, Option.bind_some, Option.map_some, List.append_nil]
  have h7 := mrun_append _ _ _ _ _ _ _ h5 h6
  unfold serve
  simpa [heard, said] using h7

/-- A line the server sends, and what the mailer makes of it. -/
theorem isLine_raw {raw text : Bytes} (h : IsLine raw text) : ∃ l, raw = l ++ b!"\n" ∧ c!"\n" ∉ l ∧ (text.getLast? ≠ some c!"\r" → stripCr l = text) := by
  obtain ⟨hn, rfl | rfl⟩ := h
  · exact ⟨text, rfl, hn, fun h => by unfold stripCr; rw [if_neg h]⟩
  · refine ⟨text ++ b!"\r", by simp, ?_, fun _ => by unfold stripCr; rw [if_pos (by simp), List.dropLast_concat]⟩
    rw [List.mem_append]; rintro (h | h)
    · exact hn h
    · simp at h

theorem reply_raw {code raw : Bytes} (hc : ∀ b, code.getLast? = some b → b ≠ c!"\r") (h : Reply code raw) : ∃ l, raw = l ++ b!"\n" ∧ c!"\n" ∉ l ∧ code <+: stripCr l := by
  have h' := h
  obtain ⟨t, ht⟩ := h
  obtain ⟨l, rfl, hn, _⟩ := isLine_raw ht
  exact ⟨l, rfl, hn, strip_reply (x := []) (y := []) hc h' hn (by simp)⟩

theorem prefix4 {l : Bytes} {a b c d : Byte} (h : [a, b, c, d] <+: l) : (l.length ≥ 4 ∧ l.take 3 = [a, b, c]) ∧ l[3]? = some d ∧ l ≠ [] := by
  obtain ⟨t, rfl⟩ := h
  simp

/-- One exchange. -/
theorem exchange {o : Bytes} {room : Nat} {s : MlSt} {e : Email} {st st' : MState} {raw out : Bytes} {l : Bytes} (h : Talking s e st) (he : e.to_ ≠ []) (hst : st ≠ .error)
    (hraw : raw = l ++ b!"\n") (hn : c!"\n" ∉ l)
    (hr : ∀ buf, (({ s with line := l, pc := .read buf } : MlSt).reply o room).1 = out ∧ (({ s with line := l, pc := .read buf } : MlSt).reply o room).2.state = st' ∧
      (({ s with line := l, pc := .read buf } : MlSt).reply o room).2.valid = true ∧ (({ s with line := l, pc := .read buf } : MlSt).reply o room).2.cur = e ∧
      (({ s with line := l, pc := .read buf } : MlSt).reply o room).2.term = false ∧ (({ s with line := l, pc := .read buf } : MlSt).reply o room).2.queue = s.queue) :
    ∃ s', mrun o (serve room [raw]) s = some ((heard raw ++ said out).map .talk, s') ∧ Talking s' e st' ∧ s'.queue = s.queue := by
  obtain ⟨buf, h1⟩ := one_line (o := o) (room := room) h he hst hn
  obtain ⟨r1, r2, r3, r4, r5, r6⟩ := hr buf
  rw [r1] at h1
  exact ⟨_, hraw ▸ h1, ⟨rfl, r3, r2, rfl, r4, r5⟩, r6⟩

theorem write_all {s : MlSt} {cmd : Bytes} {room : Nat} {next : MState} (h : cmd.length ≤ room) : s.write cmd room next = (cmd, { s with state := next }) := by
  unfold MlSt.write; rw [if_pos h]

section
variable {o : Bytes} {room : Nat} {s : MlSt} {e : Email} {raw : Bytes}

theorem say_ehlo (h : Talking s e .connected) (he : e.to_ ≠ []) (hr : Reply b!"220 " raw) (hroom : (b!"EHLO " ++ o ++ b!"\n").length ≤ room) :
    ∃ s', mrun o (serve room [raw]) s = some ((heard raw ++ said (b!"EHLO " ++ o ++ b!"\n")).map .talk, s') ∧ Talking s' e .ehlo ∧ s'.queue = s.queue := by
  obtain ⟨l, hl, hn, hp⟩ := reply_raw (by decide) hr
  refine exchange h he (by simp) hl hn fun buf => ?_
  have := prefix_take hp
  simp only [List.length_cons, List.length_nil] at this
  unfold MlSt.reply
  simp only [h.state, if_pos this, write_all hroom]
  exact ⟨trivial, trivial, h.valid, h.cur, h.term, trivial⟩

theorem skip_ehlo (h : Talking s e .ehlo) (he : e.to_ ≠ []) (hr : Reply b!"250-" raw) :
    ∃ s', mrun o (serve room [raw]) s = some ((heard raw ++ said []).map .talk, s') ∧ (Talking s' e .ehlo ∨ IsLine raw b!"250-8BITMIME" ∧ Talking s' e .eightbit) ∧ s'.queue = s.queue := by
  obtain ⟨l, hl, hn, hp⟩ := reply_raw (by decide) hr
  by_cases h8 : stripCr l = b!"250-8BITMIME"
  · obtain ⟨s', h1, h2, h3⟩ := exchange (o := o) (room := room) (out := []) (st' := .eightbit) h he (by simp) hl hn fun buf => by
      unfold MlSt.reply
      simp only [h.state, if_pos h8]
      exact ⟨trivial, trivial, h.valid, h.cur, h.term, trivial⟩
    exact ⟨s', h1, Or.inr ⟨hl ▸ h8 ▸ isLine_strip hn, h2⟩, h3⟩
  · obtain ⟨s', h1, h2, h3⟩ := exchange (o := o) (room := room) (out := []) (st' := .ehlo) h he (by simp) hl hn fun buf => by
      obtain ⟨p1, p2, _⟩ := prefix4 hp
      unfold MlSt.reply
      simp only [h.state, if_neg h8, if_pos p1, p2]
      exact ⟨by simp, by simp [h.state], by simp [h.valid], by simp [h.cur], by simp [h.term], by simp⟩
    exact ⟨s', h1, Or.inl h2, h3⟩

theorem see_eight (h : Talking s e .ehlo) (he : e.to_ ≠ []) (hr : IsLine raw b!"250-8BITMIME") :
    ∃ s', mrun o (serve room [raw]) s = some ((heard raw ++ said []).map .talk, s') ∧ Talking s' e .eightbit ∧ s'.queue = s.queue := by
  obtain ⟨l, hl, hn, hs⟩ := isLine_raw hr
  have h8 := hs (by decide)
  refine exchange h he (by simp) hl hn fun buf => ?_
  unfold MlSt.reply
  simp only [h.state, if_pos h8]
  exact ⟨trivial, trivial, h.valid, h.cur, h.term, trivial⟩

theorem skip_eight (h : Talking s e .eightbit) (he : e.to_ ≠ []) (hr : Reply b!"250-" raw) :
    ∃ s', mrun o (serve room [raw]) s = some ((heard raw ++ said []).map .talk, s') ∧ Talking s' e .eightbit ∧ s'.queue = s.queue := by
  obtain ⟨l, hl, hn, hp⟩ := reply_raw (by decide) hr
  refine exchange h he (by simp) hl hn fun buf => ?_
  obtain ⟨p1, p2, _⟩ := prefix4 hp
  unfold MlSt.reply
  simp only [h.state, if_pos p1, p2]
  exact ⟨by simp, by simp [h.state], by simp [h.valid], by simp [h.cur], by simp [h.term], by simp⟩

theorem say_mail (h : Talking s e .eightbit) (he : e.to_ ≠ []) (hr : Reply b!"250 " raw) (hroom : (mailCommand e).length ≤ room) :
    ∃ s', mrun o (serve room [raw]) s = some ((heard raw ++ said (mailCommand e)).map .talk, s') ∧ Talking s' e .mail ∧ s'.queue = s.queue := by
  obtain ⟨l, hl, hn, hp⟩ := reply_raw (by decide) hr
  refine exchange h he (by simp) hl hn fun buf => ?_
  obtain ⟨p1, p2, _⟩ := prefix4 hp
  unfold mailCommand at hroom
  unfold MlSt.reply
  simp only [h.state, if_pos p1, p2, h.cur, write_all hroom, if_true]
  exact ⟨rfl, trivial, h.valid, trivial, h.term, trivial⟩

theorem say_rcpt (h : Talking s e .mail) (he : e.to_ ≠ []) (hr : Reply b!"250 " raw) (hroom : (rcptCommand e).length ≤ room) :
    ∃ s', mrun o (serve room [raw]) s = some ((heard raw ++ said (rcptCommand e)).map .talk, s') ∧ Talking s' e .rcpt ∧ s'.queue = s.queue := by
  obtain ⟨l, hl, hn, hp⟩ := reply_raw (by decide) hr
  refine exchange h he (by simp) hl hn fun buf => ?_
  have := prefix_take hp
  simp only [List.length_cons, List.length_nil] at this
  unfold rcptCommand at hroom
  unfold MlSt.reply
  simp only [h.state, if_pos this, h.cur, write_all hroom]
  exact ⟨rfl, trivial, h.valid, trivial, h.term, trivial⟩

theorem say_data (h : Talking s e .rcpt) (he : e.to_ ≠ []) (hr : Reply b!"250 " raw) (hroom : 5 ≤ room) :
    ∃ s', mrun o (serve room [raw]) s = some ((heard raw ++ said b!"DATA\n").map .talk, s') ∧ Talking s' e .data ∧ s'.queue = s.queue := by
  obtain ⟨l, hl, hn, hp⟩ := reply_raw (by decide) hr
  refine exchange h he (by simp) hl hn fun buf => ?_
  have := prefix_take hp
  simp only [List.length_cons, List.length_nil] at this
  unfold MlSt.reply
  simp only [h.state, if_pos this, write_all (cmd := b!"DATA\n") hroom]
  exact ⟨trivial, trivial, h.valid, h.cur, h.term, trivial⟩

theorem say_body (h : Talking s e .data) (he : e.to_ ≠ []) (hr : Reply b!"354 " raw) (hroom : (e.body.flatten ++ dataMark).length ≤ room) :
    ∃ s', mrun o (serve room [raw]) s = some ((heard raw ++ said (e.body.flatten ++ dataMark)).map .talk, s') ∧ Talking s' e .dump ∧ s'.queue = s.queue := by
  obtain ⟨l, hl, hn, hp⟩ := reply_raw (by decide) hr
  refine exchange h he (by simp) hl hn fun buf => ?_
  have := prefix_take hp
  simp only [List.length_cons, List.length_nil] at this
  simp only [List.length_append, dataMark, List.length_cons, List.length_nil] at hroom
  have hle : e.body.flatten.length ≤ room := by omega
  have hle' : (b!"\r\n.\r\n").length ≤ room - e.body.flatten.length := by simp only [List.length_cons, List.length_nil]; omega
  unfold MlSt.reply
  simp only [h.state, if_pos this, h.cur, writeChunks_eq, if_pos hle, write_all hle']
  exact ⟨rfl, trivial, h.valid, trivial, h.term, trivial⟩

/-- The last exchange. -/
theorem say_quit (h : Talking s e .dump) (he : e.to_ ≠ []) (hr : Reply b!"250 " raw) (hroom : 5 ≤ room) :
    ∃ s', mrun o (serve room [raw]) s = some ((heard raw ++ said b!"QUIT\n").map .talk, s') ∧ s'.state = .quit ∧ s'.inEmail = false ∧ s'.queue = s.queue := by
  obtain ⟨l, hl, hn, hp⟩ := reply_raw (by decide) hr
  obtain ⟨buf, h1⟩ := one_line (o := o) (room := room) h he (by simp) hn
  have := prefix_take hp
  simp only [List.length_cons, List.length_nil] at this
  refine ⟨(({ s with line := l, pc := .read buf } : MlSt).reply o room).2, ?_, ?_⟩
  · rw [hl, h1]
    unfold MlSt.reply
    simp only [h.state, if_pos this, write_all (cmd := b!"QUIT\n") hroom]
  · unfold MlSt.reply
    simp only [h.state, if_pos this, write_all (cmd := b!"QUIT\n") hroom]
    exact ⟨trivial, rfl, rfl⟩

end

/-- A reply that does not have the code asked for: the mailer gives up this connection. -/
theorem give_up {o : Bytes} {room : Nat} {s : MlSt} {e : Email} {st : MState} {l : Bytes} (h : Talking s e st) (he : e.to_ ≠ []) (hn : c!"\n" ∉ l)
    (hbad : st = .connected ∧ ¬ b!"220 " <+: stripCr l ∨ (st = .mail ∨ st = .rcpt ∨ st = .dump) ∧ ¬ b!"250 " <+: stripCr l ∨ st = .data ∧ ¬ b!"354 " <+: stripCr l ∨
      st = .ehlo ∧ b!"250 " <+: stripCr l) :
    ∃ s', mrun o (serve room [l ++ b!"\n"]) s = some ((heard (l ++ b!"\n")).map .talk, s') ∧ s'.state = .error ∧ s'.valid = false ∧ s'.cur = e := by
  obtain ⟨buf, h1⟩ := one_line (o := o) (room := room) h he (by rcases hbad with h | h | h | h <;> (try rcases h with ⟨h | h | h, _⟩) <;> simp_all) hn
  refine ⟨(({ s with line := l, pc := .read buf } : MlSt).reply o room).2, ?_⟩
  have key : ∀ code : Bytes, code.length = 4 → ¬ code <+: stripCr l → ¬ ((stripCr l).length ≥ 4 ∧ (stripCr l).take 4 = code) := fun code hc hb hh => hb (code_take hc hh)
  rcases hbad with ⟨rfl, hb⟩ | ⟨hst, hb⟩ | ⟨rfl, hb⟩ | ⟨rfl, hb⟩
  · rw [h1]
    unfold MlSt.reply
    simp only [h.state, if_neg (key _ rfl hb), said_nil, List.append_nil]
    exact ⟨trivial, rfl, rfl, h.cur⟩
  · rcases hst with rfl | rfl | rfl
    all_goals
      rw [h1]
      unfold MlSt.reply
      simp only [h.state, if_neg (key _ rfl hb), said_nil, List.append_nil]
      exact ⟨trivial, rfl, rfl, h.cur⟩
  · rw [h1]
    unfold MlSt.reply
    simp only [h.state, if_neg (key _ rfl hb), said_nil, List.append_nil]
    exact ⟨trivial, rfl, rfl, h.cur⟩
  · obtain ⟨p1, p2, _⟩ := prefix4 hb
    have h8 : stripCr l ≠ b!"250-8BITMIME" := by intro e; rw [e] at p2; simp at p2
    rw [h1]
    unfold MlSt.reply
    simp only [h.state, if_neg h8, if_pos p1, p2, if_true, said_nil, List.append_nil]
    exact ⟨trivial, rfl, rfl, h.cur⟩

end Fcgi.Model
