import Verif.Model.Mail
import Verif.Spec.MailTerms
/-! # Lemmas for the mailer -/
namespace Fcgi.Model
open Fcgi.Spec

/-! ### Lines -/

theorem isLine_strip {l : Bytes} (h : c!"\n" ∉ l) : IsLine (l ++ b!"\n") (stripCr l) := by
  unfold stripCr
  split
  · rename_i hl
    obtain ⟨ys, rfl⟩ := List.getLast?_eq_some_iff.1 hl
    rw [List.dropLast_concat]
    exact ⟨fun hm => h (List.mem_append_left _ hm), Or.inr (by simp)⟩
  · exact ⟨h, Or.inl rfl⟩

theorem reply_strip {l code : Bytes} (h : c!"\n" ∉ l) (hp : code <+: stripCr l) : Reply code (l ++ b!"\n") := by
  obtain ⟨t, ht⟩ := hp
  exact ⟨t, ht ▸ isLine_strip h⟩

theorem take_prefix {l code : Bytes} (h : l.length ≥ code.length ∧ l.take code.length = code) : code <+: l := by
  rw [← h.2]; exact List.take_prefix _ _

theorem prefix_take {l code : Bytes} (h : code <+: l) : l.length ≥ code.length ∧ l.take code.length = code := by
  obtain ⟨t, rfl⟩ := h
  exact ⟨by simp, by simp⟩

theorem line_unique {a b x y : Bytes} (ha : c!"\n" ∉ a) (hb : c!"\n" ∉ b) (h : a ++ c!"\n" :: x = b ++ c!"\n" :: y) : a = b ∧ x = y := by
  induction a generalizing b with
  | nil =>
    cases b with
    | nil => simpa using h
    | cons c b => simp only [List.nil_append, List.cons_append, List.cons.injEq] at h; rw [← h.1] at hb; simp at hb
  | cons c a ih =>
    cases b with
    | nil => simp only [List.nil_append, List.cons_append, List.cons.injEq] at h; rw [h.1] at ha; simp at ha
    | cons d b =>
      simp only [List.cons_append, List.cons.injEq] at h
      obtain ⟨e1, e2⟩ := ih (fun hm => ha (List.mem_cons_of_mem _ hm)) (fun hm => hb (List.mem_cons_of_mem _ hm)) h.2
      rw [h.1, e1]
      exact ⟨rfl, e2⟩

/-- A reply at the beginning of what was heard is the first line of it. -/
theorem strip_reply {code r l x y : Bytes} (hc : ∀ b, code.getLast? = some b → b ≠ c!"\r") (hr : Reply code r) (hl : c!"\n" ∉ l) (h : r ++ x = l ++ c!"\n" :: y) :
    code <+: stripCr l := by
  obtain ⟨t, hn, hraw⟩ := hr
  rcases hraw with rfl | rfl
  · have h' : (code ++ t) ++ c!"\n" :: x = l ++ c!"\n" :: y := by simpa using h
    obtain ⟨rfl, _⟩ := line_unique hn hl h'
    unfold stripCr
    split
    · rename_i hlast
      rcases List.eq_nil_or_concat t with rfl | ⟨t', b, rfl⟩
      · rw [List.append_nil] at hlast
        exact absurd rfl (hc _ hlast)
      · rw [List.concat_eq_append, ← List.append_assoc, List.dropLast_concat]
        exact List.prefix_append _ _
    · exact List.prefix_append _ _
  · have h' : (code ++ t ++ [c!"\r"]) ++ c!"\n" :: x = l ++ c!"\n" :: y := by simpa using h
    obtain ⟨rfl, _⟩ := line_unique (by
      rw [List.mem_append]
      rintro (h | h)
      · exact hn h
      · simp at h) hl h'
    unfold stripCr
    rw [if_pos (by simp), List.dropLast_concat]
    exact List.prefix_append _ _

theorem reply_newline {code r : Bytes} (hr : Reply code r) : c!"\n" ∈ r := by
  obtain ⟨t, _, rfl | rfl⟩ := hr <;> simp

/-! ### Talk -/

@[simp] theorem saidOf_append (c d : List Talk) : saidOf (c ++ d) = saidOf c ++ saidOf d := by simp [saidOf]
@[simp] theorem saidOf_said (b : Bytes) : saidOf (said b) = b := by
  induction b with
  | nil => rfl
  | cons x b ih => simpa [saidOf, said] using ih
@[simp] theorem saidOf_heard (b : Bytes) : saidOf (heard b) = [] := by
  induction b with
  | nil => rfl
  | cons x b ih => simpa [saidOf, heard] using ih

@[simp] theorem heard_append (a b : Bytes) : heard (a ++ b) = heard a ++ heard b := by simp [heard]
@[simp] theorem said_append (a b : Bytes) : said (a ++ b) = said a ++ said b := by simp [said]
@[simp] theorem heard_nil : heard [] = [] := rfl
@[simp] theorem said_nil : said [] = [] := rfl

theorem heard_of_saidOf_nil : ∀ (c : List Talk), saidOf c = [] → ∃ x, c = heard x := by
  intro c
  induction c with
  | nil => intro _; exact ⟨[], rfl⟩
  | cons t c ih =>
    intro h
    cases t with
    | said b => simp [saidOf] at h
    | heard b =>
      obtain ⟨x, rfl⟩ := ih (by simpa [saidOf] using h)
      exact ⟨b :: x, rfl⟩

theorem heard_inj {x y : Bytes} (h : heard x = heard y) : x = y := by
  unfold heard at h
  exact (List.map_inj_right (fun a b e => by cases e; rfl)).1 h

def isHeard : Talk → Bool := fun t => match t with | .heard _ => true | _ => false

theorem after_last_said {p q : List Talk} {a b : Byte} {x y : Bytes} (h : p ++ [.said a] ++ heard x = q ++ [.said b] ++ heard y) : x = y := by
  have key : ∀ (p : List Talk) (a : Byte) (x : Bytes), (p ++ [Talk.said a] ++ heard x).reverse.takeWhile isHeard = (heard x).reverse := by
    intro p a x
    rw [List.reverse_append, List.reverse_append, List.takeWhile_append_of_pos]
    · simp [isHeard]
    · intro t ht
      rw [List.mem_reverse, heard, List.mem_map] at ht
      obtain ⟨_, _, rfl⟩ := ht
      rfl
  have := congrArg (fun l => (l.reverse.takeWhile isHeard)) h
  rw [key, key] at this
  exact heard_inj (List.reverse_inj.1 this)

/-! ### Conversations -/

/-- All the commands. -/
def fullSaid (o : Bytes) (e : Email) : Bytes :=
  (b!"EHLO " ++ o ++ b!"\n") ++ mailCommand e ++ rcptCommand e ++ b!"DATA\n" ++ (e.body.flatten ++ dataMark)

theorem handedOver_said {o : Bytes} {e : Email} {d : List Talk} (h : HandedOver o e d) : saidOf d = fullSaid o e := by
  obtain ⟨greet, ext, r1, r2, r3, _, _, _, _, _, rfl⟩ := h
  simp [fullSaid]

theorem handedOver_ends {o : Bytes} {e : Email} {d : List Talk} (h : HandedOver o e d) : ∃ p, d = p ++ [.said 10] := by
  obtain ⟨greet, ext, r1, r2, r3, _, _, _, _, _, rfl⟩ := h
  refine ⟨heard greet ++ said (b!"EHLO " ++ o ++ b!"\n") ++ heard ext ++ said (mailCommand e) ++ heard r1 ++ said (rcptCommand e) ++ heard r2 ++
    said b!"DATA\n" ++ heard r3 ++ said (e.body.flatten ++ b!"\r\n.\r"), ?_⟩
  simp [said, dataMark]

/-- What has been said so far in each state. -/
def stageSaid (o : Bytes) (e : Email) : MState → Bytes
  | .connected => []
  | .ehlo | .eightbit => b!"EHLO " ++ o ++ b!"\n"
  | .mail => b!"EHLO " ++ o ++ b!"\n" ++ mailCommand e
  | .rcpt => b!"EHLO " ++ o ++ b!"\n" ++ mailCommand e ++ rcptCommand e
  | .data => b!"EHLO " ++ o ++ b!"\n" ++ mailCommand e ++ rcptCommand e ++ b!"DATA\n"
  | _ => fullSaid o e

/-- The conversation so far, at the beginning of a line, in each state. -/
inductive Pre (o : Bytes) (e : Email) : MState → List Talk → Prop where
  | connected : Pre o e .connected []
  | ehlo {greet ext1} (h1 : Reply b!"220 " greet) (h2 : ∀ x ∈ ext1, Reply b!"250-" x) :
      Pre o e .ehlo (heard greet ++ said (b!"EHLO " ++ o ++ b!"\n") ++ heard (List.flatten ext1))
  | eightbit {greet ext1 eight ext2} (h1 : Reply b!"220 " greet) (h2 : ∀ x ∈ ext1, Reply b!"250-" x) (h3 : IsLine eight b!"250-8BITMIME") (h4 : ∀ x ∈ ext2, Reply b!"250-" x) :
      Pre o e .eightbit (heard greet ++ said (b!"EHLO " ++ o ++ b!"\n") ++ heard (List.flatten ext1 ++ eight ++ List.flatten ext2))
  | mail {greet ext} (h1 : Reply b!"220 " greet) (h2 : Extensions ext) :
      Pre o e .mail (heard greet ++ said (b!"EHLO " ++ o ++ b!"\n") ++ heard ext ++ said (mailCommand e))
  | rcpt {greet ext r1} (h1 : Reply b!"220 " greet) (h2 : Extensions ext) (h3 : Reply b!"250 " r1) :
      Pre o e .rcpt (heard greet ++ said (b!"EHLO " ++ o ++ b!"\n") ++ heard ext ++ said (mailCommand e) ++ heard r1 ++ said (rcptCommand e))
  | data {greet ext r1 r2} (h1 : Reply b!"220 " greet) (h2 : Extensions ext) (h3 : Reply b!"250 " r1) (h4 : Reply b!"250 " r2) :
      Pre o e .data (heard greet ++ said (b!"EHLO " ++ o ++ b!"\n") ++ heard ext ++ said (mailCommand e) ++ heard r1 ++ said (rcptCommand e) ++ heard r2 ++ said b!"DATA\n")
  | dump {d} (h : HandedOver o e d) : Pre o e .dump d

theorem Pre.saidSoFar {o e st p} (h : Pre o e st p) : saidOf p = stageSaid o e st := by
  cases h with
  | dump h => exact (handedOver_said h)
  | connected => rfl
  | _ => simp [stageSaid]

theorem some_reply (code : Bytes) (h : c!"\n" ∉ code) : Reply code (code ++ b!"\n") := ⟨[], by simpa [IsLine] using h⟩

/-- Such a beginning can be completed. -/
theorem Pre.viable {o e st p} (h : Pre o e st p) : ∃ d, HandedOver o e d ∧ p <+: d := by
  have r250 := some_reply b!"250 " (by decide)
  have r354 := some_reply b!"354 " (by decide)
  have r220 := some_reply b!"220 " (by decide)
  have e8 : IsLine (b!"250-8BITMIME" ++ b!"\n") b!"250-8BITMIME" := ⟨by decide, Or.inl rfl⟩
  have exts : ∀ ext1 : List Bytes, (∀ x ∈ ext1, Reply b!"250-" x) → Extensions (ext1.flatten ++ (b!"250-8BITMIME" ++ b!"\n") ++ List.flatten [] ++ (b!"250 " ++ b!"\n")) :=
    fun ext1 h => ⟨ext1, [], _, _, rfl, h, by simp, e8, r250⟩
  cases h with
  | connected => exact ⟨_, ⟨_, _, _, _, _, r220, exts [] (by simp), r250, r250, r354, rfl⟩, List.nil_prefix⟩
  | ehlo h1 h2 =>
    refine ⟨_, ⟨_, _, _, _, _, h1, exts _ h2, r250, r250, r354, rfl⟩, ?_⟩
    simp only [heard_append, List.append_assoc]
    simp only [List.prefix_append_right_inj]
    exact List.prefix_append _ _
  | eightbit h1 h2 h3 h4 =>
    refine ⟨_, ⟨_, _, _, _, _, h1, ⟨_, _, _, _, rfl, h2, h4, h3, r250⟩, r250, r250, r354, rfl⟩, ?_⟩
    simp only [heard_append, List.append_assoc]
    simp only [List.prefix_append_right_inj]
    exact List.prefix_append _ _
  | mail h1 h2 =>
    refine ⟨_, ⟨_, _, _, _, _, h1, h2, r250, r250, r354, rfl⟩, ?_⟩
    simp only [List.append_assoc]
    simp only [List.prefix_append_right_inj]
    exact List.prefix_append _ _
  | rcpt h1 h2 h3 =>
    refine ⟨_, ⟨_, _, _, _, _, h1, h2, h3, r250, r354, rfl⟩, ?_⟩
    simp only [List.append_assoc]
    simp only [List.prefix_append_right_inj]
    exact List.prefix_append _ _
  | data h1 h2 h3 h4 =>
    refine ⟨_, ⟨_, _, _, _, _, h1, h2, h3, h4, r354, rfl⟩, ?_⟩
    simp only [List.append_assoc]
    simp only [List.prefix_append_right_inj]
    exact List.prefix_append _ _
  | dump h => exact ⟨_, h, List.prefix_rfl⟩

/-- Not everything has been said. -/
theorem tried_of_short {o : Bytes} {e : Email} {p : List Talk} {x : Bytes} (hv : ∃ d, HandedOver o e d ∧ p <+: d) (hs : (saidOf p).length < (fullSaid o e).length) :
    Tried o e (p ++ heard x) := by
  obtain ⟨d, hd, hp⟩ := hv
  refine ⟨⟨p, d, x, hd, hp, rfl⟩, ?_⟩
  rintro ⟨d', r, rest, hd', hr, he⟩
  have := congrArg (fun c => (saidOf c).length) he
  simp only [saidOf_append, saidOf_heard, List.append_nil, List.length_append, (handedOver_said hd')] at this
  omega

/-- Everything has been said, and the answer is not complete or not what it should be. -/
theorem tried_of_mark {o : Bytes} {e : Email} {d : List Talk} {x : Bytes} (hd : HandedOver o e d)
    (hx : c!"\n" ∉ x ∨ ∃ l, x = l ++ b!"\n" ∧ c!"\n" ∉ l ∧ ¬ b!"250 " <+: stripCr l) : Tried o e (d ++ heard x) := by
  refine ⟨⟨d, d, x, hd, List.prefix_rfl, rfl⟩, ?_⟩
  rintro ⟨d', r, rest, hd', hr, he⟩
  have h1 := congrArg saidOf he
  simp only [saidOf_append, saidOf_heard, List.append_nil, (handedOver_said hd), (handedOver_said hd')] at h1
  obtain ⟨z, rfl⟩ := heard_of_saidOf_nil rest (by simpa using h1.symm)
  obtain ⟨p, rfl⟩ := handedOver_ends hd
  obtain ⟨p', rfl⟩ := handedOver_ends hd'
  have h2 : p ++ [.said 10] ++ heard x = p' ++ [.said 10] ++ heard (r ++ z) := by rw [heard_append, ← List.append_assoc]; exact he
  have h3 := after_last_said h2
  rcases hx with hx | ⟨l, rfl, hl, hbad⟩
  · exact hx (h3 ▸ List.mem_append_left _ (reply_newline hr))
  · exact hbad (strip_reply (y := []) (by decide) hr hl h3.symm)

/-- In the middle of a line. -/
theorem Pre.tried {o e st p} {x : Bytes} (h : Pre o e st p) (hx : c!"\n" ∉ x) : Tried o e (p ++ heard x) := by
  have hv := h.viable
  have hs := h.saidSoFar
  cases h with
  | dump hd => exact tried_of_mark hd (Or.inl hx)
  | _ =>
    refine tried_of_short hv ?_
    rw [hs]
    simp only [stageSaid, fullSaid, mailCommand, rcptCommand, dataMark, List.length_append, List.length_cons, List.length_nil]
    omega

/-! ### A line -/

theorem writeChunks_eq : ∀ (cs : List Bytes) (room : Nat), writeChunks cs room =
    if cs.flatten.length ≤ room then (cs.flatten, some (room - cs.flatten.length)) else (cs.flatten.take room, none) := by
  intro cs
  induction cs with
  | nil => intro room; simp [writeChunks]
  | cons c cs ih =>
    intro room
    unfold writeChunks
    simp only [ih, List.flatten_cons, List.length_append]
    by_cases h : c.length ≤ room
    · rw [if_pos h]
      by_cases h2 : cs.flatten.length ≤ room - c.length
      · rw [if_pos h2, if_pos (by omega)]
        dsimp only
        rw [Nat.sub_sub]
      · rw [if_neg h2, if_neg (by omega)]
        dsimp only
        rw [List.take_append, List.take_of_length_le h]
    · rw [if_neg h, if_neg (by omega)]
      rw [List.take_append_of_le_length (by omega)]

/-- What a line does to a conversation that is under way. -/
inductive Answer (o : Bytes) (s : MlSt) (p : List Talk) (raw : Bytes) (out : Bytes) (s' : MlSt) : Prop where
  | on (v : s'.valid = s.valid) (c : s'.cur = s.cur) (h : Pre o s.cur s'.state (p ++ heard raw ++ said out))
  | off (v : s'.valid = false) (c : s'.cur = s.cur) (h : Tried o s.cur (p ++ heard raw ++ said out))
  | ok (v : s'.valid = s.valid) (c : s'.cur = ⟨[], [], []⟩) (st : s'.state = .quit) (h : Pre o s.cur .dump p) (hr : Reply b!"250 " raw) (ho : out = b!"QUIT\n")
  | okOff (v : s'.valid = false) (c : s'.cur = ⟨[], [], []⟩) (h : Pre o s.cur .dump p) (hr : Reply b!"250 " raw) (ho : out <+: b!"QUIT\n")

theorem short_of_next {o : Bytes} {e : Email} {st st' : MState} {p : List Talk} {cmd : Bytes} {k : Nat} (h : Pre o e st p) (hs : stageSaid o e st' = stageSaid o e st ++ cmd)
    (hle : (stageSaid o e st').length ≤ (fullSaid o e).length) {q : List Talk} (hq : saidOf q = stageSaid o e st) (hk : k < cmd.length) :
    (saidOf (q ++ said (cmd.take k))).length < (fullSaid o e).length := by
  rw [saidOf_append, saidOf_said, hq, List.length_append, List.length_take]
  rw [hs, List.length_append] at hle
  omega

/-- A command is sent, perhaps only in part. -/
theorem tried_of_cut {o : Bytes} {e : Email} {st' : MState} {q : List Talk} {cmd : Bytes} {k : Nat} (h : Pre o e st' (q ++ said cmd)) (hk : k < cmd.length) :
    Tried o e (q ++ said (cmd.take k)) := by
  have hv : ∃ d, HandedOver o e d ∧ q ++ said (cmd.take k) <+: d := by
    obtain ⟨d, hd, hp⟩ := h.viable
    refine ⟨d, hd, List.IsPrefix.trans ?_ hp⟩
    rw [List.prefix_append_right_inj]
    exact (List.take_prefix _ _).map _
  have hs := h.saidSoFar
  have hle : (stageSaid o e st').length ≤ (fullSaid o e).length := by
    cases st' <;> simp only [stageSaid, fullSaid, List.length_append, List.length_nil] <;> omega
  have := tried_of_short (x := []) hv (by
    rw [saidOf_append, saidOf_said] at hs ⊢
    rw [← hs] at hle
    simp only [List.length_append, List.length_take] at hle ⊢
    omega)
  rwa [heard_nil, List.append_nil] at this

theorem tried_bad {o : Bytes} {e : Email} {st : MState} {p : List Talk} {l : Bytes} (h : Pre o e st p) (hl : c!"\n" ∉ l) (hb : st = .dump → ¬ b!"250 " <+: stripCr l) :
    Tried o e (p ++ heard (l ++ b!"\n") ++ said []) := by
  rw [said_nil, List.append_nil]
  have hv := h.viable
  have hs := h.saidSoFar
  cases h with
  | dump hd => exact tried_of_mark hd (Or.inr ⟨l, rfl, hl, hb rfl⟩)
  | _ =>
    refine tried_of_short hv ?_
    rw [hs]
    simp only [stageSaid, fullSaid, mailCommand, rcptCommand, dataMark, List.length_append, List.length_cons, List.length_nil]
    omega

theorem answer_write {o : Bytes} {s : MlSt} {p : List Talk} {raw cmd : Bytes} {room : Nat} {next : MState} {out : Bytes} {s' : MlSt}
    (h : Pre o s.cur next (p ++ heard raw ++ said cmd)) (he : s.write cmd room next = (out, s')) : Answer o s p raw out s' := by
  unfold MlSt.write at he
  split at he
  · cases he; exact .on rfl rfl h
  · cases he
    exact .off rfl rfl (tried_of_cut h (by omega))

theorem take_code {l : Bytes} {a b c : Byte} {d : Byte} (h : l.length ≥ 4 ∧ l.take 3 = [a, b, c]) (hd : l[3]? = some d) : [a, b, c, d] <+: l := by
  match l, h with
  | w :: x :: y :: z :: l, h =>
    simp only [List.take_succ_cons, List.take_zero, List.cons.injEq, and_true] at h
    simp at hd
    obtain ⟨_, rfl, rfl, rfl⟩ := h
    subst hd
    exact ⟨l, rfl⟩

theorem code_take {l : Bytes} {code : Bytes} (hc : code.length = 4) (h : l.length ≥ 4 ∧ l.take 4 = code) : code <+: l :=
  take_prefix (by rw [hc]; exact h)

theorem reply_cases {o : Bytes} {s : MlSt} {p : List Talk} {room : Nat} {out : Bytes} {s' : MlSt} (hp : Pre o s.cur s.state p) (hl : c!"\n" ∉ s.line)
    (he : s.reply o room = (out, s')) :
    Answer o s p (s.line ++ b!"\n") out s' ∧ s'.line = [] ∧ s'.queue = s.queue ∧ s'.pc = .test ∧ s'.stop = s.stop ∧ s'.term = s.term ∧ s'.waking = s.waking ∧ s'.null = s.null := by
  have key : ∀ (out : Bytes) (t : MlSt), Answer o s p (s.line ++ b!"\n") out t →
      Answer o s p (s.line ++ b!"\n") out { t with line := [], bad := t.bad || s.line.isEmpty, pc := .test } := by
    intro out t h
    cases h with
    | on v c h => exact .on v c h
    | off v c h => exact .off v c h
    | ok v c st h hr ho => exact .ok v c st h hr ho
    | okOff v c h hr ho => exact .okOff v c h hr ho
  unfold MlSt.reply at he
  dsimp only at he
  have goal : ∀ (x : Bytes × MlSt), Answer o s p (s.line ++ b!"\n") x.1 x.2 ∧ x.2.queue = s.queue ∧ x.2.stop = s.stop ∧ x.2.term = s.term ∧ x.2.waking = s.waking ∧ x.2.null = s.null →
      (x.1, { x.2 with line := [], bad := x.2.bad || s.line.isEmpty, pc := .test }) = (out, s') →
      Answer o s p (s.line ++ b!"\n") out s' ∧ s'.line = [] ∧ s'.queue = s.queue ∧ s'.pc = .test ∧ s'.stop = s.stop ∧ s'.term = s.term ∧ s'.waking = s.waking ∧ s'.null = s.null := by
    rintro x ⟨ha, hq⟩ he
    cases he
    exact ⟨key _ _ ha, rfl, hq.1, rfl, hq.2⟩
  refine goal _ ?_ he
  clear he goal key
  have hfail : (s.state = .dump → ¬ b!"250 " <+: stripCr s.line) →
      Answer o s p (s.line ++ b!"\n") (([] : Bytes), s.fail).1 (([] : Bytes), s.fail).2 ∧ s.fail.queue = s.queue ∧ s.fail.stop = s.stop ∧ s.fail.term = s.term ∧ s.fail.waking = s.waking ∧ s.fail.null = s.null :=
    fun hb => ⟨.off rfl rfl (tried_bad hp hl hb), rfl, rfl, rfl, rfl, rfl⟩
  have hwrite : ∀ cmd next, Pre o s.cur next (p ++ heard (s.line ++ b!"\n") ++ said cmd) →
      Answer o s p (s.line ++ b!"\n") (s.write cmd room next).1 (s.write cmd room next).2 ∧ (s.write cmd room next).2.queue = s.queue ∧ (s.write cmd room next).2.stop = s.stop ∧
        (s.write cmd room next).2.term = s.term ∧ (s.write cmd room next).2.waking = s.waking ∧ (s.write cmd room next).2.null = s.null := by
    intro cmd next hpre
    refine ⟨answer_write hpre rfl, ?_⟩
    unfold MlSt.write
    split <;> exact ⟨rfl, rfl, rfl, rfl, rfl⟩
  obtain ⟨e, hcur⟩ : ∃ e, s.cur = e := ⟨_, rfl⟩
  obtain ⟨st, hst⟩ : ∃ st, s.state = st := ⟨_, rfl⟩
  rw [hcur, hst] at hp
  rw [hst]
  cases hp with
  | connected =>
    dsimp only
    split
    · rename_i hc
      refine hwrite _ _ ?_
      have := Pre.ehlo (o := o) (e := s.cur) (ext1 := []) (reply_strip hl (code_take rfl hc)) (by simp)
      simpa using this
    · exact hfail (by simp [hst])
  | ehlo h1 h2 =>
    dsimp only
    split
    · rename_i hc
      refine ⟨.on rfl rfl ?_, rfl, rfl, rfl, rfl, rfl⟩
      have := Pre.eightbit (o := o) (e := s.cur) (ext2 := []) h1 h2 (hc ▸ isLine_strip hl) (by simp)
      simpa using this
    · split
      · rename_i hc
        split
        · exact hfail (by simp [hst])
        · split
          · rename_i hd
            refine ⟨.on rfl rfl ?_, rfl, rfl, rfl, rfl, rfl⟩
            have := Pre.ehlo (o := o) (e := s.cur) (ext1 := _ ++ [s.line ++ b!"\n"]) h1 (by
              intro x hx
              rcases List.mem_append.1 hx with hx | hx
              · exact h2 x hx
              · rw [List.mem_singleton.1 hx]; exact reply_strip hl (take_code hc hd))
            rw [hst]
            simpa using this
          · exact hfail (by simp [hst])
      · exact hfail (by simp [hst])
  | eightbit h1 h2 h3 h4 =>
    dsimp only
    split
    · rename_i hc
      split
      · rename_i hd
        refine hwrite _ _ ?_
        have := Pre.mail (o := o) (e := s.cur) h1 ⟨_, _, _, _, rfl, h2, h4, h3, reply_strip hl (take_code hc hd)⟩
        simpa [mailCommand] using this
      · split
        · rename_i hd
          refine ⟨.on rfl rfl ?_, rfl, rfl, rfl, rfl, rfl⟩
          have := Pre.eightbit (o := o) (e := s.cur) (ext2 := _ ++ [s.line ++ b!"\n"]) h1 h2 h3 (by
            intro x hx
            rcases List.mem_append.1 hx with hx | hx
            · exact h4 x hx
            · rw [List.mem_singleton.1 hx]; exact reply_strip hl (take_code hc hd))
          rw [hst]
          simpa using this
        · exact hfail (by simp [hst])
    · exact hfail (by simp [hst])
  | mail h1 h2 =>
    dsimp only
    split
    · rename_i hc
      refine hwrite _ _ ?_
      have := Pre.rcpt (o := o) (e := s.cur) h1 h2 (reply_strip hl (code_take rfl hc))
      simpa [mailCommand, rcptCommand, hcur] using this
    · exact hfail (by simp [hst])
  | rcpt h1 h2 h3 =>
    dsimp only
    split
    · rename_i hc
      refine hwrite _ _ ?_
      have := Pre.data (o := o) (e := s.cur) h1 h2 h3 (reply_strip hl (code_take rfl hc))
      simpa [hcur] using this
    · exact hfail (by simp [hst])
  | data h1 h2 h3 h4 =>
    dsimp only
    split
    · rename_i hc
      have hd : Pre o s.cur .dump _ := Pre.dump ⟨_, _, _, _, _, h1, h2, h3, h4, reply_strip hl (code_take rfl hc), rfl⟩
      rw [hcur] at hd
      rw [writeChunks_eq]
      rw [hcur]
      split
      · rename_i hle heq
        split at heq
        · cases heq
        · rename_i hlt
          cases heq
          refine ⟨.off rfl rfl ?_, rfl, rfl, rfl, rfl, rfl⟩
          have := tried_of_cut (k := room) hd (by simp only [List.length_append]; omega)
          rw [List.take_append_of_le_length (by omega)] at this
          rw [hcur]
          exact this
      · rename_i o' left heq
        split at heq
        · rename_i hle
          cases heq
          dsimp only
          unfold MlSt.write
          split
          · refine ⟨.on rfl rfl ?_, rfl, rfl, rfl, rfl, rfl⟩
            rw [hcur]
            exact hd
          · rename_i hlt
            refine ⟨.off rfl rfl ?_, rfl, rfl, rfl, rfl, rfl⟩
            have := tried_of_cut (k := room) hd (by simp only [List.length_append]; simp only [dataMark] at hlt ⊢; omega)
            rw [List.take_append, List.take_of_length_le hle] at this
            rw [hcur]
            exact this
        · cases heq
    · exact hfail (by simp [hst])
  | dump hd =>
    dsimp only
    split
    · rename_i hc
      have hr := reply_strip hl (code_take (code := b!"250 ") rfl hc)
      unfold MlSt.write
      split
      · exact ⟨.ok rfl rfl rfl (hcur ▸ .dump hd) hr rfl, rfl, rfl, rfl, rfl, rfl⟩
      · exact ⟨.okOff rfl rfl (hcur ▸ .dump hd) hr (List.take_prefix _ _), rfl, rfl, rfl, rfl, rfl⟩
    · rename_i hc
      exact hfail fun _ hp => hc (prefix_take hp)

end Fcgi.Model
