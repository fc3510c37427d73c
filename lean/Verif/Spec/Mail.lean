import Verif.Base
/-! # Specification vocabulary for the mailer -/
namespace Fcgi.Spec

/-- An email; the text is a list of chunks, as composed by the user. -/
structure Email where
  to_ : Bytes
  sender : Bytes
  body : List Bytes
  deriving DecidableEq

/-- What passes over a connection to the SMTP server: a byte sent to it, or a byte of it read. -/
inductive Talk where
  | said (b : Byte)
  | heard (b : Byte)
  deriving DecidableEq

def said (bs : Bytes) : List Talk := bs.map .said
def heard (bs : Bytes) : List Talk := bs.map .heard

inductive MailEvent where
  | queued (e : Email)
  /-- A new connection to the server. -/
  | connected
  | talk (t : Talk)
  | started | stopped | terminated
  /-- The thread ends. -/
  | ended
  deriving DecidableEq

/-- The emails queued, in order. -/
def lettersIn (tr : List MailEvent) : List Email := tr.filterMap fun e => match e with | .queued e => some e | _ => none

/-- ... those that have a recipient. -/
def mailIn (tr : List MailEvent) : List Email := (lettersIn tr).filter fun e => !e.to_.isEmpty

/-- What concerns the connections. -/
def talkIn (tr : List MailEvent) : List MailEvent := tr.filter fun e => match e with | .connected | .talk _ => true | _ => false

/-- The conversations on successive connections. -/
def conversations (cs : List (List Talk)) : List MailEvent := cs.flatMap fun c => .connected :: c.map .talk

/-! ### SMTP, as far as the mailer uses it (RFC 5321)

Lines of the server end in CRLF (or LF). -/

/-- `raw` is one line, `text` without its end. -/
def IsLine (raw text : Bytes) : Prop := c!"\n" ∉ text ∧ (raw = text ++ b!"\n" ∨ raw = text ++ b!"\r\n")

/-- One line that begins with this. -/
def Reply (code raw : Bytes) : Prop := ∃ text, IsLine raw (code ++ text)

/-- The answer to EHLO: lines "250-...", one of them "250-8BITMIME", and a last one "250 ...". -/
def Extensions (raw : Bytes) : Prop := ∃ (ext1 ext2 : List Bytes) (eight last : Bytes),
  raw = ext1.flatten ++ eight ++ ext2.flatten ++ last ∧ (∀ x ∈ ext1, Reply b!"250-" x) ∧ (∀ x ∈ ext2, Reply b!"250-" x) ∧
  IsLine eight b!"250-8BITMIME" ∧ Reply b!"250 " last

def mailCommand (e : Email) : Bytes := b!"MAIL FROM: <" ++ e.sender ++ b!">\n"
def rcptCommand (e : Email) : Bytes := b!"RCPT TO: <" ++ e.to_ ++ b!">\n"
def dataMark : Bytes := b!"\r\n.\r\n"

/-- The conversation that hands over this email, up to and with the end-of-data mark: every command is sent after the
server has agreed to the one before. -/
def HandedOver (origin : Bytes) (e : Email) (c : List Talk) : Prop := ∃ greet ext r1 r2 r3,
  Reply b!"220 " greet ∧ Extensions ext ∧ Reply b!"250 " r1 ∧ Reply b!"250 " r2 ∧ Reply b!"354 " r3 ∧
  c = heard greet ++ said (b!"EHLO " ++ origin ++ b!"\n") ++ heard ext ++ said (mailCommand e) ++ heard r1 ++ said (rcptCommand e) ++ heard r2 ++
    said b!"DATA\n" ++ heard r3 ++ said (e.body.flatten ++ dataMark)

/-- The conversation hands over this email and the server acknowledges it; then the client says QUIT (unless the connection
fails) and nothing else. -/
def Acked (origin : Bytes) (e : Email) (c : List Talk) : Prop := ∃ d r q rest,
  HandedOver origin e d ∧ Reply b!"250 " r ∧ q <+: b!"QUIT\n" ∧ c = d ++ heard r ++ said q ++ heard rest

/-- The conversation is the beginning of one handing over this email, perhaps followed by something unexpected from the
server; and it has not been acknowledged. -/
def Tried (origin : Bytes) (e : Email) (c : List Talk) : Prop :=
  (∃ p d rest, HandedOver origin e d ∧ p <+: d ∧ c = p ++ heard rest) ∧ ¬ ∃ d r rest, HandedOver origin e d ∧ Reply b!"250 " r ∧ c = d ++ heard r ++ rest

/-- `Mailed origin A cs R`: the conversations `cs`, one after another, are about the emails `A` in order; each email is tried
again until it is acknowledged, and then the next one is begun; the emails `R` remain. -/
inductive Mailed (origin : Bytes) (A : List Email) : List (List Talk) → List Email → Prop where
  | none : Mailed origin A [] A
  | acked {cs e R c} (before : Mailed origin A cs (e :: R)) (h : Acked origin e c) : Mailed origin A (cs ++ [c]) R
  | tried {cs e R c} (before : Mailed origin A cs (e :: R)) (h : Tried origin e c) : Mailed origin A (cs ++ [c]) (e :: R)

/-! ### The receiver of the message data (RFC 5321, 4.1.1.4 and 4.5.2) -/

/-- What the server makes of the bytes after the answer to DATA, at the beginning of a line or not: the message (the dot at the
beginning of a line removed) and what follows the end-of-data mark. -/
def smtpReceive : Bool → Bytes → Option (Bytes × Bytes)
  | true, 46 :: 13 :: 10 :: rest => some ([], rest)
  | true, 46 :: b :: rest => (smtpReceive false (b :: rest)).map fun (m, r) => (m, r)
  | _, 13 :: 10 :: rest => (smtpReceive true rest).map fun (m, r) => (13 :: 10 :: m, r)
  | _, b :: rest => (smtpReceive false rest).map fun (m, r) => (b :: m, r)
  | _, [] => none

/-- A line of the text begins with a dot. -/
def dottedLine (text : Bytes) : Prop := b!"." <+: text ∨ b!"\r\n." <:+: text

/-- A command: one line, ended by CRLF, with no other line break. -/
def IsCommand (raw : Bytes) : Prop := ∃ text, raw = text ++ b!"\r\n" ∧ c!"\r" ∉ text ∧ c!"\n" ∉ text

end Fcgi.Spec
