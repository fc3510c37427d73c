import Verif.Model.Base64
/-! # Model of HTTP sessions (include/fastcgi++/http.hpp 423-490, 524-603, 684-745; src/http.cpp 673-698) -/
namespace Fcgi.Model

/-- http.hpp 423-491 `SessionId`: 15 bytes and the time of last use.  (`operator<` and `==` compare the
bytes.) -/
structure SessionId where
  data : Bytes
  timestamp : Int
  deriving DecidableEq, Repr

/-- http.hpp 428, 431. -/
def sessionIdSize : Nat := 15
def sessionIdStringLength : Nat := 20

/-- http.cpp 682-696: the constructor from text.  `garbage` is what the memory of `m_data` held: it is not
initialised before decoding into it. -/
def sessionIdOfText (garbage : Bytes) (text : List Int) (now : Int) : Res SessionId := do
  let r ← base64Decode sessionIdSize (text.take (min sessionIdStringLength text.length))
  return ⟨r.2 ++ garbage.drop r.2.length, now⟩

/-- http.hpp 493-504: `operator<<`. -/
def showSessionId (x : SessionId) : Res Bytes := base64Encode x.data

/-- http.hpp 524-545 `Sessions<T>`: the map from identifier bytes to time of last use (the mutable part of
the key) and data; the time shown as a cookie's expiration instead of its text.  Only insertion, search
and removal by key are used of `std::map`, so an association list with distinct keys stands for it.
All public operations hold the mutex, so operations are atomic. -/
structure Sessions (T : Type) where
  keepAlive : Nat
  cleanupTime : Int
  expirationTime : Int
  sessions : List (Bytes × Int × T)

/-- http.hpp 735-745 `setExpiration`. -/
def Sessions.setExpiration {T} (s : Sessions T) : Sessions T := { s with expirationTime := s.cleanupTime + s.keepAlive }

/-- http.hpp 553-558: the constructor; `now` is `std::time(nullptr)`. -/
def newSessions {T} (keepAlive : Nat) (now : Int) : Sessions T :=
  Sessions.setExpiration { keepAlive := keepAlive, cleanupTime := now + keepAlive, expirationTime := 0, sessions := [] }

/-- http.hpp 684-698 `generate`.  `draws` are the identifiers (bytes and time of creation) the successive
calls of `SessionId()` (http.cpp 673-681) make. -/
def Sessions.generate {T} (s : Sessions T) (d : T) : List (Bytes × Int) → Res (Sessions T × SessionId)
  | [] => .stuck
  | (id, now) :: draws =>
    if (s.sessions.lookup id).isSome then s.generate d draws
    else .ok ({ s with sessions := (id, now, d) :: s.sessions }, ⟨id, now⟩)

/-- http.hpp 707-719: removal of expired sessions. -/
def Sessions.cleanup {T} (s : Sessions T) (oldest t1 : Int) : Sessions T :=
  Sessions.setExpiration { s with
    sessions := s.sessions.filter (fun x => ¬ x.2.1 < oldest), cleanupTime := t1 + s.keepAlive }

/-- http.hpp 700-733 `get`; `now`, `t1` and `t2` are the values of `std::time(nullptr)` at lines 704, 717
and in `refresh` (http.hpp 441-444). -/
def Sessions.get {T} (s : Sessions T) (id : Bytes) (now t1 t2 : Int) : Sessions T × Option T :=
  let oldest := now - s.keepAlive
  let s := if now ≥ s.cleanupTime then s.cleanup oldest t1 else s
  match s.sessions.lookup id with
  | some (last, d) =>
    if last < oldest then ({ s with sessions := s.sessions.filter (fun x => x.1 ≠ id) }, none)
    else ({ s with sessions := s.sessions.map (fun x => if x.1 = id then (id, t2, x.2.2) else x) }, some d)
  | none => (s, none)

/-- http.hpp 588-592 `erase`. -/
def Sessions.erase {T} (s : Sessions T) (id : Bytes) : Sessions T :=
  { s with sessions := s.sessions.filter (fun x => x.1 ≠ id) }

/-- http.hpp 571-575 `size`. -/
def Sessions.size {T} (s : Sessions T) : Nat := s.sessions.length

/-- A call on the store. -/
inductive SessionCall (T : Type) where
  | generate (d : T) (draws : List (Bytes × Int))
  | get (id : Bytes) (now t1 t2 : Int)
  | erase (id : Bytes)

end Fcgi.Model
