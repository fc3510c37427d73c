import Verif.Lemmas.Protocol
/-! # Properties C01–C08: the wire protocol -/
namespace Fcgi.Props
open Fcgi Fcgi.Model Fcgi.Spec

/-! ## C01 big-endian integers -/

/-- Storing then reading returns the value, wherever the object lies in memory. -/
theorem C01_roundtrip16 (v : UInt16) (pre rest : Bytes) :
    read16 (pre ++ to16 v ++ rest) pre.length = .ok v := by
  obtain ⟨a, b, h⟩ := length2 (to16_length v)
  have hv := be16_toNat v
  rw [h] at hv ⊢
  have : from16 a b = v := UInt16.toNat_inj.1 ((from16_toNat a b).trans (by simpa [beValue] using hv))
  rw [read16_app, this]
theorem C01_roundtrip32 (v : UInt32) (pre rest : Bytes) :
    read32 (pre ++ to32 v ++ rest) pre.length = .ok v := by
  obtain ⟨a, b, c, d, h⟩ := length4 (to32_length v)
  have hv := be32_toNat v
  rw [h] at hv ⊢
  have : from32 a b c d = v :=
    UInt32.toNat_inj.1 ((from32_toNat a b c d).trans (by simpa [beValue] using hv))
  rw [read32_app, this]
theorem C01_roundtrip64 (v : UInt64) (pre rest : Bytes) :
    read64 (pre ++ to64 v ++ rest) pre.length = .ok v := by
  obtain ⟨a, b, c, d, e, f, g, i, h⟩ := length8 (to64_length v)
  have hv := be64_toNat v
  rw [h] at hv ⊢
  have : from64 a b c d e f g i = v :=
    UInt64.toNat_inj.1 ((from64_toNat a b c d e f g i).trans (by simpa [beValue] using hv))
  rw [read64_app, this]

/-- The object representation is the base-256 digits, most significant first. -/
theorem C01_network_order (a : UInt16) (b : UInt32) (c : UInt64) :
    to16 a = beDigits 2 a.toNat ∧ to32 b = beDigits 4 b.toNat ∧ to64 c = beDigits 8 c.toNat := by
  refine ⟨?_, ?_, ?_⟩
  · simp [to16_eq, beDigits]
  · simp [to32_eq, beDigits]
  · simp [to64_eq, beDigits]

/-- Reading any two/four/eight bytes gives the number they denote in base 256. -/
theorem C01_read_value (pre l rest : Bytes) :
    (l.length = 2 → ∃ v, read16 (pre ++ l ++ rest) pre.length = .ok v ∧ v.toNat = beValue l ∧ to16 v = l) ∧
    (l.length = 4 → ∃ v, read32 (pre ++ l ++ rest) pre.length = .ok v ∧ v.toNat = beValue l ∧ to32 v = l) ∧
    (l.length = 8 → ∃ v, read64 (pre ++ l ++ rest) pre.length = .ok v ∧ v.toNat = beValue l ∧ to64 v = l) := by
  refine ⟨fun h => ?_, fun h => ?_, fun h => ?_⟩
  · obtain ⟨a, b, rfl⟩ := length2 h
    refine ⟨_, read16_app _ _ _ _, by simp [from16_toNat, beValue], ?_⟩
    have ha := a.toNat_lt; have hb := b.toNat_lt
    rw [to16_eq, from16_toNat]
    simp only [List.cons.injEq, and_true, ← UInt8.toNat_inj, UInt8.toNat_ofNat']
    omega
  · obtain ⟨a, b, c, d, rfl⟩ := length4 h
    refine ⟨_, read32_app _ _ _ _ _ _, by simp [from32_toNat, beValue], ?_⟩
    have ha := a.toNat_lt; have hb := b.toNat_lt; have hc := c.toNat_lt; have hd := d.toNat_lt
    rw [to32_eq, from32_toNat]
    simp only [List.cons.injEq, and_true, ← UInt8.toNat_inj, UInt8.toNat_ofNat']
    omega
  · obtain ⟨a, b, c, d, e, f, g, i, rfl⟩ := length8 h
    refine ⟨_, read64_app _ _ _ _ _ _ _ _ _ _, by simp [from64_toNat, beValue], ?_⟩
    have ha := a.toNat_lt; have hb := b.toNat_lt; have hc := c.toNat_lt; have hd := d.toNat_lt
    have he := e.toNat_lt; have hf := f.toNat_lt; have hg := g.toNat_lt; have hi := i.toNat_lt
    rw [to64_eq, from64_toNat]
    simp only [List.cons.injEq, and_true, ← UInt8.toNat_inj, UInt8.toNat_ofNat']
    omega

example : to32 0xdeadbeef = [0xde, 0xad, 0xbe, 0xef] := by decide
example : read16 [0x12, 0x34, 0x56] 1 = .ok 0x3456 := by decide
example : read64 (to64 0x0102030405060708) 0 = .ok 0x0102030405060708 := by decide +kernel

/-! ## C02 the name/value header decoder -/

/-- The decoder never reads outside its buffer, wherever it is started. -/
theorem C02_safe (buf : Bytes) (data : Nat) : ∃ r, processParamHeader buf data = .ok r :=
  processParamHeader_safe buf data

/-- The decoder succeeds exactly when the unread input starts with a complete name-value pair, and
then delimits exactly that pair's name and value. -/
theorem C02_exact (pre input : Bytes) (n v e : Nat) :
    processParamHeader (pre ++ input) pre.length = .ok (some (n, v, e)) ↔
    ∃ name value enc rest, EncPair (name, value) enc ∧ input = enc ++ rest ∧
      e = pre.length + enc.length ∧ v + value.length = e ∧ n + name.length = v ∧
      slice (pre ++ input) n v = name ∧ slice (pre ++ input) v e = value := by
  constructor
  · intro h
    obtain ⟨nv, enc, rest, hp, hr, he, hv, hn, h1, h2⟩ := processParamHeader_sound _ _ _ _ _ h
    exact ⟨nv.1, nv.2, enc, rest, hp, hr, he, by omega, by omega, h1, h2⟩
  · rintro ⟨name, value, enc, rest, hp, rfl, he0, hv0, hn0, h1, h2⟩
    obtain ⟨ln, lv, hln, hlv, he⟩ := id hp
    obtain ⟨n', v', h, _⟩ := processParamHeader_complete pre enc rest (name, value) hp
    obtain ⟨nv, enc', rest', hp', hr', he', hv', hn', h1', h2'⟩ := processParamHeader_sound _ _ _ _ _ h
    rw [h]
    have hlen : enc.length = enc'.length := by
      simp only [List.length_append] at he'; omega
    obtain ⟨rfl, rfl⟩ := List.append_inj hr' hlen
    -- the encoding determines the pair
    obtain ⟨ln', lv', hln', hlv', he2⟩ := hp'
    rw [he] at he2
    have p1 := paramLen_complete [] ln (lv ++ (name ++ value)) _ hln
    have p2 := paramLen_complete [] ln' (lv' ++ (nv.1 ++ nv.2)) _ hln'
    have e12 : ln ++ (lv ++ (name ++ value)) = ln' ++ (lv' ++ (nv.1 ++ nv.2)) := by
      simpa using he2
    rw [e12, p2] at p1
    simp only [List.nil_append, Res.ok.injEq, Option.some.injEq, Prod.mk.injEq] at p1
    obtain ⟨rfl, e3⟩ := List.append_inj e12 p1.2.symm
    have p3 := paramLen_complete [] lv (name ++ value) _ hlv
    have p4 := paramLen_complete [] lv' (nv.1 ++ nv.2) _ hlv'
    rw [e3, p4] at p3
    simp only [List.nil_append, Res.ok.injEq, Option.some.injEq, Prod.mk.injEq] at p3
    have e1 := p1.1; have e2 := p3.1
    simp only [List.length_append] at e1 e2 ⊢
    simp only [Res.ok.injEq, Option.some.injEq, Prod.mk.injEq]
    simp only [List.length_append] at he' hv' hn'
    omega

/-- Incomplete input is reported, never guessed: if no pair is complete the decoder says so. -/
theorem C02_incomplete (pre input : Bytes)
    (h : ¬ ∃ name value enc rest, EncPair (name, value) enc ∧ input = enc ++ rest) :
    processParamHeader (pre ++ input) pre.length = .ok none := by
  obtain ⟨r, hr⟩ := processParamHeader_safe (pre ++ input) pre.length
  match r, hr with
  | none, hr => exact hr
  | some (n, v, e), hr =>
    obtain ⟨name, value, enc, rest, hp, hi, _⟩ := (C02_exact _ _ _ _ _).1 hr
    exact absurd ⟨name, value, enc, rest, hp, hi⟩ h

example : processParamHeader [9, 1, 2, 65, 66, 67, 9] 1 = .ok (some (3, 4, 6)) := by decide
/-- A pair announcing more data than there is. -/
example : processParamHeader [0x80, 0, 1, 0, 2, 65, 66, 67] 0 = .ok none := by decide +kernel
example : processParamHeader [0x80, 0, 0, 1, 2, 65, 66, 67] 0 = .ok (some (5, 6, 8)) := by decide +kernel

/-! ## C03 parameter lists -/

/-- Decoding an encoded list pair by pair yields exactly the list, in order, and uses up the buffer. -/
theorem C03_roundtrip (nvs : List (Bytes × Bytes)) (buf : Bytes) (h : EncPairs nvs buf)
    (fuel : Nat) (hf : buf.length < fuel) :
    paramLoop (fun acc n v => .ok (acc ++ [(n, v)])) fuel buf 0 [] = .ok nvs := by
  have hlen : nvs.length ≤ buf.length := by
    clear hf
    induction h with
    | nil => simp
    | cons hp _ ih => have := EncPair.length_pos hp; simp; omega
  have := paramLoop_pairs (fun acc n v => .ok (acc ++ [(n, v)])) nvs fuel [] buf [] [] (by omega) h
  simp only [List.nil_append, List.append_nil, List.length_nil] at this
  rw [this, foldlM_ok, foldl_snoc]
  simp only [Res.ok_bind, List.nil_append]
  obtain ⟨k, hk⟩ : ∃ k, fuel - nvs.length = k + 1 := ⟨fuel - nvs.length - 1, by omega⟩
  rw [hk, paramLoop, processParamHeader_end _ _ (Nat.le_refl _)]
  rfl

/-- On any input at all the loop terminates, having consumed at most the buffer. -/
theorem C03_terminates (buf : Bytes) :
    ∃ nvs, paramLoop (fun acc n v => .ok (acc ++ [(n, v)])) (buf.length + 1) buf 0
      ([] : List (Bytes × Bytes)) = .ok nvs := by
  have h := paramLoop_terminates (σ := List (Bytes × Bytes)) (fun acc n v => .ok (acc ++ [(n, v)]))
    (by simp) buf (buf.length + 1) 0 [] (by omega)
  have hub : ∀ fuel d s k, paramLoop (σ := List (Bytes × Bytes))
      (fun acc n v => .ok (acc ++ [(n, v)])) fuel buf d s ≠ .ub k := by
    intro fuel
    induction fuel with
    | zero => intro d s k; simp [paramLoop]
    | succ f ih =>
      intro d s k
      unfold paramLoop
      obtain ⟨r, hr⟩ := processParamHeader_safe buf d
      rw [hr]
      match r with
      | none => simp
      | some (n, v, e) => simp only [Res.ok_bind]; exact ih _ _ _
  cases hc : paramLoop (σ := List (Bytes × Bytes)) (fun acc n v => .ok (acc ++ [(n, v)]))
      (buf.length + 1) buf 0 [] with
  | ok nvs => exact ⟨nvs, rfl⟩
  | ub k => exact absurd hc (hub _ _ _ _)
  | stuck => exact absurd hc h

example : EncPairs [(b!"A", b!"xy"), (b!"", b!"z")] [1, 2, 65, 120, 121, 0, 0x80, 0, 0, 1, 122] :=
  .cons (b := [1, 2, 65, 120, 121]) ⟨[1], [2], .short 1 (by decide), .short 2 (by decide), rfl⟩
    (.cons (b := [0, 0x80, 0, 0, 1, 122]) ⟨[0], [0x80, 0, 0, 1], .short 0 (by decide),
      .long 1 (by decide), rfl⟩ .nil)

/-! ## C05 record sizes -/

theorem C05_record_size (contentLength : Nat) :
    let content := min contentLength 65535
    let size := getRecordSize contentLength
    size % 8 = 0 ∧ 8 + content ≤ size ∧ size < 8 + content + 8 ∧
      content < 2^16 ∧ size - 8 - content < 2^8 ∧ size ≤ 65544 := by
  simp only [getRecordSize]
  split <;> omega

example : getRecordSize 0 = 8 ∧ getRecordSize 1 = 16 ∧ getRecordSize 100000 = 65544 := by decide

/-! ## C06 management replies -/

/-- What holds: the bytes after the header are the advertised pair, for every name and value below
128 bytes, and the record is a multiple of eight bytes. (`_partial`: the header's content length is
wrong, see `C06_violated`.) -/
theorem C06_partial (name value : Bytes) (hn : name.length < 128) (hv : value.length < 128) :
    (∃ enc pad, EncPair (name, value) enc ∧ pad.length < 8 ∧
      (managementReply name value).drop 8 = enc ++ pad) ∧
    (managementReply name value).take 4 = [1, 10, 0, 0] ∧
    (managementReply name value).length % 8 = 0 := by
  refine ⟨⟨[UInt8.ofNat name.length, UInt8.ofNat value.length] ++ name ++ value,
    List.replicate ((8 - 1) - (8 + 2 + name.length + value.length - 1) % 8) 0,
    ⟨[UInt8.ofNat name.length], [UInt8.ofNat value.length], .short _ hn, .short _ hv, rfl⟩, ?_, ?_⟩,
    ?_, ?_⟩
  · simp; omega
  · simp only [managementReply, headerBytes, to16]
    simp only [List.cons_append, List.nil_append, List.append_assoc, List.drop_succ_cons,
      List.drop_zero]
  · simp [managementReply, headerBytes, to16]
  · simp [managementReply, headerBytes, to16]; omega

/-- The three actual replies carry the three variables of the FastCGI specification with the values
10, 50 and 1. -/
theorem C06_values :
    maxConnsReply.drop 8 = [14, 2] ++ b!"FCGI_MAX_CONNS" ++ b!"10" ++ List.replicate 6 0 ∧
    maxReqsReply.drop 8 = [13, 2] ++ b!"FCGI_MAX_REQS" ++ b!"50" ++ List.replicate 7 0 ∧
    mpxsConnsReply.drop 8 = [15, 1] ++ b!"FCGI_MPXS_CONNS" ++ b!"1" ++ List.replicate 6 0 := by
  decide +kernel

/-- The property fails: every reply is two bytes longer than its header says, for all names and
values, so a peer that frames by the header takes the last two bytes of the record for the start
of the next one. -/
theorem C06_violated (name value : Bytes) (hn : name.length < 128) (hv : value.length < 128) :
    (managementReply name value).length = framedLength (managementReply name value) + 2 := by
  have : (managementReply name value).length = 8 + 2 + name.length + value.length +
      ((8 - 1) - (8 + 2 + name.length + value.length - 1) % 8) := by
    simp [managementReply, headerBytes, to16]; omega
  rw [this]
  have h2 : (((managementReply name value).drop 4).take 2) =
      to16 (UInt16.ofNat (name.length + value.length)) := by
    simp [managementReply, headerBytes, to16]
  have h3 : (((managementReply name value).drop 6).take 1) =
      [UInt8.ofNat ((8 - 1) - (8 + 2 + name.length + value.length - 1) % 8)] := by
    simp [managementReply, headerBytes, to16]
  rw [framedLength, h2, h3, be16_toNat]
  simp [beValue]
  omega

/-- Consequence for the three actual replies: whatever the application sends next, the peer does not
find it where it looks for it. -/
theorem C06_desync (next : Bytes) :
    ∀ r ∈ [maxConnsReply, maxReqsReply, mpxsConnsReply],
      (r ++ next).drop (framedLength r) = [0, 0] ++ next := by
  intro r hr
  simp only [List.mem_cons, List.not_mem_nil, or_false] at hr
  rcases hr with rfl | rfl | rfl
  · have h : framedLength maxConnsReply = 30 := by decide +kernel
    rw [h, show maxConnsReply = maxConnsReply.take 30 ++ [0, 0] by decide +kernel]
    rfl
  · have h : framedLength maxReqsReply = 30 := by decide +kernel
    rw [h, show maxReqsReply = maxReqsReply.take 30 ++ [0, 0] by decide +kernel]
    rfl
  · have h : framedLength mpxsConnsReply = 30 := by decide +kernel
    rw [h, show mpxsConnsReply = mpxsConnsReply.take 30 ++ [0, 0] by decide +kernel]
    rfl

/-! ## C07 management records -/

/-- What holds: a GET_VALUES record without a complete pair ends at once with no reply, and any
other type is answered by exactly one UNKNOWN_TYPE record naming it. -/
theorem C07_partial (msg : Bytes) (hlen : 8 ≤ msg.length) (g0 : UInt8) (g : Bytes) (hg : g.length = 7) :
    ((msg[1]? = some 9 ∧ ¬ ∃ nv enc rest, EncPair nv enc ∧ msg.drop 8 = enc ++ rest) →
      ∀ fuel, localHandler (fuel+1) msg g0 g = .done []) ∧
    (∀ t, msg[1]? = some t → t ≠ 9 → ∀ fuel, localHandler fuel msg g0 g =
      .done [(⟨1, 11, 0, t :: g, [], g0⟩ : Record).bytes]) := by
  constructor
  · rintro ⟨ht, hno⟩ fuel
    have hb : msg = msg.take 8 ++ msg.drop 8 := by simp
    have hl : (msg.take 8).length = 8 := by simp; omega
    have : processParamHeader msg 8 = .ok none := by
      have := C02_incomplete (msg.take 8) (msg.drop 8)
        (by rintro ⟨n, v, enc, rest, h1, h2⟩; exact hno ⟨(n, v), enc, rest, h1, h2⟩)
      rwa [← hb, hl] at this
    simp [localHandler, ht, getValuesLoop, this]
  · intro t ht hne fuel
    have : g.take 7 = g := by rw [← hg]; simp
    simp [localHandler, ht, hne, unknownTypeReply, Record.bytes, headerBytes, this, beDigits, hg]
    rw [show to16 0 = [0, 0] by decide, show to16 8 = [0, 8] by decide]
    rfl

/-- The property fails: once a GET_VALUES record holds one complete pair the handler thread never
gets out of the loop, and if the name is a known one it queues one more reply on every round. -/
theorem C07_violated (hdr enc rest : Bytes) (name value : Bytes) (hh : hdr.length = 8)
    (ht : hdr[1]? = some 9) (hp : EncPair (name, value) enc) (g0 : UInt8) (g : Bytes) (fuel : Nat) :
    localHandler fuel (hdr ++ enc ++ rest) g0 g =
      .running (List.replicate fuel (managementAnswer name).toList).flatten := by
  obtain ⟨n, v, h, h1, h2⟩ := processParamHeader_complete hdr enc rest (name, value) hp
  rw [hh] at h
  have := getValuesLoop_forever _ _ _ _ h fuel []
  rw [h1] at this
  have ht' : (hdr ++ enc ++ rest)[1]? = some 9 := by
    rw [List.append_assoc, List.getElem?_append_left (by omega), ht]
  rw [List.append_assoc] at ht' ⊢
  simp only [localHandler, ht', if_true, this, List.nil_append]

/-- Concrete witness: asking for FCGI_MPXS_CONNS, as the specification allows. -/
example : ∀ fuel, localHandler fuel
    ([1, 9, 0, 0, 0, 17, 0, 0] ++ ([15, 0] ++ b!"FCGI_MPXS_CONNS") ++ []) 0 [] =
      .running (List.replicate fuel mpxsConnsReply) := by
  intro fuel
  rw [C07_violated [1, 9, 0, 0, 0, 17, 0, 0] ([15, 0] ++ b!"FCGI_MPXS_CONNS") []
    b!"FCGI_MPXS_CONNS" [] (by rfl) (by rfl) ⟨[15], [0], .short 15 (by decide), .short 0 (by decide), rfl⟩]
  rw [show (managementAnswer b!"FCGI_MPXS_CONNS").toList = [mpxsConnsReply] from rfl]
  simp

/-- Each recognised name is answered with its own reply and nothing else is. -/
theorem C07_answers (name : Bytes) (r : Bytes) :
    managementAnswer name = some r ↔
      (name = b!"FCGI_MAX_CONNS" ∧ r = maxConnsReply) ∨ (name = b!"FCGI_MAX_REQS" ∧ r = maxReqsReply) ∨
      (name = b!"FCGI_MPXS_CONNS" ∧ r = mpxsConnsReply) := by
  constructor
  · intro h
    unfold managementAnswer at h
    split at h <;> (try split at h) <;> simp_all
  · rintro (⟨rfl, rfl⟩ | ⟨rfl, rfl⟩ | ⟨rfl, rfl⟩) <;> rfl

example : localHandler 1 [1, 9, 0, 0, 0, 1, 0, 0, 5] 0 [] = .done [] := by decide +kernel
example : localHandler 1 [1, 42, 0, 0, 0, 0, 0, 0] 7 [1,2,3,4,5,6,7] =
    .done [[1, 11, 0, 0, 0, 8, 0, 7, 42, 1, 2, 3, 4, 5, 6, 7]] := by decide +kernel

/-! ## C08 request identifiers -/

/-- The table order is the lexicographic order on (socket, id). -/
theorem C08_lexicographic (x y : RequestId) :
    x.less y = true ↔ x.socket < y.socket ∨ (x.socket = y.socket ∧ x.id.toNat < y.id.toNat) := by
  unfold RequestId.less
  split
  · rename_i h; simp [h, UInt16.lt_iff_toNat_lt]
  · rename_i h; simp [h]

/-- It is a strict total order. -/
theorem C08_strict_total (x y z : RequestId) :
    x.less x = false ∧ (x.less y = true → y.less z = true → x.less z = true) ∧
    (x.less y = true ∨ x = y ∨ y.less x = true) := by
  refine ⟨?_, ?_, ?_⟩
  · rw [← Bool.not_eq_true, C08_lexicographic]; omega
  · simp only [C08_lexicographic]; omega
  · simp only [C08_lexicographic]
    obtain ⟨s, i⟩ := x; obtain ⟨t, j⟩ := y
    simp only [RequestId.mk.injEq, ← UInt16.toNat_inj]; omega

/-- The identifiers of one socket are contiguous, and all of them with a usable id sort before the
special id of that socket. -/
theorem C08_grouped (x y z : RequestId) (h : x.socket = z.socket) (h1 : x.less y = true)
    (h2 : y.less z = true) : y.socket = x.socket := by
  simp only [C08_lexicographic] at *; omega
theorem C08_bad_last (x : RequestId) (h : x.id ≠ badFcgiId) :
    x.less ⟨x.socket, badFcgiId⟩ = true := by
  rw [C08_lexicographic]
  have := x.id.toNat_lt
  have h' : x.id.toNat ≠ 65535 := fun e => h (UInt16.toNat_inj.1 e)
  right; simp [badFcgiId]; omega
/-- Searching the table by socket alone agrees with the order on identifiers. -/
theorem C08_socket_search (x y : RequestId) (s : Nat) :
    (x.lessSocket s = true ↔ x.socket < s) ∧ (RequestId.socketLess s x = true ↔ s < x.socket) ∧
    (x.less y = true → y.lessSocket s = true → x.lessSocket s = true) ∧
    (x.less y = true → RequestId.socketLess s x = true → RequestId.socketLess s y = true) := by
  simp only [C08_lexicographic, RequestId.lessSocket, RequestId.socketLess, decide_eq_true_eq]
  refine ⟨trivial, trivial, ?_, ?_⟩ <;> omega

example : (⟨3, 9⟩ : RequestId).less ⟨4, 1⟩ = true ∧ (⟨3, 9⟩ : RequestId).less ⟨3, 10⟩ = true ∧
    (⟨3, 9⟩ : RequestId).less ⟨2, 10⟩ = false := by decide

end Fcgi.Props
