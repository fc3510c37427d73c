import Verif.Lemmas.ServerMgmt
import Verif.Lemmas.ServerDone
import Verif.Props.Wire
/-! # Answers to management records, as records -/
namespace Fcgi.Model
open Fcgi.Spec Fcgi.Props
variable {U : Type} [Transmits U]

/-- The record with which the server answers a management record of unknown type `t`; of its content only the first byte means something. -/
def unknownTypeRecord (g0 : UInt8) (g : Bytes) (t : UInt8) : Record := ⟨1, 11, 0, t :: g, [], g0⟩

/-- The seven bytes that mean nothing. -/
def replyRest (g : Nat → UInt8) : Bytes := garbage (fun i => g (9 + i)) 7

theorem replyRest_length (g) : (replyRest g).length = 7 := by simp [replyRest, garbage]

theorem unknownTypeRecord_wf (g0 : UInt8) (g : Bytes) (hg : g.length = 7) (t : UInt8) : (unknownTypeRecord g0 g t).WF := by
  unfold Record.WF unknownTypeRecord; simp [hg]

theorem record_type (r : Record) : r.bytes[1]? = some r.type := by simp [Record.bytes]
theorem record_len (r : Record) : 8 ≤ r.bytes.length := by simp [Record.bytes, beDigits]

theorem mgmt_unknown (g : Nat → UInt8) (r : Record) (c : Nat) (ht : r.type ≠ 9) :
    mgmtSends g (recordMsg r) c = ([(c, (unknownTypeRecord (g 7) (replyRest g) r.type).bytes, false)], false) := by
  have := (C07_partial r.bytes (record_len r) (g 7) (replyRest g) (replyRest_length g)).2 r.type (record_type r) ht 1
  unfold mgmtSends
  simp only [recordMsg, if_true]
  unfold replyRest at this
  rw [this]
  rfl

theorem mgmt_values_none (g : Nat → UInt8) (r : Record) (c : Nat) (ht : r.type = 9) (hp : ¬ ∃ nv enc rest, EncPair nv enc ∧ r.bytes.drop 8 = enc ++ rest) :
    mgmtSends g (recordMsg r) c = ([], false) := by
  have := (C07_partial r.bytes (record_len r) (g 7) (replyRest g) (replyRest_length g)).1 ⟨by rw [record_type, ht], hp⟩ 0
  unfold mgmtSends
  simp only [recordMsg, if_true]
  unfold replyRest at this
  rw [this]
  rfl

theorem mgmt_values_some (g : Nat → UInt8) (r : Record) (c : Nat) (ht : r.type = 9) {name value enc rest} (h1 : EncPair (name, value) enc)
    (h2 : r.bytes.drop 8 = enc ++ rest) :
    mgmtSends g (recordMsg r) c = ((managementAnswer name).toList.map fun d => (c, d, false), true) := by
  have hs : r.bytes = r.bytes.take 8 ++ enc ++ rest := by rw [List.append_assoc, ← h2, List.take_append_drop]
  have hl : (r.bytes.take 8).length = 8 := by have := record_len r; simp; omega
  have ht' : (r.bytes.take 8)[1]? = some 9 := by
    rw [List.getElem?_take_of_lt (by omega), record_type, ht]
  have := C07_violated (r.bytes.take 8) enc rest name value hl ht' h1 (g 7) (replyRest g) 1
  rw [← hs] at this
  unfold mgmtSends
  simp only [recordMsg, if_true]
  unfold replyRest at this
  rw [this]
  simp

/-- No answer closes the connection. -/
theorem mgmt_kill (g : Nat → UInt8) (m : Message) (socket : Nat) : ∀ x ∈ (mgmtSends g m socket).1, x.2.2 = false := by
  unfold mgmtSends
  intro x hx
  split at hx
  · split at hx
    · obtain ⟨d, _, rfl⟩ := List.mem_map.1 hx; rfl
    · obtain ⟨d, _, rfl⟩ := List.mem_map.1 hx; rfl
    · cases hx
  · cases hx

section
variable {P : SrvProg U} [OfLibrary P] {tr : List MEvent} {ops : List TOp} {s : Srv U} {c : Nat} {rs : List Record} {tail : Bytes}

theorem filterMap_sublist_mem {α β} {f : α → Option β} {l : List α} {n : Nat} {y : β} (h : y ∈ (l.take n).filterMap f) : ∃ x ∈ l, f x = some y := by
  obtain ⟨x, hx, hf⟩ := List.mem_filterMap.1 h
  exact ⟨x, List.mem_of_mem_take hx, hf⟩

/-- Management messages are management records of the peer. -/
theorem managed_record (h : SrvRun P srvInit tr ops s) (wf : ∀ r ∈ rs, r.WF) (rest : Incomplete tail) (bytes : arrived c ops = stream rs ++ tail)
    (m : Message) (hm : (m, c) ∈ managedOf tr) : ∃ r ∈ rs, r.id = 0 ∧ m = recordMsg r := by
  have h1 : (m, c) ∈ notedOf tr := by
    rw [run_own (srv_parts h).m]; exact List.mem_append_left _ hm
  have h2 : (m, c) ∈ (s.t.msgs.take s.given).filterMap toNote := by
    rw [(srv_mgmt h).nt]; exact List.mem_append_left _ h1
  obtain ⟨y, hy, hf⟩ := filterMap_sublist_mem h2
  unfold toNote at hf
  split at hf
  · rename_i h0
    simp only [Option.some.injEq, Prod.mk.injEq] at hf
    have hy' : y ∈ msgsOf c s.t := by
      unfold msgsOf; rw [List.mem_filter]; exact ⟨hy, by simp [hf.2]⟩
    obtain ⟨⟨k, _, hfr⟩, _⟩ := C09_fragmentation P.recvHeap ops s.t (srv_parts h).t c rs tail wf rest bytes
    have key : y ∈ (rs.take k).map (messageFor c) → ∃ r ∈ rs, r.id = 0 ∧ m = recordMsg r := by
      intro hh
      obtain ⟨r, hr, rfl⟩ := List.mem_map.1 hh
      have hr' := List.mem_of_mem_take hr
      refine ⟨r, hr', ?_, ?_⟩
      · simp only [messageFor] at h0
        have := congrArg UInt16.toNat h0
        have hlt := (wf r hr').1
        simp at this
        omega
      · rw [← hf.1]; rfl
    rcases hfr with hfr | ⟨_, hfr⟩
    · rw [hfr] at hy'; exact key hy'
    · rw [hfr] at hy'
      rcases List.mem_append.1 hy' with hy' | hy'
      · exact key hy'
      · simp only [List.mem_singleton] at hy'
        subst hy'
        simp [goneMsg, badFcgiId] at h0
  · cases hf

theorem sent_all {x : Bytes × Bool} (hx : x ∈ sentTo c ops) : (c, x) ∈ sentAll ops := by
  rw [sentTo_all] at hx
  obtain ⟨y, hy, rfl⟩ := List.mem_map.1 hx
  obtain ⟨h1, h2⟩ := List.mem_filter.1 hy
  rw [decide_eq_true_eq] at h2
  rw [← h2]; exact h1

/-- What is sent with id 0 answers a management record. -/
theorem sent_answer (h : SrvRun P srvInit tr ops s) (wf : ∀ r ∈ rs, r.WF) (rest : Incomplete tail) (bytes : arrived c ops = stream rs ++ tail)
    (x : Bytes × Bool) (hx : x ∈ sentTo c ops) (h0 : frameId x.1 = 0) : ∃ r ∈ rs, r.id = 0 ∧ (c, x) ∈ (mgmtSends P.replyHeap (recordMsg r) c).1 := by
  have := (srv_mgmt h).ss (c, x) (sent_all hx) h0
  obtain ⟨⟨m, c'⟩, hy, hm⟩ := List.mem_flatMap.1 this
  have hc : c = c' := (mgmt_sent _ _ _ _ hm).1
  subst hc
  obtain ⟨r, hr, hid, rfl⟩ := managed_record h wf rest bytes m hy
  exact ⟨r, hr, hid, hm⟩

end

end Fcgi.Model
