import Verif.Lemmas.Blur
import Verif.Lemmas.ServerSend
import Verif.Spec.Server
/-! # What records say, and servers with the same request class -/
namespace Fcgi.Model
open Fcgi Fcgi.Spec

theorem said_bytes (r : Record) (h : r.WF) : saying r.bytes =
    [r.version, r.type] ++ beDigits 2 r.id ++ beDigits 2 r.content.length ++ [UInt8.ofNat r.padding.length] ++
      r.content.take (if r.type = 3 then 5 else 65536) := by
  obtain ⟨h1, h2, h3⟩ := h
  have e : ∀ n : Nat, beDigits 2 n = [UInt8.ofNat (n / 256), UInt8.ofNat n] := by intro n; simp [beDigits]
  unfold saying Record.bytes
  rw [e, e]
  simp
  rw [show 256 * (r.content.length / 256 % 256) + r.content.length % 256 = r.content.length by omega, List.take_left]

theorem said_meaning {r r' : Record} (h : r.WF) (h' : r'.WF) (e : saying r.bytes = saying r'.bytes) : r.meaning = r'.meaning := by
  rw [said_bytes r h, said_bytes r' h'] at e
  obtain ⟨h1, h2, h3⟩ := h
  obtain ⟨h1', h2', h3'⟩ := h'
  have d : ∀ n : Nat, beDigits 2 n = [UInt8.ofNat (n / 256), UInt8.ofNat n] := by intro n; simp [beDigits]
  rw [d, d, d, d] at e
  simp only [List.cons_append, List.nil_append, List.cons.injEq] at e
  obtain ⟨e1, e2, e3, e4, e5, e6, e7, e8⟩ := e
  have f : ∀ {a b : Nat}, UInt8.ofNat a = UInt8.ofNat b → a % 256 = b % 256 := by
    intro a b h; have := congrArg UInt8.toNat h; simpa using this
  have g1 := f e3; have g2 := f e4; have g3 := f e5; have g4 := f e6; have g5 := f e7
  unfold Record.meaning
  rw [e1, e2, show r.id = r'.id by omega, show r.content.length = r'.content.length by omega, show r.padding.length = r'.padding.length by omega]
  rw [e2] at e8
  by_cases ht : r'.type = 3
  · simp only [ht, if_true] at e8 ⊢; rw [e8]
  · simp only [ht, if_false] at e8 ⊢
    rw [List.take_of_length_le (by omega), List.take_of_length_le (by omega)] at e8
    rw [e8]

end Fcgi.Model
