import Verif.Model.HttpText
import Verif.Spec.Text
namespace Fcgi.Model
open Fcgi Fcgi.Spec

theorem pctDigit_hex : ∀ c : UInt8, (pctDigit c).map UInt8.toNat = hexValue c :=
  byte_forall (by decide +kernel)

theorem pct_combine : ∀ h : Fin 16, ∀ l : Fin 16,
    (UInt8.ofNat h.val <<< 4 ||| UInt8.ofNat l.val) = UInt8.ofNat (16 * h.val + l.val) := by decide +kernel

theorem hexValue_lt {c : UInt8} {n : Nat} (h : hexValue c = some n) : n < 16 := by
  unfold hexValue at h
  split at h
  · cases h; omega
  · split at h
    · cases h; omega
    · split at h
      · cases h; omega
      · cases h

theorem pctDigit_of_hex {c : UInt8} {n : Nat} (h : hexValue c = some n) : pctDigit c = some (UInt8.ofNat n) := by
  have := pctDigit_hex c
  rw [h] at this
  cases hp : pctDigit c with
  | none => simp [hp] at this
  | some v => simp [hp] at this; subst this; simp

theorem pctDecode_esc (x y : UInt8) {h l : Nat} (s : Bytes) (hx : hexValue x = some h) (hy : hexValue y = some l) :
    pctDecode .normal (37 :: x :: y :: s) = UInt8.ofNat (16 * h + l) :: pctDecode .normal s := by
  have h1 := pct_combine ⟨h, hexValue_lt hx⟩ ⟨l, hexValue_lt hy⟩
  simp only at h1
  simp [pctDecode, pctDigit_of_hex hx, pctDigit_of_hex hy, h1]

/-- Correctly encoded text is decoded correctly. -/
theorem pctDecode_urlText {out s : Bytes} (h : UrlText out s) : percentEscapedToRealBytes out = s := by
  unfold percentEscapedToRealBytes
  induction h with
  | nil => rfl
  | plain c hc _ ih => simp [pctDecode, hc, ih]
  | plus _ ih => simp [pctDecode, ih]
  | esc x y hx hy _ ih => rw [pctDecode_esc x y _ hx hy, ih]

theorem pctDecode_length : ∀ (st : PctState) (s : Bytes), (pctDecode st s).length ≤ s.length := by
  intro st s
  induction s generalizing st with
  | nil => cases st <;> simp [pctDecode]
  | cons c s ih =>
    cases st with
    | normal =>
      unfold pctDecode
      split
      · have := ih (.first 0); simp; omega
      · split
        · have := ih .normal; simp; omega
        · have := ih .normal; simp; omega
    | first d => unfold pctDecode; exact Nat.le_trans (ih _) (by simp)
    | second d => unfold pctDecode; have := ih .normal; simp; omega

end Fcgi.Model
