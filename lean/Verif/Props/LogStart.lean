import Verif.Model.LogStart
import Verif.Lemmas.Utf8Full
/-! # C141: the names in the log -/
namespace Fcgi.Props
open Fcgi Fcgi.Model Fcgi.Spec

private theorem all_none {b : Bytes} (h : ∀ t, ¬ Utf8Of b t) : utf8All b = none := by
  cases e : utf8All b with
  | none => rfl
  | some t => exact absurd ((utf8All_iff _ _).1 e) (h t)

/-- C141: if the names of the host and of the program are UTF-8, they are the ones in the log, with the number of the process. -/
theorem C141_partial (level pid : Nat) (host name : Bytes) (h p : List UInt32) (hh : Utf8Of host h) (hp : Utf8Of name p) :
    logStart level (some host) name pid =
      .ok (h.map UInt32.toNat) (p.map UInt32.toNat ++ [91] ++ (Nat.toDigits 10 pid).map Char.toNat ++ [93]) := by
  simp only [logStart, getHostname, getProgram, (utf8All_iff _ _).2 hh, (utf8All_iff _ _).2 hp]
  rfl

/-- C141: in a program that logs no warnings, names that are not are replaced. -/
theorem C141_quiet_partial (level pid : Nat) (host name : Bytes) (hl : level ≤ 1) : ∃ h p, logStart level (some host) name pid = .ok h p ∧
    ((∀ t, ¬ Utf8Of host t) → h = ascii "localhost") ∧ ((∀ t, ¬ Utf8Of name t) → p = ascii "unknown[" ++ (Nat.toDigits 10 pid).map Char.toNat ++ [93]) := by
  have hl' : ¬ 1 < level := by omega
  have h1 : ∃ h, getHostname level (some host) = .ok h ∧ ((∀ t, ¬ Utf8Of host t) → h = ascii "localhost") := by
    cases e : utf8All host with
    | some t => exact ⟨wideChars t, by simp only [getHostname, e], fun x => absurd ((utf8All_iff _ _).1 e) (x t)⟩
    | none => exact ⟨ascii "localhost", by simp only [getHostname, e, if_neg hl'], fun _ => rfl⟩
  have h2 : ∃ p, getProgram level name pid = .ok p ∧ ((∀ t, ¬ Utf8Of name t) → p = ascii "unknown[" ++ (Nat.toDigits 10 pid).map Char.toNat ++ [93]) := by
    cases e : utf8All name with
    | some t => exact ⟨_, by simp only [getProgram, e]; rfl, fun x => absurd ((utf8All_iff _ _).1 e) (x t)⟩
    | none => exact ⟨_, by simp only [getProgram, e, if_neg hl']; rfl, fun _ => rfl⟩
  obtain ⟨h, e1, k1⟩ := h1
  obtain ⟨p, e2, k2⟩ := h2
  exact ⟨h, p, by simp only [logStart, e1, e2], k1, k2⟩

/-- C141 fails: in a program that logs warnings, a name of the host that is not UTF-8 is warned of with the name of the host and of the program that are not there yet,
before `main`; and so is a name of the program. -/
theorem C141_early_violated (level pid : Nat) (host name : Bytes) (hl : 1 < level) :
    ((∀ t, ¬ Utf8Of host t) → logStart level (some host) name pid = .early) ∧
    ((∃ t, Utf8Of host t) → (∀ t, ¬ Utf8Of name t) → logStart level (some host) name pid = .early) := by
  refine ⟨fun h => ?_, ?_⟩
  · simp only [logStart, getHostname, all_none h, if_pos hl]
  · rintro ⟨t, ht⟩ h
    simp only [logStart, getHostname, (utf8All_iff _ _).2 ht, getProgram, all_none h, if_pos hl]

/-- C141 fails: if `gethostname` fails, the length of an array without content is taken. -/
theorem C141_fails_violated (level pid : Nat) (name : Bytes) : logStart level none name pid = .indeterminate := rfl

/-- The names "web1" and "./app"; and a name that is not UTF-8. -/
example : logStart 4 (some b!"web1") b!"./app" 12 = .ok (ascii "web1") (ascii "./app[12]") ∧ logStart 4 (some [0xff]) b!"./app" 12 = .early ∧
    logStart 1 (some [0xff]) [0xc3, 0x28] 7 = .ok (ascii "localhost") (ascii "unknown[7]") := by decide +kernel

end Fcgi.Props
