import Verif.Model.Settings
/-! # Property C145: the settings of the SQL connection and of the mailer -/
namespace Fcgi.Props
open Fcgi Fcgi.Model Fcgi.Spec

theorem portText_decimal (p : UInt16) : IsDecimal (portText p) p.toNat := by
  have key : ∀ n : Nat, (Nat.toDigits 10 n).map (fun c => UInt8.ofNat c.toNat) ≠ [] ∧ (∀ c ∈ (Nat.toDigits 10 n).map (fun c => UInt8.ofNat c.toNat), 48 ≤ c ∧ c ≤ 57) ∧
      decimalValue ((Nat.toDigits 10 n).map (fun c => UInt8.ofNat c.toNat)) = n := by
    have hd : ∀ d : Fin 10, (48 ≤ UInt8.ofNat (Nat.digitChar d.val).toNat ∧ UInt8.ofNat (Nat.digitChar d.val).toNat ≤ 57) ∧
        (UInt8.ofNat (Nat.digitChar d.val).toNat).toNat - 48 = d.val := by decide
    intro n
    induction n using Nat.strongRecOn with
    | _ n ih =>
      rw [Nat.toDigits_eq_if (by decide)]
      split
      · rename_i hn
        have := hd ⟨n, hn⟩
        refine ⟨by simp, by simpa using this.1, ?_⟩
        simp only [List.map_cons, List.map_nil, decimalValue, List.foldl_cons, List.foldl_nil]
        have := this.2
        dsimp only at this
        omega
      · rename_i hn
        have h1 := ih (n / 10) (by omega)
        have h2 := hd ⟨n % 10, Nat.mod_lt _ (by omega)⟩
        refine ⟨by simp, ?_, ?_⟩
        · intro c hc
          rw [List.map_append] at hc
          rcases List.mem_append.1 hc with hc | hc
          · exact h1.2.1 c hc
          · simp at hc; subst hc; exact h2.1
        · have h3 := h1.2.2
          unfold decimalValue at h3 ⊢
          rw [List.map_append, List.foldl_append, h3]
          simp only [List.map_cons, List.map_nil, List.foldl_cons, List.foldl_nil]
          have := h2.2
          dsimp only at this
          omega
  exact key p.toNat

/-- Only the first `init()` counts. -/
theorem C145_first (i : SqlInit) (more : List SqlInit) (m : MailInit) (moreM : List MailInit) :
    (i :: more).foldl sqlInit none = sqlInit none i ∧ (m :: moreM).foldl mailerInit none = mailerInit none m := by
  constructor
  · simp only [List.foldl_cons]
    generalize hc : sqlInit none i = c
    have hs : c ≠ none := by rw [← hc]; simp [sqlInit]
    clear hc
    induction more with
    | nil => rfl
    | cons x xs ih =>
      have hx : sqlInit c x = c := by cases c with | none => exact absurd rfl hs | some c => rfl
      rw [List.foldl_cons, hx, ih]
  · simp only [List.foldl_cons]
    generalize hc : mailerInit none m = c
    have hs : c ≠ none := by rw [← hc]; simp [mailerInit]
    clear hc
    induction moreM with
    | nil => rfl
    | cons x xs ih =>
      have hx : mailerInit c x = c := by cases c with | none => exact absurd rfl hs | some c => rfl
      rw [List.foldl_cons, hx, ih]

/-- The database is reached with exactly what `init()` was told, unless a name is empty or looks like a connection string; there are as many
connections as asked for; and the callback gets the message type. -/
theorem C145_sql_partial (i : SqlInit) (hh : i.host ≠ []) (hd : i.db ≠ []) (hu : i.user ≠ []) (hp : i.password ≠ []) (hc : looksLikeConnString i.db = false)
    (hm : -2 ^ 31 ≤ i.messageType ∧ i.messageType < 2 ^ 31) :
    ∃ c port, sqlInit none i = some c ∧ IsDecimal port i.port.toNat ∧ c.connect = ⟨some i.host, some port, .name i.db, some i.user, some i.password⟩ ∧
      c.messageOf = i.messageType ∧ ∀ n, c.connected n = true ↔ n = i.concurrency.toNat := by
  refine ⟨_, portText i.port, rfl, portText_decimal _, ?_, ?_, ?_⟩
  · simp only [SqlConf.connect, setdbLogin, argument, if_neg hh, if_neg hd, if_neg hu, if_neg hp, hc, if_neg (portText_decimal i.port).1, Bool.false_eq_true, if_false]
  · unfold SqlConf.messageOf toInt
    dsimp only
    have : (UInt32.ofNat (i.messageType % 2 ^ 32).toNat).toNat = (i.messageType % 2 ^ 32).toNat := by
      rw [UInt32.toNat_ofNat']; exact Nat.mod_eq_of_lt (by omega)
    rw [this]
    split <;> omega
  · intro n; simp [SqlConf.connected]

/-- A database whose name contains an equals sign, or begins like a URI, is not asked for by its name. -/
theorem C145_name_violated (i : SqlInit) (hc : looksLikeConnString i.db = true) : ∃ c, sqlInit none i = some c ∧ c.connect.db = .connString i.db := by
  have hd : i.db ≠ [] := by intro h; rw [h] at hc; revert hc; decide
  exact ⟨_, rfl, by simp only [SqlConf.connect, setdbLogin, if_neg hd, hc, if_true]⟩

theorem waits_toInt (u : UInt32) : waits (toInt u) = if u.toNat < 2 ^ 31 then some u.toNat else none := by
  have hlt := u.toNat_lt
  unfold waits toInt
  by_cases h : u.toNat < 2 ^ 31
  · simp only [if_pos h]
    rw [if_neg (by omega)]
    rfl
  · simp only [if_neg h]
    rw [if_pos (by omega)]

/-- The wait before the next attempt to connect is as many seconds as asked for (up to 24 days), and there is none when connected: then the thread waits for events. -/
theorem C145_retry_partial (i : SqlInit) (h : i.retry ≤ 2147483) :
    ∃ c, sqlInit none i = some c ∧ waits (c.timeout false) = some (i.retry.toNat * 1000) ∧ waits (c.timeout true) = none := by
  refine ⟨_, rfl, ?_, ?_⟩
  · have h' : i.retry.toNat ≤ 2147483 := by rw [UInt32.le_iff_toNat_le] at h; simpa using h
    have hm : (i.retry * 1000).toNat = i.retry.toNat * 1000 := by
      rw [UInt32.toNat_mul]; exact Nat.mod_eq_of_lt (show i.retry.toNat * 1000 < 2 ^ 32 by omega)
    unfold SqlConf.timeout
    rw [waits_toInt, show (if false = true then (4294967295 : UInt32) else i.retry * 1000) = i.retry * 1000 from rfl]
    rw [hm, if_pos (by omega)]
  · unfold SqlConf.timeout
    rw [if_pos rfl]; decide

/-- Longer intervals become shorter ones, or eternity: then a server that is away for a moment is never asked again unless something else wakes the thread. -/
theorem C145_retry_violated (i : SqlInit) (h : 2147483 < i.retry) :
    ∃ c, sqlInit none i = some c ∧ waits (c.timeout false) ≠ some (i.retry.toNat * 1000) ∧ (i.retry ≤ 4294967 → waits (c.timeout false) = none) := by
  have h' : 2147483 < i.retry.toNat := by rw [UInt32.lt_iff_toNat_lt] at h; simpa using h
  have hlt := i.retry.toNat_lt
  have hm : (i.retry * 1000).toNat = i.retry.toNat * 1000 % 2 ^ 32 := by rw [UInt32.toNat_mul]; rfl
  refine ⟨_, rfl, ?_, ?_⟩
  · unfold SqlConf.timeout
    rw [waits_toInt, show (if false = true then (4294967295 : UInt32) else i.retry * 1000) = i.retry * 1000 from rfl]
    rw [hm]
    split
    · intro hw; simp only [Option.some.injEq] at hw; omega
    · intro hw; cases hw
  · intro h2
    have h2' : i.retry.toNat ≤ 4294967 := by rw [UInt32.le_iff_toNat_le] at h2; simpa using h2
    unfold SqlConf.timeout
    rw [waits_toInt, show (if false = true then (4294967295 : UInt32) else i.retry * 1000) = i.retry * 1000 from rfl]
    rw [hm, Nat.mod_eq_of_lt (show i.retry.toNat * 1000 < 2 ^ 32 by omega), if_neg (by omega)]

/-- The mailer keeps what it is told. -/
theorem C145_mailer (i : MailInit) : ∃ c, mailerInit none i = some c ∧ c.host = i.host ∧ c.origin = i.origin ∧ IsDecimal c.port i.port.toNat ∧ c.wait = i.retry.toNat * 1000 :=
  ⟨_, rfl, rfl, rfl, portText_decimal _, rfl⟩

example : looksLikeConnString b!"shop" = false ∧ looksLikeConnString b!"a=b" = true ∧ portText 5432 = b!"5432" := by decide
example : (30 : UInt32) ≤ 2147483 ∧ (2147483 : UInt32) < 3000000 := by decide
end Fcgi.Props
