import Verif.Model.SqlStatus
/-! # C140: what a result says about itself -/
namespace Fcgi.Props
open Fcgi Fcgi.Model Fcgi.Spec

/-- C140: `status()` is `noResult` exactly if there is no result, and otherwise the status the server gave, for all statuses of queries sent as this library sends them; the
three it cannot have are called fatal errors. -/
theorem C140_status (res : Option PgResult) :
    (sqlStatus res = .noResult ↔ res = none) ∧
    (∀ r, res = some r → r.status.later = false → (sqlStatus res).means = some r.status) ∧
    ∀ r, res = some r → r.status.later = true → sqlStatus res = .fatalError := by
  cases res with
  | none => exact ⟨⟨fun _ => rfl, fun _ => rfl⟩, (by intro r h; cases h), (by intro r h; cases h)⟩
  | some r =>
    refine ⟨⟨fun h => ?_, fun h => (by cases h)⟩, ?_, ?_⟩
    · exfalso
      revert h
      unfold sqlStatus
      dsimp only
      cases r.status <;> decide
    · intro r' h hl
      cases h
      revert hl
      unfold sqlStatus
      dsimp only
      cases r.status <;> decide
    · intro r' h hl
      cases h
      revert hl
      unfold sqlStatus
      dsimp only
      cases r.status <;> decide

/-- C140: `rows()` and `columns()` are those of the result. -/
theorem C140_rows (r : PgResult) (hv : r.Valid) : sqlRows (some r) = r.rows ∧ sqlColumns (some r) = r.columns ∧ sqlRows none = 0 ∧ sqlColumns none = 0 := by
  obtain ⟨h1, h2, _⟩ := hv
  refine ⟨?_, rfl, rfl, rfl⟩
  simp only [sqlRows, ntuples]
  omega

/-- C140: `null()` is false exactly for the cells there are that are not NULL. -/
theorem C140_null (res : Option PgResult) (row column : Int) :
    sqlNull res row column = false ↔ ∃ r v, res = some r ∧ 0 ≤ row ∧ row < r.rows ∧ 0 ≤ column ∧ column < r.columns ∧ r.cell row.toNat column.toNat = some v := by
  unfold sqlNull getisnull
  cases res with
  | none => simp
  | some r =>
    dsimp only
    split
    · rename_i h
      cases hc : r.cell row.toNat column.toNat with
      | none => simp [hc]
      | some v => simp [hc, h]
    · rename_i h
      constructor
      · intro x; simp at x
      · rintro ⟨r', v, e, h1, h2, h3, h4, _⟩
        cases e
        exact absurd ⟨h1, h2, h3, h4⟩ h

/-- C140: `verify()` of a result declared to have no columns is 0 exactly if there are none, and no rows. -/
theorem C140_none (res : Option PgResult) (hv : ∀ r, res = some r → r.Valid) :
    verifyNone res = 0 ↔ ∀ r, res = some r → r.columns = 0 ∧ r.rows = 0 := by
  cases res with
  | none => simp [verifyNone, sqlColumns, sqlRows, nfields, ntuples]
  | some r =>
    obtain ⟨h1, h2, _, _⟩ := C140_rows r (hv r rfl)
    simp only [verifyNone, h1, h2]
    split
    · rename_i h
      refine ⟨fun _ => ?_, fun _ => rfl⟩
      intro r' e
      cases e
      omega
    · rename_i h
      refine ⟨fun x => (by cases x), fun x => ?_⟩
      obtain ⟨a, b⟩ := x r rfl
      exact absurd ⟨by omega, b⟩ h

private theorem digits_value (n : Nat) : (countText n).foldl (fun n c => n * 10 + (c.toNat - 48)) 0 = n := by
  induction n using Nat.strongRecOn with
  | _ n ih =>
    unfold countText
    split
    · simp
      omega
    · rw [List.foldl_append, ih (n / 10) (by omega)]
      simp
      omega

/-- C140: `affectedRows()` is the server's count, if it is less than 2^31, and 0 if the server gave none or there is no result. -/
theorem C140_affected_partial (r : PgResult) :
    (∀ n, r.affected = some n → n < 2^31 → affectedRows (some r) = .ok n) ∧
    (r.affected = none → affectedRows (some r) = .ok 0) ∧ affectedRows none = .ok 0 := by
  refine ⟨?_, ?_, rfl⟩
  · intro n hn hl
    simp only [affectedRows, cmdTuples, hn, atoiCount, digits_value, if_pos hl, Res.ok_bind]
    show Res.ok _ = _
    congr 1
    omega
  · intro hn
    simp only [affectedRows, cmdTuples, hn]
    rfl

/-- C140 fails: a larger count is given to `atoi`, for which it is undefined what happens. -/
theorem C140_affected_violated (r : PgResult) (n : Nat) (hn : r.affected = some n) (hl : 2^31 ≤ n) : affectedRows (some r) = .ub .signedOverflow := by
  have : ¬ n < 2^31 := by omega
  simp only [affectedRows, cmdTuples, hn, atoiCount, digits_value, if_neg this]
  rfl

/-- C140: different statuses have different descriptions, none of them empty. -/
theorem C140_strings (a b : SqlStatus) : statusString a ≠ [] ∧ (statusString a = statusString b → a = b) := by
  cases a <;> cases b <;> decide

/-- A result of two rows and one column with a NULL; an UPDATE of 1234 rows; one of three thousand million. -/
example : (PgResult.mk .tuplesOk 2 1 (fun i _ => if i = 0 then some [1] else none) none).Valid ∧
    sqlNull (some (PgResult.mk .tuplesOk 2 1 (fun i _ => if i = 0 then some [1] else none) none)) 0 0 = false ∧
    sqlNull (some (PgResult.mk .tuplesOk 2 1 (fun i _ => if i = 0 then some [1] else none) none)) 1 0 = true ∧
    affectedRows (some (PgResult.mk .commandOk 0 0 (fun _ _ => none) (some 1234))) = .ok 1234 ∧
    (PgResult.mk .commandOk 0 0 (fun _ _ => none) (some 3000000000)).Valid ∧
    affectedRows (some (PgResult.mk .commandOk 0 0 (fun _ _ => none) (some 3000000000))) = .ub .signedOverflow := by
  refine ⟨⟨by decide, by decide, by intro n h; cases h⟩, rfl, rfl, ?_, ⟨by decide, by decide, ?_⟩, ?_⟩
  · exact (C140_affected_partial _).1 1234 rfl (by decide)
  · intro n h; cases h; decide
  · exact C140_affected_violated _ 3000000000 rfl (by decide)

end Fcgi.Props
