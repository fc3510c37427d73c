import Verif.Model.Date
import Verif.Spec.Date
import Verif.Props.Http
/-! # C119: the date of If-Modified-Since -/
namespace Fcgi.Props
open Fcgi.Model Fcgi.Spec

example : (Date.mk 1994 11 6 8 49 37).text = b!"Sun, 06 Nov 1994 08:49:37 GMT" := by decide +kernel
example : getTime {} b!"Sun, 06 Nov 1994 08:49:37 GMT" = ⟨37, 49, 8, 6, 10, 94⟩ := by decide +kernel

theorem year_sum (y : Nat) : (monthDays y).sum = if isLeap y then 366 else 365 := by
  unfold monthDays; split <;> simp

/-- Counting year by year is the formula. -/
theorem daysBefore_eq (y : Nat) :
    (daysBefore y : Int) = 365 * y + ((y : Int) - 1) / 4 - ((y : Int) - 1) / 100 + ((y : Int) - 1) / 400 + 1 := by
  induction y with
  | zero => decide
  | succ y ih =>
    rw [daysBefore, year_sum]
    unfold isLeap
    push_cast
    rw [ih]
    have h4 : (y : Int) / 4 = ((y : Int) - 1) / 4 + (if y % 4 = 0 then 1 else 0) := by split <;> omega
    have h100 : (y : Int) / 100 = ((y : Int) - 1) / 100 + (if y % 100 = 0 then 1 else 0) := by split <;> omega
    have h400 : (y : Int) / 400 = ((y : Int) - 1) / 400 + (if y % 400 = 0 then 1 else 0) := by split <;> omega
    have e : ((y : Int) + 1 - 1) = y := by omega
    rw [e, h4, h100, h400]
    have i1 : y % 400 = 0 → y % 100 = 0 := by omega
    have i2 : y % 100 = 0 → y % 4 = 0 := by omega
    by_cases a4 : y % 4 = 0 <;> by_cases a100 : y % 100 = 0 <;> by_cases a400 : y % 400 = 0 <;>
      simp only [a4, a100, a400, true_and, false_and, not_true_eq_false, not_false_eq_true, ne_eq, or_true, or_false, false_or, decide_true, decide_false,
        if_true, if_false, Bool.false_eq_true] <;> first | omega | (exfalso; simp_all)

theorem month_sum (y m : Nat) (h1 : 1 ≤ m) (h2 : m ≤ 12) :
    ((((monthDays y).take (m - 1)).sum : Nat) : Int) = monYday ((y : Int) - 1900) ((m - 1 : Nat) : Int) := by
  have e : ((y : Int) - 1900 + 1900) = y := by omega
  unfold monYday
  dsimp only
  rw [e]
  have hl : ((y : Int) % 4 = 0 ∧ ((y : Int) % 100 ≠ 0 ∨ (y : Int) % 400 = 0)) ↔ (y % 4 = 0 ∧ (y % 100 ≠ 0 ∨ y % 400 = 0)) := by omega
  by_cases h : y % 4 = 0 ∧ (y % 100 ≠ 0 ∨ y % 400 = 0)
  · rw [if_pos (hl.2 h)]
    unfold monthDays isLeap
    simp only [h, decide_true, if_true]
    obtain ⟨k, rfl⟩ : ∃ k, m = k + 1 := ⟨m - 1, by omega⟩
    have : k < 12 := by omega
    rcases k with _ | _ | _ | _ | _ | _ | _ | _ | _ | _ | _ | _ | k <;> first | rfl | omega
  · rw [if_neg (fun hx => h (hl.1 hx))]
    unfold monthDays isLeap
    simp only [h, decide_false, Bool.false_eq_true, if_false]
    obtain ⟨k, rfl⟩ : ∃ k, m = k + 1 := ⟨m - 1, by omega⟩
    have : k < 12 := by omega
    rcases k with _ | _ | _ | _ | _ | _ | _ | _ | _ | _ | _ | _ | k <;> first | rfl | omega

/-- The seconds since the Epoch are those counted on the calendar. -/
theorem epoch_stamp (d : Date) (hm : 1 ≤ d.month ∧ d.month ≤ 12) (hd : 1 ≤ d.day) :
    epochSeconds ⟨d.second, d.minute, d.hour, d.day, ((d.month - 1 : Nat) : Int), (d.year : Int) - 1900⟩ = d.stamp := by
  have h1 := daysBefore_eq d.year
  have h2 := month_sum d.year d.month hm.1 hm.2
  have h0 : (dayNumber 1970 1 1 : Int) = 719528 := by
    unfold dayNumber
    have := daysBefore_eq 1970
    simp only [Nat.sub_self, List.take_zero, List.sum_nil, Nat.add_zero]
    rw [this]; decide
  unfold epochSeconds Date.stamp
  dsimp only
  rw [h0, ← h2]
  unfold dayNumber
  push_cast [hd]
  rw [h1]
  rw [show ((d.year : Int) - 1900 - 69) / 4 = ((d.year : Int) - 1) / 4 - 492 by omega,
    show ((d.year : Int) - 1900 - 1) / 100 = ((d.year : Int) - 1) / 100 - 19 by omega,
    show ((d.year : Int) - 1900 + 299) / 400 = ((d.year : Int) - 1) / 400 - 4 by omega]
  omega

theorem digit_toNat (n : Nat) : (UInt8.ofNat (48 + n % 10)).toNat = 48 + n % 10 := by
  rw [UInt8.toNat_ofNat']; omega

theorem digit_range (n : Nat) : (48 ≤ UInt8.ofNat (48 + n % 10) ∧ UInt8.ofNat (48 + n % 10) ≤ 57) := by
  rw [UInt8.le_iff_toNat_le, UInt8.le_iff_toNat_le, digit_toNat]
  constructor
  · show 48 ≤ _; omega
  · show _ ≤ 57; omega

theorem digits2 (n : Nat) : digits 2 n = [UInt8.ofNat (48 + n / 10 % 10), UInt8.ofNat (48 + n % 10)] := by
  simp [digits, List.range, List.range.loop]

theorem digits4 (n : Nat) : digits 4 n =
    [UInt8.ofNat (48 + n / 1000 % 10), UInt8.ofNat (48 + n / 100 % 10), UInt8.ofNat (48 + n / 10 % 10), UInt8.ofNat (48 + n % 10)] := by
  simp [digits, List.range, List.range.loop]

theorem readNum2 {lo hi n : Nat} (h1 : lo ≤ n) (h2 : n ≤ hi) (h3 : n < 100) (s : Bytes) : readNum 2 lo hi (digits 2 n ++ s) = some (n, s) := by
  rw [digits2]
  unfold readNum
  have hx : 10 * (10 * 0 + (48 + n / 10 % 10 - 48)) + (48 + n % 10 - 48) = n := by omega
  simp only [List.cons_append, List.nil_append, List.take_succ_cons, List.take_zero, List.length_cons, List.length_nil, List.all_cons, List.all_nil,
    digit_range, and_self, decide_true, Bool.and_self, if_true, List.foldl_cons, List.foldl_nil, digit_toNat, hx, h1, h2, List.drop_succ_cons, List.drop_zero]

theorem readNum4 {n : Nat} (h : n ≤ 9999) (s : Bytes) : readNum 4 0 9999 (digits 4 n ++ s) = some (n, s) := by
  rw [digits4]
  unfold readNum
  have hx : 10 * (10 * (10 * (10 * 0 + (48 + n / 1000 % 10 - 48)) + (48 + n / 100 % 10 - 48)) + (48 + n / 10 % 10 - 48)) + (48 + n % 10 - 48) = n := by omega
  simp only [List.cons_append, List.nil_append, List.take_succ_cons, List.take_zero, List.length_cons, List.length_nil, List.all_cons, List.all_nil,
    digit_range, and_self, decide_true, Bool.and_self, if_true, List.foldl_cons, List.foldl_nil, digit_toNat, hx, h, Nat.zero_le, List.drop_succ_cons, List.drop_zero]

theorem readDay {n : Nat} (s : Bytes) : ∃ k, readName dayNames (weekdays.getD (n % 7) [] ++ s) = some (k, s) := by
  have : n % 7 < 7 := Nat.mod_lt _ (by decide)
  generalize n % 7 = k at this
  rcases k with _ | _ | _ | _ | _ | _ | _ | k
  case succ.succ.succ.succ.succ.succ.succ => omega
  all_goals exact ⟨_, by with_unfolding_all rfl⟩

theorem readMonth {m : Nat} (h1 : 1 ≤ m) (h2 : m ≤ 12) (s : Bytes) : readName monthNames (months.getD (m - 1) [] ++ s) = some (m - 1, s) := by
  obtain ⟨k, rfl⟩ : ∃ k, m = k + 1 := ⟨m - 1, by omega⟩
  rcases k with _ | _ | _ | _ | _ | _ | _ | _ | _ | _ | _ | _ | k
  case succ.succ.succ.succ.succ.succ.succ.succ.succ.succ.succ.succ => omega
  all_goals with_unfolding_all rfl

/-- A digit or a letter is no blank. -/
theorem skip_digit (n : Nat) (s : Bytes) : skipSpaces (UInt8.ofNat (48 + n % 10) :: s) = UInt8.ofNat (48 + n % 10) :: s := by
  have h := digit_toNat n
  generalize UInt8.ofNat (48 + n % 10) = c at h
  unfold skipSpaces
  apply List.dropWhile_cons_of_neg
  have : ¬ (c = 32 ∨ (9 ≤ c ∧ c ≤ 13)) := by
    rw [UInt8.le_iff_toNat_le, UInt8.le_iff_toNat_le]
    rintro (rfl | ⟨_, h2⟩)
    · simp at h; omega
    · have : (13 : UInt8).toNat = 13 := rfl
      omega
  simpa using this

theorem skip_blank (s : Bytes) : skipSpaces (32 :: s) = skipSpaces s := by
  unfold skipSpaces; exact List.dropWhile_cons_of_pos (by decide)

theorem skip_month {m : Nat} (h1 : 1 ≤ m) (h2 : m ≤ 12) (s : Bytes) : skipSpaces (months.getD (m - 1) [] ++ s) = months.getD (m - 1) [] ++ s := by
  obtain ⟨k, rfl⟩ : ∃ k, m = k + 1 := ⟨m - 1, by omega⟩
  rcases k with _ | _ | _ | _ | _ | _ | _ | _ | _ | _ | _ | _ | k
  case succ.succ.succ.succ.succ.succ.succ.succ.succ.succ.succ.succ => omega
  all_goals with_unfolding_all rfl

theorem monthDays_le {y i n : Nat} (h : (monthDays y)[i]? = some n) : n ≤ 31 := by
  have := List.mem_of_getElem? h
  unfold monthDays at this
  split at this <;> simp at this <;> omega

/-- The text of a date is read as this date. -/
theorem getTime_text (d : Date) (hv : d.Valid) :
    getTime {} d.text = ⟨d.second, d.minute, d.hour, d.day, ((d.month - 1 : Nat) : Int), (d.year : Int) - 1900⟩ := by
  obtain ⟨n, hn, hle⟩ := hv.day.2
  have hday : d.day ≤ 31 := Nat.le_trans hle (monthDays_le hn)
  have hd := hv.day.1; have hh := hv.hour; have hmi := hv.minute; have hs := hv.second; have hm := hv.month; have hy := hv.year
  unfold Date.text Date.weekday
  simp only [List.append_assoc]
  obtain ⟨k, hk⟩ := readDay (n := dayNumber d.year d.month d.day) (b!", " ++ (digits 2 d.day ++ (b!" " ++ (months.getD (d.month - 1) [] ++ (b!" " ++
    (digits 4 d.year ++ (b!" " ++ (digits 2 d.hour ++ (b!":" ++ (digits 2 d.minute ++ (b!":" ++ (digits 2 d.second ++ b!" GMT"))))))))))))
  unfold getTime
  rw [hk]
  have b1 : b!", " = [44, 32] := by decide +kernel
  have b2 : b!" " = [32] := by decide +kernel
  have b3 : b!":" = [58] := by decide +kernel
  simp only [b1, b2, b3, List.cons_append, List.nil_append, readChar, if_true, skip_blank]
  have skip2 : ∀ (n : Nat) (s : Bytes), skipSpaces (digits 2 n ++ s) = digits 2 n ++ s := fun n s => by rw [digits2]; exact skip_digit _ _
  have skip4 : ∀ (n : Nat) (s : Bytes), skipSpaces (digits 4 n ++ s) = digits 4 n ++ s := fun n s => by rw [digits4]; exact skip_digit _ _
  rw [skip2, readNum2 hd hday (by omega)]
  dsimp only
  rw [skip_blank, skip_month hm.1 hm.2, readMonth hm.1 hm.2]
  dsimp only
  rw [skip_blank, skip4, readNum4 hy]
  dsimp only
  rw [skip_blank, skip2, readNum2 (Nat.zero_le _) (by omega) (by omega)]
  dsimp only
  rw [if_pos rfl]
  dsimp only
  rw [readNum2 (Nat.zero_le _) (by omega) (by omega)]
  dsimp only
  rw [if_pos rfl]
  dsimp only
  rw [readNum2 (Nat.zero_le _) (by omega) (by omega)]

/-! ### The claims -/

/-- A zone whose standard time has always been what it is, where `timezone` is not read before it is set. -/
structure Steady (z : Zone) : Prop where
  west : ∀ t, z.west t = z.timezone
  order : z.isSet = true ∨ z.readFirst = false

theorem modified_steady {z : Zone} (hz : Steady z) (v : Bytes) : ifModifiedOf z v = epochSeconds (getTime {} v) := by
  unfold ifModifiedOf mktime
  rw [hz.west]
  have : ¬ (z.readFirst = true ∧ ¬ z.isSet = true) := by
    rcases hz.order with h | h <;> simp [h]
  rw [if_neg this]; omega

/-- **C119**, in a zone with a steady standard time: for every date, what the client has sent as its text is the time the application gets. -/
theorem C119_date_partial (z : Zone) (hz : Steady z) (d : Date) (hv : d.Valid) : ifModifiedOf z d.text = d.stamp := by
  rw [modified_steady hz, getTime_text d hv, epoch_stamp d hv.month hv.day.1]

/-- **C119**, as the request sees it: the parameters of a request, among which the last one of this name is the text of a date. -/
theorem C119_request_partial (z : Zone) (hz : Steady z) (d : Date) (hv : d.Valid) {nvs : List (Bytes × Bytes)} {bs pre tail : Bytes} {env env' : Env}
    (he : EncPairs nvs bs) (hf : fill (pre ++ bs ++ tail) pre.length (pre ++ bs).length env = .ok env')
    (hl : lastValue b!"HTTP_IF_MODIFIED_SINCE" nvs = some d.text) : env'.modifiedSince z = d.stamp := by
  have := (C24_parsed pre tail env env' he hf).1
  rw [hl] at this
  unfold Env.modifiedSince
  rw [this]
  exact C119_date_partial z hz d hv

/-- **C119.** Without such a parameter the time is zero, as before. -/
theorem C119_absent (z : Zone) {nvs : List (Bytes × Bytes)} {bs pre tail : Bytes} {env env' : Env}
    (he : EncPairs nvs bs) (hf : fill (pre ++ bs ++ tail) pre.length (pre ++ bs).length env = .ok env')
    (hl : lastValue b!"HTTP_IF_MODIFIED_SINCE" nvs = none) : env'.modifiedSince z = env.modifiedSince z ∧ ({} : Env).modifiedSince z = 0 := by
  have := (C24_parsed pre tail env env' he hf).1
  rw [hl] at this
  unfold Env.modifiedSince
  rw [this]
  exact ⟨rfl, rfl⟩

/-! The dates are those of the calendar: -/

/-- Before: in the year, month, day and so on, the first that differs. -/
def Date.Before (a b : Date) : Prop :=
  a.year < b.year ∨ (a.year = b.year ∧ (a.month < b.month ∨ (a.month = b.month ∧ (a.day < b.day ∨ (a.day = b.day ∧
    (a.hour * 3600 + a.minute * 60 + a.second < b.hour * 3600 + b.minute * 60 + b.second))))))

theorem take_sum_mono (l : List Nat) (i : Nat) (n : Nat) (h : l[i]? = some n) : (l.take i).sum + n = (l.take (i + 1)).sum := by
  rw [List.take_add_one, h]; simp

theorem take_sum_le (l : List Nat) {i j : Nat} (h : i ≤ j) : (l.take i).sum ≤ (l.take j).sum := by
  induction j with
  | zero => have : i = 0 := by omega
            subst this; exact Nat.le_refl _
  | succ j ih =>
    by_cases hij : i = j + 1
    · subst hij; exact Nat.le_refl _
    · refine Nat.le_trans (ih (by omega)) ?_
      rw [List.take_add_one]; simp

theorem daysBefore_mono {a b : Nat} (h : a < b) : daysBefore a + (monthDays a).sum ≤ daysBefore b := by
  induction b with
  | zero => omega
  | succ b ih =>
    by_cases hab : a = b
    · subst hab; exact Nat.le_refl _
    · have := ih (by omega)
      rw [daysBefore]; omega

theorem month_end {y m d : Nat} (hm : 1 ≤ m ∧ m ≤ 12) (hd : 1 ≤ d ∧ ∃ n, (monthDays y)[m - 1]? = some n ∧ d ≤ n) :
    ((monthDays y).take (m - 1)).sum + (d - 1) < ((monthDays y).take m).sum := by
  obtain ⟨h1, n, hn, hle⟩ := hd
  have := take_sum_mono _ _ _ hn
  rw [show m - 1 + 1 = m by omega] at this
  omega

/-- **C119.** An application that compares the time with that of its document compares the dates: of two dates the earlier one has the smaller
time (leap seconds, which have the time of the next second, left out). -/
theorem C119_order (a b : Date) (ha : a.Valid) (hb : b.Valid) (hs : a.second < 60) (h : Date.Before a b) : a.stamp < b.stamp := by
  have key : dayNumber a.year a.month a.day < dayNumber b.year b.month b.day ∨
      (dayNumber a.year a.month a.day = dayNumber b.year b.month b.day ∧
        a.hour * 3600 + a.minute * 60 + a.second < b.hour * 3600 + b.minute * 60 + b.second) := by
    have ea := month_end ha.month ha.day
    have hda := ha.day.1; have hdb := hb.day.1
    have full : ((monthDays a.year).take a.month).sum ≤ (monthDays a.year).sum := by
      have := take_sum_le (monthDays a.year) (i := a.month) (j := 12) ha.month.2
      rwa [List.take_of_length_le (show (monthDays a.year).length ≤ 12 by simp [monthDays])] at this
    unfold dayNumber
    rcases h with h | ⟨h, h1 | ⟨h', h2 | ⟨h'', h3⟩⟩⟩
    · left
      have := daysBefore_mono h
      omega
    · left
      have := take_sum_le (monthDays b.year) (i := a.month) (j := b.month - 1) (by omega)
      rw [h] at ea ⊢
      omega
    · left; rw [h, h']; omega
    · right; rw [h, h', h'']; exact ⟨rfl, by omega⟩
  have hah := ha.hour; have ham := ha.minute
  unfold Date.stamp
  rcases key with k | ⟨k, k'⟩
  · omega
  · rw [k]; omega

/-- The example of the standard, its time, and that the hypotheses are met. -/
example : (Date.mk 1994 11 6 8 49 37).Valid ∧ (Date.mk 1994 11 6 8 49 37).stamp = 784111777 ∧
    Steady ⟨fun _ => -3600, -3600, false, false⟩ ∧
    ifModifiedOf ⟨fun _ => -3600, -3600, false, false⟩ b!"Sun, 06 Nov 1994 08:49:37 GMT" = 784111777 :=
  ⟨⟨by decide, by decide, by decide, by decide, by decide, by decide⟩, by decide +kernel, ⟨fun _ => rfl, Or.inr rfl⟩, by decide +kernel⟩

/-- 29 February 2000 exists, and the day after it is one day later. -/
example : (Date.mk 2000 2 29 0 0 0).Valid ∧ (Date.mk 2000 3 1 0 0 0).stamp - (Date.mk 2000 2 29 0 0 0).stamp = 86400 ∧ (Date.mk 1970 1 1 0 0 0).stamp = 0 :=
  ⟨⟨by decide, by decide, by decide, by decide, by decide, by decide⟩, by decide +kernel, by decide +kernel⟩

/-! ### What fails -/

/-- **C119 fails** in a zone whose standard time was another one at the date (Moscow in 2012): the time is wrong by the difference. -/
theorem C119_zone_violated (z : Zone) (hs : z.isSet = true) (d : Date) (hv : d.Valid) (hz : z.west d.stamp ≠ z.timezone) :
    ifModifiedOf z d.text = d.stamp + (z.west d.stamp - z.timezone) ∧ ifModifiedOf z d.text ≠ d.stamp := by
  have : ifModifiedOf z d.text = d.stamp + (z.west d.stamp - z.timezone) := by
    unfold ifModifiedOf mktime
    rw [getTime_text d hv, epoch_stamp d hv.month hv.day.1, if_neg (by simp [hs])]; omega
  exact ⟨this, by rw [this]; omega⟩

/-- **C119 fails** for the first request if the compiler reads `timezone` before it calls `mktime`, which C++ allows. -/
theorem C119_first_violated (z : Zone) (hs : z.isSet = false) (hr : z.readFirst = true) (hw : ∀ t, z.west t = z.timezone) (hz : z.timezone ≠ 0)
    (d : Date) (hv : d.Valid) : ifModifiedOf z d.text = d.stamp + z.timezone ∧ ifModifiedOf z d.text ≠ d.stamp := by
  have : ifModifiedOf z d.text = d.stamp + z.timezone := by
    unfold ifModifiedOf mktime
    rw [getTime_text d hv, epoch_stamp d hv.month hv.day.1, if_pos (by simp [hs, hr]), hw]; omega
  exact ⟨this, by rw [this]; omega⟩

set_option maxRecDepth 100000 in
/-- **C119 fails** for a text that is no date, which a server has to ignore (RFC 7232 section 3.3): what was read of it counts.  With these, the
client seems to have every document there is up to the year 9998. -/
theorem C119_invalid_violated (z : Zone) (hz : Steady z) (junk : Bytes) (d : Date) (hv : d.Valid) (hy : d.year < 9999) (hs : d.second < 60) :
    d.stamp < ifModifiedOf z (b!"Fri, 01 Jan 9999 never" ++ junk) := by
  rw [modified_steady hz]
  have : getTime {} (b!"Fri, 01 Jan 9999 never" ++ junk) = ⟨0, 0, 0, 1, 0, 8099⟩ := by with_unfolding_all rfl
  rw [this]
  have h := epoch_stamp ⟨9999, 1, 1, 0, 0, 0⟩ (by decide) (by decide)
  have h2 := C119_order d ⟨9999, 1, 1, 0, 0, 0⟩ hv ⟨by decide, by decide, by decide, by decide, by decide, by decide⟩ hs (Or.inl hy)
  rw [← h] at h2
  exact h2

/-- **C119 fails** for the two other forms of a date a server has to accept (RFC 7231 section 7.1.1.1). -/
theorem C119_forms_violated (z : Zone) (hz : Steady z) :
    ifModifiedOf z b!"Sunday, 06-Nov-94 08:49:37 GMT" ≠ (Date.mk 1994 11 6 8 49 37).stamp ∧
    ifModifiedOf z b!"Sun Nov  6 08:49:37 1994" ≠ (Date.mk 1994 11 6 8 49 37).stamp := by
  rw [modified_steady hz, modified_steady hz]
  constructor <;> decide +kernel

end Fcgi.Props
