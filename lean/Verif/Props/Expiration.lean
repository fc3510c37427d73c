import Verif.Model.Expiration
import Verif.Props.Date
import Verif.Props.Session
/-! # Property C147: the expiration text of a session store -/
namespace Fcgi.Props
open Fcgi Fcgi.Model Fcgi.Spec

/-- The names of the C locale, in force unless the application calls `setlocale` or `std::locale::global`. -/
def cLocale : TimeNames :=
  ⟨[b!"Sun", b!"Mon", b!"Tue", b!"Wed", b!"Thu", b!"Fri", b!"Sat"],
   [b!"Jan", b!"Feb", b!"Mar", b!"Apr", b!"May", b!"Jun", b!"Jul", b!"Aug", b!"Sep", b!"Oct", b!"Nov", b!"Dec"]⟩

theorem yearLength_eq (y : Nat) : yearLength y = (monthDays y).sum := by
  rw [year_sum]
  unfold yearLength isLeap
  by_cases h : y % 4 = 0 ∧ (y % 100 ≠ 0 ∨ y % 400 = 0) <;> simp [h]

theorem yearOfDay_spec : ∀ (fuel days y : Nat), days < fuel →
    y ≤ (yearOfDay fuel days y).1 ∧ daysBefore (yearOfDay fuel days y).1 + (yearOfDay fuel days y).2 = daysBefore y + days ∧
      (yearOfDay fuel days y).2 < yearLength (yearOfDay fuel days y).1 := by
  intro fuel
  induction fuel with
  | zero => intro d y h; omega
  | succ fuel ih =>
    intro d y h
    simp only [yearOfDay]
    by_cases hd : d < yearLength y
    · rw [if_pos hd]; exact ⟨Nat.le_refl _, rfl, hd⟩
    · rw [if_neg hd]
      have hp : 0 < yearLength y := by unfold yearLength; split <;> omega
      obtain ⟨a, b, c⟩ := ih (d - yearLength y) (y + 1) (by omega)
      have hy := yearLength_eq y
      simp only [daysBefore] at b
      exact ⟨by omega, by omega, c⟩

theorem monthOfDay_spec : ∀ (ls : List Nat) (days k : Nat), days < ls.sum →
    ∃ i n, monthOfDay ls days k = (k + i, days - (ls.take i).sum + 1) ∧ (ls.take i).sum ≤ days ∧ ls[i]? = some n ∧ days - (ls.take i).sum < n := by
  intro ls
  induction ls with
  | nil => intro d k h; simp at h
  | cons a ls ih =>
    intro d k h
    simp only [monthOfDay]
    by_cases hd : d < a
    · rw [if_pos hd]; exact ⟨0, a, by simp, by simp, by simp, by simpa using hd⟩
    · rw [if_neg hd]
      obtain ⟨i, n, h1, h2, h3, h4⟩ := ih (d - a) (k + 1) (by simp at h; omega)
      refine ⟨i + 1, n, ?_, ?_, by simpa using h3, ?_⟩
      · rw [h1]; simp only [List.take_succ_cons, List.sum_cons, Prod.mk.injEq]; omega
      · simp only [List.take_succ_cons, List.sum_cons]; omega
      · simp only [List.take_succ_cons, List.sum_cons]; omega

/-- The date of a broken-down time. -/
def dateOf (tm : BrokenTime) : Date := ⟨tm.year, tm.mon + 1, tm.mday, tm.hour, tm.min, tm.sec⟩

theorem epochDay : dayNumber 1970 1 1 = 719528 := by
  have h := daysBefore_eq 1970
  have : dayNumber 1970 1 1 = daysBefore 1970 := by simp [dayNumber]
  rw [this]
  omega

theorem monthDays_length (y : Nat) : (monthDays y).length = 12 := by simp [monthDays]

theorem february (y : Nat) : yearLength y - 337 = if isLeap y then 29 else 28 := by
  unfold yearLength isLeap
  by_cases h : y % 4 = 0 ∧ (y % 100 ≠ 0 ∨ y % 400 = 0) <;> simp [h]

/-- `gmtime` gives the date of the Gregorian calendar. -/
theorem gmtime_spec (t : Nat) (ht : t < 253402300800) :
    (dateOf (gmtime t)).Valid ∧ (dateOf (gmtime t)).second < 60 ∧ (dateOf (gmtime t)).stamp = t ∧ 1970 ≤ (gmtime t).year ∧
      (gmtime t).wday = (dayNumber (gmtime t).year ((gmtime t).mon + 1) (gmtime t).mday + 6) % 7 := by
  obtain ⟨y1, y2, y3⟩ := yearOfDay_spec (t / 86400 + 1) (t / 86400) 1970 (by omega)
  generalize hy : yearOfDay (t / 86400 + 1) (t / 86400) 1970 = Y at y1 y2 y3
  have e0 : daysBefore 1970 = 719528 := by
    have := epochDay; simpa [dayNumber] using this
  have hmd : [31, yearLength Y.1 - 337, 31, 30, 31, 30, 31, 31, 30, 31, 30, 31] = monthDays Y.1 := by rw [february]; rfl
  obtain ⟨i, n, m1, m2, m3, m4⟩ := monthOfDay_spec (monthDays Y.1) Y.2 0 (by rw [← yearLength_eq]; exact y3)
  have hi : i < 12 := by
    have := (List.getElem?_eq_some_iff.1 m3).1
    rwa [monthDays_length] at this
  have hg : gmtime t = ⟨t % 86400 % 60, t % 86400 / 60 % 60, t % 86400 / 3600, Y.2 - ((monthDays Y.1).take i).sum + 1, i, Y.1, (4 + t / 86400) % 7⟩ := by
    unfold gmtime
    simp only [hy, hmd, m1, Nat.zero_add]
  have hdn : dayNumber Y.1 (i + 1) (Y.2 - ((monthDays Y.1).take i).sum + 1) = 719528 + t / 86400 := by
    unfold dayNumber
    simp only [Nat.add_sub_cancel]
    omega
  have hyear : Y.1 ≤ 9999 := by
    apply Nat.le_of_not_lt
    intro hlt
    have h1 : daysBefore 10000 ≤ daysBefore Y.1 := by
      rcases Nat.lt_or_eq_of_le (show 10000 ≤ Y.1 from hlt) with h | h
      · have := daysBefore_mono h; omega
      · rw [← h]; exact Nat.le_refl _
    have h2 : daysBefore 10000 = 3652425 := by have h := daysBefore_eq 10000; omega
    omega
  rw [hg]
  refine ⟨⟨hyear, ⟨by simp [dateOf], by simp [dateOf]; omega⟩, ⟨by simp [dateOf], n, by simpa [dateOf] using m3, by simp only [dateOf]; omega⟩, ?_, ?_, ?_⟩, ?_, ?_, y1, ?_⟩
  · simp only [dateOf]; omega
  · simp only [dateOf]; omega
  · simp only [dateOf]; omega
  · simp only [dateOf]; omega
  · simp only [Date.stamp, dateOf, hdn, epochDay]; omega
  · dsimp only; rw [hdn]; omega

theorem twoDigits_eq (n : Nat) (h : n < 100) : twoDigits n = digits 2 n := by
  rw [digits2, twoDigits, show n / 10 % 10 = n / 10 by omega]

theorem decimal_year (y : Nat) (h1 : 1000 ≤ y) (h2 : y ≤ 9999) : decimalText 20 y = digits 4 y := by
  rw [digits4]
  simp only [decimalText]
  rw [if_neg (by omega), if_neg (by omega), if_neg (by omega), if_pos (by omega)]
  simp only [List.cons_append, List.nil_append]
  rw [show y / 10 / 10 / 10 = y / 1000 % 10 by omega, show y / 10 / 10 % 10 = y / 100 % 10 by omega]

theorem day_name (n : Nat) : cLocale.days.getD ((n + 6) % 7) [] = weekdays.getD (n % 7) [] := by
  rw [show (n + 6) % 7 = (n % 7 + 6) % 7 by omega]
  have : n % 7 < 7 := by omega
  generalize n % 7 = k at this
  match k, this with
  | 0, _ => rfl | 1, _ => rfl | 2, _ => rfl | 3, _ => rfl | 4, _ => rfl | 5, _ => rfl | 6, _ => rfl

/-- In the C locale the text is the HTTP date, of 29 characters. -/
theorem strftime_c (t : Nat) (ht : t < 253402300800) : strftime cLocale expirationLength (gmtime t) = (dateOf (gmtime t)).text := by
  obtain ⟨hv, hs, _, hy, hw⟩ := gmtime_spec t ht
  have hday := hv.day
  obtain ⟨hd1, n, hn, hd2⟩ := hday
  have hn31 := monthDays_le hn
  have hmon := hv.month
  have hmin := hv.minute
  have hhour := hv.hour
  have hyr := hv.year
  simp only [dateOf, Nat.add_sub_cancel] at hd1 hd2 hmon hmin hhour hyr hs
  have htext : cLocale.days.getD (gmtime t).wday [] ++ b!", " ++ twoDigits (gmtime t).mday ++ b!" " ++ cLocale.months.getD (gmtime t).mon [] ++ b!" " ++
      decimalText 20 (gmtime t).year ++ b!" " ++ twoDigits (gmtime t).hour ++ b!":" ++ twoDigits (gmtime t).min ++ b!":" ++ twoDigits (gmtime t).sec ++ b!" GMT" =
      (dateOf (gmtime t)).text := by
    rw [twoDigits_eq _ (by omega), twoDigits_eq _ (by omega), twoDigits_eq _ (by omega), twoDigits_eq _ (by omega), decimal_year _ (by omega) hyr, hw, day_name]
    rfl
  have hlen : (dateOf (gmtime t)).text.length = 29 := by
    have hwl : ∀ k, k < 7 → (weekdays.getD k []).length = 3 := by decide
    have hml : ∀ k, k < 12 → (months.getD k []).length = 3 := by decide
    simp only [Date.text, Date.weekday, List.length_append, hwl _ (Nat.mod_lt _ (by decide : 7 > 0))]
    rw [hml _ (by simp only [dateOf]; omega)]
    simp [digits]
  unfold strftime
  simp only [htext, hlen]
  rfl

theorem offered_set (names : TimeNames) (hn : ∀ s ∈ names.days ++ names.months, (0 : UInt8) ∉ s) (junk : Bool) (x : ExpText) (t : Int) :
    (x.set names junk t).offered = some (strftime names expirationLength (gmtime t.toNat)) := by
  generalize hs : strftime names expirationLength (gmtime t.toNat) = s
  have hlen : s.length + 1 ≤ 30 := by
    rw [← hs]; unfold strftime; dsimp only
    split
    · assumption
    · decide
  have hz : (0 : UInt8) ∉ s := by
    have hd : ∀ k, k < 10 → (0 : UInt8) ≠ UInt8.ofNat (48 + k) := by decide
    have hget : ∀ (l : List Bytes) (i : Nat), (∀ s ∈ l, (0 : UInt8) ∉ s) → (0 : UInt8) ∉ l.getD i [] := by
      intro l i h
      rw [List.getD_eq_getElem?_getD]
      cases he : l[i]? with
      | none => simp
      | some v => simpa using h v (List.mem_of_getElem? he)
    have hdec : ∀ f n, (0 : UInt8) ∉ decimalText f n := by
      intro f
      induction f with
      | zero => intro n; simp [decimalText]
      | succ f ih =>
        intro n
        simp only [decimalText]
        split
        · rename_i h; simpa using hd n h
        · simp only [List.mem_append, List.mem_singleton, not_or]; exact ⟨ih _, hd _ (Nat.mod_lt _ (by decide))⟩
    have htwo : ∀ n, n < 100 → (0 : UInt8) ∉ twoDigits n := by
      intro n h
      simp only [twoDigits, List.mem_cons, List.not_mem_nil, or_false, not_or]
      exact ⟨hd _ (by omega), hd _ (Nat.mod_lt _ (by decide))⟩
    have hmday : (gmtime t.toNat).mday < 100 := by
      obtain ⟨_, _, y3⟩ := yearOfDay_spec (t.toNat / 86400 + 1) (t.toNat / 86400) 1970 (by omega)
      unfold gmtime
      dsimp only
      generalize hy : yearOfDay (t.toNat / 86400 + 1) (t.toNat / 86400) 1970 = Y at y3
      have hmd : [31, yearLength Y.1 - 337, 31, 30, 31, 30, 31, 31, 30, 31, 30, 31] = monthDays Y.1 := by rw [february]; rfl
      obtain ⟨i, n, m1, m2, m3, m4⟩ := monthOfDay_spec (monthDays Y.1) Y.2 0 (by rw [← yearLength_eq]; exact y3)
      rw [hmd, m1]
      have := monthDays_le m3
      dsimp only; omega
    rw [← hs]; unfold strftime; dsimp only
    split
    · simp only [List.mem_append, not_or]
      have hmin : (gmtime t.toNat).min < 100 := by unfold gmtime; dsimp only; omega
      have hsec : (gmtime t.toNat).sec < 100 := by unfold gmtime; dsimp only; omega
      have hhour : (gmtime t.toNat).hour < 100 := by unfold gmtime; dsimp only; omega
      have hdn := hget names.days (gmtime t.toNat).wday fun s h => hn s (by simp [h])
      have hmn := hget names.months (gmtime t.toNat).mon fun s h => hn s (by simp [h])
      repeat' apply And.intro
      all_goals first | exact hdn | exact hmn | exact htwo _ hmday | exact htwo _ hmin | exact htwo _ hsec | exact htwo _ hhour | exact hdec _ _ | decide
    · simp
  have hbuf : ∀ k, 0 < k → (0 : UInt8) ∈ s ++ List.replicate k 0 ∧ (s ++ List.replicate k 0).takeWhile (· ≠ 0) = s := by
    intro k hk
    obtain ⟨k, rfl⟩ : ∃ j, k = j + 1 := ⟨k - 1, by omega⟩
    refine ⟨by simp, ?_⟩
    rw [List.takeWhile_append_of_pos (by intro a ha; simp; rintro rfl; exact hz ha)]
    simp [List.replicate_succ]
  have hb := hbuf (30 - s.length) (by omega)
  unfold ExpText.set
  rw [hs, show expirationLength = 30 from rfl]
  dsimp only
  by_cases hj : x.atFirst.getD junk = true
  · rw [if_pos hj]; simp only [ExpText.offered]; simp only [Bool.false_eq_true, if_false]; rw [if_pos hb.1, hb.2]
  · rw [if_neg hj]; simp only [ExpText.offered, if_true]; rw [if_pos hb.1, hb.2]

/-- Whatever happens to a store, its text is that of its time. -/
theorem storeRun_text {T} (names : TimeNames) (hn : ∀ s ∈ names.days ++ names.months, (0 : UInt8) ∉ s) (junk : Bool) :
    ∀ (calls : List (SessionCall T)) (st st' : Sessions T × ExpText), storeRun names junk st calls = .ok st' →
      st.1.expirationTime = st.1.cleanupTime + st.1.keepAlive →
      st.2.offered = some (strftime names expirationLength (gmtime st.1.expirationTime.toNat)) →
      st'.2.offered = some (strftime names expirationLength (gmtime st'.1.expirationTime.toNat)) := by
  intro calls
  induction calls with
  | nil => intro st st' e _ h; cases e; exact h
  | cons c calls ih =>
    intro st st' e ht h
    simp only [storeRun] at e
    obtain ⟨st1, e1, e2⟩ := Res.bind_eq_ok.1 e
    cases c with
    | generate d draws =>
      simp only [storeCall] at e1
      obtain ⟨⟨s1, x⟩, g1, g2⟩ := Res.bind_eq_ok.1 e1
      cases g2
      have key := generate_times d st.1 s1 x draws g1
      exact ih _ st' e2 (by dsimp only; rw [key.1, key.2.1, key.2.2]; exact ht) (by dsimp only; rw [key.1]; exact h)
    | get i now t1 t2 =>
      simp only [storeCall, Res.ok.injEq] at e1
      subst e1
      obtain ⟨k1, k2, k3⟩ := get_times st.1 i now t1 t2
      refine ih _ st' e2 ?_ ?_
      · dsimp only
        rw [k1, k2, k3]
        split
        · rfl
        · exact ht
      · dsimp only
        rw [k1]
        split
        · rw [offered_set names hn]; rfl
        · exact h
    | erase i =>
      simp only [storeCall, Res.ok.injEq] at e1
      subst e1
      exact ih _ st' e2 ht h

theorem newStore_text {T} (names : TimeNames) (hn : ∀ s ∈ names.days ++ names.months, (0 : UInt8) ∉ s) (junk : Bool) (first second : Bytes) (keepAlive : Nat) (t0 : Int)
    (calls : List (SessionCall T)) {st} (h : storeRun names junk (newStore names junk first second keepAlive t0) calls = .ok st) :
    st.2.offered = some (strftime names expirationLength (gmtime st.1.expirationTime.toNat)) :=
  storeRun_text names hn junk calls _ st h rfl (offered_set names hn junk _ _)

/-- The sessions themselves are those of the store without texts (C34, C62, C134). -/
theorem C147_sessions {T} (names : TimeNames) (junk : Bool) (calls : List (SessionCall T)) : ∀ (s : Sessions T) (x : ExpText) {s' events},
    sessionRun s calls = .ok (s', events) → ∃ x', storeRun names junk (s, x) calls = .ok (s', x') := by
  induction calls with
  | nil => intro s x s' es e; simp [sessionRun] at e; obtain ⟨rfl, _⟩ := e; exact ⟨x, rfl⟩
  | cons c calls ih =>
    intro s x s' es e
    cases c with
    | generate d draws =>
      simp only [sessionRun] at e
      obtain ⟨⟨s1, y⟩, e1, e⟩ := Res.bind_eq_ok.1 e
      obtain ⟨⟨s2, es2⟩, e2, e⟩ := Res.bind_eq_ok.1 e
      cases e
      obtain ⟨x', hx⟩ := ih s1 x e2
      exact ⟨x', by simp only [storeRun, storeCall, e1, Res.ok_bind]; exact hx⟩
    | get i now t1 t2 =>
      simp only [sessionRun] at e
      obtain ⟨⟨s2, es2⟩, e2, e⟩ := Res.bind_eq_ok.1 e
      cases e
      obtain ⟨x', hx⟩ := ih _ (if now ≥ s.cleanupTime then x.set names junk (t1 + s.keepAlive + s.keepAlive) else x) e2
      exact ⟨x', hx⟩
    | erase i =>
      simp only [sessionRun] at e
      obtain ⟨⟨s2, es2⟩, e2, e⟩ := Res.bind_eq_ok.1 e
      cases e
      obtain ⟨x', hx⟩ := ih _ x e2
      exact ⟨x', hx⟩

/-- In the C locale the text offered is, at all times, the HTTP date of the store's expiration time, whatever the memory held before. -/
theorem C147_partial {T} (junk : Bool) (first second : Bytes) (keepAlive : Nat) (t0 : Int) (calls : List (SessionCall T)) {s x}
    (h : storeRun cLocale junk (newStore cLocale junk first second keepAlive t0) calls = .ok (s, x))
    (h0 : 0 ≤ s.expirationTime) (h1 : s.expirationTime < 253402300800) :
    ∃ d : Date, d.Valid ∧ d.second < 60 ∧ d.stamp = s.expirationTime ∧ x.offered = some d.text := by
  obtain ⟨a, b, c, _⟩ := gmtime_spec s.expirationTime.toNat (by omega)
  refine ⟨_, a, b, by rw [c]; omega, ?_⟩
  rw [newStore_text cLocale (by decide) junk first second keepAlive t0 calls h, strftime_c _ (by dsimp only; omega)]

/-- With the names of another language it is no HTTP date: German. -/
def german : TimeNames :=
  ⟨[b!"So", b!"Mo", b!"Di", b!"Mi", b!"Do", b!"Fr", b!"Sa"],
   [b!"Jan", b!"Feb", [77, 0xc3, 0xa4, 114], b!"Apr", b!"Mai", b!"Jun", b!"Jul", b!"Aug", b!"Sep", b!"Okt", b!"Nov", b!"Dez"]⟩

theorem C147_locale_violated {T} (junk : Bool) (first second : Bytes) (keepAlive : Nat) (t0 : Int) (calls : List (SessionCall T)) {s x}
    (h : storeRun german junk (newStore german junk first second keepAlive t0) calls = .ok (s, x)) (d : Date) : x.offered ≠ some d.text := by
  rw [newStore_text german (by decide) junk first second keepAlive t0 calls h]
  intro e
  have e := Option.some.inj e
  have hw : (gmtime s.expirationTime.toNat).wday < 7 := by unfold gmtime; dsimp only; omega
  have hd : ∀ k, k < 7 → (german.days.getD k []).length = 2 := by decide
  have hk : ∀ k, k < 7 → (weekdays.getD k []).length = 3 ∧ (weekdays.getD k [])[2]? ≠ some 44 := by decide
  obtain ⟨l3, n3⟩ := hk (dayNumber d.year d.month d.day % 7) (Nat.mod_lt _ (by decide))
  have hr : d.text[2]? = (weekdays.getD (dayNumber d.year d.month d.day % 7) [])[2]? := by
    simp only [Date.text, Date.weekday, List.append_assoc]
    rw [List.getElem?_append_left (by omega)]
  have h2 := hd _ hw
  have e2 := congrArg (fun l : Bytes => l[2]?) e
  dsimp only at e2
  rw [hr] at e2
  unfold strftime at e2
  dsimp only at e2
  split at e2
  · apply n3
    rw [← e2]
    simp only [List.append_assoc]
    rw [List.getElem?_append_right (by omega), h2]
    rfl
  · rw [List.getElem?_nil] at e2
    have := List.getElem?_eq_none_iff.1 e2.symm
    omega

/-- With longer names there is no text at all: the cookie has no expiration. -/
theorem C147_long_violated {T} (names : TimeNames) (hn : ∀ s ∈ names.days ++ names.months, (0 : UInt8) ∉ s)
    (hd : ∀ i < 7, ∀ j < 12, 7 ≤ (names.days.getD i []).length + (names.months.getD j []).length)
    (junk : Bool) (first second : Bytes) (keepAlive : Nat) (t0 : Int) (calls : List (SessionCall T)) {s x}
    (h : storeRun names junk (newStore names junk first second keepAlive t0) calls = .ok (s, x))
    (h0 : 0 ≤ s.expirationTime) (h1 : s.expirationTime < 253402300800) : x.offered = some [] := by
  rw [newStore_text names hn junk first second keepAlive t0 calls h]
  obtain ⟨hv, _, _, hy, hw⟩ := gmtime_spec s.expirationTime.toNat (by omega)
  have hm := hv.month
  have hyr := hv.year
  simp only [dateOf] at hm hyr
  have := hd (gmtime s.expirationTime.toNat).wday (by rw [hw]; omega) (gmtime s.expirationTime.toNat).mon (by omega)
  unfold strftime
  dsimp only
  rw [if_neg]
  rw [decimal_year _ (by omega) hyr]
  simp only [List.length_append, twoDigits, List.length_cons, List.length_nil, expirationLength, digits, List.length_map, List.length_range]
  omega

example : gmtime 784111777 = ⟨37, 49, 8, 6, 10, 1994, 0⟩ ∧ strftime cLocale 30 (gmtime 784111777) = b!"Sun, 06 Nov 1994 08:49:37 GMT" := by decide +kernel
example : gmtime 951782400 = ⟨0, 0, 0, 29, 1, 2000, 2⟩ := by decide +kernel
/-- A store of ten minutes, created at 784110577: its first text, and the one after a cleanup an hour later. -/
example : (match storeRun cLocale true (newStore cLocale true [1, 2] [3] 600 784110577) [.generate (5 : Nat) [([1], 784110580)]] with
    | .ok (_, x) => x.offered | _ => none) = some b!"Sun, 06 Nov 1994 08:49:37 GMT" := by decide +kernel
example : (match storeRun cLocale true (newStore cLocale true [1, 2] [3] 600 784110577) [.generate (5 : Nat) [([1], 784110580)], .get [1] 784114177 784114177 784114177] with
    | .ok (_, x) => x.offered | _ => none) = some b!"Sun, 06 Nov 1994 09:49:37 GMT" := by decide +kernel
/-- French: `lun.`, `janv.` are too long in January. -/
example : strftime ⟨[b!"dim.", b!"lun.", b!"mar.", b!"mer.", b!"jeu.", b!"ven.", b!"sam."], [b!"janv."]⟩ 30 (gmtime 1767571200) = [] := by decide +kernel
example : ∃ names : TimeNames, (∀ s ∈ names.days ++ names.months, (0 : UInt8) ∉ s) ∧
    ∀ i < 7, ∀ j < 12, 7 ≤ (names.days.getD i []).length + (names.months.getD j []).length :=
  ⟨⟨List.replicate 7 b!"abcd", List.replicate 12 b!"efg"⟩, by decide, by decide⟩
end Fcgi.Props
