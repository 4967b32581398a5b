import Verif.Model.FileName
import Verif.Spec.Calendar
import Verif.Props.Csv

/-! # C46: the time in the file name -/

namespace Verif

/-- The number of a day. -/
def dayNo (a : Date) : Nat :=
  365 * (a.y - 1) + (a.y - 1) / 4 - (a.y - 1) / 100 + (a.y - 1) / 400 + daysBeforeMonth.getD (a.m - 1) 0 +
    (if 2 < a.m ∧ monthDays a.y 2 = 29 then 1 else 0) + a.d

def Date.Valid (a : Date) : Prop := 1 ≤ a.y ∧ 1 ≤ a.m ∧ a.m ≤ 12 ∧ 1 ≤ a.d ∧ a.d ≤ monthDays a.y a.m

theorem unixTime_eq (a : Date) (h mi s : Nat) : unixTime a.y a.m a.d h mi s = 86400 * ((dayNo a : Int) - 719163) + 3600 * h + 60 * mi + s := rfl

theorem lastDay_iff {a : Date} (ha : 1 ≤ a.m ∧ a.m ≤ 12) : LastDay a ↔ a.d = monthDays a.y a.m := by
  obtain ⟨y, m, d⟩ := a
  simp only at *
  constructor
  · intro h
    cases h with
    | d31 hm =>
      simp only [List.mem_cons, List.not_mem_nil, or_false] at hm
      unfold monthDays
      rw [if_neg (by omega), if_neg (by omega)]
    | d30 hm =>
      simp only [List.mem_cons, List.not_mem_nil, or_false] at hm
      unfold monthDays
      rw [if_neg (by omega), if_pos (by omega)]
    | d29 hl => unfold monthDays; rw [if_pos rfl, if_pos (show y % 4 = 0 ∧ (y % 100 ≠ 0 ∨ y % 400 = 0) from hl)]
    | d28 hl => unfold monthDays; rw [if_pos rfl, if_neg (show ¬ (y % 4 = 0 ∧ (y % 100 ≠ 0 ∨ y % 400 = 0)) from hl)]
  · intro h
    unfold monthDays at h
    by_cases h2 : m = 2
    · subst h2
      rw [if_pos rfl] at h
      by_cases hl : y % 4 = 0 ∧ (y % 100 ≠ 0 ∨ y % 400 = 0)
      · rw [if_pos hl] at h; subst h; exact .d29 hl
      · rw [if_neg hl] at h; subst h; exact .d28 hl
    · rw [if_neg h2] at h
      by_cases h4 : m = 4 ∨ m = 6 ∨ m = 9 ∨ m = 11
      · rw [if_pos h4] at h; subst h; exact .d30 (by simpa using h4)
      · rw [if_neg h4] at h; subst h
        exact .d31 (by simp only [List.mem_cons, List.not_mem_nil, or_false]; omega)

theorem monthDays_pos (y m : Nat) : 1 ≤ monthDays y m := by
  unfold monthDays
  split
  · split <;> decide
  · split <;> decide

theorem NextDay.valid {a b : Date} (h : NextDay a b) (ha : a.Valid) : b.Valid := by
  unfold Date.Valid at *
  cases h with
  | @day y m d hl =>
    rw [lastDay_iff ⟨ha.2.1, ha.2.2.1⟩] at hl
    simp only at *
    omega
  | @month y m d hl hm =>
    have := monthDays_pos y (m + 1)
    simp only at *
    omega
  | @year y d hl =>
    have := monthDays_pos (y + 1) 1
    simp only at *
    omega

theorem feb (y : Nat) : monthDays y 2 = 28 ∨ monthDays y 2 = 29 := by
  unfold monthDays
  rw [if_pos rfl]
  split
  · exact .inr rfl
  · exact .inl rfl

/-- The length of a year. -/
theorem year_days (y : Nat) (hy : 1 ≤ y) :
    365 * y + y / 4 - y / 100 + y / 400 = 365 * (y - 1) + (y - 1) / 4 - (y - 1) / 100 + (y - 1) / 400 + 337 + monthDays y 2 := by
  have step : ∀ k, 0 < k → (y / k = (y - 1) / k + 1 ∧ y % k = 0) ∨ (y / k = (y - 1) / k ∧ y % k ≠ 0) := by
    intro k hk
    have h1 := Nat.div_add_mod y k
    have h2 := Nat.mod_lt y hk
    by_cases h0 : y % k = 0
    · left
      refine ⟨?_, h0⟩
      rw [h0, Nat.add_zero] at h1
      have hq : 1 ≤ y / k := by
        rcases Nat.eq_zero_or_pos (y / k) with hz | hz
        · rw [hz, Nat.mul_zero] at h1; omega
        · exact hz
      have : y - 1 = (k - 1) + k * (y / k - 1) := by
        have : k * (y / k) = k * (y / k - 1) + k := by
          rw [← Nat.mul_succ]; congr 1; omega
        omega
      conv => rhs; rw [this, Nat.add_mul_div_left _ _ hk, Nat.div_eq_of_lt (show k - 1 < k by omega)]
      omega
    · right
      refine ⟨?_, h0⟩
      have : y - 1 = (y % k - 1) + k * (y / k) := by omega
      conv => rhs; rw [this, Nat.add_mul_div_left _ _ hk, Nat.div_eq_of_lt (by omega)]
      omega
  have h4 := step 4 (by decide)
  have h100 := step 100 (by decide)
  have h400 := step 400 (by decide)
  have d1 : y % 100 = 0 → y % 4 = 0 := by omega
  have d2 : y % 400 = 0 → y % 100 = 0 := by omega
  have le1 : (y - 1) / 100 ≤ (y - 1) / 4 := by omega
  have le2 : y / 100 ≤ y / 4 := by omega
  unfold monthDays
  rw [if_pos rfl]
  clear step
  generalize (y - 1) / 4 = a at *
  generalize (y - 1) / 100 = b at *
  generalize (y - 1) / 400 = c at *
  generalize y / 4 = a' at *
  generalize y / 100 = b' at *
  generalize y / 400 = c' at *
  generalize y % 4 = r at *
  generalize y % 100 = s at *
  generalize y % 400 = t at *
  by_cases hl : r = 0 ∧ (s ≠ 0 ∨ t = 0)
  · rw [if_pos hl]; omega
  · rw [if_neg hl]; omega

theorem NextDay.dayNo {a b : Date} (h : NextDay a b) (ha : a.Valid) : dayNo b = dayNo a + 1 := by
  unfold Date.Valid at ha
  cases h with
  | @day y m d hl => simp only [Verif.dayNo]; omega
  | @month y m d hl hm =>
    rw [lastDay_iff ⟨ha.2.1, ha.2.2.1⟩] at hl
    simp only at hl ha
    subst hl
    simp only [Verif.dayNo]
    generalize 365 * (y - 1) + (y - 1) / 4 - (y - 1) / 100 + (y - 1) / 400 = q
    have h1 := ha.2.1
    clear ha
    have other : ∀ m, m ≠ 2 → monthDays y m = if m = 4 ∨ m = 6 ∨ m = 9 ∨ m = 11 then 30 else 31 := by
      intro m hm; unfold monthDays; rw [if_neg hm]
    have hf := feb y
    generalize hL : monthDays y 2 = L at *
    have : m = 1 ∨ m = 2 ∨ m = 3 ∨ m = 4 ∨ m = 5 ∨ m = 6 ∨ m = 7 ∨ m = 8 ∨ m = 9 ∨ m = 10 ∨ m = 11 := by omega
    rcases hf with rfl | rfl <;>
    rcases this with rfl | rfl | rfl | rfl | rfl | rfl | rfl | rfl | rfl | rfl | rfl <;>
      (first | rw [other _ (by decide)] | rw [hL]) <;> simp [daysBeforeMonth] <;> omega
  | @year y d hl =>
    rw [lastDay_iff ⟨by simp, by simp⟩] at hl
    simp only at hl ha
    subst hl
    have hy := year_days y ha.1
    have e : monthDays y 12 = 31 := rfl
    simp only [Verif.dayNo, e, Nat.add_sub_cancel]
    rw [hy]
    generalize 365 * (y - 1) + (y - 1) / 4 - (y - 1) / 100 + (y - 1) / 400 = q
    rcases feb y with h | h <;> rw [h] <;> simp [daysBeforeMonth] <;> omega

theorem DaysAfter.dayNo {a b : Date} {n : Nat} (h : DaysAfter a n b) (ha : a.Valid) : b.Valid ∧ dayNo b = dayNo a + n := by
  induction h with
  | same => exact ⟨ha, rfl⟩
  | next _ h ih => exact ⟨h.valid ih.1, by rw [h.dayNo ih.1, ih.2]; omega⟩

/-! ## The text of the name -/

theorem digits_two {n : Nat} (h : n < 100) : digitsOf (points (two n)) = some n := by
  have : ∀ n : Fin 100, digitsOf (points (two n.val)) = some n.val := by decide +kernel
  exact this ⟨n, h⟩

theorem digits_four {n : Nat} (h : n < 10000) : digitsOf (points (two (n / 100) ++ two (n % 100))) = some n := by
  have key : ∀ (m : Nat), m < 100 → ∀ acc, (points (two m)).foldl
      (fun acc c => acc.bind fun n => if 48 ≤ c ∧ c ≤ 57 then some (10 * n + (c - 48)) else none) (some acc) = some (100 * acc + m) := by
    intro m hm acc
    have hd : ∀ d, d < 10 → (Nat.digitChar d).toNat = 48 + d := fun d hd => digitChar_toNat ⟨d, hd⟩
    unfold two
    simp only [points_cons, points_nil, List.foldl_cons, List.foldl_nil, hd (m / 10) (by omega), hd (m % 10) (by omega), Option.bind_some]
    rw [if_pos (by omega)]
    simp only [Option.bind_some]
    rw [if_pos (by omega)]
    congr 1
    omega
  unfold digitsOf
  rw [points_append, List.foldl_append, key _ (by omega), key _ (by omega)]
  congr 1
  omega

theorem month_index {m : Nat} {month : List Char} (h : MonthName m month) :
    month.length = 3 ∧ monthNames.findIdx? (· == (points month).map lowerAscii) = some (m - 1) := by
  obtain ⟨upper, lower, h1, h2, h3⟩ := h
  refine ⟨h2, ?_⟩
  match month, h2 with
  | [a, b, c], _ =>
    have ha := h3 0 a rfl
    have hb := h3 1 b rfl
    have hc := h3 2 c rfl
    have hlt : m - 1 < 12 := (List.getElem?_eq_some_iff.1 h1).1
    generalize m - 1 = k at *
    have low : ∀ k : Fin 12, ∀ u l, months[k.val]? = some (u, l) → monthNames[k.val]? = some (points l.toList) ∧
        (points u.toList).map lowerAscii = points l.toList ∧ (points l.toList).map lowerAscii = points l.toList ∧ l.toList.length = 3 ∧ u.toList.length = 3 := by
      intro k u l
      have : ∀ k : Fin 12, ∃ u l, months[k.val]? = some (u, l) ∧ monthNames[k.val]? = some (points l.toList) ∧
        (points u.toList).map lowerAscii = points l.toList ∧ (points l.toList).map lowerAscii = points l.toList ∧ l.toList.length = 3 ∧ u.toList.length = 3 := by
        intro k
        match k with
        | 0 | 1 | 2 | 3 | 4 | 5 | 6 | 7 | 8 | 9 | 10 | 11 => exact ⟨_, _, rfl, by decide +kernel, by decide +kernel, by decide +kernel, by decide +kernel, by decide +kernel⟩
      intro h
      obtain ⟨u', l', h', q⟩ := this k
      rw [h'] at h
      simp only [Option.some.injEq, Prod.mk.injEq] at h
      obtain ⟨rfl, rfl⟩ := h
      exact q
    obtain ⟨l1, l2, l3, l4, l5⟩ := low ⟨k, hlt⟩ upper lower h1
    simp only at l1
    have lowc : ∀ {j : Nat} {c : Char}, (upper.toList[j]? = some c ∨ lower.toList[j]? = some c) → (points lower.toList)[j]? = some (lowerAscii c.toNat) := by
      rintro j c (h | h)
      · rw [← l2]; unfold points; rw [List.getElem?_map, List.getElem?_map, h]; rfl
      · rw [← l3]; unfold points; rw [List.getElem?_map, List.getElem?_map, h]; rfl
    have e : (points [a, b, c]).map lowerAscii = points lower.toList := by
      apply List.ext_getElem?
      intro j
      match j with
      | 0 => rw [lowc ha]; rfl
      | 1 => rw [lowc hb]; rfl
      | 2 => rw [lowc hc]; rfl
      | j + 3 =>
        rw [List.getElem?_eq_none (by simp), List.getElem?_eq_none (by unfold points; simp only [List.length_map]; omega)]
    rw [e]
    have nodup : ∀ i j : Fin 12, monthNames[i.val]? = monthNames[j.val]? → i = j := by decide +kernel
    rw [List.findIdx?_eq_some_iff_getElem]
    have hl : monthNames.length = 12 := by decide
    refine ⟨by omega, ?_, ?_⟩
    · have := (List.getElem?_eq_some_iff.1 l1).2
      simp [this]
    · intro j hj hjm
      have hne : j ≠ k := by omega
      have := nodup ⟨j, by omega⟩ ⟨k, hlt⟩
      simp only [beq_iff_eq] at hjm
      rw [l1, List.getElem?_eq_getElem (by omega), hjm] at this
      exact hne (Fin.mk.inj (this rfl))

theorem monthDays_le (y m : Nat) : monthDays y m ≤ 31 := by
  unfold monthDays
  split
  · split <;> decide
  · split <;> decide

theorem fileTimestamp_eq {a : Date} (hm : 1 ≤ a.m) (hd : a.d < 100) (hy : a.y < 10000) {h mi s : Nat} (hh : h < 100) (hmi : mi < 100) (hs : s < 100)
    {name : List Char} (hn : FileNameOf a h mi s name) :
    fileTimestamp (points name) = if 1 ≤ a.y ∧ 1 ≤ a.d ∧ a.d ≤ monthDays a.y a.m ∧ h < 24 ∧ mi < 60 ∧ s ≤ 60 then
      some (unixTime a.y a.m a.d h mi (min s 59)) else none := by
  obtain ⟨month, hmo, rfl⟩ := hn
  obtain ⟨m1, m2⟩ := month_index hmo
  have dd := digits_two hd
  have dy := digits_four hy
  have dh := digits_two (n := h) (by omega)
  have dmi := digits_two (n := mi) (by omega)
  have ds := digits_two (n := s) (by omega)
  match month, m1 with
  | [x, y, z], _ =>
    simp only [two, points_cons, points_nil, List.cons_append, List.nil_append, List.map_cons, List.map_nil] at dd dy dh dmi ds m2
    have hm1 : a.m - 1 + 1 = a.m := by omega
    have e1 : "_".toList = ['_'] := rfl
    have e2 : "_GST_".toList = ['_', 'G', 'S', 'T', '_'] := rfl
    have e3 : ".csv".toList = ['.', 'c', 's', 'v'] := rfl
    unfold fileTimestamp
    simp only [e1, e2, e3, two, points_cons, points_nil, List.cons_append, List.nil_append, List.length_cons, List.length_nil,
      List.take_succ_cons, List.take_zero, List.drop_succ_cons, List.drop_zero, List.map_cons, List.map_nil, dd, dy, dh, dmi, ds,
      Nat.reduceAdd, Nat.reduceSub, ne_eq, not_true_eq_false, if_false, if_true, Option.bind_eq_bind, Option.bind_some]
    rw [m2]
    simp only [Option.bind_some, hm1]

theorem fileTimestamp_name {a : Date} (ha : a.Valid) (hy : a.y < 10000) {h mi s : Nat} (hh : h < 24) (hmi : mi < 60) (hs : s ≤ 60) {name : List Char}
    (hn : FileNameOf a h mi s name) : fileTimestamp (points name) = some (unixTime a.y a.m a.d h mi (min s 59)) := by
  obtain ⟨v1, v2, v3, v4, v5⟩ := ha
  have hd := monthDays_le a.y a.m
  rw [fileTimestamp_eq v2 (by omega) hy (by omega) (by omega) (by omega) hn, if_pos ⟨v1, v4, v5, hh, hmi, hs⟩]

/-! ## The theorem -/

theorem gstEpoch_valid : gstEpoch.Valid := by unfold Date.Valid gstEpoch; decide

/-- **C46, file name.**  The file name gives the start time: if the date is `n` days after 1999-08-22 (counting day by day in the Gregorian calendar), the
first page is at `n` days, the hours, minutes and seconds of the name after the GST epoch, if GST goes that far; otherwise the program panics.  The second may be
60 (a leap second, in any minute), which counts as 59. -/
theorem C46_file_name {date : Date} {n h mi s : Nat} {name : List Char} (hn : DaysAfter gstEpoch n date) (hy : date.y < 10000) (hh : h < 24)
    (hmi : mi < 60) (hs : s ≤ 60) (hname : FileNameOf date h mi s name) :
    (∀ g : Gst, filenameToGst (points name) = .ok (some g) ↔ g.abs = 86400 * n + 3600 * h + 60 * mi + min s 59) ∧
    ((filenameToGst (points name)).Panics ↔ 65536 * 604800 ≤ 86400 * n + 3600 * h + 60 * mi + min s 59) := by
  obtain ⟨hv, hd⟩ := hn.dayNo gstEpoch_valid
  have e0 : dayNo gstEpoch = 729988 := by decide
  have ht : fileTimestamp (points name) = some ((935280000 : Int) + (86400 * (n : Int) + 3600 * (h : Int) + 60 * (mi : Int) + (min s 59 : Nat))) := by
    rw [fileTimestamp_name hv hy hh hmi hs hname, unixTime_eq, hd, e0]
    congr 1
    omega
  unfold filenameToGst
  rw [ht]
  dsimp only
  have hc := C46_time (935280000 + (86400 * n + 3600 * h + 60 * mi + (min s 59 : Nat)))
  cases hx : timestampToGst (935280000 + (86400 * n + 3600 * h + 60 * mi + min s 59)) with
  | ok g0 =>
    have h1 := (hc.1 g0).1 hx
    have h2 := hc.2.1 ⟨g0, hx⟩
    refine ⟨fun g => ?_, ?_⟩
    · show Res.ok (some g0) = .ok (some g) ↔ _
      simp only [Res.ok.injEq, Option.some.injEq]
      constructor
      · rintro rfl; omega
      · intro h; apply Gst.abs_inj; omega
    · constructor
      · rintro ⟨m, hm⟩; cases hm
      · intro h; omega
  | panic m =>
    refine ⟨fun g => ?_, ?_⟩
    · constructor
      · intro h; cases h
      · intro h
        have := (hc.1 g).2 (by omega)
        rw [hx] at this
        cases this
    · constructor
      · intro _
        refine Classical.byContradiction fun hlt => ?_
        obtain ⟨g, hg⟩ := hc.2.2 (by omega)
        rw [hx] at hg
        cases hg
      · intro _; exact ⟨m, rfl⟩

/-- **C46, file name.**  A date before the GST epoch makes the program panic. -/
theorem C46_file_name_early {date : Date} {n h mi s : Nat} {name : List Char} (hy1 : 1 ≤ date.y) (hm : 1 ≤ date.m ∧ date.m ≤ 12)
    (hd : 1 ≤ date.d ∧ ∃ l, LastDay ⟨date.y, date.m, l⟩ ∧ date.d ≤ l) (hn : DaysAfter date (n + 1) gstEpoch) (hy : date.y < 10000) (hh : h < 24) (hmi : mi < 60) (hs : s ≤ 60)
    (hname : FileNameOf date h mi s name) : (filenameToGst (points name)).Panics := by
  obtain ⟨hd1, l, hl, hdl⟩ := hd
  have hl' : l = monthDays date.y date.m := (lastDay_iff (a := ⟨date.y, date.m, l⟩) hm).1 hl
  subst hl'
  have hv : date.Valid := ⟨hy1, hm.1, hm.2, hd1, hdl⟩
  obtain ⟨_, hd⟩ := hn.dayNo hv
  have e0 : dayNo gstEpoch = 729988 := by decide
  have ht := fileTimestamp_name hv hy hh hmi hs hname
  unfold filenameToGst
  rw [ht]
  simp only
  cases hx : timestampToGst (unixTime date.y date.m date.d h mi (min s 59)) with
  | ok g =>
    have := ((C46_time _).1 g).1 hx
    have hr := g.abs_representable
    unfold Representable at hr
    rw [unixTime_eq] at this
    omega
  | panic m => exact ⟨m, rfl⟩

/-- **C46, file name.**  A name of the right form is not taken for another time when there is no such date or time of day: it is an error. -/
theorem C46_file_name_rejected {date : Date} {h mi s : Nat} {name : List Char} (hm : 1 ≤ date.m ∧ date.m ≤ 12) (hd : date.d < 100) (hy : date.y < 10000)
    (hh : h < 100) (hmi : mi < 100) (hs : s < 100) (hname : FileNameOf date h mi s name)
    (hbad : date.d = 0 ∨ (∃ l, LastDay ⟨date.y, date.m, l⟩ ∧ l < date.d) ∨ 24 ≤ h ∨ 60 ≤ mi ∨ 60 < s) : filenameToGst (points name) = .ok none := by
  unfold filenameToGst
  rw [fileTimestamp_eq hm.1 hd hy hh hmi hs hname, if_neg]
  rintro ⟨_, h1, h2, h3, h4, h5⟩
  rcases hbad with h | ⟨l, hl, h⟩ | h | h | h
  · omega
  · have : l = monthDays date.y date.m := (lastDay_iff (a := ⟨date.y, date.m, l⟩) hm).1 hl
    omega
  · omega
  · omega
  · omega

/-- Each date from the GST epoch on is some number of days after it. -/
theorem C46_all_dates {date : Date} (hm : 1 ≤ date.m ∧ date.m ≤ 12) (hd : 1 ≤ date.d ∧ ∃ l, LastDay ⟨date.y, date.m, l⟩ ∧ date.d ≤ l)
    (he : 1999 < date.y ∨ (date.y = 1999 ∧ (8 < date.m ∨ (date.m = 8 ∧ 22 ≤ date.d)))) : ∃ n, DaysAfter gstEpoch n date := by
  obtain ⟨y, m, d⟩ := date
  obtain ⟨hd1, l, hl, hd2⟩ := hd
  simp only at *
  rw [lastDay_iff hm] at hl
  simp only at hl
  subst hl
  -- days of a month
  have days : ∀ {n d0 : Nat} (y m : Nat), DaysAfter gstEpoch n ⟨y, m, d0⟩ → (1 ≤ m ∧ m ≤ 12) → ∀ d, d0 ≤ d → d ≤ monthDays y m → ∃ n, DaysAfter gstEpoch n ⟨y, m, d⟩ := by
    intro n d0 y m h0 hm d
    induction d with
    | zero => intro h1 _; obtain rfl : d0 = 0 := by omega
              exact ⟨n, h0⟩
    | succ d ih =>
      intro h1 h2
      by_cases h3 : d0 = d + 1
      · subst h3; exact ⟨n, h0⟩
      · obtain ⟨n, hn⟩ := ih (by omega) (by omega)
        exact ⟨n + 1, .next hn (.day fun hl => by rw [lastDay_iff hm] at hl; simp only at hl; omega)⟩
  -- months of a year
  have firsts : ∀ {n m0 d0 : Nat} (y : Nat), DaysAfter gstEpoch n ⟨y, m0, d0⟩ → 1 ≤ m0 → d0 ≤ monthDays y m0 → ∀ m, m0 < m → m ≤ 12 → ∃ n, DaysAfter gstEpoch n ⟨y, m, 1⟩ := by
    intro n m0 d0 y h0 hm0 hd0 m
    induction m with
    | zero => intro h1; omega
    | succ m ih =>
      intro h1 h2
      have hlast : ∃ n, DaysAfter gstEpoch n ⟨y, m, monthDays y m⟩ := by
        by_cases h3 : m0 = m
        · subst h3; exact days y m0 h0 ⟨hm0, by omega⟩ _ hd0 (Nat.le_refl _)
        · obtain ⟨n, hn⟩ := ih (by omega) (by omega)
          exact days y m hn ⟨by omega, by omega⟩ _ (monthDays_pos y m) (Nat.le_refl _)
      obtain ⟨n, hn⟩ := hlast
      exact ⟨n + 1, .next hn (.month ((lastDay_iff ⟨by simp only; omega, by simp only; omega⟩).2 rfl) (by omega))⟩
  -- years
  have years : ∀ k, ∃ n, DaysAfter gstEpoch n ⟨2000 + k, 1, 1⟩ := by
    have close : ∀ {n m0 d0 : Nat} (y : Nat), DaysAfter gstEpoch n ⟨y, m0, d0⟩ → 1 ≤ m0 → m0 < 12 → d0 ≤ monthDays y m0 → ∃ n, DaysAfter gstEpoch n ⟨y + 1, 1, 1⟩ := by
      intro n m0 d0 y h0 hm0 hm1 hd0
      obtain ⟨n, hn⟩ := firsts y h0 hm0 hd0 12 hm1 (Nat.le_refl _)
      obtain ⟨n, hn⟩ := days y 12 hn ⟨by decide, by decide⟩ 31 (by decide) (by decide : (31 : Nat) ≤ 31)
      exact ⟨n + 1, .next hn (.year (.d31 (by simp)))⟩
    intro k
    induction k with
    | zero => exact close 1999 .same (by decide) (by decide) (by decide)
    | succ k ih =>
      obtain ⟨n, hn⟩ := ih
      exact close (2000 + k) hn (by decide) (by decide) (monthDays_pos _ _)
  rcases he with he | ⟨rfl, he | ⟨rfl, he⟩⟩
  · obtain ⟨n, hn⟩ := years (y - 2000)
    rw [show 2000 + (y - 2000) = y by omega] at hn
    by_cases h1 : m = 1
    · subst h1; exact days y 1 hn hm d hd1 hd2
    · obtain ⟨n, hn⟩ := firsts y hn (by decide) (monthDays_pos _ _) m (by omega) hm.2
      exact days y m hn hm d hd1 hd2
  · obtain ⟨n, hn⟩ := firsts 1999 (.same (a := gstEpoch)) (by decide) (by decide) m he hm.2
    exact days 1999 m hn hm d hd1 hd2
  · exact days 1999 8 (.same (a := gstEpoch)) hm d he hd2

/-! ## Examples -/

/-- The name of one of the official test vectors. -/
theorem sample_name : FileNameOf ⟨2023, 8, 16⟩ 5 0 1 "16_AUG_2023_GST_05_00_01.csv".toList :=
  ⟨"AUG".toList, ⟨"AUG", "aug", rfl, rfl, fun _ _ h => .inl h⟩, rfl⟩

/-- There is no 29 February 2023. -/
example : filenameToGst (points "29_FEB_2023_GST_05_00_01.csv".toList) = .ok none :=
  C46_file_name_rejected (date := ⟨2023, 2, 29⟩) (h := 5) (mi := 0) (s := 1) (by decide) (by decide) (by decide) (by decide) (by decide) (by decide)
    ⟨"FEB".toList, ⟨"FEB", "feb", rfl, rfl, fun _ _ h => .inl h⟩, rfl⟩ (.inr (.inl ⟨28, .d28 (by unfold LeapYear; decide), by decide⟩))

/-- It is at week 1251 and 277201 seconds. -/
example : filenameToGst (points "16_AUG_2023_GST_05_00_01.csv".toList) = .ok (some ⟨1251, 277201, by decide, by decide⟩) := by
  obtain ⟨n, hn⟩ := C46_all_dates (date := ⟨2023, 8, 16⟩) (by decide) ⟨by decide, 31, .d31 (by decide), by decide⟩ (by decide)
  have h := C46_file_name hn (by decide) (by decide) (by decide) (by decide) sample_name
  refine (h.1 _).2 ?_
  have e := (hn.dayNo gstEpoch_valid).2
  have e0 : dayNo gstEpoch = 729988 := by decide
  have e1 : dayNo ⟨2023, 8, 16⟩ = 738748 := by decide
  rw [e0, e1] at e
  unfold Gst.abs
  simp only
  omega

end Verif
