import Verif.Spec.Calendar
import Verif.Lemmas.Sql
/-!
# The calendar
-/
namespace OsmIo
open Text Sql Spec

theorem isLeap_eq (y : Int) : isLeap y = decide (LeapYear y) := by
  rw [Bool.eq_iff_iff, isLeap_iff, decide_eq_true_iff]
  unfold LeapYear
  omega

theorem monthDays_eq (y : Int) (m : Nat) (h1 : 1 ≤ m) (h2 : m ≤ 12) : monthDays y m = daysInMonth (isLeap y) m := by
  rw [isLeap_eq]
  unfold monthDays
  obtain rfl | rfl | rfl | rfl | rfl | rfl | rfl | rfl | rfl | rfl | rfl | rfl :
    m = 1 ∨ m = 2 ∨ m = 3 ∨ m = 4 ∨ m = 5 ∨ m = 6 ∨ m = 7 ∨ m = 8 ∨ m = 9 ∨ m = 10 ∨ m = 11 ∨ m = 12 := by omega
  all_goals simp [daysInMonth]

theorem daysBeforeYear_succ (y : Int) : daysBeforeYear (y + 1) = daysBeforeYear y + if isLeap y then 366 else 365 := by
  have := isLeap_iff y
  unfold daysBeforeYear
  cases h : isLeap y <;> simp [h] at this ⊢ <;> omega

theorem nextDay_real {d : Date} (h : RealDate d) : RealDate (nextDay d) := by
  obtain ⟨h1, h2, h3, h4⟩ := h
  have hpos : ∀ y m, 1 ≤ monthDays y m := by intro y m; unfold monthDays; split_ifs <;> omega
  unfold nextDay
  split_ifs with a b
  · exact ⟨h1, h2, by simp, a⟩
  · exact ⟨by simp, b, by simp, hpos _ _⟩
  · exact ⟨by simp, by simp, by simp, hpos _ _⟩

theorem nextDay_toDays {d : Date} (h : RealDate d) : (nextDay d).toDays = d.toDays + 1 := by
  obtain ⟨h1, h2, h3, h4⟩ := h
  rw [monthDays_eq _ _ h1 h2] at h4
  unfold nextDay
  rw [monthDays_eq _ _ h1 h2]
  split_ifs with a b
  · unfold Date.toDays; simp only; omega
  · have := daysBeforeMonth_succ (isLeap d.year) d.month
    unfold Date.toDays; simp only; omega
  · have e12 : d.month = 12 := by omega
    have h5 := daysBeforeMonth_succ (isLeap d.year) 12
    rw [daysBeforeMonth_13] at h5
    have h6 := daysBeforeYear_succ d.year
    have h7 := daysBeforeMonth_1 (isLeap (d.year + 1))
    unfold Date.toDays
    rw [e12] at a h4 ⊢
    simp only [h6, h7]
    cases hl : isLeap d.year <;> simp [hl] at h5 a h4 ⊢ <;> omega

theorem daysBeforeMonth_bounds (l : Bool) {m : Nat} (h1 : 1 ≤ m) (h2 : m ≤ 12) :
    daysBeforeMonth l m + daysInMonth l m ≤ if l then 366 else 365 := by
  obtain rfl | rfl | rfl | rfl | rfl | rfl | rfl | rfl | rfl | rfl | rfl | rfl :
    m = 1 ∨ m = 2 ∨ m = 3 ∨ m = 4 ∨ m = 5 ∨ m = 6 ∨ m = 7 ∨ m = 8 ∨ m = 9 ∨ m = 10 ∨ m = 11 ∨ m = 12 := by omega
  all_goals cases l <;> decide

theorem daysBeforeYear_mono {y z : Int} (h : y + 1 ≤ z) :
    daysBeforeYear y + (if isLeap y then 366 else 365) ≤ daysBeforeYear z := by
  rw [← daysBeforeYear_succ]
  unfold daysBeforeYear
  omega

theorem daysBeforeMonth_mono (l : Bool) {m k : Nat} (h : m + 1 ≤ k) :
    daysBeforeMonth l m + daysInMonth l m ≤ daysBeforeMonth l k := by
  rw [← daysBeforeMonth_succ]
  induction k, h using Nat.le_induction with
  | base => exact Nat.le_refl _
  | succ k _ ih => rw [daysBeforeMonth_succ l k]; omega

theorem toDays_inj {d e : Date} (hd : RealDate d) (he : RealDate e) (h : d.toDays = e.toDays) : d = e := by
  obtain ⟨y, m, k⟩ := d
  obtain ⟨y', m', k'⟩ := e
  obtain ⟨h1, h2, h3, h4⟩ := hd
  obtain ⟨g1, g2, g3, g4⟩ := he
  rw [monthDays_eq _ _ h1 h2] at h4
  rw [monthDays_eq _ _ g1 g2] at g4
  simp only at h1 h2 h3 h4 g1 g2 g3 g4
  unfold Date.toDays at h
  simp only at h
  have hy : y = y' := by
    by_contra hne
    rcases Int.lt_or_gt_of_ne hne with hlt | hgt
    · have := daysBeforeYear_mono (y := y) (z := y') (by omega)
      have := daysBeforeMonth_bounds (isLeap y) h1 h2
      split_ifs at * <;> omega
    · have := daysBeforeYear_mono (y := y') (z := y) (by omega)
      have := daysBeforeMonth_bounds (isLeap y') g1 g2
      split_ifs at * <;> omega
  subst hy
  have hm : m = m' := by
    by_contra hne
    rcases Nat.lt_or_gt_of_ne hne with hlt | hgt
    · have := daysBeforeMonth_mono (isLeap y) (m := m) (k := m') hlt
      omega
    · have := daysBeforeMonth_mono (isLeap y) (m := m') (k := m) hgt
      omega
  subst hm
  have : k = k' := by omega
  rw [this]

theorem ofDays_real (n : Int) : RealDate (Date.ofDays n) := by
  obtain ⟨h1, h2, h3, h4, _⟩ := ofDays_spec n
  exact ⟨h1, h2, h3, by rw [monthDays_eq _ _ h1 h2]; exact h4⟩

theorem dayIs_real {n : Int} {d : Date} (h : DayIs n d) : RealDate d := by
  induction h with
  | epoch => unfold RealDate; decide
  | forward _ ih => exact nextDay_real ih
  | back hr _ _ => exact hr

theorem dayIs_toDays {n : Int} {d : Date} (h : DayIs n d) : d.toDays = n := by
  induction h with
  | epoch => decide +kernel
  | forward h ih => rw [nextDay_toDays (dayIs_real h), ih]
  | back hr _ ih => rw [nextDay_toDays hr] at ih; omega

theorem nextDay_ofDays (n : Int) : nextDay (Date.ofDays n) = Date.ofDays (n + 1) := by
  apply toDays_inj (nextDay_real (ofDays_real n)) (ofDays_real _)
  rw [nextDay_toDays (ofDays_real n), (ofDays_spec n).2.2.2.2, (ofDays_spec (n + 1)).2.2.2.2]

theorem dayIs_ofDays (n : Int) : DayIs n (Date.ofDays n) := by
  have e0 : Date.ofDays 0 = ⟨1970, 1, 1⟩ := by decide +kernel
  induction n with
  | zero => rw [e0]; exact .epoch
  | succ n ih => rw [← nextDay_ofDays]; exact .forward ih
  | pred n ih =>
    refine .back (ofDays_real _) ?_
    rw [nextDay_ofDays]
    rw [show (-(n : Int) - 1 + 1) = -n by omega]
    exact ih

theorem dayIs_iff {n : Int} {d : Date} : DayIs n d ↔ d = Date.ofDays n := by
  constructor
  · intro h
    apply toDays_inj (dayIs_real h) (ofDays_real n)
    rw [dayIs_toDays h, (ofDays_spec n).2.2.2.2]
  · rintro rfl; exact dayIs_ofDays n


theorem two_eq {n : Nat} (h : n < 100) : two n = padNat 2 n := by
  have key : ∀ n : Fin 100, two n.1 = padNat 2 n.1 := by decide +kernel
  exact key ⟨n, h⟩

theorem showNat_step {n : Nat} (h : 10 ≤ n) : showNat n = showNat (n / 10) ++ [digit (n % 10)] := by
  rw [showNat, dif_neg (by omega)]

theorem padNat_step {w n : Nat} (hw : 1 ≤ w) : padNat (w + 1) n = padNat w (n / 10) ++ [digit (n % 10)] := by
  by_cases hn : n < 10
  · have e1 : showNat n = [digit n] := by rw [showNat, dif_pos hn]
    have e2 : n / 10 = 0 := by omega
    have e3 : showNat 0 = [digit 0] := by rw [showNat, dif_pos (by omega)]
    have e4 : n % 10 = n := by omega
    unfold padNat
    rw [e2, e1, e3, e4]
    simp only [List.length_cons, List.length_nil, Nat.zero_add, Nat.add_sub_cancel]
    have : (digit 0) = '0' := rfl
    rw [this, show [('0' : Char)] = List.replicate 1 '0' from rfl, ← List.replicate_add, show w - 1 + 1 = w by omega]
  · have e := showNat_step (n := n) (by omega)
    unfold padNat
    rw [e]
    simp

theorem four_eq {n : Nat} (h : n < 10000) : four n = padNat 4 n := by
  rw [padNat_step (w := 3) (by omega), padNat_step (w := 2) (by omega), ← two_eq (by omega)]
  unfold four two
  simp only [List.cons_append, List.nil_append]
  have a : n / 100 / 10 = n / 10 / 10 / 10 := by omega
  have b : n / 100 % 10 = n / 10 / 10 % 10 := by omega
  have c : n % 100 / 10 = n / 10 % 10 := by omega
  have d : n % 100 % 10 = n % 10 := by omega
  rw [a, b, c, d]

/-- The text of a time of years 0 to 9999. -/
theorem secondText_iff {x : Text} {secs : Int} : SecondText x secs ↔
    x = showSeconds secs ∧ 0 ≤ (Date.ofDays (secs / 86400)).year ∧ (Date.ofDays (secs / 86400)).year ≤ 9999 := by
  have text : ∀ (d : Date) (h m s : Nat), RealDate d → 0 ≤ d.year → d.year ≤ 9999 → h < 24 → m < 60 → s < 60 →
      four d.year.toNat ++ ['-'] ++ two d.month ++ ['-'] ++ two d.day ++ [' '] ++ two h ++ [':'] ++ two m ++ [':'] ++ two s =
      showYear d.year ++ '-' :: padNat 2 d.month ++ '-' :: padNat 2 d.day ++ ' ' ::
        padNat 2 h ++ ':' :: padNat 2 m ++ ':' :: padNat 2 s := by
    intro d h m s hr y0 y1 hh hm hs
    obtain ⟨_, m2, _, d2⟩ := hr
    have d3 : monthDays d.year d.month ≤ 31 := by unfold monthDays; split_ifs <;> omega
    rw [four_eq (by omega), two_eq (n := d.month) (by omega), two_eq (n := d.day) (by omega), two_eq (n := h) (by omega),
      two_eq (n := m) (by omega), two_eq (n := s) (by omega)]
    unfold showYear
    rw [if_pos ⟨y0, y1⟩]
    simp [List.append_assoc]
  constructor
  · rintro ⟨n, d, h, m, s, hd, y0, y1, hh, hm, hs, e, rfl⟩
    have hr := dayIs_real hd
    rw [dayIs_iff] at hd
    subst hd
    have e1 : secs / 86400 = n := by omega
    have e2 : (secs % 86400).toNat = h * 3600 + m * 60 + s := by omega
    refine ⟨?_, by rw [e1]; exact y0, by rw [e1]; exact y1⟩
    unfold showSeconds
    simp only [e1, e2]
    rw [show (h * 3600 + m * 60 + s) / 3600 = h by omega, show (h * 3600 + m * 60 + s) / 60 % 60 = m by omega,
      show (h * 3600 + m * 60 + s) % 60 = s by omega]
    exact text _ h m s hr y0 y1 hh hm hs
  · rintro ⟨rfl, y0, y1⟩
    refine ⟨secs / 86400, Date.ofDays (secs / 86400), (secs % 86400).toNat / 3600, (secs % 86400).toNat / 60 % 60,
      (secs % 86400).toNat % 60, dayIs_ofDays _, y0, y1, by omega, by omega, by omega, by omega, ?_⟩
    exact (text _ _ _ _ (ofDays_real _) y0 y1 (by omega) (by omega) (by omega)).symm

/-- Years 0 to 9999 are representable. -/
theorem inRange_of_year {secs : Int} (y0 : 0 ≤ (Date.ofDays (secs / 86400)).year)
    (y1 : (Date.ofDays (secs / 86400)).year ≤ 9999) : inRange secs = true := by
  have e1 : (Date.mk (-262143) 1 1).toDays = -96465292 := by decide +kernel
  have e2 : (Date.mk 262143 1 1).toDays = 95026237 := by decide +kernel
  obtain ⟨m1, m2, d1, d2, hs⟩ := ofDays_spec (secs / 86400)
  generalize Date.ofDays (secs / 86400) = d at *
  have hb := daysBeforeMonth_bounds (isLeap d.year) m1 m2
  have hb' : daysBeforeMonth (isLeap d.year) d.month + daysInMonth (isLeap d.year) d.month ≤ 366 := by
    split_ifs at hb <;> omega
  unfold Date.toDays daysBeforeYear epochDay at hs
  unfold inRange
  rw [e1, e2]
  simp only [Bool.and_eq_true, decide_eq_true_eq]
  omega

theorem decimal_append (a b : List Nat) : decimal (a ++ b) = b.foldl (fun a d => 10 * a + d) (decimal a) := by
  simp [decimal]

theorem digits_map {ds : List Nat} (h : ∀ d ∈ ds, d < 10) (acc : Nat) :
    digits acc (ds.map digit) = some (ds.foldl (fun a d => 10 * a + d) acc) := by
  induction ds generalizing acc with
  | nil => rfl
  | cons d ds ih =>
    have hv : digitVal (digit d) = some d := by
      have key : ∀ d : Fin 10, digitVal (digit d.1) = some d.1 := by decide
      exact key ⟨d, h d (by simp)⟩
    simp only [List.map_cons, digits, hv, List.foldl_cons]
    rw [Nat.mul_comm acc 10]
    exact ih (fun e he => h e (by simp [he])) _

theorem foldl_zeros (k a : Nat) : (List.replicate k 0).foldl (fun a d => 10 * a + d) a = a * 10 ^ k := by
  induction k generalizing a with
  | zero => simp
  | succ k ih => rw [List.replicate_succ, List.foldl_cons, ih, Nat.pow_succ]; ring

theorem scanFrac_digits {ds : List Nat} (h0 : ds ≠ []) (h9 : ds.length ≤ 9) (h : ∀ d ∈ ds, d < 10) :
    scanFrac ('.' :: ds.map digit) = some (decimal ds * 10 ^ (9 - ds.length)) := by
  have z : ∀ k, List.replicate k '0' = (List.replicate k 0).map digit := by
    intro k; rw [List.map_replicate]; rfl
  have hz : ∀ k, ∀ d ∈ ds ++ List.replicate k 0, d < 10 := by
    intro k d hd
    rcases List.mem_append.1 hd with hd | hd
    · exact h d hd
    · rw [(List.mem_replicate.1 hd).2]; omega
  have key : ∀ k, digits 0 (ds.map digit ++ List.replicate k '0') = some (decimal ds * 10 ^ k) := by
    intro k
    rw [z, ← List.map_append, digits_map (hz k)]
    congr 1
    refine (decimal_append ds (List.replicate k 0)).trans ?_
    rw [foldl_zeros]
  have ht : (ds.map digit ++ List.replicate 9 '0').take 9 = ds.map digit ++ List.replicate (9 - ds.length) '0' := by
    rw [List.take_append, List.take_of_length_le (by simp; exact h9), List.take_replicate, List.length_map, Nat.min_eq_left (by omega)]
  simp only [scanFrac]
  rw [if_neg (by simp [h0]), key 9, ht, key]

/-- Parsing the text of a time. -/
theorem parse_timeText {x : Text} {ns : Int} (h : TimeText x ns) : parseSqlTime x = some ns := by
  obtain ⟨secs, y, hy, h⟩ := h
  obtain ⟨rfl, y0, y1⟩ := secondText_iff.1 hy
  have hr := inRange_of_year y0 y1
  rcases h with ⟨rfl, rfl⟩ | ⟨ds, h0, h9, hd, rfl, rfl⟩
  · have := parse_showSeconds secs hr [] 0 rfl
    rw [List.append_nil] at this
    rw [this]; norm_num
  · rw [parse_showSeconds secs hr _ _ (scanFrac_digits h0 h9 hd)]
    push_cast
    norm_num

end OsmIo
