import Verif.Model.Sql
import Verif.Lemmas.Text
import Mathlib.Tactic.Linarith
/-! Lemmas about SQL values: the calendar and timestamps. -/
namespace OsmIo.Sql
open OsmIo.Text

/-! ### Calendar -/

theorem daysBeforeMonth_succ (leap : Bool) (m : Nat) :
    daysBeforeMonth leap (m + 1) = daysBeforeMonth leap m + daysInMonth leap m := by
  simp [daysBeforeMonth, List.range_succ]

theorem findMonth_spec (leap : Bool) (fuel m n : Nat)
    (h : n + daysBeforeMonth leap m < daysBeforeMonth leap (m + fuel + 1)) :
    m ≤ (findMonth leap fuel m n).1 ∧ (findMonth leap fuel m n).1 ≤ m + fuel ∧
    1 ≤ (findMonth leap fuel m n).2 ∧
    (findMonth leap fuel m n).2 ≤ daysInMonth leap (findMonth leap fuel m n).1 ∧
    daysBeforeMonth leap (findMonth leap fuel m n).1 + ((findMonth leap fuel m n).2 - 1) =
      daysBeforeMonth leap m + n := by
  induction fuel generalizing m n with
  | zero =>
    have := daysBeforeMonth_succ leap m
    simp only [findMonth]
    simp at h ⊢
    omega
  | succ k ih =>
    simp only [findMonth]
    split
    · simp; omega
    · have hs := daysBeforeMonth_succ leap m
      have := ih (m + 1) (n - daysInMonth leap m) (by
        rw [show m + 1 + k + 1 = m + (k + 1) + 1 by omega]; omega)
      omega

theorem daysBeforeMonth_13 (leap : Bool) : daysBeforeMonth leap 13 = if leap then 366 else 365 := by
  cases leap <;> rfl

theorem daysBeforeMonth_1 (leap : Bool) : daysBeforeMonth leap 1 = 0 := by
  cases leap <;> rfl

theorem isLeap_iff (y : Int) : isLeap y = true ↔ (y % 4 = 0 ∧ y % 100 ≠ 0) ∨ y % 400 = 0 := by
  simp [isLeap]

/-- The date of a day number is a real date and has that day number. -/
theorem ofDays_spec (days : Int) :
    1 ≤ (Date.ofDays days).month ∧ (Date.ofDays days).month ≤ 12 ∧ 1 ≤ (Date.ofDays days).day ∧
    (Date.ofDays days).day ≤ daysInMonth (isLeap (Date.ofDays days).year) (Date.ofDays days).month ∧
    (Date.ofDays days).toDays = days := by
  unfold Date.ofDays Date.toDays epochDay
  extract_lets n n400 r400 n100 r100 n4 r4 n1 doy year md
  have h400 : n = 146097 * n400 + r400 ∧ 0 ≤ r400 ∧ r400 < 146097 := by omega
  have h100 : 0 ≤ n100 ∧ n100 ≤ 3 ∧ r100 = r400 - n100 * 36524 ∧ 0 ≤ r100 ∧
      (r100 < 36524 ∨ (n100 = 3 ∧ r100 ≤ 36524)) := by omega
  have h4 : 0 ≤ n4 ∧ n4 ≤ 24 ∧ r100 = 1461 * n4 + r4 ∧ 0 ≤ r4 ∧ r4 < 1461 := by omega
  have h1 : 0 ≤ n1 ∧ n1 ≤ 3 ∧ doy = r4 - n1 * 365 ∧ 0 ≤ doy ∧ (doy < 365 ∨ (n1 = 3 ∧ doy = 365)) := by
    omega
  have hyear : year = 400 * n400 + 100 * n100 + 4 * n4 + n1 + 1 := rfl
  have hn : n = days + 719162 := rfl
  clear_value n400 r400 n100 r100 n4 r4 n1 doy year
  have hbefore : daysBeforeYear year = 146097 * n400 + 36524 * n100 + 1461 * n4 + 365 * n1 := by
    unfold daysBeforeYear
    have e1 : (year - 1) / 4 = 100 * n400 + 25 * n100 + n4 := by omega
    have e2 : (year - 1) / 100 = 4 * n400 + n100 := by omega
    have e3 : (year - 1) / 400 = n400 := by omega
    rw [e1, e2, e3]; omega
  have hleap : doy = 365 → isLeap year = true := by
    intro h
    rw [isLeap_iff]
    omega
  have hb : doy.toNat + daysBeforeMonth (isLeap year) 1 < daysBeforeMonth (isLeap year) (1 + 11 + 1) := by
    rw [daysBeforeMonth_1, show 1 + 11 + 1 = 13 from rfl, daysBeforeMonth_13]
    by_cases h : doy = 365
    · rw [hleap h]; simp; omega
    · split <;> omega
  have hm := findMonth_spec (isLeap year) 11 1 doy.toNat hb
  have hmd : md = findMonth (isLeap year) 11 1 doy.toNat := rfl
  rw [← hmd, daysBeforeMonth_1] at hm
  clear_value md
  simp only
  refine ⟨hm.1, by omega, hm.2.2.1, hm.2.2.2.1, ?_⟩
  rw [hbefore]
  omega

/-! ### Fixed width numbers -/

theorem digits_zero_replicate (k : Nat) : digits 0 (List.replicate k '0') = some 0 := by
  induction k with
  | zero => rfl
  | succ k ih =>
    rw [List.replicate_succ]
    simp only [digits]
    have : digitVal '0' = some 0 := by decide
    rw [this]; simpa using ih

theorem digits_padNat (w n : Nat) : digits 0 (padNat w n) = some n := by
  unfold padNat
  rw [digits_append, digits_zero_replicate]
  exact digits_showNat n

theorem showNat_length {w n : Nat} (hw : 1 ≤ w) (h : n < 10 ^ w) : (showNat n).length ≤ w := by
  induction w generalizing n with
  | zero => omega
  | succ w ih =>
    by_cases hn : n < 10
    · rw [showNat_lt hn]; simp
    · rw [showNat_ge hn]
      have hw1 : 1 ≤ w := by
        rcases Nat.eq_zero_or_pos w with rfl | h'
        · simp at h; omega
        · exact h'
      have := ih (n := n / 10) hw1 (by rw [pow_succ] at h; omega)
      simp; omega

theorem padNat_length {w n : Nat} (hw : 1 ≤ w) (h : n < 10 ^ w) : (padNat w n).length = w := by
  have := showNat_length hw h
  simp [padNat]; omega

theorem padNat_digit (w n : Nat) : ∀ c ∈ padNat w n, 48 ≤ c.toNat ∧ c.toNat ≤ 57 := by
  intro c hc
  unfold padNat at hc
  rcases List.mem_append.1 hc with hc | hc
  · obtain ⟨_, rfl⟩ := List.mem_replicate.1 hc; decide
  · exact showNat_digit n c hc

theorem padNat_ne_nil (w n : Nat) : padNat w n ≠ [] := by
  simp [padNat, showNat_ne_nil]

theorem scanNumGo_digits (max acc v : Nat) (seen : Bool) (ds t : Text)
    (hd : digits acc ds = some v) (hlen : ds.length ≤ max) (hne : seen = true ∨ ds ≠ [])
    (ht : ds.length = max ∨ t = [] ∨ ∃ c cs, t = c :: cs ∧ digitVal c = none) :
    scanNumGo max acc seen (ds ++ t) = some (v, t) := by
  induction ds generalizing max acc seen with
  | nil =>
    simp [digits] at hd; subst hd
    simp at hne; subst hne
    cases max with
    | zero => simp [scanNumGo]
    | succ m =>
      rcases ht with h | h | ⟨c, cs, h, hc⟩
      · simp at h
      · subst h; simp [scanNumGo]
      · subst h; simp [scanNumGo, hc]
  | cons d ds ih =>
    cases max with
    | zero => simp at hlen
    | succ m =>
      simp only [List.cons_append, scanNumGo]
      simp only [digits] at hd
      cases hv : digitVal d with
      | none => rw [hv] at hd; simp at hd
      | some x =>
        rw [hv] at hd
        simp only at hd ⊢
        exact ih m _ true hd (by simpa using hlen) (.inl rfl) (by
          rcases ht with h | h
          · left; simpa using h
          · exact .inr h)

theorem scanNum_pad {w n : Nat} (hw : 1 ≤ w) (h : n < 10 ^ w) (t : Text) :
    scanNum w (padNat w n ++ t) = some (n, t) := by
  have hl := padNat_length hw h
  exact scanNumGo_digits w 0 n false _ t (digits_padNat w n) (by omega)
    (.inr (padNat_ne_nil w n)) (.inl hl)

theorem scanNum_open {m w n : Nat} {t : Text} (h : (padNat w n).length ≤ m) (c : Char) (cs : Text)
    (ht : t = c :: cs) (hc : digitVal c = none) : scanNum m (padNat w n ++ t) = some (n, t) :=
  scanNumGo_digits m 0 n false _ t (digits_padNat w n) h (.inr (padNat_ne_nil w n))
    (.inr (.inr ⟨c, cs, ht, hc⟩))

theorem scanYear_showYear (y : Int) (cs : Text) : scanYear (showYear y ++ '-' :: cs) = some (y, '-' :: cs) := by
  unfold showYear
  split
  · rename_i h
    have hp := scanNum_pad (w := 4) (n := y.toNat) (by omega) (by omega) ('-' :: cs)
    have hd := padNat_digit 4 y.toNat
    have hn := padNat_ne_nil 4 y.toNat
    generalize padNat 4 y.toNat = p at *
    cases p with
    | nil => exact absurd rfl hn
    | cons a as =>
      have ha := hd a (by simp)
      have h1 : a ≠ '-' := by rintro rfl; revert ha; decide
      have h2 : a ≠ '+' := by rintro rfl; revert ha; decide
      rw [scanYear.eq_def]
      split
      · simp_all
      · simp_all
      · rename_i heq _ _
        rw [hp]; simp; omega
  · split
    · rename_i h
      simp only [List.cons_append, scanYear]
      rw [scanNum_open (m := _) (by simp) '-' cs rfl (by decide)]
      simp; rw [abs_of_neg h]; simp
    · rename_i h h'
      simp only [List.cons_append, scanYear]
      rw [scanNum_open (m := _) (by simp) '-' cs rfl (by decide)]
      simp; omega

theorem scanChar_self (c : Char) (t : Text) : scanChar c (c :: t) = some t := by simp [scanChar]

/-- Day numbers grow with the year: the bounds of the representable range, as years. -/
theorem year_bounds {days : Int} (h1 : (Date.mk (-262143) 1 1).toDays ≤ days)
    (h2 : days < (Date.mk 262143 1 1).toDays) :
    -262143 ≤ (Date.ofDays days).year ∧ (Date.ofDays days).year ≤ 262142 := by
  have e1 : (Date.mk (-262143) 1 1).toDays = -96465292 := by decide +kernel
  have e2 : (Date.mk 262143 1 1).toDays = 95026237 := by decide +kernel
  rw [e1] at h1; rw [e2] at h2
  unfold Date.ofDays epochDay
  extract_lets n n400 r400 n100 r100 n4 r4 n1 doy year md
  have hyear : year = 400 * n400 + 100 * n100 + 4 * n4 + n1 + 1 := rfl
  have a1 : -656 ≤ n400 ∧ n400 ≤ 655 ∧ n = 146097 * n400 + r400 ∧ 0 ≤ r400 := by omega
  have hn : n = days + 719162 := rfl
  have a2 : 0 ≤ n100 ∧ n100 ≤ 3 ∧ r400 = r100 + n100 * 36524 ∧ 0 ≤ r100 ∧ r100 ≤ 36524 := by omega
  have a3 : 0 ≤ n4 ∧ n4 ≤ 24 ∧ r100 = r4 + 1461 * n4 ∧ 0 ≤ r4 ∧ r4 ≤ 1460 := by omega
  have a4 : 0 ≤ n1 ∧ n1 ≤ 3 ∧ r4 = doy + 365 * n1 ∧ 0 ≤ doy ∧ doy ≤ 365 := by omega
  clear_value n400 r400 n100 r100 n4 r4 n1 doy year n
  constructor
  · have : n400 = -656 ∨ -655 ≤ n400 := by omega
    have : n100 ≤ 1 ∨ n100 = 2 ∨ n100 = 3 := by omega
    have : n4 ≤ 13 ∨ 14 ≤ n4 := by omega
    simp only
    omega
  · have : n400 = 655 ∨ n400 ≤ 654 := by omega
    have : n100 = 0 ∨ n100 = 1 ∨ 2 ≤ n100 := by omega
    have : n4 ≤ 9 ∨ n4 = 10 ∨ 11 ≤ n4 := by omega
    simp only
    omega

/-- Reading what `showSeconds` wrote gives the same second. -/
theorem parse_showSeconds (secs : Int) (h : inRange secs = true) (frac : Text) (ns : Nat)
    (hf : scanFrac frac = some ns) :
    parseSqlTime (showSeconds secs ++ frac) = some (secs * 1000000000 + ns) := by
  obtain ⟨m1, m2, d1, d2, hdays⟩ := ofDays_spec (secs / 86400)
  have hr : (Date.mk (-262143) 1 1).toDays * 86400 ≤ secs ∧ secs < (Date.mk 262143 1 1).toDays * 86400 := by
    simpa [inRange] using h
  have hy := year_bounds (days := secs / 86400) (by omega) (by omega)
  have hd31 : daysInMonth (isLeap (Date.ofDays (secs / 86400)).year) (Date.ofDays (secs / 86400)).month ≤ 31 := by
    generalize isLeap (Date.ofDays (secs / 86400)).year = l
    generalize (Date.ofDays (secs / 86400)).month = m at m1 m2
    interval_cases m <;> cases l <;> decide
  unfold showSeconds parseSqlTime
  extract_lets d s
  change _ ∧ _ at hy
  have hs : s < 86400 := by omega
  have hs' : (s : Int) = secs % 86400 := by omega
  have hdd : d = Date.ofDays (secs / 86400) := rfl
  rw [← hdd] at m1 m2 d1 d2 hdays hy hd31
  clear_value d s
  simp only [List.append_assoc, List.cons_append, Option.bind_eq_bind]
  rw [scanYear_showYear]
  simp only [Option.bind_some, scanChar_self]
  rw [scanNum_pad (by omega) (by omega)]
  simp only [Option.bind_some, scanChar_self]
  rw [scanNum_pad (by omega) (by omega)]
  simp only [Option.bind_some, scanChar_self]
  rw [scanNum_pad (by omega) (by omega)]
  simp only [Option.bind_some, scanChar_self]
  rw [scanNum_pad (by omega) (by omega)]
  simp only [Option.bind_some, scanChar_self]
  rw [scanNum_pad (by omega) (by omega)]
  simp only [Option.bind_some, hf]
  rw [if_pos ⟨m1, m2, d1, d2, by omega, by omega, by omega, hy.1, hy.2⟩]
  congr 1
  have : (Date.mk d.year d.month d.day).toDays = secs / 86400 := hdays
  rw [this]
  push_cast
  omega

end OsmIo.Sql
