import Verif.Lemmas.Calendar
import Verif.Props.Sql
/-!
# Times in a dump (C66)
-/
namespace OsmIo
open Text Sql Spec

/-- The years 0 to 9999 in seconds. -/
theorem year_iff {secs : Int} : (0 ≤ (Date.ofDays (secs / 86400)).year ∧ (Date.ofDays (secs / 86400)).year ≤ 9999) ↔
    -62167219200 ≤ secs ∧ secs < 253402300800 := by
  obtain ⟨m1, m2, d1, d2, hs⟩ := ofDays_spec (secs / 86400)
  generalize Date.ofDays (secs / 86400) = d at *
  have hl := isLeap_iff d.year
  have hb := daysBeforeMonth_bounds (isLeap d.year) m1 m2
  have hb' : daysBeforeMonth (isLeap d.year) d.month + daysInMonth (isLeap d.year) d.month ≤ 366 ∧
      (isLeap d.year = false → daysBeforeMonth (isLeap d.year) d.month + daysInMonth (isLeap d.year) d.month ≤ 365) := by
    constructor
    · split_ifs at hb <;> omega
    · intro h; rw [h] at hb ⊢; simpa using hb
  have hb'' : d.year % 4 ≠ 0 → daysBeforeMonth (isLeap d.year) d.month + daysInMonth (isLeap d.year) d.month ≤ 365 := by
    intro h
    apply hb'.2
    cases e : isLeap d.year
    · rfl
    · rw [hl] at e; omega
  have hy : ∀ y : Int, daysBeforeYear y = 365 * (y - 1) + (y - 1) / 4 - (y - 1) / 100 + (y - 1) / 400 := fun _ => rfl
  unfold Date.toDays at hs
  have e0 : epochDay = 719162 := rfl
  rw [hy, e0] at hs
  constructor
  · rintro ⟨y0, y1⟩
    constructor
    · omega
    · rcases lt_or_ge d.year 9999 with h | h
      · omega
      · have : d.year = 9999 := by omega
        have h5 := hb'' (by omega)
        rw [this] at hs h5 d2
        omega
  · rintro ⟨s0, s1⟩
    constructor
    · by_contra hn
      rcases lt_or_ge d.year (-1) with h | h
      · omega
      · have : d.year = -1 := by omega
        have h5 := hb'' (by omega)
        rw [this] at hs h5 d2
        omega
    · by_contra hn
      omega

/-- C66: a time of the years 0 to 9999, in milliseconds, is written as the date and time of day of the
calendar, and as nothing else. -/
theorem C66_millis (t : Int64) (h : -62167219200000 ≤ t.toInt) (h' : t.toInt < 253402300800000) (x : Text) :
    toSqlTimeMillis t = .ok x ↔ SecondText x (t.toInt / 1000) := by
  have hy := year_iff.2 (show -62167219200 ≤ t.toInt / 1000 ∧ t.toInt / 1000 < 253402300800 by omega)
  rw [secondText_iff]
  unfold toSqlTimeMillis
  simp only
  rw [if_pos (inRange_of_year hy.1 hy.2)]
  simp [hy, eq_comm]

/-- C66: a time of the years 0 to 9999, in microseconds, is written as the date and time of day of the
calendar with six digits of fraction, and stands for exactly that time. -/
theorem C66_micros (t : Int64) (h : -62167219200000000 ≤ t.toInt) (h' : t.toInt < 253402300800000000) :
    ∃ x y f, toSqlTimeMicros t = .ok x ∧ SecondText y (t.toInt / 1000000) ∧ x = y ++ '.' :: f ∧ f.length = 6 ∧
      TimeText x (t.toInt * 1000) := by
  have hy := year_iff.2 (show -62167219200 ≤ t.toInt / 1000000 ∧ t.toInt / 1000000 < 253402300800 by omega)
  have hs : SecondText (showSeconds (t.toInt / 1000000)) (t.toInt / 1000000) := secondText_iff.2 ⟨rfl, hy⟩
  have hlt : (t.toInt % 1000000).toNat < 10 ^ 6 := by omega
  refine ⟨_, _, padNat 6 (t.toInt % 1000000).toNat, ?_, hs, rfl, padNat_length (by omega) hlt, ?_⟩
  · unfold toSqlTimeMicros
    simp only
    rw [if_pos (inRange_of_year hy.1 hy.2)]
  · refine ⟨_, _, hs, .inr ?_⟩
    set u := (t.toInt % 1000000).toNat with hu
    have e : padNat 6 u = [u / 100000, u / 10000 % 10, u / 1000 % 10, u / 100 % 10, u / 10 % 10, u % 10].map digit := by
      rw [padNat_step (w := 5) (by omega), padNat_step (w := 4) (by omega), padNat_step (w := 3) (by omega),
        padNat_step (w := 2) (by omega), ← two_eq (by omega)]
      unfold two
      simp only [List.cons_append, List.nil_append, List.map_cons, List.map_nil, Nat.div_div_eq_div_mul]
    refine ⟨[u / 100000, u / 10000 % 10, u / 1000 % 10, u / 100 % 10, u / 10 % 10, u % 10], by simp, by simp, ?_,
      by rw [e], ?_⟩
    · intro d hd
      simp only [List.mem_cons, List.not_mem_nil, or_false] at hd
      omega
    · simp only [decimal, List.foldl_cons, List.foldl_nil, List.length_cons, List.length_nil]
      omega

/-- C66: the text of a time is read as that time. -/
theorem C66_parse (x : Text) (ns : Int) (h : TimeText x ns) : parseSqlTime x = some ns := parse_timeText h

/-- C66: days are numbered without a gap or a repetition: each day number is one date, each date of the
calendar has one day number. -/
theorem C66_days : (∀ n, ∃! d, DayIs n d) ∧ ∀ d, RealDate d → ∃! n, DayIs n d := by
  constructor
  · intro n
    exact ⟨Date.ofDays n, dayIs_ofDays n, fun d hd => dayIs_iff.1 hd⟩
  · intro d hd
    refine ⟨d.toDays, ?_, fun n hn => (dayIs_toDays hn).symm⟩
    show DayIs d.toDays d
    rw [dayIs_iff]
    exact toDays_inj hd (ofDays_real _) (ofDays_spec _).2.2.2.2.symm

/-- 29 February 2000, a leap day of a year divisible by 400. -/
example : SecondText "2000-02-29 23:59:58".toList 951868798 :=
  (C66_millis 951868798123 (by decide) (by decide) _).1 (by decide +kernel)

example : nextDay ⟨1900, 2, 28⟩ = ⟨1900, 3, 1⟩ ∧ nextDay ⟨2000, 2, 28⟩ = ⟨2000, 2, 29⟩ ∧
    nextDay ⟨2023, 12, 31⟩ = ⟨2024, 1, 1⟩ := by decide +kernel

example : TimeText "2000-02-29 23:59:58.25".toList 951868798250000000 :=
  ⟨951868798, "2000-02-29 23:59:58".toList, (C66_millis 951868798123 (by decide) (by decide) _).1 (by decide +kernel),
    .inr ⟨[2, 5], by decide, by decide, by decide, by decide +kernel, by decide⟩⟩

end OsmIo
