import Verif.Model.Converters
import Verif.Spec.Converters
import Verif.Props.Calendar
/-! # C71: times for people -/
namespace OsmIo
open Text Sql Spec

theorem isoText_iff {x : Text} {secs : Int} : IsoText x secs ↔
    x = rfc3339Seconds secs ∧ 0 ≤ (Date.ofDays (secs / 86400)).year ∧ (Date.ofDays (secs / 86400)).year ≤ 9999 := by
  have text : ∀ (d : Date) (h m s : Nat), RealDate d → 0 ≤ d.year → d.year ≤ 9999 → h < 24 → m < 60 → s < 60 →
      four d.year.toNat ++ ['-'] ++ two d.month ++ ['-'] ++ two d.day ++ ['T'] ++ two h ++ [':'] ++ two m ++ [':'] ++ two s ++ ['Z'] =
      showYear d.year ++ '-' :: padNat 2 d.month ++ '-' :: padNat 2 d.day ++ 'T' ::
        padNat 2 h ++ ':' :: padNat 2 m ++ ':' :: padNat 2 s ++ ['Z'] := by
    intro d h m s hr y0 y1 hh hm hs
    obtain ⟨_, m2, _, d2⟩ := hr
    have d3 : monthDays d.year d.month ≤ 31 := by unfold monthDays; split_ifs <;> omega
    rw [four_eq (by omega), two_eq (n := d.month) (by omega), two_eq (n := d.day) (by omega), two_eq (n := h) (by omega),
      two_eq (n := m) (by omega), two_eq (n := s) (by omega)]
    unfold showYear
    rw [if_pos ⟨y0, y1⟩]
    simp [List.append_assoc]
  constructor
  · rintro ⟨n, d, h, m, s, hd, y0, y1, hh, hm, hs, e, rfl⟩
    have hr := dayIs_real hd
    rw [dayIs_iff] at hd
    subst hd
    have e1 : secs / 86400 = n := by omega
    have e2 : (secs % 86400).toNat = h * 3600 + m * 60 + s := by omega
    refine ⟨?_, by rw [e1]; exact y0, by rw [e1]; exact y1⟩
    unfold rfc3339Seconds
    simp only [e1, e2]
    rw [text _ _ _ _ hr y0 y1 hh hm hs, show (h * 3600 + m * 60 + s) / 3600 = h by omega, show (h * 3600 + m * 60 + s) / 60 % 60 = m by omega,
      show (h * 3600 + m * 60 + s) % 60 = s by omega]
  · rintro ⟨rfl, y0, y1⟩
    refine ⟨secs / 86400, _, (secs % 86400).toNat / 3600, (secs % 86400).toNat / 60 % 60, (secs % 86400).toNat % 60, dayIs_ofDays _, y0, y1, by omega,
      by omega, by omega, by omega, ?_⟩
    rw [text _ _ _ _ (ofDays_real _) y0 y1 (by omega) (by omega) (by omega)]
    rfl

/-- C71. A time of the years 0 to 9999, in microseconds, becomes the text of the date and time of day of the calendar, rounded down to a second, and nothing else. -/
theorem C71_text (t : Int64) (h : -62167219200000000 ≤ t.toInt) (h' : t.toInt < 253402300800000000) (x : Text) :
    timestampToIso8601Seconds t = .ok x ↔ IsoText x (t.toInt / 1000000) := by
  have hy := year_iff.2 (show -62167219200 ≤ t.toInt / 1000000 ∧ t.toInt / 1000000 < 253402300800 by omega)
  rw [isoText_iff]
  unfold timestampToIso8601Seconds
  simp only
  rw [if_pos (inRange_of_year hy.1 hy.2)]
  simp [hy, eq_comm]

/-- C71. The conversion succeeds exactly for the years -262143 to 262142; for others it returns an error. It never panics. -/
theorem C71_total (t : Int64) :
    (-96465292 * 86400 * 1000000 ≤ t.toInt ∧ t.toInt < 95026237 * 86400 * 1000000 → ∃ x, timestampToIso8601Seconds t = .ok x) ∧
    (¬ (-96465292 * 86400 * 1000000 ≤ t.toInt ∧ t.toInt < 95026237 * 86400 * 1000000) → timestampToIso8601Seconds t = .err) := by
  have e1 : (Date.mk (-262143) 1 1).toDays = -96465292 := by decide +kernel
  have e2 : (Date.mk 262143 1 1).toDays = 95026237 := by decide +kernel
  have hr : inRange (t.toInt / 1000000) = true ↔ -96465292 * 86400 * 1000000 ≤ t.toInt ∧ t.toInt < 95026237 * 86400 * 1000000 := by
    unfold inRange
    rw [e1, e2]
    simp
    omega
  constructor
  · intro h
    exact ⟨_, by unfold timestampToIso8601Seconds; simp only; rw [if_pos (hr.2 h)]⟩
  · intro h
    unfold timestampToIso8601Seconds
    simp only
    rw [if_neg (fun hh => h (hr.1 hh))]

/-! ### Order -/

/-- The days of the calendar are in the order of year, month, day. -/
theorem toDays_lt {d e : Date} (hd : RealDate d) (he : RealDate e) (h : d.toDays < e.toDays) :
    d.year < e.year ∨ d.year = e.year ∧ (d.month < e.month ∨ d.month = e.month ∧ d.day < e.day) := by
  obtain ⟨y, m, k⟩ := d
  obtain ⟨y', m', k'⟩ := e
  obtain ⟨h1, h2, h3, h4⟩ := hd
  obtain ⟨g1, g2, g3, g4⟩ := he
  rw [monthDays_eq _ _ h1 h2] at h4
  rw [monthDays_eq _ _ g1 g2] at g4
  simp only at h1 h2 h3 h4 g1 g2 g3 g4 ⊢
  unfold Date.toDays at h
  simp only at h
  rcases lt_trichotomy y y' with hy | rfl | hy
  · exact .inl hy
  · refine .inr ⟨rfl, ?_⟩
    rcases lt_trichotomy m m' with hm | rfl | hm
    · exact .inl hm
    · exact .inr ⟨rfl, by omega⟩
    · have := daysBeforeMonth_mono (isLeap y) (m := m') (k := m) hm
      omega
  · have := daysBeforeYear_mono (y := y') (z := y) (by omega)
    have := daysBeforeMonth_bounds (isLeap y') g1 g2
    split_ifs at * <;> omega

theorem lt_append {a b : Text} (x y : Text) (hl : a.length = b.length) (h : a < b) : a ++ x < b ++ y := by
  induction a generalizing b with
  | nil =>
    cases b with
    | nil => exact absurd h (by simp)
    | cons c b => simp at hl
  | cons c a ih =>
    cases b with
    | nil => simp at hl
    | cons c' b =>
      simp only [List.cons_append, List.cons_lt_cons_iff] at h ⊢
      rcases h with h | ⟨rfl, h⟩
      · exact .inl h
      · exact .inr ⟨rfl, ih (by simpa using hl) h⟩

theorem append_lt (a : Text) {x y : Text} (h : x < y) : a ++ x < a ++ y := by
  induction a with
  | nil => exact h
  | cons c a ih => rw [List.cons_append, List.cons_append, List.cons_lt_cons_iff]; exact .inr ⟨rfl, ih⟩

theorem digit_lt {a b : Nat} (h : a < b) (hb : b < 10) : digit a < digit b := by
  have key : ∀ b : Fin 10, ∀ a : Fin 10, a < b → digit a.1 < digit b.1 := by decide +kernel
  exact key ⟨b, hb⟩ ⟨a, by omega⟩ h

theorem two_lt {a b : Nat} (h : a < b) (hb : b < 100) : two a < two b := by
  unfold two
  rw [List.cons_lt_cons_iff]
  rcases Nat.lt_or_ge (a / 10) (b / 10) with h1 | h1
  · exact .inl (digit_lt h1 (by omega))
  · have e : a / 10 = b / 10 := by omega
    rw [e]
    refine .inr ⟨rfl, ?_⟩
    rw [List.cons_lt_cons_iff]
    exact .inl (digit_lt (by omega) (by omega))

theorem four_lt {a b : Nat} (h : a < b) (hb : b < 10000) : four a < four b := by
  unfold four
  rcases Nat.lt_or_ge (a / 100) (b / 100) with h1 | h1
  · exact lt_append _ _ rfl (two_lt h1 (by omega))
  · have e : a / 100 = b / 100 := by omega
    rw [e]
    exact append_lt _ (two_lt (by omega) (by omega))

/-- C71. Texts of times are in the order of the times: comparing them as texts (characters from left to right) compares the times. -/
theorem C71_order (x y : Text) (s t : Int) (hx : IsoText x s) (hy : IsoText y t) : x < y ↔ s < t := by
  have key : ∀ x y s t, IsoText x s → IsoText y t → s < t → x < y := by
    clear hx hy x y s t
    rintro x y s t ⟨n, d, h, m, c, hd, y0, y1, hh, hm, hs, rfl, rfl⟩ ⟨n', d', h', m', c', hd', y0', y1', hh', hm', hs', rfl, rfl⟩ hlt
    have b : ∀ d : Date, RealDate d → d.month < 100 ∧ d.day < 100 := by
      intro d hr
      obtain ⟨_, m2, _, d2⟩ := hr
      have d3 : monthDays d.year d.month ≤ 31 := by unfold monthDays; split_ifs <;> omega
      omega
    have hb' := b d' (dayIs_real hd')
    have hlt' : d.year < d'.year ∨ d.year = d'.year ∧ (d.month < d'.month ∨ d.month = d'.month ∧ (d.day < d'.day ∨ d.day = d'.day ∧
        (h < h' ∨ h = h' ∧ (m < m' ∨ m = m' ∧ c < c')))) := by
      rcases lt_trichotomy n n' with hn | rfl | hn
      · have := toDays_lt (dayIs_real hd) (dayIs_real hd') (by rw [dayIs_toDays hd, dayIs_toDays hd']; exact hn)
        omega
      · have : d = d' := by rw [dayIs_iff] at hd hd'; rw [hd, hd']
        subst this
        omega
      · omega
    simp only [List.append_assoc]
    rcases hlt' with hl | ⟨e, hl⟩
    · exact lt_append _ _ rfl (four_lt (by omega) (by omega))
    rw [e]
    refine append_lt _ (append_lt _ ?_)
    rcases hl with hl | ⟨e, hl⟩
    · exact lt_append _ _ rfl (two_lt hl hb'.1)
    rw [e]
    refine append_lt _ (append_lt _ ?_)
    rcases hl with hl | ⟨e, hl⟩
    · exact lt_append _ _ rfl (two_lt hl hb'.2)
    rw [e]
    refine append_lt _ (append_lt _ ?_)
    rcases hl with hl | ⟨e, hl⟩
    · exact lt_append _ _ rfl (two_lt hl (by omega))
    rw [e]
    refine append_lt _ (append_lt _ ?_)
    rcases hl with hl | ⟨e, hl⟩
    · exact lt_append _ _ rfl (two_lt hl (by omega))
    rw [e]
    refine append_lt _ (append_lt _ ?_)
    exact lt_append _ _ rfl (two_lt hl (by omega))
  refine ⟨fun h => ?_, key x y s t hx hy⟩
  rcases lt_trichotomy s t with hlt | rfl | hlt
  · exact hlt
  · have : x = y := (isoText_iff.1 hx).1.trans (isoText_iff.1 hy).1.symm
    rw [this] at h
    exact absurd h (List.lt_irrefl _)
  · exact absurd (key y x t s hy hx hlt) (List.lt_asymm h)

/-- C71. `pbf-info` prints the replication timestamp, which the header gives in seconds, as the text of that time. -/
theorem C71_replication_time (t : Int64) (h : -62167219200 ≤ t.toInt) (h' : t.toInt < 253402300800) (x : Text) :
    replicationTime t = .ok x ↔ IsoText x t.toInt := by
  have hm : (t * 1000000).toInt = t.toInt * 1000000 := by
    rw [Int64.toInt_mul]
    have : (1000000 : Int64).toInt = 1000000 := by decide
    rw [this]
    apply Int.bmod_eq_of_le <;> omega
  unfold replicationTime
  rw [C71_text _ (by omega) (by omega), hm]
  simp

/-! ### The form used in dumps -/

theorem digit_not_letter (n : Nat) : digit (n % 10) ≠ 'T' ∧ digit (n % 10) ≠ 'Z' := by
  have key : ∀ a : Fin 10, digit a.1 ≠ 'T' ∧ digit a.1 ≠ 'Z' := by decide +kernel
  exact key ⟨n % 10, by omega⟩

theorem showNat_no_letter (n : Nat) : ∀ c ∈ showNat n, c ≠ 'T' ∧ c ≠ 'Z' := by
  induction n using Nat.strong_induction_on with
  | _ n ih =>
    intro c hc
    rw [showNat] at hc
    split at hc
    · have := digit_not_letter n
      rw [Nat.mod_eq_of_lt (by omega)] at this
      simp at hc
      subst hc
      exact this
    · rcases List.mem_append.mp hc with hc | hc
      · exact ih _ (by omega) c hc
      · simp at hc
        subst hc
        exact digit_not_letter n

theorem padNat_no_letter (w n : Nat) : ∀ c ∈ padNat w n, c ≠ 'T' ∧ c ≠ 'Z' := by
  intro c hc
  rcases List.mem_append.mp hc with hc | hc
  · rw [List.eq_of_mem_replicate hc]
    decide
  · exact showNat_no_letter n c hc

theorem replaceTZ_append (a b : Text) : replaceTZ (a ++ b) = replaceTZ a ++ replaceTZ b := by simp [replaceTZ]

theorem replaceTZ_plain {a : Text} (h : ∀ c ∈ a, c ≠ 'T' ∧ c ≠ 'Z') : replaceTZ a = a := by
  unfold replaceTZ
  have : a.map (fun c => if c = 'T' then ' ' else c) = a := by
    conv_rhs => rw [← List.map_id a]
    exact List.map_congr_left fun c hc => by simp [(h c hc).1]
  rw [this, List.filter_eq_self]
  intro c hc
  simpa using (h c hc).2

/-- C71. A time in a dump is the same text with a space for the `T` and without the `Z`. -/
theorem C71_dump_form (t : Int64) : toSqlTimeMillis t =
    match (if inRange (t.toInt / 1000) then Out.ok (rfc3339Seconds (t.toInt / 1000)) else .panic) with
    | .ok x => .ok (replaceTZ x)
    | .err => .err
    | .panic => .panic := by
  unfold toSqlTimeMillis
  simp only
  split
  · simp only [Out.ok.injEq]
    unfold showSeconds rfc3339Seconds
    simp only
    have hy : ∀ c ∈ showYear (Date.ofDays (t.toInt / 1000 / 86400)).year, c ≠ 'T' ∧ c ≠ 'Z' := by
      intro c hc
      unfold showYear at hc
      split at hc
      · exact padNat_no_letter _ _ c hc
      · split at hc
        all_goals
          rcases List.mem_cons.mp hc with rfl | hc
          · decide
          · exact padNat_no_letter _ _ c hc
    have m1 : ∀ a, replaceTZ ('-' :: a) = '-' :: replaceTZ a := fun a => by simp [replaceTZ]
    have m2 : ∀ a, replaceTZ ('T' :: a) = ' ' :: replaceTZ a := fun a => by simp [replaceTZ]
    have m3 : ∀ a, replaceTZ (':' :: a) = ':' :: replaceTZ a := fun a => by simp [replaceTZ]
    have m4 : replaceTZ ['Z'] = [] := by decide
    simp only [List.append_assoc, List.cons_append, replaceTZ_append, replaceTZ_plain hy, m1, m2, m3, m4, replaceTZ_plain (padNat_no_letter _ _),
      List.append_nil]
  · rfl

example : timestampToIso8601Seconds 0 = .ok "1970-01-01T00:00:00Z".toList := by decide +kernel
example : timestampToIso8601Seconds (-1) = .ok "1969-12-31T23:59:59Z".toList := by decide +kernel
example : timestampToIso8601Seconds 951782400000000 = .ok "2000-02-29T00:00:00Z".toList := by decide +kernel
example : timestampToIso8601Seconds Int64.maxValue = .err := by decide +kernel
example : IsoText "2000-02-29T00:00:00Z".toList 951782400 :=
  (C71_text 951782400000000 (by decide) (by decide) _).mp (by decide +kernel)

end OsmIo
