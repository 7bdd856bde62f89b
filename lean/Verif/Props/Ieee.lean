import Verif.Lemmas.Ieee
import Verif.Props.BoxMore
import Verif.Lemmas.Tile
/-!
# C81: coordinates that are not ordinary numbers
-/
namespace OsmIo
open Spec Double
open Sql (interleave_testBit)

/-! ### `Double.ofRat` is IEEE 754 rounding -/

theorem pow1024 : (2 : ℚ) ^ (1024 : ℕ) = 2 ^ (1024 : ℤ) := by rw [← zpow_natCast, Nat.cast_ofNat]

theorem roundEven_ge {x : ℚ} {m : ℤ} (h : (m : ℚ) ≤ x) : m ≤ roundEven x := by
  have hf : m ≤ ⌊x⌋ := Int.le_floor.2 h
  unfold roundEven
  simp only
  split_ifs <;> omega

theorem rnd_ge_exact {q : ℚ} {k : ℤ} (hp : 0 < q) (hq : 2 ^ k ≤ q) : (2 : ℚ) ^ k ≤ rnd q := by
  have h : q ≠ 0 := ne_of_gt hp
  unfold rnd
  rw [if_neg h]
  have hu := ulp_pos q
  have hL : k ≤ Int.log 2 |q| := (le_log h).1 (by rwa [abs_of_pos hp])
  have hq' := zpow_log_le h
  rw [abs_of_pos hp] at hq'
  refine le_trans (zpow_le_zpow_right₀ (by norm_num) hL) ?_
  obtain ⟨n, hn⟩ := zpow_split (a := Int.log 2 |q| - 52) (b := Int.log 2 |q|) (by omega)
  rw [hn]
  change _ ≤ _ * (2 : ℚ) ^ (Int.log 2 |q| - 52)
  apply mul_le_mul_of_nonneg_right _ (two_zpow_pos _).le
  have : (2 ^ n : ℤ) ≤ roundEven (q / ulp q) := by
    apply roundEven_ge
    rw [le_div_iff₀ hu]
    change _ * (2 : ℚ) ^ (Int.log 2 |q| - 52) ≤ _
    rw [← hn, abs_of_pos hp]
    exact hq'
  exact_mod_cast this

theorem isDouble_of {d : ℚ} (h : IsBinary64 d) : IsDouble d := by
  obtain ⟨m, e, h1, _, _, h2⟩ := h
  exact ⟨m, e, h1, h2⟩

theorem abs_rnd_ge {q : ℚ} {k : ℤ} (hq : 2 ^ k ≤ |q|) : (2 : ℚ) ^ k ≤ |rnd q| := by
  have hp := two_zpow_pos k
  rcases lt_trichotomy q 0 with h | h | h
  · rw [abs_of_neg h] at hq
    have := rnd_ge_exact (q := -q) (by linarith) hq
    rw [rnd_neg] at this
    exact this.trans (neg_le_abs _)
  · subst h; simp only [abs_zero] at hq; linarith
  · rw [abs_of_pos h] at hq
    exact (rnd_ge_exact h hq).trans (le_abs_self _)

/-- A multiple of a power of two below the limits is a double. -/
theorem binary64_of {m e : ℤ} (hm : |m| ≤ 2 ^ 53) (he : -1074 ≤ e) (he' : e ≤ 971) (hr : |(m : ℚ) * 2 ^ e| < 2 ^ 1024) : IsBinary64 ((m : ℚ) * 2 ^ e) := by
  rcases lt_or_eq_of_le hm with h | h
  · exact ⟨m, e, h, he, he', rfl⟩
  · have hp : ∀ z : ℤ, (2 : ℚ) ^ (z + 1) = 2 * 2 ^ z := by
      intro z; rw [zpow_add₀ (by norm_num)]; ring
    have hlt : e + 53 < 1024 := by
      rw [abs_mul, abs_of_pos (two_zpow_pos e), pow1024] at hr
      have hm' : |(m : ℚ)| = 2 ^ (53 : ℤ) := by
        rw [← Int.cast_abs, h]; norm_num
      rw [hm', ← zpow_add₀ (by norm_num)] at hr
      have := (zpow_lt_zpow_iff_right₀ (by norm_num : (1 : ℚ) < 2)).1 hr
      omega
    rcases abs_choice m with hc | hc
    · refine ⟨2 ^ 52, e + 1, by norm_num, by omega, by omega, ?_⟩
      rw [hp, ← hc, h]; push_cast; ring
    · refine ⟨-2 ^ 52, e + 1, by norm_num, by omega, by omega, ?_⟩
      have : m = -2 ^ 53 := by omega
      rw [hp, this]; push_cast; ring

/-- The result of rounding is a double, and none is nearer. -/
theorem ofRat_nearest {q r : ℚ} (h : ofRat q = .fin r) : IsBinary64 r ∧ ∀ d, IsBinary64 d → |r - q| ≤ |d - q| := by
  by_cases h0 : q = 0
  · subst h0
    rw [ofRat_zero] at h
    cases h
    exact ⟨⟨0, 0, by norm_num, by norm_num, by norm_num, by simp⟩, fun d _ => by simp⟩
  have hlog := (lt_zpow_log q).le
  rcases le_or_gt ((2 : ℚ) ^ (-1022 : ℤ)) |q| with hq | hq
  · rw [ofRat_normal h0 hq] at h
    split_ifs at h with hb
    cases h
    refine ⟨?_, fun d hd => rnd_nearest q d (isDouble_of hd)⟩
    have hL : Int.log 2 |q| < 1024 := by
      by_contra hn
      have := abs_rnd_ge ((le_log h0).2 (not_lt.1 hn))
      rw [pow1024] at hb
      linarith
    have hL' := (le_log h0).1 hq
    have e : rnd q = roundEven (q / ulp q) * 2 ^ (Int.log 2 |q| - 52) := by unfold rnd; rw [if_neg h0]; rfl
    rw [e] at hb ⊢
    refine binary64_of ?_ (by omega) (by omega) hb
    apply abs_roundEven_le
    rw [abs_div, abs_of_pos (ulp_pos q), div_le_iff₀ (ulp_pos q)]
    refine hlog.trans (le_of_eq ?_)
    have : Int.log 2 |q| + 1 = 53 + (Int.log 2 |q| - 52) := by ring
    rw [this, zpow_add₀ (by norm_num)]
    unfold ulp
    norm_num
  · have hlt : Int.log 2 |q| < -1022 := by
      by_contra hn
      exact absurd ((le_log h0).2 (not_lt.1 hn)) (not_le.2 hq)
    have hqu : quantum q = 2 ^ (-1074 : ℤ) := by unfold quantum; rw [max_eq_right (by omega)]
    have hp := two_zpow_pos (-1074)
    unfold ofRat at h
    rw [if_neg h0, hqu] at h
    simp only at h
    generalize hu : (2 : ℚ) ^ (-1074 : ℤ) = u at *
    split_ifs at h with hb
    cases h
    constructor
    · have hb' := hb
      rw [← hu] at hb' ⊢
      refine binary64_of ?_ (by norm_num) (by norm_num) hb'
      rw [hu]
      apply abs_roundEven_le
      rw [abs_div, abs_of_pos hp, div_le_iff₀ hp]
      refine hq.le.trans ?_
      rw [← hu]
      have : (-1022 : ℤ) = 52 + (-1074) := by ring
      rw [this, zpow_add₀ (by norm_num)]
      exact mul_le_mul_of_nonneg_right (by norm_num) (two_zpow_pos _).le
    · rintro d ⟨m, e, _, he, _, rfl⟩
      obtain ⟨n, hn⟩ := zpow_split he
      rw [hu] at hn
      rw [hn]
      have h1 := roundEven_nearest (q / u) (m * 2 ^ n)
      have e1 : (roundEven (q / u) : ℚ) * u - q = (roundEven (q / u) - q / u) * u := by field_simp
      have e2 : (m : ℚ) * (((2 ^ n : ℤ) : ℚ) * u) - q = (((m * 2 ^ n : ℤ) : ℚ) - q / u) * u := by push_cast; field_simp
      rw [e1, e2, abs_mul, abs_mul, abs_of_pos hp]
      exact mul_le_mul_of_nonneg_right h1 hp.le

theorem roundEven_top (x : ℚ) : (2 ^ 53 : ℤ) ≤ roundEven x ↔ 2 ^ 53 - 1 / 2 ≤ x := by
  have h1 := Int.floor_le x
  have h2 := Int.lt_floor_add_one x
  unfold roundEven
  simp only
  constructor
  · intro h
    by_contra hn
    have hx : x < 2 ^ 53 - 1 / 2 := not_le.1 hn
    have hf : ⌊x⌋ ≤ 2 ^ 53 - 1 := by
      have : (⌊x⌋ : ℚ) < (2 ^ 53 : ℤ) := by push_cast; linarith
      have : ⌊x⌋ < 2 ^ 53 := by exact_mod_cast this
      omega
    rcases eq_or_lt_of_le hf with e | e
    · have : x - ⌊x⌋ < 1 / 2 := by rw [e]; push_cast; linarith
      rw [if_pos this] at h
      omega
    · split_ifs at h <;> omega
  · intro h
    have hf : (2 ^ 53 - 1 : ℤ) ≤ ⌊x⌋ := Int.le_floor.2 (by push_cast; linarith)
    rcases eq_or_lt_of_le hf with e | e
    · have hd : ¬ x - ⌊x⌋ < 1 / 2 := by rw [← e]; push_cast; linarith
      rw [if_neg hd]
      have ho : ¬ ⌊x⌋ % 2 = 0 := by rw [← e]; norm_num
      rw [if_neg ho]
      split_ifs <;> omega
    · split_ifs <;> omega

theorem rnd_overflow {q : ℚ} (hp : 0 < q) : 2 ^ 1024 ≤ rnd q ↔ 2 ^ 1024 - 2 ^ 970 ≤ q := by
  have e1 : (2 : ℚ) ^ (1024 : ℕ) = 2 ^ 54 * 2 ^ (970 : ℕ) := by rw [← pow_add]
  have e3 : (2 : ℚ) ^ (1023 : ℤ) = 2 ^ 53 * 2 ^ (970 : ℕ) := by
    rw [← pow_add, ← zpow_natCast]; rfl
  have e2 : (2 : ℚ) ^ (1023 - 52 : ℤ) = 2 * 2 ^ (970 : ℕ) := by
    rw [← pow_succ', ← zpow_natCast]; rfl
  have hA : (0 : ℚ) < 2 ^ (970 : ℕ) := pow_pos (by norm_num) _
  have h0 : q ≠ 0 := ne_of_gt hp
  rcases lt_or_ge q (2 ^ (1024 : ℕ)) with hq | hq
  · rcases lt_or_ge q (2 ^ (1023 : ℤ)) with hq' | hq'
    · have h1 := rnd_le (q := q) (k := 1023) (by rw [abs_of_pos hp]; exact hq'.le)
      rw [e3] at h1 hq'
      rw [e1]
      generalize (2 : ℚ) ^ (970 : ℕ) = A at *
      clear e1 e2 e3 hq
      have := le_abs_self (rnd q)
      constructor <;> intro h <;> linarith
    · have hL : Int.log 2 |q| = 1023 := by
        have a := (le_log h0).1 (by rw [abs_of_pos hp]; exact hq')
        have b : Int.log 2 |q| < 1024 := by
          by_contra hn
          have := (le_log h0).2 (not_lt.1 hn)
          rw [abs_of_pos hp, ← pow1024] at this
          linarith
        omega
      have hu : ulp q = 2 * 2 ^ (970 : ℕ) := by unfold ulp; rw [hL, e2]
      have e : rnd q = roundEven (q / ulp q) * ulp q := by unfold rnd; rw [if_neg h0]
      rw [e, hu, e1]
      generalize (2 : ℚ) ^ (970 : ℕ) = A at *
      clear e1 e2 e3 hq hq'
      have h1 := roundEven_top (q / (2 * A))
      have h2 : 2 ^ 54 * A ≤ (roundEven (q / (2 * A)) : ℚ) * (2 * A) ↔ (2 ^ 53 : ℤ) ≤ roundEven (q / (2 * A)) := by
        have : 2 ^ 54 * A = ((2 ^ 53 : ℤ) : ℚ) * (2 * A) := by push_cast; ring
        rw [this, mul_le_mul_iff_left₀ (by linarith)]
        exact Int.cast_le
      rw [h2, h1, le_div_iff₀ (by linarith)]
      constructor <;> intro h <;> linarith
  · have h1 := rnd_ge_exact hp (k := 1024) (by rw [← pow1024]; exact hq)
    rw [← pow1024] at h1
    generalize (2 : ℚ) ^ (1024 : ℕ) = B at *
    generalize (2 : ℚ) ^ (970 : ℕ) = A at *
    clear e1 e2 e3
    constructor <;> intro _ <;> linarith

/-- Overflow: everything from half a step above the largest double on. -/
theorem ofRat_overflow (q : ℚ) (s : Bool) : ofRat q = .inf s ↔ (2 ^ 1024 - 2 ^ 970 ≤ |q| ∧ (s = true ↔ q < 0)) := by
  have e1 : (2 : ℚ) ^ (1024 : ℕ) = 2 ^ 54 * 2 ^ (970 : ℕ) := by rw [← pow_add]
  have hA : (0 : ℚ) < 2 ^ (970 : ℕ) := pow_pos (by norm_num) _
  have hA1 : (1 : ℚ) ≤ 2 ^ (970 : ℕ) := one_le_pow₀ (by norm_num)
  by_cases h0 : q = 0
  · subst h0
    rw [ofRat_zero, e1]
    simp only [abs_zero]
    refine ⟨fun h => (nomatch h), fun h => ?_⟩
    have h3 := h.1
    clear h
    generalize (2 : ℚ) ^ (970 : ℕ) = A at *
    clear e1
    linarith
  rcases le_or_gt ((2 : ℚ) ^ (-1022 : ℤ)) |q| with hq | hq
  · rw [ofRat_normal h0 hq]
    have hov : 2 ^ 1024 ≤ |rnd q| ↔ 2 ^ 1024 - 2 ^ 970 ≤ |q| := by
      rcases lt_or_gt_of_ne h0 with h | h
      · have := rnd_overflow (q := -q) (by linarith)
        rw [rnd_neg] at this
        rw [abs_of_neg h, abs_of_neg ((rnd_sign q).2 h), this]
      · have h' : 0 ≤ rnd q := not_lt.1 fun hn => by have := (rnd_sign q).1 hn; linarith
        rw [abs_of_pos h, abs_of_nonneg h', rnd_overflow h]
    rw [← hov]
    clear hov hA hA1
    generalize (2 : ℚ) ^ (1024 : ℕ) = B at *
    clear e1
    by_cases hb : |rnd q| < B
    · rw [if_pos hb]
      exact ⟨fun h => (nomatch h), fun h => absurd h.1 (not_le.2 hb)⟩
    · rw [if_neg hb]
      constructor
      · intro h
        cases h
        exact ⟨not_lt.1 hb, by simp⟩
      · intro h
        congr 1
        cases s <;> simp_all
  · obtain ⟨r, h1, _⟩ := ofRat_small (by norm_num) (by norm_num) hq.le
    rw [h1, e1]
    refine ⟨fun h => (nomatch h), fun h => ?_⟩
    have : (2 : ℚ) ^ (-1022 : ℤ) ≤ 1 := by
      have := zpow_le_zpow_right₀ (by norm_num : (1 : ℚ) ≤ 2) (by norm_num : (-1022 : ℤ) ≤ 0)
      simpa using this
    have h3 := h.1
    clear h
    generalize (2 : ℚ) ^ (970 : ℕ) = A at *
    clear e1
    generalize (2 : ℚ) ^ (-1022 : ℤ) = B at *
    linarith

/-! ### Writing and reading coordinates -/

theorem ofRat_int {n : ℤ} (h : |n| ≤ 2 ^ 63) : ofRat (n : ℚ) = .fin (rnd n) := by
  by_cases h0 : n = 0
  · subst h0; simp [ofRat_zero, rnd_zero]
  have h1 : (1 : ℤ) ≤ |n| := by rcases abs_cases n with ⟨a, _⟩ | ⟨a, _⟩ <;> omega
  have h1' : (1 : ℚ) ≤ |(n : ℚ)| := by exact_mod_cast h1
  have h2 : |(n : ℚ)| ≤ 2 ^ (63 : ℤ) := by
    have : |(n : ℚ)| ≤ 2 ^ 63 := by exact_mod_cast h
    exact_mod_cast this
  rw [ofRat_normal (by exact_mod_cast h0), if_pos]
  · refine lt_of_le_of_lt (rnd_le h2) ?_
    rw [pow1024]
    exact zpow_lt_zpow_right₀ (by norm_num) (by norm_num)
  · refine le_trans ?_ h1'
    have := zpow_le_zpow_right₀ (by norm_num : (1 : ℚ) ≤ 2) (by norm_num : (-1022 : ℤ) ≤ 0)
    simpa using this

theorem ofI64_fin (n : Int64) : Double.ofI64 n = .fin (F64.ofI64 n) := by
  have h1 := n.le_toInt
  have h2 := n.toInt_lt
  exact ofRat_int (by rw [abs_le]; constructor <;> omega)

theorem ofI32_fin (n : Int32) : Double.ofI32 n = .fin (F64.ofI32 n) := by
  have h1 := n.le_toInt
  have h2 := n.toInt_lt
  exact ofRat_int (by rw [abs_le]; constructor <;> omega)

theorem agree_mul (c k : ℚ) : Agree 1022 ((Double.fin c).mul (.fin k)) (F64.mul c k) := agree_ofRat _

theorem div_const {p c : ℚ} (hc : 1 ≤ c) (hc' : c ≤ 2 ^ 31) (hp : p = 0 ∨ 1 ≤ |p|) (hp' : |p| ≤ 2 ^ (64 : ℤ)) :
    (Double.fin p).div (.fin c) = .fin (F64.div p c) := by
  have hc0 : c ≠ 0 := by linarith
  have hcp : 0 < c := by linarith
  simp only [Double.div, if_neg hc0, F64.div]
  rcases hp with rfl | hp
  · simp [ofRat_zero, rnd_zero]
  have h0 : p / c ≠ 0 := by
    apply div_ne_zero _ hc0
    rintro rfl
    simp at hp
    linarith
  have hl : |p / c| ≤ 2 ^ (64 : ℤ) := by
    rw [abs_div, abs_of_pos hcp, div_le_iff₀ hcp]
    have := two_zpow_pos 64
    nlinarith
  rw [ofRat_normal h0, if_pos]
  · refine lt_of_le_of_lt (rnd_le hl) ?_
    rw [pow1024]
    exact zpow_lt_zpow_right₀ (by norm_num) (by norm_num)
  · rw [abs_div, abs_of_pos hcp, le_div_iff₀ hcp]
    refine le_trans ?_ hp
    calc (2 : ℚ) ^ (-1022 : ℤ) * c ≤ 2 ^ (-31 : ℤ) * 2 ^ 31 := by
          apply mul_le_mul _ hc' hcp.le (two_zpow_pos _).le
          exact zpow_le_zpow_right₀ (by norm_num) (by norm_num)
      _ = 1 := by norm_num

theorem rnd_int_big {n : ℤ} (h : |n| ≤ 2 ^ 63) : (rnd (n : ℚ) = 0 ∨ 1 ≤ |rnd (n : ℚ)|) ∧ |rnd (n : ℚ)| ≤ 2 ^ (64 : ℤ) := by
  constructor
  · by_cases h0 : n = 0
    · subst h0; left; simp [rnd_zero]
    · right
      have h1 : (1 : ℤ) ≤ |n| := by rcases abs_cases n with ⟨a, _⟩ | ⟨a, _⟩ <;> omega
      have := abs_rnd_ge (q := (n : ℚ)) (k := 0) (by simpa using (by exact_mod_cast h1 : (1 : ℚ) ≤ |(n : ℚ)|))
      simpa using this
  · have h2 : |(n : ℚ)| ≤ 2 ^ (63 : ℤ) := by
      have : |(n : ℚ)| ≤ 2 ^ 63 := by exact_mod_cast h
      exact_mod_cast this
    exact rnd_le (h2.trans (zpow_le_zpow_right₀ (by norm_num) (by norm_num)))

theorem ofI64_div (n : Int64) {c : ℚ} (hc : 1 ≤ c) (hc' : c ≤ 2 ^ 31) : (Double.ofI64 n).div (.fin c) = .fin (F64.div (F64.ofI64 n) c) := by
  have h1 := n.le_toInt
  have h2 := n.toInt_lt
  obtain ⟨a, b⟩ := rnd_int_big (n := n.toInt) (by rw [abs_le]; constructor <;> omega)
  rw [ofI64_fin]
  exact div_const hc hc' a b

/-- C81: what is written for a finite coordinate does not depend on the limits of the floating point format: for every finite value, be it subnormal or so large
that the computation overflows, the model of the other theorems and IEEE 754 arithmetic agree: in a block, in a dump and in the header. -/
theorem C81_finite (c : ℚ) : encodeCoordD 100 0 (.fin c) = encodeCoord 100 0 c ∧ coord7D (.fin c) = Coordinate.lat7 ⟨c, c⟩ ∧
    coord7D (.fin c) = Coordinate.lon7 ⟨c, c⟩ ∧ toNanodegD (.fin c) = toNanodeg c := by
  have e7 : coord7D (.fin c) = F64.toI64 (F64.round (F64.mul c 10000000)) :=
    agree_toI64 (agree_round (agree_mul c 10000000) (by norm_num)) (by norm_num)
  refine ⟨?_, e7, e7, agree_toI64 (agree_mul c 1000000000) (by norm_num)⟩
  unfold encodeCoordD encodeCoord
  rw [ofI32_fin, ofI64_fin, F64.ofI32_eq]
  have h0 : F64.ofI64 0 = 0 := by simp [F64.ofI64, rnd_zero]
  rw [h0]
  have hd : Agree 989 _ (F64.div (F64.mul c 1000000000) ((100 : Int32).toInt : ℚ)) :=
    agree_div (agree_mul c 1000000000) (by norm_num) (by norm_num) (by norm_num [show (100 : Int32).toInt = 100 from rfl])
      (by norm_num [show (100 : Int32).toInt = 100 from rfl])
  exact agree_toI64 (agree_round (agree_sub hd (by norm_num) (by norm_num)) (by norm_num)) (by norm_num)

/-- C81: whatever numbers are in a file or dump, the coordinates and boxes handed out are finite, and are those of the model of the other theorems. -/
theorem C81_reading (granularity offset v : Int64) (x : Int32) :
    decodeCoordD granularity offset v = .fin (decodeCoord granularity offset v) ∧ fromNanodegD v = .fin (fromNanodeg v) ∧
    degreesD x = .fin (Apidb.degrees x) := by
  refine ⟨ofI64_div _ (by norm_num) (by norm_num), ofI64_div _ (by norm_num) (by norm_num), ?_⟩
  have h1 := x.le_toInt
  have h2 := x.toInt_lt
  obtain ⟨a, b⟩ := rnd_int_big (n := x.toInt) (by rw [abs_le]; constructor <;> omega)
  have := div_const (c := 10000000) (by norm_num) (by norm_num) a b
  unfold degreesD Apidb.degrees
  rw [ofI32_fin]
  have e := F64.ofI32_eq x
  unfold F64.ofI32 at e ⊢
  rw [this, e]

/-- C81: a coordinate that is not a number is written as 0; an infinite one as the largest or smallest 64 bit integer. -/
theorem C81_special :
    encodeCoordD 100 0 .nan = 0 ∧ coord7D .nan = 0 ∧ toNanodegD .nan = 0 ∧
    encodeCoordD 100 0 (.inf false) = Int64.maxValue ∧ coord7D (.inf false) = Int64.maxValue ∧ toNanodegD (.inf false) = Int64.maxValue ∧
    encodeCoordD 100 0 (.inf true) = Int64.minValue ∧ coord7D (.inf true) = Int64.minValue ∧ toNanodegD (.inf true) = Int64.minValue := by
  have h100 : Double.ofI32 100 = .fin 100 := by
    rw [ofI32_fin, F64.ofI32_eq]; rfl
  have h0 : Double.ofI64 0 = .fin 0 := by rw [ofI64_fin]; simp [F64.ofI64, rnd_zero]
  refine ⟨?_, rfl, rfl, ?_, ?_, ?_, ?_, ?_, ?_⟩
  · simp [encodeCoordD, Double.mul, Double.div, Double.sub, Double.round, Double.toI64]
  all_goals simp [encodeCoordD, coord7D, toNanodegD, h100, h0, Double.mul, Double.div, Double.sub, Double.round, Double.toI64]
  all_goals rfl

/-- C81 (as it holds): written and read again, such a coordinate becomes an ordinary one. NaN becomes 0; infinity becomes -0.0000001, since the reader
multiplies by the granularity with wrapping arithmetic (a build with overflow checks panics there); minus infinity becomes 0. -/
theorem C81_special_read :
    decodeCoordD 100 0 (encodeCoordD 100 0 .nan) = .fin 0 ∧
    decodeCoordD 100 0 (encodeCoordD 100 0 (.inf true)) = .fin 0 ∧
    decodeCoordD 100 0 (encodeCoordD 100 0 (.inf false)) = .fin (rnd (-1 / 10 ^ 7)) := by
  obtain ⟨h1, _, _, h2, _, _, h3, _, _⟩ := C81_special
  rw [h1, h2, h3, (C81_reading _ _ _ 0).1, (C81_reading _ _ _ 0).1, (C81_reading _ _ _ 0).1]
  have z : decodeCoord 100 0 0 = 0 := by
    have : (0 + 100 * 0 : Int64) = 0 := by decide
    unfold decodeCoord
    rw [this]
    simp [F64.ofI64, F64.div, rnd_zero]
  refine ⟨by rw [z], ?_, ?_⟩
  · have : (0 + 100 * Int64.minValue : Int64) = 0 + 100 * 0 := by decide
    unfold decodeCoord at z ⊢
    rw [this, z]
  · have : (0 + 100 * Int64.maxValue : Int64) = -100 := by decide
    unfold decodeCoord
    rw [this]
    have e : F64.ofI64 (-100) = -100 := by
      have := F64.ofI64_eq (-100) (by decide)
      rw [this]
      have : (-100 : Int64).toInt = -100 := by decide
      rw [this]; norm_num
    rw [e, F64.div]
    norm_num

/-- C81: within a turn of the globe writing and reading gives the multiple of 0.0000001 degrees nearest the coordinate, as a double. -/
theorem C81_near (c : ℚ) (h : |c| ≤ 360) :
    ∃ r, decodeCoordD 100 0 (encodeCoordD 100 0 (.fin c)) = .fin r ∧ IsBinary64 r ∧ Quantised c r := by
  refine ⟨_, (C81_reading _ _ _ 0).1, ?_, ?_⟩
  · have := (C81_reading 100 0 (encodeCoordD 100 0 (.fin c)) 0).1
    unfold decodeCoordD at this
    rw [ofI64_fin] at this
    simp only [Double.div] at this
    rw [if_neg (by norm_num)] at this
    exact (ofRat_nearest this).1
  · rw [(C81_finite c).1]
    exact quantCoord_quantised h

theorem rnd_pos_ge {q : ℚ} (h : 0 ≤ q) : q * (1 - 1 / 2 ^ 53) ≤ rnd q := by
  have h1 := rnd_err q
  have h2 := neg_abs_le (rnd q - q)
  rw [abs_of_nonneg h] at h1
  linarith

theorem round_ge {q : ℚ} {n : ℤ} (hn : 0 ≤ n) (h : (n : ℚ) ≤ q) : (n : ℚ) ≤ F64.round q := by
  have hq : (0 : ℚ) ≤ q := le_trans (by exact_mod_cast hn) h
  unfold F64.round
  rw [if_pos hq]
  have : n ≤ ⌊q + 1 / 2⌋ := Int.le_floor.2 (by linarith)
  exact_mod_cast this

theorem encode_neg (c : ℚ) : F64.round (F64.sub (F64.div (F64.mul (-c) 1000000000) 100) 0) =
    -F64.round (F64.sub (F64.div (F64.mul c 1000000000) 100) 0) := by
  have hr (q : ℚ) : F64.round (-q) = -F64.round q := by
    unfold F64.round
    rcases lt_trichotomy q 0 with h | h | h
    · rw [if_pos (by linarith), if_neg (by linarith)]
      rw [show -q + 1 / 2 = -(q - 1 / 2) by ring, Int.floor_neg]; push_cast; rfl
    · subst h; norm_num
    · rw [if_neg (by linarith), if_pos h.le]
      rw [show -q - 1 / 2 = -(q + 1 / 2) by ring, Int.ceil_neg]; push_cast; rfl
  unfold F64.sub F64.div F64.mul
  rw [neg_mul, rnd_neg, neg_div, rnd_neg, sub_zero, sub_zero, rnd_neg, hr]

/-- C81 (as it holds): a coordinate far outside the globe is not refused but written as the largest or smallest integer. -/
theorem C81_large (c : ℚ) : (2 ^ 40 ≤ c → encodeCoordD 100 0 (.fin c) = Int64.maxValue) ∧
    (c ≤ -2 ^ 40 → encodeCoordD 100 0 (.fin c) = Int64.minValue) := by
  have key (c : ℚ) (h : 2 ^ 40 ≤ c) : (2 : ℚ) ^ 63 ≤ F64.round (F64.sub (F64.div (F64.mul c 1000000000) 100) 0) := by
    have h1 := rnd_pos_ge (q := c * 1000000000) (by linarith)
    have h2 := rnd_pos_ge (q := rnd (c * 1000000000) / 100) (by
      apply div_nonneg _ (by norm_num)
      refine le_trans ?_ h1
      apply mul_nonneg <;> linarith)
    have h3 : (2 : ℚ) ^ 63 ≤ rnd (rnd (c * 1000000000) / 100) := by
      refine le_trans ?_ h2
      have : (2 : ℚ) ^ 40 * 1000000000 * (1 - 1 / 2 ^ 53) ≤ rnd (c * 1000000000) := by
        refine le_trans ?_ h1
        apply mul_le_mul_of_nonneg_right _ (by norm_num)
        linarith
      have h4 : (2 : ℚ) ^ 40 * 1000000000 * (1 - 1 / 2 ^ 53) / 100 * (1 - 1 / 2 ^ 53) ≤ rnd (c * 1000000000) / 100 * (1 - 1 / 2 ^ 53) := by
        apply mul_le_mul_of_nonneg_right _ (by norm_num)
        linarith
      refine le_trans ?_ h4
      norm_num
    have e : F64.sub (F64.div (F64.mul c 1000000000) 100) 0 = rnd (rnd (c * 1000000000) / 100) := by
      unfold F64.sub F64.div F64.mul
      rw [sub_zero, rnd_idem]
    rw [e]
    have := round_ge (q := rnd (rnd (c * 1000000000) / 100)) (n := 2 ^ 63) (by norm_num) (by push_cast; exact h3)
    push_cast at this
    exact this
  have e0 : F64.ofI64 0 = 0 := by simp [F64.ofI64, rnd_zero]
  have e100 : F64.ofI32 100 = 100 := by rw [F64.ofI32_eq]; rfl
  rw [(C81_finite c).1]
  unfold encodeCoord
  rw [e0, e100]
  constructor
  · intro h
    rw [toI64_big (key c h)]
  · intro h
    have := key (-c) (by linarith)
    rw [encode_neg] at this
    rw [toI64_low (by linarith)]

/-! ### Boxes -/

/-- C81: for finite coordinates growing a box is as in the model of the other theorems. -/
theorem C81_box_finite (b : BoxD) (f o : BoundingBox) (ob : BoxD) (c : Coordinate) (h : Box.IsFinite b f) (ho : Box.IsFinite ob o) :
    Box.IsFinite (b.mergePoint (.fin c.lat) (.fin c.lon)) (f.mergePoint c) ∧ Box.IsFinite (b.mergeBox ob) (f.mergeBox o) := by
  obtain ⟨h1, h2, h3, h4⟩ := h
  obtain ⟨o1, o2, o3, o4⟩ := ho
  obtain ⟨l, bo, r, t⟩ := b
  obtain ⟨l', bo', r', t'⟩ := ob
  simp only at h1 h2 h3 h4 o1 o2 o3 o4
  subst h1 h2 h3 h4 o1 o2 o3 o4
  constructor
  · simp only [BoxD.mergePoint, BoundingBox.mergePoint, Double.lt, decide_eq_true_eq, gt_iff_lt, Box.IsFinite]
    split_ifs <;> simp_all
  · simp only [BoxD.mergeBox, BoundingBox.mergeBox, Double.lt, decide_eq_true_eq, gt_iff_lt, Box.IsFinite]
    split_ifs <;> simp_all

/-- C81: a coordinate that is not a number leaves the box as it is in that direction. -/
theorem C81_box_nan (b : BoxD) (x : Double) :
    b.mergePoint .nan .nan = b ∧
    ((b.mergePoint .nan x).bottom = b.bottom ∧ (b.mergePoint .nan x).top = b.top) ∧
    ((b.mergePoint x .nan).left = b.left ∧ (b.mergePoint x .nan).right = b.right) := by
  have e1 (y : Double) : y.lt .nan = false := by cases y <;> rfl
  have e2 (y : Double) : Double.lt .nan y = false := by cases y <;> rfl
  simp only [BoxD.mergePoint, e1, e2, Bool.false_eq_true, if_false]
  refine ⟨by simp, ⟨?_, ?_⟩, ?_, ?_⟩ <;> split_ifs <;> rfl

theorem lt_place {x y : Double} : x.lt y = true ↔ ∃ v w, place x = some v ∧ place y = some w ∧ v < w := by
  have top (q : ℚ) : ((q : WithTop ℚ) : WithBot (WithTop ℚ)) < ((⊤ : WithTop ℚ) : WithBot (WithTop ℚ)) := WithBot.coe_lt_coe.2 (WithTop.coe_lt_top q)
  rcases x with _ | (_ | _) | p <;> rcases y with _ | (_ | _) | q <;>
    simp [Double.lt, place, WithBot.coe_lt_coe, WithTop.coe_lt_coe]
  simpa using top p

theorem lowest_fold (first : Double) (xs : List Double) : LowestFrom first xs (xs.foldl (fun a x => if x.lt a then x else a) first) := by
  induction xs generalizing first with
  | nil =>
    unfold LowestFrom
    split
    · assumption
    · next h =>
      obtain ⟨v, hv⟩ := Option.ne_none_iff_exists'.1 h
      refine ⟨v, hv, ⟨first, by simp, hv⟩, ?_⟩
      rintro w ⟨x, hx, hw⟩
      simp only [List.mem_singleton] at hx
      rw [hx, hv] at hw
      exact le_of_eq (Option.some.inj hw)
  | cons x xs ih =>
    have ih := ih (if x.lt first then x else first)
    simp only [List.foldl_cons]
    unfold LowestFrom at ih ⊢
    by_cases hf : place first = none
    · have : x.lt first = false := by
        rw [Bool.eq_false_iff]; intro h; obtain ⟨v, w, -, h, -⟩ := lt_place.1 h; rw [hf] at h; exact nomatch h
      simp only [this, Bool.false_eq_true, if_false, hf, if_true] at ih ⊢
      exact ih
    obtain ⟨f, hv⟩ := Option.ne_none_iff_exists'.1 hf
    rw [if_neg hf]
    by_cases h : x.lt first = true
    · obtain ⟨v, w, h1, h2, h3⟩ := lt_place.1 h
      rw [hv] at h2; cases h2
      simp only [h, if_true, h1, reduceCtorEq, if_false] at ih ⊢
      obtain ⟨r, hr, ⟨y, hy, hyr⟩, hl⟩ := ih
      refine ⟨r, hr, ⟨y, by simp only [List.mem_cons] at hy ⊢; exact .inr hy, hyr⟩, ?_⟩
      rintro u ⟨y, hy, hu⟩
      simp only [List.mem_cons] at hy
      rcases hy with rfl | hy
      · rw [hv] at hu; cases hu
        exact le_trans (hl ⟨x, by simp, h1⟩) (le_of_lt h3)
      · exact hl ⟨y, by simpa using hy, hu⟩
    · simp only [h, if_false, hv, reduceCtorEq] at ih ⊢
      obtain ⟨r, hr, ⟨y, hy, hyr⟩, hl⟩ := ih
      refine ⟨r, hr, ⟨y, by simp only [List.mem_cons] at hy ⊢; exact hy.imp id .inr, hyr⟩, ?_⟩
      rintro u ⟨y, hy, hu⟩
      simp only [List.mem_cons] at hy
      rcases hy with rfl | rfl | hy
      · exact hl ⟨y, by simp, hu⟩
      · have hfu : f ≤ u := by
          by_contra hc
          exact h (lt_place.2 ⟨u, f, hu, hv, not_le.1 hc⟩)
        exact le_trans (hl ⟨first, by simp, hv⟩) hfu
      · exact hl ⟨y, by simp [hy], hu⟩

theorem highest_fold (first : Double) (xs : List Double) : HighestFrom first xs (xs.foldl (fun a x => if a.lt x then x else a) first) := by
  induction xs generalizing first with
  | nil =>
    unfold HighestFrom
    split
    · assumption
    · next h =>
      obtain ⟨v, hv⟩ := Option.ne_none_iff_exists'.1 h
      refine ⟨v, hv, ⟨first, by simp, hv⟩, ?_⟩
      rintro w ⟨x, hx, hw⟩
      simp only [List.mem_singleton] at hx
      rw [hx, hv] at hw
      exact le_of_eq (Option.some.inj hw).symm
  | cons x xs ih =>
    have ih := ih (if first.lt x then x else first)
    simp only [List.foldl_cons]
    unfold HighestFrom at ih ⊢
    by_cases hf : place first = none
    · have : first.lt x = false := by
        rw [Bool.eq_false_iff]; intro h; obtain ⟨v, w, h, -, -⟩ := lt_place.1 h; rw [hf] at h; exact nomatch h
      simp only [this, Bool.false_eq_true, if_false, hf, if_true] at ih ⊢
      exact ih
    obtain ⟨f, hv⟩ := Option.ne_none_iff_exists'.1 hf
    rw [if_neg hf]
    by_cases h : first.lt x = true
    · obtain ⟨v, w, h1, h2, h3⟩ := lt_place.1 h
      rw [hv] at h1; cases h1
      simp only [h, if_true, h2, reduceCtorEq, if_false] at ih ⊢
      obtain ⟨r, hr, ⟨y, hy, hyr⟩, hl⟩ := ih
      refine ⟨r, hr, ⟨y, by simp only [List.mem_cons] at hy ⊢; exact .inr hy, hyr⟩, ?_⟩
      rintro u ⟨y, hy, hu⟩
      simp only [List.mem_cons] at hy
      rcases hy with rfl | hy
      · rw [hv] at hu; cases hu
        exact le_trans (le_of_lt h3) (hl ⟨x, by simp, h2⟩)
      · exact hl ⟨y, by simpa using hy, hu⟩
    · simp only [h, if_false, hv, reduceCtorEq] at ih ⊢
      obtain ⟨r, hr, ⟨y, hy, hyr⟩, hl⟩ := ih
      refine ⟨r, hr, ⟨y, by simp only [List.mem_cons] at hy ⊢; exact hy.imp id .inr, hyr⟩, ?_⟩
      rintro u ⟨y, hy, hu⟩
      simp only [List.mem_cons] at hy
      rcases hy with rfl | rfl | hy
      · exact hl ⟨y, by simp, hu⟩
      · have hfu : u ≤ f := by
          by_contra hc
          exact h (lt_place.2 ⟨f, u, hv, hu, not_le.1 hc⟩)
        exact le_trans hfu (hl ⟨first, by simp, hv⟩)
      · exact hl ⟨y, by simp [hy], hu⟩

theorem mergePoint_sides (b : BoxD) (lat lon : Double) : b.mergePoint lat lon =
    ⟨if lon.lt b.left then lon else b.left, if lat.lt b.bottom then lat else b.bottom,
     if b.right.lt lon then lon else b.right, if b.top.lt lat then lat else b.top⟩ := by
  obtain ⟨l, bo, r, t⟩ := b
  simp only [BoxD.mergePoint]
  by_cases h1 : lon.lt l = true <;> by_cases h2 : lat.lt bo = true <;> by_cases h3 : r.lt lon = true <;> by_cases h4 : t.lt lat = true <;>
    simp only [h1, h2, h3, h4, if_true, if_false, Bool.false_eq_true]

theorem mergeBox_sides (b o : BoxD) : b.mergeBox o =
    ⟨if o.left.lt b.left then o.left else b.left, if o.bottom.lt b.bottom then o.bottom else b.bottom,
     if b.right.lt o.right then o.right else b.right, if b.top.lt o.top then o.top else b.top⟩ := by
  obtain ⟨l, bo, r, t⟩ := b
  simp only [BoxD.mergeBox]
  by_cases h1 : o.left.lt l = true <;> by_cases h2 : o.bottom.lt bo = true <;> by_cases h3 : r.lt o.right = true <;> by_cases h4 : t.lt o.top = true <;>
    simp only [h1, h2, h3, h4, if_true, if_false, Bool.false_eq_true]

/-- C81: a box that has grown by any points, of any coordinates, has on each side the extreme of that side and of those coordinates, infinite
ones included. A coordinate that is not a number does not count; a side that was not a number at the start stays so. -/
theorem C81_box_points (b : BoxD) (points : List (Double × Double)) :
    let r := points.foldl (fun b p => b.mergePoint p.1 p.2) b
    LowestFrom b.left (points.map Prod.snd) r.left ∧ LowestFrom b.bottom (points.map Prod.fst) r.bottom ∧
    HighestFrom b.right (points.map Prod.snd) r.right ∧ HighestFrom b.top (points.map Prod.fst) r.top := by
  have key : points.foldl (fun b p => b.mergePoint p.1 p.2) b =
      ⟨(points.map Prod.snd).foldl (fun a x => if x.lt a then x else a) b.left, (points.map Prod.fst).foldl (fun a x => if x.lt a then x else a) b.bottom,
       (points.map Prod.snd).foldl (fun a x => if a.lt x then x else a) b.right, (points.map Prod.fst).foldl (fun a x => if a.lt x then x else a) b.top⟩ := by
    induction points generalizing b with
    | nil => rfl
    | cons p ps ih => rw [List.foldl_cons, ih, mergePoint_sides]; rfl
  simp only [key]
  exact ⟨lowest_fold _ _, lowest_fold _ _, highest_fold _ _, highest_fold _ _⟩

/-- C81: and so it is when boxes are merged. -/
theorem C81_box_boxes (b : BoxD) (boxes : List BoxD) :
    let r := boxes.foldl BoxD.mergeBox b
    LowestFrom b.left (boxes.map BoxD.left) r.left ∧ LowestFrom b.bottom (boxes.map BoxD.bottom) r.bottom ∧
    HighestFrom b.right (boxes.map BoxD.right) r.right ∧ HighestFrom b.top (boxes.map BoxD.top) r.top := by
  have key : boxes.foldl BoxD.mergeBox b =
      ⟨(boxes.map BoxD.left).foldl (fun a x => if x.lt a then x else a) b.left, (boxes.map BoxD.bottom).foldl (fun a x => if x.lt a then x else a) b.bottom,
       (boxes.map BoxD.right).foldl (fun a x => if a.lt x then x else a) b.right, (boxes.map BoxD.top).foldl (fun a x => if a.lt x then x else a) b.top⟩ := by
    induction boxes generalizing b with
    | nil => rfl
    | cons p ps ih => rw [List.foldl_cons, ih, mergeBox_sides]; rfl
  simp only [key]
  exact ⟨lowest_fold _ _, lowest_fold _ _, highest_fold _ _, highest_fold _ _⟩

/-- A box of finite sides grows by a NaN and an infinite longitude: only the latter counts. -/
example : ([(Double.fin 3, Double.nan), (.fin 4, .inf true)].foldl (fun b p => b.mergePoint p.1 p.2) ⟨.fin 1, .fin 2, .fin 5, .fin 6⟩ : BoxD) =
    ⟨.inf true, .fin 2, .fin 5, .fin 6⟩ := by decide +kernel

/-- C81 (as it holds): a box one of whose sides is not a number, such as the box of a point that is not a number, never gets a number there. -/
theorem C81_box_stays_nan (b : BoxD) (points : List (Double × Double)) :
    let r := points.foldl (fun b p => b.mergePoint p.1 p.2) b
    (b.left = .nan → r.left = .nan) ∧ (b.bottom = .nan → r.bottom = .nan) ∧ (b.right = .nan → r.right = .nan) ∧ (b.top = .nan → r.top = .nan) := by
  have none_nan {x : Double} (h : place x = none) : x = .nan := by rcases x with _ | (_ | _) | _ <;> first | rfl | exact nomatch h
  obtain ⟨h1, h2, h3, h4⟩ := C81_box_points b points
  refine ⟨fun h => ?_, fun h => ?_, fun h => ?_, fun h => ?_⟩
  · rw [h] at h1; exact none_nan h1
  · rw [h] at h2; exact none_nan h2
  · rw [h] at h3; exact none_nan h3
  · rw [h] at h4; exact none_nan h4

theorem within_iff (m : ℚ) (x : Double) : BoxD.within m x = true ↔ ∃ q, x = .fin q ∧ -m ≤ q ∧ q ≤ m := by
  cases x with
  | nan => simp [BoxD.within, Double.le]
  | inf s => cases s <;> simp [BoxD.within, Double.le]
  | fin q => simp [BoxD.within, Double.le]

theorem orErr_ok {α β : Type} {o : Option α} {f : α → Out β} {y : β} : (Out.orErr o >>= f) = .ok y ↔ ∃ a, o = some a ∧ f a = .ok y := by
  cases o with
  | none => exact ⟨fun h => (nomatch h), fun ⟨_, h, _⟩ => (nomatch h)⟩
  | some a => exact ⟨fun h => ⟨a, rfl, h⟩, fun ⟨_, h, h'⟩ => by cases h; exact h'⟩

theorem fromParts_ok (parse : Text → Option Double) (p0 p1 p2 p3 : Text) (ps : List Text) (b : BoxD) :
    BoxD.fromParts parse (p0 :: p1 :: p2 :: p3 :: ps) = .ok b ↔
      parse p0 = some b.left ∧ parse p1 = some b.bottom ∧ parse p2 = some b.right ∧ parse p3 = some b.top ∧
      BoxD.within 180 b.left ∧ BoxD.within 90 b.bottom ∧ BoxD.within 180 b.right ∧ BoxD.within 90 b.top := by
  unfold BoxD.fromParts
  simp only [orErr_ok]
  constructor
  · rintro ⟨l, h0, bo, h1, r, h2, t, h3, h⟩
    split_ifs at h with hc
    cases h
    have := not_or.1 hc
    have h' := not_or.1 this.2
    have h'' := not_or.1 h'.2
    exact ⟨h0, h1, h2, h3, not_not.1 this.1, not_not.1 h'.1, not_not.1 h''.1, not_not.1 h''.2⟩
  · rintro ⟨h0, h1, h2, h3, w0, w1, w2, w3⟩
    refine ⟨_, h0, _, h1, _, h2, _, h3, ?_⟩
    rw [if_neg (by simp [w0, w1, w2, w3])]

theorem fromPartsF_ok (parse : Text → Option F64) (p0 p1 p2 p3 : Text) (ps : List Text) (b : BoundingBox) :
    BoundingBox.fromParts parse (p0 :: p1 :: p2 :: p3 :: ps) = .ok b ↔
      parse p0 = some b.left ∧ parse p1 = some b.bottom ∧ parse p2 = some b.right ∧ parse p3 = some b.top ∧
      (-180 ≤ b.left ∧ b.left ≤ 180) ∧ (-90 ≤ b.bottom ∧ b.bottom ≤ 90) ∧ (-180 ≤ b.right ∧ b.right ≤ 180) ∧ (-90 ≤ b.top ∧ b.top ≤ 90) := by
  unfold BoundingBox.fromParts
  simp only [orErr_ok]
  constructor
  · rintro ⟨l, h0, bo, h1, r, h2, t, h3, h⟩
    split_ifs at h with hc
    cases h
    have := not_or.1 hc
    have h' := not_or.1 this.2
    have h'' := not_or.1 h'.2
    exact ⟨h0, h1, h2, h3, not_not.1 this.1, not_not.1 h'.1, not_not.1 h''.1, not_not.1 h''.2⟩
  · rintro ⟨h0, h1, h2, h3, w0, w1, w2, w3⟩
    refine ⟨_, h0, _, h1, _, h2, _, h3, ?_⟩
    rw [if_neg]
    rintro (h | h | h | h)
    · exact h w0
    · exact h w1
    · exact h w2
    · exact h w3

theorem finiteOnly_iff (parse : Text → Option Double) (t : Text) (q : ℚ) : finiteOnly parse t = some q ↔ parse t = some (.fin q) := by
  unfold finiteOnly
  cases h : parse t with
  | none => simp
  | some d => cases d <;> simp

/-- C81: a box read from a text has finite sides; texts with `NaN` or infinities are refused like any other wrong text. -/
theorem C81_box_text (parse : Text → Option Double) (s : Text) (b : BoxD) :
    BoxD.fromStr parse s = .ok b ↔ ∃ f, Box.IsFinite b f ∧ BoundingBox.fromStr (finiteOnly parse) s = .ok f := by
  unfold BoxD.fromStr BoundingBox.fromStr
  generalize (Text.split ',' s).map BoundingBox.trim = parts
  rcases parts with _ | ⟨p0, _ | ⟨p1, _ | ⟨p2, _ | ⟨p3, ps⟩⟩⟩⟩
  iterate 4 exact ⟨fun h => (nomatch h), fun ⟨_, _, h⟩ => (nomatch h)⟩
  simp only [fromParts_ok, fromPartsF_ok, finiteOnly_iff, within_iff]
  constructor
  · rintro ⟨h0, h1, h2, h3, ⟨a, ha, a'⟩, ⟨c, hc, c'⟩, ⟨d, hd, d'⟩, e, he, e'⟩
    exact ⟨⟨a, c, d, e⟩, ⟨ha, hc, hd, he⟩, ha ▸ h0, hc ▸ h1, hd ▸ h2, he ▸ h3, a', c', d', e'⟩
  · rintro ⟨f, ⟨ha, hc, hd, he⟩, h0, h1, h2, h3, a', c', d', e'⟩
    exact ⟨ha ▸ h0, hc ▸ h1, hd ▸ h2, he ▸ h3, ⟨_, ha, a'⟩, ⟨_, hc, c'⟩, ⟨_, hd, d'⟩, _, he, e'⟩

/-! ### Cases -/

/-- Berlin. -/
example : ∃ r, decodeCoordD 100 0 (encodeCoordD 100 0 (.fin (525 / 10))) = .fin r ∧ IsBinary64 r ∧ Quantised (525 / 10) r :=
  C81_near _ (by rw [abs_of_pos] <;> norm_num)

example : IsBinary64 (525 / 10) := ⟨105, -1, by norm_num, by norm_num, by norm_num, by norm_num⟩

/-- A product that overflows. -/
example : ofRat (2 ^ 1024) = .inf false := by
  rw [ofRat_overflow]
  have h : (0 : ℚ) < 2 ^ (1024 : ℕ) := pow_pos (by norm_num) _
  have h' : (0 : ℚ) < 2 ^ (970 : ℕ) := pow_pos (by norm_num) _
  rw [abs_of_pos h]
  generalize (2 : ℚ) ^ (1024 : ℕ) = A at *
  generalize (2 : ℚ) ^ (970 : ℕ) = B at *
  exact ⟨by linarith, by simp [h.le]⟩

/-- A box that cannot be used any more. -/
example : ([(Double.fin 1, Double.fin 2), (.fin 3, .inf true)].foldl (fun (b : BoxD) p => b.mergePoint p.1 p.2) ⟨.nan, .nan, .nan, .nan⟩).left = .nan :=
  (C81_box_stays_nan _ _).1 rfl

example : BoxD.mergePoint ⟨.fin 1, .fin 1, .fin 2, .fin 2⟩ .nan (.fin 3) = ⟨.fin 1, .fin 1, .fin 3, .fin 2⟩ := by decide +kernel

/-! ### Tiles -/

/-- C81: for all finite coordinates the tile number is that of the model of the other theorems (C40), also where the computation overflows. -/
theorem C81_tile_finite (lat lon : ℚ) : calculateTileD (.fin lat) (.fin lon) = Sql.calculateTile lat lon := by
  have key (c a b : ℚ) (hb : 1 ≤ b) (hb' : b ≤ 2 ^ 31) :
      ((((Double.fin c).add (.fin a)).mul (.fin 65535)).div (.fin b)).round.toU64 = Sql.toU64 (F64.round (F64.div (F64.mul (F64.add c a) 65535) b)) := by
    have h1 : Agree 1022 ((Double.fin c).add (.fin a)) (F64.add c a) := agree_ofRat (c + a)
    generalize (Double.fin c).add (.fin a) = x, F64.add c a = p at h1 ⊢
    have h2 : Agree 989 (x.mul (.fin 65535)) (F64.mul p 65535) :=
      agree_mul_const h1 (by norm_num) (by norm_num) (by norm_num) (by norm_num)
    generalize x.mul (.fin 65535) = y, F64.mul p 65535 = q at h2 ⊢
    have h3 : Agree 956 (y.div (.fin b)) (F64.div q b) := by
      have := agree_div h2 (by norm_num) (by norm_num) hb hb'
      exact this.mono (by norm_num)
    exact agree_toU64 (agree_round h3 (by norm_num)) (by norm_num)
  have hx : tileXD (.fin lon) = Sql.tileX lon := key lon 180 360 (by norm_num) (by norm_num)
  have hy : tileYD (.fin lat) = Sql.tileY lat := key lat 90 180 (by norm_num) (by norm_num)
  unfold calculateTileD Sql.calculateTile
  rw [hx, hy]

/-- Only the low 16 bits of the cell numbers count. -/
theorem interleave_low {x y x' y' : Nat} (hx : x % 65536 = x' % 65536) (hy : y % 65536 = y' % 65536) :
    Sql.interleave x y 16 0 = Sql.interleave x' y' 16 0 := by
  have low {a b : Nat} (h : a % 65536 = b % 65536) {i : Nat} (hi : i < 16) : a.testBit i = b.testBit i := by
    have ha := Nat.testBit_mod_two_pow a 16 i
    have hb := Nat.testBit_mod_two_pow b 16 i
    simp only [hi, decide_true, Bool.true_and] at ha hb
    rw [← ha, ← hb]
    norm_num [h]
  apply Nat.eq_of_testBit_eq
  intro j
  rw [interleave_testBit, interleave_testBit]
  split_ifs with h1 h2
  · exact low hy (by omega)
  · exact low hx (by omega)
  · rfl

/-- C81: a longitude that is not a number, or minus infinity, is counted into the westernmost cells, infinity into the easternmost; and a latitude that is not a
number, or minus infinity, into the southernmost, infinity into the northernmost. No panic, and no sign of it in the tile number. -/
theorem C81_tile_special (c : Double) :
    calculateTileD c .nan = calculateTileD c (.fin (-180)) ∧ calculateTileD c (.inf true) = calculateTileD c (.fin (-180)) ∧
    calculateTileD c (.inf false) = calculateTileD c (.fin 180) ∧
    calculateTileD .nan c = calculateTileD (.fin (-90)) c ∧ calculateTileD (.inf true) c = calculateTileD (.fin (-90)) c ∧
    calculateTileD (.inf false) c = calculateTileD (.fin 90) c := by
  have w : tileXD (.fin (-180)) = 0 := by decide +kernel
  have e : tileXD (.fin 180) = 65535 := by decide +kernel
  have s : tileYD (.fin (-90)) = 0 := by decide +kernel
  have n : tileYD (.fin 90) = 65535 := by decide +kernel
  have x1 : tileXD .nan = 0 := rfl
  have x2 : tileXD (.inf true) = 0 := by decide +kernel
  have x3 : tileXD (.inf false) = 18446744073709551615 := by decide +kernel
  have y1 : tileYD .nan = 0 := rfl
  have y2 : tileYD (.inf true) = 0 := by decide +kernel
  have y3 : tileYD (.inf false) = 18446744073709551615 := by decide +kernel
  unfold calculateTileD
  rw [w, e, s, n, x1, x2, x3, y1, y2, y3]
  exact ⟨rfl, rfl, interleave_low rfl rfl, rfl, rfl, interleave_low rfl rfl⟩

/-- C81: tile numbers of any coordinates fit into 32 bits. -/
theorem C81_tile_range (lat lon : Double) : calculateTileD lat lon < 2 ^ 32 := by
  apply Nat.lt_pow_two_of_testBit
  intro j hj
  unfold calculateTileD
  rw [interleave_testBit, if_neg (by omega)]
  simp

/-- C81 (as it holds): coordinates beyond the edge are neither refused nor kept at the edge. At every latitude a point just east of 180 degrees gets the tile of
a point in the far west, and one west of -180 that of the western edge. -/
theorem C81_tile_beyond (lat : Double) :
    calculateTileD lat (.fin (180 + 1 / 64)) = calculateTileD lat (.fin (-180 + 3 / 256)) ∧
    calculateTileD lat (.fin (180 + 1 / 64)) ≠ calculateTileD lat (.fin 180) ∧
    calculateTileD lat (.fin (-181)) = calculateTileD lat (.fin (-180)) := by
  have a : tileXD (.fin (180 + 1 / 64)) = 65538 := by decide +kernel
  have b : tileXD (.fin (-180 + 3 / 256)) = 2 := by decide +kernel
  have c : tileXD (.fin 180) = 65535 := by decide +kernel
  have d : tileXD (.fin (-181)) = 0 := by decide +kernel
  have e : tileXD (.fin (-180)) = 0 := by decide +kernel
  unfold calculateTileD
  rw [a, b, c, d, e]
  refine ⟨interleave_low rfl rfl, fun h => ?_, rfl⟩
  have := congrArg (fun n => n.testBit 1) h
  simp only [interleave_testBit] at this
  norm_num at this

/-- London, and a point with an unknown longitude at its latitude. -/
example : calculateTileD (.fin (103 / 2)) (.fin (-12 / 100)) = 2062265820 ∧ calculateTileD (.fin (103 / 2)) .nan = 1346438484 := by
  rw [(C81_tile_special _).1, C81_tile_finite, C81_tile_finite]
  exact ⟨by decide +kernel, by decide +kernel⟩

end OsmIo
