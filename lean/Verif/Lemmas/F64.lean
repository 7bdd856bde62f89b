import Verif.Model.F64
import Mathlib.Tactic.Ring
import Mathlib.Tactic.Linarith
import Mathlib.Tactic.FieldSimp
import Mathlib.Tactic.NormNum
import Mathlib.Tactic.Positivity
/-! # Lemmas about rounding -/
namespace OsmIo

theorem roundEven_int (m : ℤ) : roundEven (m : ℚ) = m := by
  simp [roundEven]

theorem roundEven_err (q : ℚ) : |(roundEven q : ℚ) - q| ≤ 1/2 := by
  unfold roundEven
  have h1 := Int.floor_le q
  have h2 := Int.lt_floor_add_one q
  simp only
  rw [abs_le]
  split_ifs with h h' h'' <;> push_cast <;> constructor <;> linarith

theorem two_zpow_pos (e : ℤ) : (0 : ℚ) < 2 ^ e := zpow_pos (by norm_num) e

theorem ulp_pos (q : ℚ) : 0 < ulp q := by unfold ulp; exact two_zpow_pos _

theorem zpow_log_le {q : ℚ} (h : q ≠ 0) : (2 : ℚ) ^ (Int.log 2 |q|) ≤ |q| :=
  Int.zpow_log_le_self (by norm_num) (abs_pos.2 h)

theorem lt_zpow_log (q : ℚ) : |q| < (2 : ℚ) ^ (Int.log 2 |q| + 1) :=
  Int.lt_zpow_succ_log_self (by norm_num) _

theorem rnd_zero : rnd 0 = 0 := by simp [rnd]

/-- The standard model of floating point arithmetic: relative error at most `2^-53`. -/
theorem rnd_err (q : ℚ) : |rnd q - q| ≤ 1 / 2 ^ 53 * |q| := by
  unfold rnd
  split_ifs with h
  · simp [h]
  · have hu := ulp_pos q
    have h1 := roundEven_err (q / ulp q)
    have h2 : (roundEven (q / ulp q) : ℚ) * ulp q - q = (roundEven (q / ulp q) - q / ulp q) * ulp q := by
      field_simp
    rw [h2, abs_mul, abs_of_pos hu]
    have h3 : ulp q ≤ 1 / 2 ^ 52 * |q| := by
      have h4 := zpow_log_le h
      unfold ulp
      rw [zpow_sub₀ (by norm_num)]
      rw [div_le_iff₀ (by positivity)]
      have : (1 / 2 ^ 52 * |q|) * (2 : ℚ) ^ (52 : ℤ) = |q| := by
        norm_num
        ring
      linarith
    calc |(roundEven (q / ulp q) : ℚ) - q / ulp q| * ulp q ≤ 1 / 2 * ulp q :=
          mul_le_mul_of_nonneg_right h1 hu.le
      _ ≤ 1 / 2 * (1 / 2 ^ 52 * |q|) := by linarith
      _ = 1 / 2 ^ 53 * |q| := by ring

/-- Numbers with a 53 bit significand are exact. -/
theorem rnd_exact (m : ℤ) (e : ℤ) (hm : |m| ≤ 2 ^ 53) : rnd ((m : ℚ) * 2 ^ e) = (m : ℚ) * 2 ^ e := by
  by_cases h0 : m = 0
  · simp [h0, rnd_zero]
  · have hx : (m : ℚ) * 2 ^ e ≠ 0 := by
      apply mul_ne_zero
      · exact_mod_cast h0
      · exact (two_zpow_pos e).ne'
    unfold rnd
    rw [if_neg hx]
    set x : ℚ := (m : ℚ) * 2 ^ e with hxdef
    set L := Int.log 2 |x| with hL
    have habs : |x| = |(m : ℚ)| * 2 ^ e := by
      rw [hxdef, abs_mul, abs_of_pos (two_zpow_pos e)]
    have h1 : (2 : ℚ) ^ L ≤ |(m : ℚ)| * 2 ^ e := habs ▸ zpow_log_le hx
    have hm' : |(m : ℚ)| ≤ 2 ^ 53 := by exact_mod_cast hm
    have hLe : L ≤ e + 53 := by
      have : (2 : ℚ) ^ L ≤ 2 ^ (e + 53) := by
        rw [zpow_add₀ (by norm_num)]
        calc (2 : ℚ) ^ L ≤ |(m : ℚ)| * 2 ^ e := h1
          _ ≤ 2 ^ 53 * 2 ^ e := mul_le_mul_of_nonneg_right hm' (two_zpow_pos e).le
          _ = 2 ^ e * 2 ^ (53 : ℤ) := by rw [mul_comm]; norm_cast
      exact (zpow_le_zpow_iff_right₀ (by norm_num)).1 this
    have hkey : ∃ k : ℤ, x / ulp x = k := by
      have hdiv : x / ulp x = (m : ℚ) * 2 ^ (e - (L - 52)) := by
        unfold ulp
        rw [← hL, hxdef, zpow_sub₀ (by norm_num : (2 : ℚ) ≠ 0) e]
        ring
      rcases eq_or_lt_of_le hLe with hEq | hLt
      · -- the only way is |m| = 2^53
        have h2 : (2 : ℚ) ^ 53 ≤ |(m : ℚ)| := by
          rw [hEq, zpow_add₀ (by norm_num)] at h1
          have hp : (0 : ℚ) < 2 ^ e := two_zpow_pos e
          have : (2 : ℚ) ^ e * 2 ^ (53 : ℤ) ≤ 2 ^ e * |(m : ℚ)| := by linarith [mul_comm (|(m : ℚ)|) (2 ^ e)]
          have := le_of_mul_le_mul_left this hp
          exact_mod_cast this
        have h3 : (2 : ℤ) ^ 53 ≤ |m| := by exact_mod_cast h2
        have h4 : |m| = 2 ^ 53 := le_antisymm hm h3
        have h5 : e - (L - 52) = -1 := by omega
        rcases abs_choice m with hc | hc
        · refine ⟨2 ^ 52, ?_⟩
          rw [hdiv, h5]
          have : m = 2 ^ 53 := by rw [← hc, h4]
          rw [this]; norm_num
        · refine ⟨-2 ^ 52, ?_⟩
          rw [hdiv, h5]
          have : m = -2 ^ 53 := by linarith [h4, hc]
          rw [this]; norm_num
      · obtain ⟨n, hn⟩ : ∃ n : ℕ, e - (L - 52) = n := ⟨(e - (L - 52)).toNat, by omega⟩
        refine ⟨m * 2 ^ n, ?_⟩
        rw [hdiv, hn]
        push_cast
        norm_cast
    obtain ⟨k, hk⟩ := hkey
    rw [hk, roundEven_int, ← hk]
    exact div_mul_cancel₀ x (ulp_pos x).ne'

theorem rnd_int (m : ℤ) (hm : |m| ≤ 2 ^ 53) : rnd (m : ℚ) = m := by
  simpa using rnd_exact m 0 hm

/-- The significand of a nonzero rounded value. -/
theorem abs_roundEven_le (q : ℚ) (b : ℤ) (h : |q| ≤ b) : |roundEven q| ≤ b := by
  unfold roundEven
  have h1 := Int.floor_le q
  have h2 := Int.lt_floor_add_one q
  have hq := abs_le.1 h
  have hfl : ⌊q⌋ ≤ b := by
    have : ((⌊q⌋ : ℤ) : ℚ) ≤ b := le_trans h1 hq.2
    exact_mod_cast this
  have hfl2 : -b ≤ ⌊q⌋ := Int.le_floor.2 (by push_cast; exact hq.1)
  simp only
  have hne : ∀ d : ℚ, 1/2 ≤ d → q - ⌊q⌋ = d → ⌊q⌋ + 1 ≤ b := by
    intro d hd he
    have : ((⌊q⌋ : ℤ) : ℚ) < b := by linarith [hq.2]
    have : ⌊q⌋ < b := by exact_mod_cast this
    omega
  split_ifs with h' h'' h'''
  · rw [abs_le]; exact ⟨hfl2, hfl⟩
  · have := hne _ h''.le rfl
    rw [abs_le]; omega
  · rw [abs_le]; exact ⟨hfl2, hfl⟩
  · have := hne _ (not_lt.1 h') rfl
    rw [abs_le]; omega

/-- Rounding is idempotent. -/
theorem rnd_idem (q : ℚ) : rnd (rnd q) = rnd q := by
  by_cases h : q = 0
  · simp [h, rnd_zero]
  · have e : rnd q = roundEven (q / ulp q) * ulp q := by unfold rnd; rw [if_neg h]
    rw [e]
    unfold ulp
    apply rnd_exact
    apply abs_roundEven_le
    have hu : (0 : ℚ) < 2 ^ (Int.log 2 |q| - 52) := two_zpow_pos _
    rw [abs_div, abs_of_pos hu, div_le_iff₀ hu]
    have := (lt_zpow_log q).le
    have e2 : ((2 ^ 53 : ℤ) : ℚ) * 2 ^ (Int.log 2 |q| - 52) = 2 ^ (Int.log 2 |q| + 1) := by
      have : Int.log 2 |q| + 1 = 53 + (Int.log 2 |q| - 52) := by ring
      rw [this, zpow_add₀ (by norm_num)]
      norm_num
    rw [e2]; exact this

theorem rnd_neg (q : ℚ) : rnd (-q) = - rnd q := by
  unfold rnd
  by_cases h : q = 0
  · simp [h]
  · have hu : ulp (-q) = ulp q := by simp [ulp]
    simp only [neg_eq_zero, h, if_false, hu]
    have : roundEven (-q / ulp q) = - roundEven (q / ulp q) := by
      rw [neg_div]
      generalize q / ulp q = x
      unfold roundEven
      have h1 := Int.floor_le x
      have h2 := Int.lt_floor_add_one x
      have h3 := Int.floor_le (-x)
      have h4 := Int.lt_floor_add_one (-x)
      by_cases hx : x = ⌊x⌋
      · have : ⌊-x⌋ = -⌊x⌋ := by
          rw [Int.floor_eq_iff]; push_cast; constructor <;> linarith
        simp only [this]
        push_cast
        have e1 : -x - -(⌊x⌋ : ℚ) = 0 := by linarith
        have e2 : x - (⌊x⌋ : ℚ) = 0 := by linarith
        rw [e1, e2]; norm_num
      · have hlt : (⌊x⌋ : ℚ) < x := lt_of_le_of_ne h1 (Ne.symm hx)
        have : ⌊-x⌋ = -⌊x⌋ - 1 := by
          rw [Int.floor_eq_iff]; push_cast; constructor <;> linarith
        simp only [this]
        push_cast
        split_ifs <;> first | omega | (exfalso; linarith)
    rw [this]; push_cast; ring

namespace F64

theorem ofI32_eq (n : Int32) : ofI32 n = (n.toInt : ℚ) := by
  unfold ofI32
  apply rnd_int
  have h1 := n.le_toInt
  have h2 := n.toInt_lt
  rw [abs_le]; constructor <;> omega

theorem ofI64_eq (n : Int64) (h : |n.toInt| ≤ 2 ^ 53) : ofI64 n = (n.toInt : ℚ) := rnd_int _ h

theorem round_near {q : ℚ} {k : ℤ} (h : |q - k| < 1/2) : round q = k := by
  obtain ⟨h1, h2⟩ := abs_lt.1 h
  unfold round
  split_ifs with hq
  · have : ⌊q + 1/2⌋ = k := by rw [Int.floor_eq_iff]; constructor <;> linarith
    rw [this]
  · have : ⌈q - 1/2⌉ = k := by rw [Int.ceil_eq_iff]; constructor <;> linarith
    rw [this]

/-- `f64::round` gives an integer at distance at most one half. -/
theorem round_spec (q : ℚ) : ∃ k : ℤ, round q = k ∧ |q - k| ≤ 1/2 := by
  unfold round
  split_ifs with hq
  · refine ⟨_, rfl, ?_⟩
    have h1 := Int.floor_le (q + 1/2)
    have h2 := Int.lt_floor_add_one (q + 1/2)
    rw [abs_le]; constructor <;> linarith
  · refine ⟨_, rfl, ?_⟩
    have h1 := Int.le_ceil (q - 1/2)
    have h2 := Int.ceil_lt_add_one (q - 1/2)
    rw [abs_le]; constructor <;> linarith

theorem trunc_int (k : ℤ) : trunc (k : ℚ) = k := by
  unfold trunc; split_ifs <;> simp

theorem toI64_int (k : ℤ) (h1 : -2 ^ 63 ≤ k) (h2 : k < 2 ^ 63) : toI64 (k : ℚ) = Int64.ofInt k := by
  unfold toI64
  rw [trunc_int]
  congr 1
  omega

end F64
end OsmIo
