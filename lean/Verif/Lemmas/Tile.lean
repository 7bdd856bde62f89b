import Verif.Model.Sql
import Verif.Lemmas.F64
import Mathlib.Tactic.Linarith
/-! Lemmas about tiles: monotone rounding, bit interleaving. -/
namespace OsmIo

theorem roundEven_mono {a b : ℚ} (h : a ≤ b) : roundEven a ≤ roundEven b := by
  have hf : ⌊a⌋ ≤ ⌊b⌋ := Int.floor_le_floor h
  have a1 := Int.floor_le a
  have b1 := Int.floor_le b
  have bounds : ∀ q : ℚ, ⌊q⌋ ≤ roundEven q ∧ roundEven q ≤ ⌊q⌋ + 1 := by
    intro q; unfold roundEven; dsimp only; split_ifs <;> omega
  rcases lt_or_eq_of_le hf with hlt | heq
  · have := bounds a; have := bounds b; omega
  · unfold roundEven
    dsimp only
    rw [heq] at *
    have : a - (⌊b⌋ : ℚ) ≤ b - (⌊b⌋ : ℚ) := by linarith
    split_ifs <;> first | omega | (exfalso; linarith)

theorem roundEven_nonneg {a : ℚ} (h : 0 ≤ a) : 0 ≤ roundEven a := by
  have := roundEven_mono h
  have h0 : roundEven 0 = 0 := by simpa using roundEven_int 0
  omega

theorem rnd_nonneg {q : ℚ} (h : 0 ≤ q) : 0 ≤ rnd q := by
  unfold rnd
  split
  · exact le_refl _
  · have := roundEven_nonneg (a := q / ulp q) (div_nonneg h (le_of_lt (ulp_pos q)))
    have hu := ulp_pos q
    have : (0 : ℚ) ≤ roundEven (q / ulp q) := by exact_mod_cast this
    positivity

theorem rnd_mono_pos {q r : ℚ} (hq : 0 < q) (h : q ≤ r) : rnd q ≤ rnd r := by
  have hr : 0 < r := lt_of_lt_of_le hq h
  have hlog : Int.log 2 |q| ≤ Int.log 2 |r| := by
    rw [abs_of_pos hq, abs_of_pos hr]; exact Int.log_mono_right hq h
  unfold rnd
  rw [if_neg (ne_of_gt hq), if_neg (ne_of_gt hr)]
  rcases lt_or_eq_of_le hlog with hlt | heq
  · -- different binades: separated by a power of two
    have hu := ulp_pos q
    have hv := ulp_pos r
    have h1 : (roundEven (q / ulp q) : ℚ) * ulp q ≤ 2 ^ (Int.log 2 |q| + 1) := by
      have hle : q / ulp q ≤ ((2 ^ 53 : ℤ) : ℚ) := by
        rw [div_le_iff₀ hu]
        have := lt_zpow_log q
        rw [abs_of_pos hq] at this
        have e : (((2 ^ 53 : ℤ) : ℚ)) * ulp q = 2 ^ (Int.log 2 |q| + 1) := by
          unfold ulp
          rw [show (((2 ^ 53 : ℤ) : ℚ)) = (2 : ℚ) ^ (53 : ℤ) by norm_num, ← zpow_add₀ (by norm_num)]
          congr 1; ring
        rw [e, abs_of_pos hq]; exact this.le
      have := roundEven_mono hle
      rw [roundEven_int] at this
      have h2 : (roundEven (q / ulp q) : ℚ) ≤ ((2 ^ 53 : ℤ) : ℚ) := by exact_mod_cast this
      calc (roundEven (q / ulp q) : ℚ) * ulp q ≤ ((2 ^ 53 : ℤ) : ℚ) * ulp q :=
            mul_le_mul_of_nonneg_right h2 hu.le
        _ = 2 ^ (Int.log 2 |q| + 1) := by
            unfold ulp
            rw [show (((2 ^ 53 : ℤ) : ℚ)) = (2 : ℚ) ^ (53 : ℤ) by norm_num, ← zpow_add₀ (by norm_num)]
            congr 1; ring
    have h2 : (2 : ℚ) ^ (Int.log 2 |r|) ≤ (roundEven (r / ulp r) : ℚ) * ulp r := by
      have hle : ((2 ^ 52 : ℤ) : ℚ) ≤ r / ulp r := by
        rw [le_div_iff₀ hv]
        have := zpow_log_le (ne_of_gt hr)
        have e : (((2 ^ 52 : ℤ) : ℚ)) * ulp r = 2 ^ (Int.log 2 |r|) := by
          unfold ulp
          rw [show (((2 ^ 52 : ℤ) : ℚ)) = (2 : ℚ) ^ (52 : ℤ) by norm_num, ← zpow_add₀ (by norm_num)]
          congr 1; ring
        rw [e]; rwa [abs_of_pos hr] at this ⊢
      have := roundEven_mono hle
      rw [roundEven_int] at this
      have h2 : ((2 ^ 52 : ℤ) : ℚ) ≤ (roundEven (r / ulp r) : ℚ) := by exact_mod_cast this
      calc (2 : ℚ) ^ (Int.log 2 |r|) = ((2 ^ 52 : ℤ) : ℚ) * ulp r := by
            unfold ulp
            rw [show (((2 ^ 52 : ℤ) : ℚ)) = (2 : ℚ) ^ (52 : ℤ) by norm_num, ← zpow_add₀ (by norm_num)]
            congr 1; ring
        _ ≤ _ := mul_le_mul_of_nonneg_right h2 hv.le
    have h3 : (2 : ℚ) ^ (Int.log 2 |q| + 1) ≤ 2 ^ (Int.log 2 |r|) :=
      zpow_le_zpow_right₀ (by norm_num) (by omega)
    linarith
  · have : ulp q = ulp r := by unfold ulp; rw [heq]
    rw [this]
    have hv := ulp_pos r
    have h2 : q / ulp r ≤ r / ulp r := div_le_div_of_nonneg_right h hv.le
    have h3 := roundEven_mono h2
    have h4 : (roundEven (q / ulp r) : ℚ) ≤ roundEven (r / ulp r) := by exact_mod_cast h3
    exact mul_le_mul_of_nonneg_right h4 hv.le

/-- Rounding to double precision is monotone. -/
theorem rnd_mono {q r : ℚ} (h : q ≤ r) : rnd q ≤ rnd r := by
  rcases lt_trichotomy q 0 with hq | rfl | hq
  · rcases lt_or_ge 0 r with hr | hr
    · have h1 : rnd q ≤ 0 := by
        have := rnd_nonneg (q := -q) (by linarith)
        rw [rnd_neg] at this; linarith
      have h2 := rnd_nonneg hr.le
      linarith
    · rcases lt_or_eq_of_le hr with hr | rfl
      · have := rnd_mono_pos (q := -r) (r := -q) (by linarith) (by linarith)
        rw [rnd_neg, rnd_neg] at this; linarith
      · have := rnd_nonneg (q := -q) (by linarith)
        rw [rnd_neg] at this; rw [rnd_zero]; linarith
  · rw [rnd_zero]; exact rnd_nonneg h
  · exact rnd_mono_pos hq h

namespace Sql

theorem round_mono {a b : ℚ} (h : a ≤ b) : F64.round a ≤ F64.round b := by
  unfold F64.round
  split_ifs with h1 h2
  · exact_mod_cast Int.floor_le_floor (by linarith)
  · exact absurd (le_trans h1 h) h2
  · have : ⌈a - 1/2⌉ ≤ 0 := Int.ceil_le.2 (by push_cast; linarith)
    have : (0 : ℤ) ≤ ⌊b + 1/2⌋ := Int.le_floor.2 (by push_cast; linarith)
    exact_mod_cast (by omega : ⌈a - 1/2⌉ ≤ ⌊b + 1/2⌋)
  · exact_mod_cast Int.ceil_le_ceil (by linarith)

theorem toU64_mono {a b : ℚ} (h : a ≤ b) : toU64 a ≤ toU64 b := by
  have : F64.trunc a ≤ F64.trunc b := by
    unfold F64.trunc
    split_ifs with h1 h2
    · exact Int.floor_le_floor h
    · exact absurd (le_trans h1 h) h2
    · have : ⌈a⌉ ≤ 0 := Int.ceil_le.2 (by push_cast; linarith)
      have : (0 : ℤ) ≤ ⌊b⌋ := Int.le_floor.2 (by push_cast; linarith)
      omega
    · exact Int.ceil_le_ceil h
  unfold toU64; omega

theorem tileX_mono {a b : ℚ} (h : a ≤ b) : tileX a ≤ tileX b := by
  unfold tileX F64.div F64.mul F64.add
  apply toU64_mono; apply round_mono; apply rnd_mono
  apply div_le_div_of_nonneg_right _ (by norm_num)
  apply rnd_mono
  apply mul_le_mul_of_nonneg_right _ (by norm_num)
  apply rnd_mono
  linarith

theorem tileY_mono {a b : ℚ} (h : a ≤ b) : tileY a ≤ tileY b := by
  unfold tileY F64.div F64.mul F64.add
  apply toU64_mono; apply round_mono; apply rnd_mono
  apply div_le_div_of_nonneg_right _ (by norm_num)
  apply rnd_mono
  apply mul_le_mul_of_nonneg_right _ (by norm_num)
  apply rnd_mono
  linarith

theorem tileX_ends : tileX (-180) = 0 ∧ tileX 180 = 65535 := by decide +kernel
theorem tileY_ends : tileY (-90) = 0 ∧ tileY 90 = 65535 := by decide +kernel

/-- Three roundings of a scaled value in `[0, H]` displace it by at most `2^-30` cells. -/
theorem scaled_near (p H : ℚ) (hH : 0 < H) (hp : 0 ≤ p) (hpH : p ≤ H) :
    |rnd (rnd (rnd p * 65535) / H) - p * 65535 / H| ≤ 1 / 2 ^ 30 := by
  have e1 := rnd_err p
  set r1 := rnd p with hr1
  have p1 : 0 ≤ r1 := rnd_nonneg hp
  rw [abs_of_nonneg hp] at e1
  have e2 := rnd_err (r1 * 65535)
  set r2 := rnd (r1 * 65535) with hr2
  have q2 : 0 ≤ r1 * 65535 := by linarith
  have p2 : 0 ≤ r2 := rnd_nonneg q2
  rw [abs_of_nonneg q2] at e2
  have e3 := rnd_err (r2 / H)
  set r3 := rnd (r2 / H) with hr3
  have q3 : 0 ≤ r2 / H := div_nonneg p2 hH.le
  rw [abs_of_nonneg q3] at e3
  have a1 := abs_le.1 e1
  have a2 := abs_le.1 e2
  have a3 := abs_le.1 e3
  norm_num at a1 a2 a3
  have b1 : -(1 / 2 ^ 53 * H) ≤ r1 - p ∧ r1 - p ≤ 1 / 2 ^ 53 * H := by
    norm_num; constructor <;> linarith
  norm_num at b1
  have b2 : r2 - p * 65535 ≤ 65535 * 3 / 2 ^ 53 * H ∧ -(65535 * 3 / 2 ^ 53 * H) ≤ r2 - p * 65535 := by
    norm_num; constructor <;> linarith
  have b3 : r2 / H - p * 65535 / H ≤ 65535 * 3 / 2 ^ 53 ∧ -(65535 * 3 / 2 ^ 53) ≤ r2 / H - p * 65535 / H := by
    rw [← sub_div, div_le_iff₀ hH, le_div_iff₀ hH]
    constructor <;> linarith
  have b4 : p * 65535 / H ≤ 65535 := by rw [div_le_iff₀ hH]; linarith
  norm_num at b3
  rw [abs_le]; norm_num
  constructor <;> linarith

/-- The value `round` and the cast to `u64` produce for a value between 0 and 65535. -/
theorem toU64_round {q : ℚ} (h0 : 0 ≤ q) (h1 : q ≤ 65536) : |(toU64 (F64.round q) : ℚ) - q| ≤ 1 / 2 := by
  have hr : F64.round q = (⌊q + 1/2⌋ : ℤ) := by unfold F64.round; rw [if_pos h0]
  have hf0 : (0 : ℤ) ≤ ⌊q + 1/2⌋ := Int.le_floor.2 (by push_cast; linarith)
  have hf1 : ⌊q + 1/2⌋ ≤ 65537 := by
    have := Int.floor_le (q + 1/2)
    have : ((⌊q + 1/2⌋ : ℤ) : ℚ) ≤ ((65537 : ℤ) : ℚ) := by push_cast; linarith
    exact_mod_cast this
  have ht : (toU64 (F64.round q) : ℤ) = ⌊q + 1/2⌋ := by
    rw [hr]; unfold toU64; rw [F64.trunc_int]; omega
  have ht' : (toU64 (F64.round q) : ℚ) = (⌊q + 1/2⌋ : ℤ) := by exact_mod_cast ht
  rw [ht']
  have := Int.floor_le (q + 1/2)
  have := Int.lt_floor_add_one (q + 1/2)
  rw [abs_le]; constructor <;> linarith

theorem tileX_near {lon : ℚ} (h1 : -180 ≤ lon) (h2 : lon ≤ 180) :
    |(tileX lon : ℚ) - (lon + 180) * 65535 / 360| ≤ 1 / 2 + 1 / 2 ^ 30 := by
  have hn := scaled_near (lon + 180) 360 (by norm_num) (by linarith) (by linarith)
  have hle : rnd (rnd (rnd (lon + 180) * 65535) / 360) ≤ 65536 := by
    have := (abs_le.1 hn).2
    norm_num at this
    linarith
  have h0 : 0 ≤ rnd (rnd (rnd (lon + 180) * 65535) / 360) := by
    apply rnd_nonneg; apply div_nonneg _ (by norm_num)
    apply rnd_nonneg; apply mul_nonneg _ (by norm_num); apply rnd_nonneg; linarith
  have := toU64_round h0 hle
  have t := abs_add_le ((tileX lon : ℚ) - rnd (rnd (rnd (lon + 180) * 65535) / 360))
    (rnd (rnd (rnd (lon + 180) * 65535) / 360) - (lon + 180) * 65535 / 360)
  have this' : |(tileX lon : ℚ) - rnd (rnd (rnd (lon + 180) * 65535) / 360)| ≤ 1 / 2 := this
  rw [sub_add_sub_cancel] at t
  linarith

theorem tileY_near {lat : ℚ} (h1 : -90 ≤ lat) (h2 : lat ≤ 90) :
    |(tileY lat : ℚ) - (lat + 90) * 65535 / 180| ≤ 1 / 2 + 1 / 2 ^ 30 := by
  have hn := scaled_near (lat + 90) 180 (by norm_num) (by linarith) (by linarith)
  have hle : rnd (rnd (rnd (lat + 90) * 65535) / 180) ≤ 65536 := by
    have := (abs_le.1 hn).2
    norm_num at this
    linarith
  have h0 : 0 ≤ rnd (rnd (rnd (lat + 90) * 65535) / 180) := by
    apply rnd_nonneg; apply div_nonneg _ (by norm_num)
    apply rnd_nonneg; apply mul_nonneg _ (by norm_num); apply rnd_nonneg; linarith
  have := toU64_round h0 hle
  have t := abs_add_le ((tileY lat : ℚ) - rnd (rnd (rnd (lat + 90) * 65535) / 180))
    (rnd (rnd (rnd (lat + 90) * 65535) / 180) - (lat + 90) * 65535 / 180)
  have this' : |(tileY lat : ℚ) - rnd (rnd (rnd (lat + 90) * 65535) / 180)| ≤ 1 / 2 := this
  rw [sub_add_sub_cancel] at t
  linarith

/-! ### Bits -/

theorem testBit_low (x i k : Nat) : ((x >>> i) &&& 1).testBit k = (decide (k = 0) && x.testBit i) := by
  cases k with
  | zero => simp
  | succ k =>
    rw [Nat.testBit_and]
    have : (1 : Nat).testBit (k + 1) = false := by
      rw [Nat.testBit_succ]; simp
    simp [this]

theorem interleave_testBit (x y n tile j : Nat) :
    (interleave x y n tile).testBit j =
      if j < 2 * n then (if j % 2 = 0 then y.testBit (j / 2) else x.testBit (j / 2))
      else tile.testBit (j - 2 * n) := by
  induction n generalizing tile with
  | zero => simp [interleave]
  | succ n ih =>
    simp only [interleave]
    rw [ih]
    by_cases h1 : j < 2 * n
    · rw [if_pos h1, if_pos (show j < 2 * (n + 1) by omega)]
    · rw [if_neg h1]
      simp only [Nat.testBit_or, Nat.testBit_shiftLeft, testBit_low]
      by_cases h2 : j = 2 * n
      · subst h2
        rw [if_pos (by omega)]
        simp
      · by_cases h3 : j = 2 * n + 1
        · subst h3
          rw [if_pos (by omega), if_neg (by omega)]
          have e1 : 2 * n + 1 - 2 * n = 1 := by omega
          have e2 : (2 * n + 1) / 2 = n := by omega
          simp [e1, e2]
        · rw [if_neg (by omega)]
          have e0 : j - 2 * n ≠ 0 := by omega
          have e1 : j - 2 * n - 1 ≠ 0 := by omega
          have e2 : j - 2 * n - 1 - 1 = j - 2 * (n + 1) := by omega
          have e3 : 1 ≤ j - 2 * n := by omega
          have e4 : 1 ≤ j - 2 * n - 1 := by omega
          simp [e0, e1, e2, e3, e4]

end Sql
end OsmIo
