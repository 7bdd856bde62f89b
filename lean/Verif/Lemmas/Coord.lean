import Verif.Lemmas.F64
import Verif.Model.OsmData
/-! # Coordinates and timestamps through a block -/
namespace OsmIo

theorem toInt_ofInt64 {k : ℤ} (h1 : -2 ^ 63 ≤ k) (h2 : k < 2 ^ 63) : (Int64.ofInt k).toInt = k :=
  Int64.toInt_ofInt_of_le h1 h2

/-- The value handed to `round` while encoding a coordinate. -/
theorem encode_pre_err (c : ℚ) :
    ∃ v : ℚ, encodeCoord 100 0 c = F64.toI64 (F64.round v) ∧ |v - c * 10 ^ 7| ≤ 3 / 2 ^ 53 * |c * 10 ^ 7| := by
  refine ⟨rnd (rnd (c * 1000000000) / 100), ?_, ?_⟩
  · unfold encodeCoord F64.sub F64.div F64.mul
    have h1 : F64.ofI32 100 = 100 := by rw [F64.ofI32_eq]; rfl
    have h2 : F64.ofI64 0 = 0 := by
      have : F64.ofI64 0 = ((0 : ℤ) : ℚ) := rnd_int 0 (by norm_num)
      simpa using this
    rw [h1, h2, sub_zero, rnd_idem]
  · set a := rnd (c * 1000000000) with ha
    have e1 := rnd_err (c * 1000000000)
    rw [← ha] at e1
    have e2 := rnd_err (a / 100)
    set b := rnd (a / 100) with hb
    have hc : c * 1000000000 = 100 * (c * 10 ^ 7) := by ring
    set K := c * 10 ^ 7 with hK
    rw [hc, abs_mul] at e1
    have e3 : |a / 100 - K| ≤ 1 / 2 ^ 53 * |K| := by
      have : a / 100 - K = (a - 100 * K) / 100 := by ring
      rw [this, abs_div]
      have h100 : |(100 : ℚ)| = 100 := by norm_num
      rw [h100] at e1 ⊢
      rw [div_le_iff₀ (by norm_num)]
      linarith
    have e4 : |a / 100| ≤ |K| + 1 / 2 ^ 53 * |K| := by
      have := abs_sub_abs_le_abs_sub (a / 100) K
      linarith
    have hKn := abs_nonneg K
    have e5 : |b - K| ≤ |b - a / 100| + |a / 100 - K| := by
      have : b - K = (b - a / 100) + (a / 100 - K) := by ring
      rw [this]; exact abs_add_le _ _
    have e6 : 1 / 2 ^ 53 * |a / 100| ≤ 1 / 2 ^ 53 * (|K| + 1 / 2 ^ 53 * |K|) :=
      mul_le_mul_of_nonneg_left e4 (by positivity)
    have e7 : (1 : ℚ) / 2 ^ 53 * (|K| + 1 / 2 ^ 53 * |K|) ≤ 2 / 2 ^ 53 * |K| := by
      have : (1 : ℚ) / 2 ^ 53 * |K| ≤ 1 * |K| := mul_le_mul_of_nonneg_right (by norm_num) hKn
      have h8 := mul_le_mul_of_nonneg_left this (by positivity : (0 : ℚ) ≤ 1 / 2 ^ 53)
      have : (2 : ℚ) / 2 ^ 53 * |K| = 1 / 2 ^ 53 * |K| + 1 / 2 ^ 53 * (1 * |K|) := by ring
      rw [this, mul_add]; linarith
    have e8 : (3 : ℚ) / 2 ^ 53 * |K| = 2 / 2 ^ 53 * |K| + 1 / 2 ^ 53 * |K| := by ring
    linarith

/-- Encoding the double nearest to `k·10⁻⁷` gives `k`. -/
theorem encodeCoord_grid (k : ℤ) (hk : |k| ≤ 2 ^ 45) :
    encodeCoord 100 0 (rnd (k / 10 ^ 7)) = Int64.ofInt k := by
  obtain ⟨v, hv, he⟩ := encode_pre_err (rnd (k / 10 ^ 7))
  set c := rnd ((k : ℚ) / 10 ^ 7) with hc
  have e1 := rnd_err ((k : ℚ) / 10 ^ 7)
  rw [← hc] at e1
  have hkq : |(k : ℚ)| ≤ 2 ^ 45 := by exact_mod_cast hk
  have e2 : |c * 10 ^ 7 - k| ≤ 1 / 2 ^ 53 * |(k : ℚ)| := by
    have : c * 10 ^ 7 - k = (c - k / 10 ^ 7) * 10 ^ 7 := by ring
    rw [this, abs_mul]
    have h7 : |(10 : ℚ) ^ 7| = 10 ^ 7 := by norm_num
    rw [abs_div, h7] at e1
    rw [h7]
    calc |c - k / 10 ^ 7| * 10 ^ 7 ≤ (1 / 2 ^ 53 * (|(k : ℚ)| / 10 ^ 7)) * 10 ^ 7 :=
          mul_le_mul_of_nonneg_right e1 (by norm_num)
      _ = 1 / 2 ^ 53 * |(k : ℚ)| := by ring
  clear e1 hc
  clear_value c
  generalize c * 10 ^ 7 = K at *
  have e3 : |K| ≤ |(k : ℚ)| + 1 / 2 ^ 53 * |(k : ℚ)| := by
    have := abs_sub_abs_le_abs_sub K (k : ℚ)
    linarith
  have e4 : |v - k| ≤ |v - K| + |K - k| := by
    have : v - k = (v - K) + (K - k) := by ring
    rw [this]; exact abs_add_le _ _
  have e5 : |v - k| < 1 / 2 := by
    have h1 : (3 : ℚ) / 2 ^ 53 * |K| ≤ 3 / 2 ^ 53 * (2 ^ 45 + 1 / 2 ^ 53 * 2 ^ 45) := by
      apply mul_le_mul_of_nonneg_left _ (by positivity)
      linarith
    have h2 : (1 : ℚ) / 2 ^ 53 * |(k : ℚ)| ≤ 1 / 2 ^ 53 * 2 ^ 45 :=
      mul_le_mul_of_nonneg_left hkq (by positivity)
    have h3 : (3 : ℚ) / 2 ^ 53 * (2 ^ 45 + 1 / 2 ^ 53 * 2 ^ 45) + 1 / 2 ^ 53 * 2 ^ 45 < 1 / 2 := by norm_num
    linarith
  have hkb := abs_le.1 hk
  rw [hv, F64.round_near e5, F64.toI64_int k (by omega) (by omega)]

/-- Decoding the grid index `k` gives the double nearest to `k·10⁻⁷`. -/
theorem decodeCoord_grid (k : ℤ) (hk : |k| ≤ 2 ^ 45) :
    decodeCoord 100 0 (Int64.ofInt k) = rnd (k / 10 ^ 7) := by
  unfold decodeCoord F64.div
  have hkb := abs_le.1 hk
  have h1 : ((0 : Int64) + 100 * Int64.ofInt k) = Int64.ofInt (100 * k) := by
    rw [Int64.ofInt_mul]; simp
  have h2 : (Int64.ofInt (100 * k)).toInt = 100 * k := toInt_ofInt64 (by omega) (by omega)
  rw [h1, F64.ofI64_eq _ (by rw [h2, abs_le]; constructor <;> omega), h2]
  congr 1
  push_cast; ring

/-- Quantisation of an arbitrary coordinate. -/
theorem encodeCoord_near (c : ℚ) (hc : |c| ≤ 360) :
    ∃ k : ℤ, encodeCoord 100 0 c = Int64.ofInt k ∧ |(k : ℚ) - c * 10 ^ 7| ≤ 1 / 2 + 1 / 2 ^ 19 ∧ |k| ≤ 2 ^ 45 := by
  obtain ⟨v, hv, he⟩ := encode_pre_err c
  obtain ⟨k, hk, hkv⟩ := F64.round_spec v
  have hK : |c * 10 ^ 7| ≤ 360 * 10 ^ 7 := by
    rw [abs_mul]
    have h7 : |(10 : ℚ) ^ 7| = 10 ^ 7 := by norm_num
    rw [h7]
    exact mul_le_mul_of_nonneg_right hc (by norm_num)
  rw [hv]
  clear hv hc
  generalize c * 10 ^ 7 = K at *
  have h1 : (3 : ℚ) / 2 ^ 53 * |K| ≤ 3 / 2 ^ 53 * (360 * 10 ^ 7) :=
    mul_le_mul_of_nonneg_left hK (by positivity)
  have h2 : (3 : ℚ) / 2 ^ 53 * (360 * 10 ^ 7) ≤ 1 / 2 ^ 19 := by norm_num
  have h3 : |(k : ℚ) - K| ≤ |(k : ℚ) - v| + |v - K| := by
    have : (k : ℚ) - K = (k - v) + (v - K) := by ring
    rw [this]; exact abs_add_le _ _
  rw [abs_sub_comm] at hkv
  have h4 : |(k : ℚ) - K| ≤ 1 / 2 + 1 / 2 ^ 19 := by linarith
  have h5 : |(k : ℚ)| ≤ 360 * 10 ^ 7 + 1 := by
    have := abs_sub_abs_le_abs_sub (k : ℚ) (K)
    have h6 : (1 : ℚ) / 2 + 1 / 2 ^ 19 ≤ 1 := by norm_num
    linarith
  have h6 : |k| ≤ 360 * 10 ^ 7 + 1 := by exact_mod_cast h5
  have h7 := abs_le.1 h6
  refine ⟨k, ?_, h4, by omega⟩
  rw [hk, F64.toI64_int k (by omega) (by omega)]

/-- Timestamps: divide on writing, multiply on reading. -/
theorem timestamp_roundtrip (t : Int64) : t / (1000 : Int32).toInt64 * (1000 : Int32).toInt64 = Int64.ofInt (t.toInt.tdiv 1000 * 1000) := by
  apply Int64.toInt_inj.1
  have h1 := t.le_toInt
  have h2 := t.toInt_lt
  have q1 : t.toInt.tdiv 1000 * 1000 + t.toInt.tmod 1000 = t.toInt := Int.tdiv_mul_add_tmod _ _
  have q2 : |t.toInt.tmod 1000| < 1000 := by
    rw [Int.abs_eq_natAbs, Int.natAbs_tmod]
    have := Nat.mod_lt t.toInt.natAbs (show 0 < (1000 : ℤ).natAbs by decide)
    exact_mod_cast this
  have q3 : -9223372036854775808 ≤ t.toInt.tdiv 1000 * 1000 ∧ t.toInt.tdiv 1000 * 1000 ≤ 9223372036854775807 := by
    rcases le_total 0 t.toInt with h | h
    · have := Int.tmod_nonneg 1000 h
      have := Int.tdiv_nonneg h (show (0 : ℤ) ≤ 1000 by norm_num)
      omega
    · have q4 : (-t.toInt).tdiv 1000 = - t.toInt.tdiv 1000 := Int.neg_tdiv _ _
      have := Int.tdiv_nonneg (show 0 ≤ -t.toInt by omega) (show (0 : ℤ) ≤ 1000 by norm_num)
      have q5 : (-t.toInt).tmod 1000 = - t.toInt.tmod 1000 := Int.neg_tmod _ _
      have := Int.tmod_nonneg 1000 (show 0 ≤ -t.toInt by omega)
      omega
  have e : ((1000 : Int32).toInt64) = 1000 := by decide
  have e2 : (1000 : Int64).toInt = 1000 := by decide
  rw [e, Int64.toInt_mul, Int64.toInt_div, e2, toInt_ofInt64 (by omega) (by omega)]
  have h3 : (t.toInt.tdiv 1000).bmod (2 ^ 64) = t.toInt.tdiv 1000 := by
    apply Int.bmod_eq_of_le <;> omega
  rw [h3]
  apply Int.bmod_eq_of_le <;> omega

end OsmIo
