import Verif.Spec.Ieee
import Verif.Lemmas.Quant
/-! # Lemmas about doubles -/
namespace OsmIo
open Spec

namespace Double

theorem quantum_pos (q : ℚ) : 0 < quantum q := by unfold quantum; exact two_zpow_pos _

theorem le_log {q : ℚ} (h : q ≠ 0) {k : ℤ} : (2 : ℚ) ^ k ≤ |q| ↔ k ≤ Int.log 2 |q| := by
  have := Int.zpow_le_iff_le_log (R := ℚ) (b := 2) (by norm_num) (x := k) (abs_pos.2 h)
  exact_mod_cast this

theorem quantum_normal {q : ℚ} (h : q ≠ 0) (hq : (2 : ℚ) ^ (-1022 : ℤ) ≤ |q|) : quantum q = ulp q := by
  have := (le_log h).1 hq
  unfold quantum ulp
  rw [max_eq_left (by omega)]

theorem ofRat_zero : ofRat 0 = .fin 0 := by simp [ofRat]

theorem ofRat_normal {q : ℚ} (h : q ≠ 0) (hq : (2 : ℚ) ^ (-1022 : ℤ) ≤ |q|) :
    ofRat q = if |rnd q| < 2 ^ 1024 then .fin (rnd q) else .inf (q < 0) := by
  unfold ofRat rnd
  rw [if_neg h, if_neg h, quantum_normal h hq]

theorem zpow_split {a b : ℤ} (h : a ≤ b) : ∃ n : ℕ, (2 : ℚ) ^ b = ((2 ^ n : ℤ) : ℚ) * 2 ^ a := by
  refine ⟨(b - a).toNat, ?_⟩
  have : b = ((b - a).toNat : ℤ) + a := by omega
  conv_lhs => rw [this, zpow_add₀ (by norm_num), zpow_natCast]
  push_cast
  rfl

theorem round_le {q u : ℚ} {k e : ℤ} (hu : u = 2 ^ e) (hek : e ≤ k) (hq : |q| ≤ 2 ^ k) : |(roundEven (q / u) : ℚ) * u| ≤ 2 ^ k := by
  have hp : 0 < u := hu ▸ two_zpow_pos e
  obtain ⟨n, hn⟩ := zpow_split hek
  rw [← hu] at hn
  have hb : |roundEven (q / u)| ≤ 2 ^ n := by
    apply abs_roundEven_le
    rw [abs_div, abs_of_pos hp, div_le_iff₀ hp, ← hn]
    exact hq
  rw [abs_mul, abs_of_pos hp, hn]
  apply mul_le_mul_of_nonneg_right _ hp.le
  exact_mod_cast hb

theorem log_le {q : ℚ} (h : q ≠ 0) {k : ℤ} (hq : |q| ≤ (2 : ℚ) ^ k) : Int.log 2 |q| ≤ k := by
  have h1 := zpow_log_le h
  exact (zpow_le_zpow_iff_right₀ (by norm_num : (1 : ℚ) < 2)).1 (h1.trans hq)

theorem rnd_le {q : ℚ} {k : ℤ} (hq : |q| ≤ 2 ^ k) : |rnd q| ≤ 2 ^ k := by
  unfold rnd
  split_ifs with h
  · simp only [abs_zero]; exact (two_zpow_pos k).le
  · exact round_le rfl (by have := log_le h hq; omega) hq

/-- Rounding stays within any power of two. -/
theorem ofRat_small {q : ℚ} {k : ℤ} (h1 : -1074 ≤ k) (h2 : k ≤ 1023) (hq : |q| ≤ 2 ^ k) : ∃ r, ofRat q = .fin r ∧ |r| ≤ 2 ^ k := by
  unfold ofRat
  split_ifs with h
  · exact ⟨0, rfl, by simp only [abs_zero]; exact (two_zpow_pos k).le⟩
  · have hr : |(roundEven (q / quantum q) : ℚ) * quantum q| ≤ 2 ^ k :=
      round_le rfl (by have := log_le h hq; omega) hq
    refine ⟨_, ?_, hr⟩
    simp only
    rw [if_pos]
    refine lt_of_le_of_lt hr ?_
    have : (2 : ℚ) ^ (1024 : ℕ) = 2 ^ (1024 : ℤ) := by rw [← zpow_natCast, Nat.cast_ofNat]
    rw [this]
    exact zpow_lt_zpow_right₀ (by norm_num) (by omega)

theorem rnd_ge {q : ℚ} {k : ℤ} (hq : 2 ^ k ≤ |q|) : (2 : ℚ) ^ (k - 1) ≤ |rnd q| := by
  have h := rnd_err q
  have h1 : |q| ≤ |rnd q| + |rnd q - q| := by
    have := abs_sub_abs_le_abs_sub q (rnd q)
    rw [abs_sub_comm q] at this
    linarith
  have h2 : (2 : ℚ) ^ (k - 1) = 2 ^ k / 2 := by rw [zpow_sub₀ (by norm_num)]; norm_num
  rw [h2]
  have : |rnd q - q| ≤ 1 / 2 * |q| := h.trans (mul_le_mul_of_nonneg_right (by norm_num) (abs_nonneg _))
  linarith

theorem rnd_sign (q : ℚ) : rnd q < 0 ↔ q < 0 := by
  have h := rnd_err q
  have h2 : |rnd q - q| ≤ 1 / 2 * |q| := h.trans (mul_le_mul_of_nonneg_right (by norm_num) (abs_nonneg _))
  rcases lt_trichotomy q 0 with hq | hq | hq
  · simp only [hq, iff_true]
    rw [abs_of_neg hq] at h2
    have := le_abs_self (rnd q - q)
    linarith
  · subst hq; simp [rnd_zero]
  · rw [abs_of_pos hq] at h2
    have := neg_abs_le (rnd q - q)
    exact ⟨fun h => by linarith, fun h => by linarith⟩

/-- A double and a rational that no conversion to an integer can tell apart: equal, both nearly zero, or both far outside all integer types. -/
def Agree (k : ℤ) (x : Double) (q : ℚ) : Prop :=
  x = .fin q ∨ (∃ r, x = .fin r ∧ |r| ≤ 2 ^ (-k) ∧ |q| ≤ 2 ^ (-k)) ∨ (∃ s, x = .inf s ∧ 2 ^ k ≤ |q| ∧ (s = true ↔ q < 0))

theorem Agree.mono {k l : ℤ} {x : Double} {q : ℚ} (h : Agree k x q) (hl : l ≤ k) : Agree l x q := by
  have h1 : (2 : ℚ) ^ (-k) ≤ 2 ^ (-l) := zpow_le_zpow_right₀ (by norm_num) (by omega)
  have h2 : (2 : ℚ) ^ l ≤ 2 ^ k := zpow_le_zpow_right₀ (by norm_num) hl
  rcases h with h | ⟨r, h, a, b⟩ | ⟨s, h, a, b⟩
  · exact .inl h
  · exact .inr (.inl ⟨r, h, a.trans h1, b.trans h1⟩)
  · exact .inr (.inr ⟨s, h, h2.trans a, b⟩)

theorem agree_ofRat (q : ℚ) : Agree 1022 (ofRat q) (rnd q) := by
  by_cases h : q = 0
  · subst h; left; rw [ofRat_zero, rnd_zero]
  rcases le_or_gt ((2 : ℚ) ^ (-1022 : ℤ)) |q| with hq | hq
  · rw [ofRat_normal h hq]
    split_ifs with hb
    · exact .inl rfl
    · refine .inr (.inr ⟨_, rfl, ?_, by simp [rnd_sign]⟩)
      refine le_trans ?_ (not_lt.1 hb)
      have : (2 : ℚ) ^ (1024 : ℕ) = 2 ^ (1024 : ℤ) := by rw [← zpow_natCast, Nat.cast_ofNat]
      rw [this]
      exact zpow_le_zpow_right₀ (by norm_num) (by omega)
  · obtain ⟨r, h1, h2⟩ := ofRat_small (by omega) (by omega) hq.le
    exact .inr (.inl ⟨r, h1, h2, rnd_le hq.le⟩)

theorem agree_div {k : ℤ} {x : Double} {q c : ℚ} (h : Agree k x q) (hk : 33 ≤ k) (hk' : k ≤ 1022) (hc : 1 ≤ c) (hc' : c ≤ 2 ^ 31) :
    Agree (k - 33) (x.div (.fin c)) (rnd (q / c)) := by
  have hc0 : c ≠ 0 := by linarith
  have hcp : 0 < c := by linarith
  rcases h with h | ⟨r, h, a, b⟩ | ⟨s, h, a, b⟩
  · subst h
    simp only [div, if_neg hc0]
    exact (agree_ofRat _).mono (by omega)
  · subst h
    have le (y : ℚ) (hy : |y| ≤ 2 ^ (-k)) : |y / c| ≤ 2 ^ (-k) := by
      rw [abs_div, abs_of_pos hcp, div_le_iff₀ hcp]
      have := two_zpow_pos (-k)
      nlinarith
    simp only [div, if_neg hc0]
    obtain ⟨r', h1, h2⟩ := ofRat_small (by omega) (by omega) (le r a)
    have : (2 : ℚ) ^ (-k) ≤ 2 ^ (-(k - 33)) := zpow_le_zpow_right₀ (by norm_num) (by omega)
    exact .inr (.inl ⟨r', h1, h2.trans this, (rnd_le (le q b)).trans this⟩)
  · subst h
    refine .inr (.inr ⟨s, ?_, ?_, ?_⟩)
    · have : ¬ c < 0 := not_lt.2 hcp.le
      simp [div, this]
    · have : (2 : ℚ) ^ (k - 31) ≤ |q / c| := by
        rw [abs_div, abs_of_pos hcp, le_div_iff₀ hcp, zpow_sub₀ (by norm_num)]
        have e : (2 : ℚ) ^ (31 : ℤ) = 2 ^ 31 := by norm_cast
        rw [e, div_mul_eq_mul_div, div_le_iff₀ (by norm_num)]
        calc 2 ^ k * c ≤ 2 ^ k * 2 ^ 31 := mul_le_mul_of_nonneg_left hc' (two_zpow_pos k).le
          _ ≤ |q| * 2 ^ 31 := mul_le_mul_of_nonneg_right a (by norm_num)
      have h2 := rnd_ge this
      refine le_trans ?_ h2
      exact zpow_le_zpow_right₀ (by norm_num) (by omega)
    · rw [b, rnd_sign, div_neg_iff]
      constructor
      · intro h; exact .inr ⟨h, hcp⟩
      · rintro (⟨_, h⟩ | ⟨h, _⟩)
        · linarith
        · exact h

theorem agree_sub {k : ℤ} {x : Double} {q : ℚ} (h : Agree k x q) (hk : 1 ≤ k) (hk' : k ≤ 1022) : Agree (k - 1) (x.sub (.fin 0)) (rnd (q - 0)) := by
  rcases h with h | ⟨r, h, a, b⟩ | ⟨s, h, a, b⟩
  · subst h
    simp only [sub]
    exact (agree_ofRat _).mono (by omega)
  · subst h
    simp only [sub, sub_zero]
    obtain ⟨r', h1, h2⟩ := ofRat_small (by omega) (by omega) a
    have : (2 : ℚ) ^ (-k) ≤ 2 ^ (-(k - 1)) := zpow_le_zpow_right₀ (by norm_num) (by omega)
    exact .inr (.inl ⟨r', h1, h2.trans this, (rnd_le b).trans this⟩)
  · subst h
    simp only [sub, sub_zero]
    exact .inr (.inr ⟨s, rfl, rnd_ge a, by rw [b, rnd_sign]⟩)

theorem half_pow {k : ℤ} (hk : 64 ≤ k) : (2 : ℚ) ^ (-k) < 1 / 2 := by
  calc (2 : ℚ) ^ (-k) ≤ 2 ^ (-64 : ℤ) := zpow_le_zpow_right₀ (by norm_num) (by omega)
    _ < 1 / 2 := by norm_num

theorem trunc_small {q : ℚ} (h : |q| < 1) : F64.trunc q = 0 := by
  obtain ⟨h1, h2⟩ := abs_lt.1 h
  unfold F64.trunc
  split_ifs with h0
  · rw [Int.floor_eq_iff]; constructor <;> push_cast <;> linarith
  · rw [Int.ceil_eq_iff]; constructor <;> push_cast <;> linarith

theorem toI64_small {q : ℚ} (h : |q| < 1) : F64.toI64 q = 0 := by
  unfold F64.toI64; rw [trunc_small h]; rfl

theorem toI64_big {q : ℚ} (h : 2 ^ 63 ≤ q) : F64.toI64 q = 9223372036854775807 := by
  unfold F64.toI64
  have : (9223372036854775807 : ℤ) ≤ F64.trunc q := by
    unfold F64.trunc
    rw [if_pos (by linarith), Int.le_floor]
    push_cast; linarith
  rw [min_eq_left this]; rfl

theorem toI64_low {q : ℚ} (h : q ≤ -2 ^ 63) : F64.toI64 q = -9223372036854775808 := by
  unfold F64.toI64
  have : F64.trunc q ≤ (-9223372036854775808 : ℤ) := by
    unfold F64.trunc
    rw [if_neg (by linarith), Int.ceil_le]
    push_cast; linarith
  rw [max_eq_left (by omega)]; rfl

theorem agree_toI64 {k : ℤ} {x : Double} {q : ℚ} (h : Agree k x q) (hk : 64 ≤ k) : x.toI64 = F64.toI64 q := by
  have hh := half_pow hk
  rcases h with h | ⟨r, h, a, b⟩ | ⟨s, h, a, b⟩
  · subst h; rfl
  · subst h
    simp only [toI64]
    rw [toI64_small (by linarith), toI64_small (by linarith)]
  · subst h
    have h2 : (2 : ℚ) ^ 63 ≤ |q| := by
      refine le_trans ?_ a
      have : (2 : ℚ) ^ (63 : ℕ) = 2 ^ (63 : ℤ) := by norm_cast
      rw [this]
      exact zpow_le_zpow_right₀ (by norm_num) (by omega)
    cases s with
    | true =>
      have hq := b.1 rfl
      rw [abs_of_neg hq] at h2
      rw [toI64_low (by linarith)]; rfl
    | false =>
      have hq : 0 ≤ q := by
        by_contra hn; exact absurd (b.2 (by linarith)) (by simp)
      rw [abs_of_nonneg hq] at h2
      rw [toI64_big h2]; rfl

theorem agree_round {k : ℤ} {x : Double} {q : ℚ} (h : Agree k x q) (hk : 64 ≤ k) : Agree k x.round (F64.round q) := by
  have hh := half_pow hk
  have z (y : ℚ) (hy : |y| ≤ 2 ^ (-k)) : F64.round y = 0 := by
    have := F64.round_near (q := y) (k := 0) (by simpa using lt_of_le_of_lt hy hh)
    simpa using this
  rcases h with h | ⟨r, h, a, b⟩ | ⟨s, h, a, b⟩
  · subst h; exact .inl rfl
  · subst h
    left
    simp only [round, z r a, z q b]
  · subst h
    refine .inr (.inr ⟨s, rfl, ?_, ?_⟩)
    · obtain ⟨n, hn⟩ := zpow_split (a := 0) (b := k) (by omega)
      simp only [zpow_zero, mul_one] at hn
      rw [hn] at a ⊢
      unfold F64.round
      split_ifs with hq
      · rw [abs_of_nonneg hq] at a
        rw [abs_of_nonneg (by exact_mod_cast Int.floor_nonneg.2 (by linarith))]
        have : (2 ^ n : ℤ) ≤ ⌊q + 1 / 2⌋ := Int.le_floor.2 (by linarith)
        exact_mod_cast this
      · have hq' : q < 0 := by linarith
        rw [abs_of_neg hq'] at a
        have hc : ⌈q - 1 / 2⌉ ≤ -(2 ^ n : ℤ) := by
          rw [Int.ceil_le]; push_cast; push_cast at a; linarith
        have h0 : (0 : ℤ) < 2 ^ n := by positivity
        rw [abs_of_neg (by exact_mod_cast (by omega : ⌈q - 1 / 2⌉ < 0))]
        have : (2 ^ n : ℤ) ≤ -⌈q - 1 / 2⌉ := by omega
        exact_mod_cast this
    · rw [b]
      unfold F64.round
      have hq1 : (1 : ℚ) ≤ |q| := by
        refine le_trans ?_ a
        have : (2 : ℚ) ^ (0 : ℤ) ≤ 2 ^ k := zpow_le_zpow_right₀ (by norm_num) (by omega)
        simpa using this
      split_ifs with hq
      · refine ⟨fun h => by linarith, fun h => ?_⟩
        have : (0 : ℤ) ≤ ⌊q + 1 / 2⌋ := Int.floor_nonneg.2 (by linarith)
        have : ((0 : ℤ) : ℚ) ≤ ⌊q + 1 / 2⌋ := by exact_mod_cast this
        push_cast at this
        linarith
      · have hq' : q < 0 := by linarith
        rw [abs_of_neg hq'] at hq1
        refine ⟨fun _ => ?_, fun _ => hq'⟩
        have hc : ⌈q - 1 / 2⌉ ≤ (-1 : ℤ) := by rw [Int.ceil_le]; push_cast; linarith
        have : ⌈q - 1 / 2⌉ < 0 := by omega
        exact_mod_cast this

theorem agree_mul_const {k : ℤ} {x : Double} {q c : ℚ} (h : Agree k x q) (hk : 33 ≤ k) (hk' : k ≤ 1022) (hc : 1 ≤ c) (hc' : c ≤ 2 ^ 31) :
    Agree (k - 33) (x.mul (.fin c)) (rnd (q * c)) := by
  have hc0 : c ≠ 0 := by linarith
  have hcp : 0 < c := by linarith
  rcases h with h | ⟨r, h, a, b⟩ | ⟨s, h, a, b⟩
  · subst h
    simp only [mul]
    exact (agree_ofRat _).mono (by omega)
  · subst h
    have le (y : ℚ) (hy : |y| ≤ 2 ^ (-k)) : |y * c| ≤ 2 ^ (-(k - 33)) := by
      have e : (2 : ℚ) ^ (-(k - 33)) = 2 ^ (-k) * 2 ^ (33 : ℤ) := by
        rw [← zpow_add₀ (by norm_num)]; congr 1; omega
      rw [abs_mul, abs_of_pos hcp, e]
      refine mul_le_mul hy (hc'.trans ?_) hcp.le (two_zpow_pos _).le
      norm_num
    simp only [mul]
    obtain ⟨r', h1, h2⟩ := ofRat_small (by omega) (by omega) (le r a)
    exact .inr (.inl ⟨r', h1, h2, rnd_le (le q b)⟩)
  · subst h
    refine .inr (.inr ⟨s, ?_, ?_, ?_⟩)
    · have : ¬ c < 0 := not_lt.2 hcp.le
      simp [mul, this, hc0]
    · have : (2 : ℚ) ^ k ≤ |q * c| := by
        rw [abs_mul, abs_of_pos hcp]
        have := abs_nonneg q
        nlinarith
      refine le_trans ?_ (rnd_ge this)
      exact zpow_le_zpow_right₀ (by norm_num) (by omega)
    · rw [b, rnd_sign, mul_neg_iff]
      constructor
      · intro h; exact .inr ⟨h, hcp⟩
      · rintro (⟨_, h⟩ | ⟨h, _⟩)
        · linarith
        · exact h

theorem toU64_big {q : ℚ} (h : 2 ^ 64 ≤ q) : Sql.toU64 q = 18446744073709551615 := by
  unfold Sql.toU64
  have : (18446744073709551615 : ℤ) ≤ F64.trunc q := by
    unfold F64.trunc
    rw [if_pos (by linarith), Int.le_floor]
    push_cast; linarith
  rw [min_eq_left this]; rfl

theorem toU64_low {q : ℚ} (h : q < 1) : Sql.toU64 q = 0 := by
  unfold Sql.toU64
  have : F64.trunc q ≤ 0 := by
    unfold F64.trunc
    split_ifs with h0
    · exact Int.lt_add_one_iff.1 (Int.floor_lt.2 (by push_cast; linarith))
    · rw [Int.ceil_le]; push_cast; linarith
  omega

theorem agree_toU64 {k : ℤ} {x : Double} {q : ℚ} (h : Agree k x q) (hk : 64 ≤ k) : x.toU64 = Sql.toU64 q := by
  have hh := half_pow hk
  rcases h with h | ⟨r, h, a, b⟩ | ⟨s, h, a, b⟩
  · subst h; rfl
  · subst h
    have h1 := le_abs_self r
    have h2 := le_abs_self q
    simp only [toU64]
    rw [toU64_low (by linarith), toU64_low (by linarith)]
  · subst h
    have h2 : (2 : ℚ) ^ 64 ≤ |q| := by
      refine le_trans ?_ a
      have : (2 : ℚ) ^ (64 : ℕ) = 2 ^ (64 : ℤ) := by norm_cast
      rw [this]
      exact zpow_le_zpow_right₀ (by norm_num) (by omega)
    cases s with
    | true =>
      have hq := b.1 rfl
      rw [toU64_low (by linarith)]; rfl
    | false =>
      have hq : 0 ≤ q := by
        by_contra hn; exact absurd (b.2 (by linarith)) (by simp)
      rw [abs_of_nonneg hq] at h2
      rw [toU64_big h2]; rfl

end Double
end OsmIo
