import Verif.Spec.Block
import Verif.Lemmas.OsmData
/-! # The rounding done by a block round trip meets the specification -/
namespace OsmIo
open Spec

theorem roundEven_nearest (x : ℚ) (k : ℤ) : |(roundEven x : ℚ) - x| ≤ |(k : ℚ) - x| := by
  unfold roundEven
  have h1 := Int.floor_le x
  have h2 := Int.lt_floor_add_one x
  have hk : k ≤ ⌊x⌋ ∨ ⌊x⌋ + 1 ≤ k := by omega
  have hk' : (k : ℚ) ≤ ⌊x⌋ ∨ (⌊x⌋ : ℚ) + 1 ≤ k := by
    rcases hk with h | h
    · left; exact_mod_cast h
    · right; exact_mod_cast h
  have e : x - ⌊x⌋ ≤ |(k : ℚ) - x| ∨ ⌊x⌋ + 1 - x ≤ |(k : ℚ) - x| := by
    rcases hk' with h | h
    · left; rw [abs_sub_comm]; exact le_trans (by linarith) (le_abs_self _)
    · right; exact le_trans (by linarith) (le_abs_self _)
  simp only
  have a1 : |(⌊x⌋ : ℚ) - x| = x - ⌊x⌋ := by rw [abs_sub_comm, abs_of_nonneg]; linarith
  have a2 : |((⌊x⌋ + 1 : ℤ) : ℚ) - x| = ⌊x⌋ + 1 - x := by
    rw [abs_of_nonneg] <;> push_cast <;> linarith
  split_ifs with h h' h''
  · rw [a1]; rcases e with e | e <;> linarith
  · rw [a2]; rcases e with e | e <;> linarith
  · rw [a1]; rcases e with e | e <;> linarith
  · rw [a2]; rcases e with e | e <;> linarith

theorem rnd_isDouble (q : ℚ) : IsDouble (rnd q) := by
  by_cases h : q = 0
  · exact ⟨0, 0, by norm_num, by simp [h, rnd_zero]⟩
  · have e : rnd q = roundEven (q / ulp q) * ulp q := by unfold rnd; rw [if_neg h]
    have hb : |roundEven (q / ulp q)| ≤ 2 ^ 53 := by
      apply abs_roundEven_le
      have hu : (0 : ℚ) < 2 ^ (Int.log 2 |q| - 52) := two_zpow_pos _
      unfold ulp
      rw [abs_div, abs_of_pos hu, div_le_iff₀ hu]
      have := (lt_zpow_log q).le
      have e2 : ((2 ^ 53 : ℤ) : ℚ) * 2 ^ (Int.log 2 |q| - 52) = 2 ^ (Int.log 2 |q| + 1) := by
        have : Int.log 2 |q| + 1 = 53 + (Int.log 2 |q| - 52) := by ring
        rw [this, zpow_add₀ (by norm_num)]
        norm_num
      rw [e2]; exact this
    rw [e]
    rcases lt_or_eq_of_le hb with hlt | heq
    · exact ⟨_, _, hlt, rfl⟩
    · have hpow : ∀ z : ℤ, (2 : ℚ) ^ (z + 1) = 2 * 2 ^ z := by
        intro z; rw [zpow_add₀ (by norm_num)]; ring
      rcases abs_choice (roundEven (q / ulp q)) with hc | hc
      · refine ⟨2 ^ 52, Int.log 2 |q| - 52 + 1, by norm_num, ?_⟩
        rw [← hc, heq, hpow]; unfold ulp; push_cast; ring
      · refine ⟨-2 ^ 52, Int.log 2 |q| - 52 + 1, by norm_num, ?_⟩
        have : roundEven (q / ulp q) = -2 ^ 53 := by omega
        rw [this, hpow]; unfold ulp; push_cast; ring

theorem rnd_nearest (q d : ℚ) (hd : IsDouble d) : |rnd q - q| ≤ |d - q| := by
  by_cases h : q = 0
  · simp [h, rnd_zero]
  · have e : rnd q = roundEven (q / ulp q) * ulp q := by unfold rnd; rw [if_neg h]
    have hu := ulp_pos q
    -- multiples of the ulp
    have key : ∀ k : ℤ, |rnd q - q| ≤ |(k : ℚ) * ulp q - q| := by
      intro k
      have h1 := roundEven_nearest (q / ulp q) k
      have e1 : rnd q - q = (roundEven (q / ulp q) - q / ulp q) * ulp q := by rw [e]; field_simp
      have e2 : (k : ℚ) * ulp q - q = (k - q / ulp q) * ulp q := by field_simp
      rw [e1, e2, abs_mul, abs_mul, abs_of_pos hu]
      exact mul_le_mul_of_nonneg_right h1 hu.le
    set L := Int.log 2 |q| with hL
    have hulp : ulp q = 2 ^ (L - 52) := rfl
    rcases le_or_gt ((2 : ℚ) ^ L) |d| with hdL | hdL
    · obtain ⟨m, ex, hm, rfl⟩ := hd
      have habs : |(m : ℚ) * 2 ^ ex| = |(m : ℚ)| * 2 ^ ex := by rw [abs_mul, abs_of_pos (two_zpow_pos ex)]
      rw [habs] at hdL
      have hm' : |(m : ℚ)| < 2 ^ 53 := by exact_mod_cast hm
      have hex : L < ex + 53 := by
        have : (2 : ℚ) ^ L < 2 ^ (ex + 53) := by
          rw [zpow_add₀ (by norm_num)]
          calc (2 : ℚ) ^ L ≤ |(m : ℚ)| * 2 ^ ex := hdL
            _ < 2 ^ 53 * 2 ^ ex := mul_lt_mul_of_pos_right hm' (two_zpow_pos ex)
            _ = 2 ^ ex * 2 ^ (53 : ℤ) := by rw [mul_comm]; norm_cast
        exact (zpow_lt_zpow_iff_right₀ (by norm_num)).1 this
      obtain ⟨n, hn⟩ : ∃ n : ℕ, ex = n + (L - 52) := ⟨(ex - (L - 52)).toNat, by omega⟩
      have := key (m * 2 ^ n)
      rw [hulp] at this
      rw [hn, zpow_add₀ (by norm_num)]
      push_cast at this
      rw [zpow_natCast]
      rwa [mul_assoc] at this
    · have hq : (2 : ℚ) ^ L ≤ |q| := zpow_log_le h
      have h52 : ((2 ^ 52 : ℤ) : ℚ) * ulp q = 2 ^ L := by
        rw [hulp]
        have : L = 52 + (L - 52) := by ring
        conv_rhs => rw [this, zpow_add₀ (by norm_num)]
        norm_num
      rcases lt_or_gt_of_ne h with hneg | hpos
      · have := key (-2 ^ 52)
        push_cast at this h52
        rw [neg_mul, h52] at this
        rw [abs_of_neg hneg] at hq
        have e3 : |-(2 : ℚ) ^ L - q| = -q - 2 ^ L := by
          rw [abs_of_nonneg]; ring; linarith
        rw [e3] at this
        have := (abs_lt.1 hdL).1
        have := le_abs_self (d - q)
        linarith
      · have := key (2 ^ 52)
        push_cast at this h52
        rw [h52] at this
        rw [abs_of_pos hpos] at hq
        have e3 : |(2 : ℚ) ^ L - q| = q - 2 ^ L := by
          rw [abs_sub_comm, abs_of_nonneg]; linarith
        rw [e3] at this
        have := (abs_lt.1 hdL).2
        have := neg_abs_le (d - q)
        linarith

theorem quantCoord_grid {c : F64} (h : OnGrid c) : quantCoord c = c := by
  obtain ⟨k, hk, rfl⟩ := h
  rw [quantCoord, encodeCoord_grid k hk, decodeCoord_grid k hk]

theorem quantCoord_quantised {c : F64} (h : |c| ≤ 360) : Quantised c (quantCoord c) := by
  obtain ⟨k, h1, h2, h3⟩ := encodeCoord_near c h
  refine ⟨k, by rw [quantCoord, h1, decodeCoord_grid k h3], ?_⟩
  have e : (k : ℚ) / 10 ^ 7 - c = (k - c * 10 ^ 7) / 10 ^ 7 := by field_simp
  rw [e, abs_div, abs_of_pos (by norm_num : (0 : ℚ) < 10 ^ 7)]
  exact div_le_div_of_nonneg_right h2 (by norm_num)

theorem quantTime_spec (t : Int64) : TruncatedToSecond t (quantTime t) := by
  have h1 := t.le_toInt
  have h2 := t.toInt_lt
  have e : (quantTime t).toInt = t.toInt.tdiv 1000 * 1000 := by
    rw [quantTime, timestamp_roundtrip]
    have q1 : t.toInt.tdiv 1000 * 1000 + t.toInt.tmod 1000 = t.toInt := Int.tdiv_mul_add_tmod _ _
    rcases Int.le_total 0 t.toInt with h | h
    · have := Int.tmod_nonneg 1000 h
      have := Int.tmod_lt_of_pos t.toInt (b := 1000) (by omega)
      apply toInt_ofInt64 <;> omega
    · have : t.toInt.tmod 1000 = -((-t.toInt).tmod 1000) := by rw [Int.neg_tmod]; omega
      have := Int.tmod_nonneg 1000 (a := -t.toInt) (by omega)
      have := Int.tmod_lt_of_pos (-t.toInt) (b := 1000) (by omega)
      apply toInt_ofInt64 <;> omega
  refine ⟨t.toInt.tdiv 1000, by omega, ?_⟩
  have q1 : t.toInt.tdiv 1000 * 1000 + t.toInt.tmod 1000 = t.toInt := Int.tdiv_mul_add_tmod _ _
  rcases Int.le_total 0 t.toInt with h | h
  · have := Int.tmod_nonneg 1000 h
    have := Int.tmod_lt_of_pos t.toInt (b := 1000) (by omega)
    left; omega
  · rcases Int.lt_or_eq_of_le h with h | h
    · have : t.toInt.tmod 1000 = -((-t.toInt).tmod 1000) := by rw [Int.neg_tmod]; omega
      have := Int.tmod_nonneg 1000 (a := -t.toInt) (by omega)
      have := Int.tmod_lt_of_pos (-t.toInt) (b := 1000) (by omega)
      right; omega
    · rw [h]; left; simp

theorem quantTime_whole {t : Int64} (h : WholeSecond t) : quantTime t = t := by
  obtain ⟨s, hs⟩ := h
  obtain ⟨s', h1, h2⟩ := quantTime_spec t
  apply Int64.toInt_inj.1
  omega

theorem quant_exact {e : Element} (h : Exact e) : e.quant = e := by
  cases e with
  | node n => obtain ⟨a, b, c⟩ := h; simp [Element.quant, Node.quant, quantCoord_grid a, quantCoord_grid b, quantTime_whole c]
  | way w => simp [Element.quant, Way.quant, quantTime_whole h]
  | relation r => simp [Element.quant, Relation.quant, quantTime_whole h]
  | sentinel => rfl

theorem quant_rounded {e : Element} (h : InRange e) : Rounded e e.quant := by
  cases e with
  | node n => exact ⟨rfl, quantCoord_quantised h.1, quantCoord_quantised h.2, quantTime_spec _⟩
  | way w => exact ⟨rfl, quantTime_spec _⟩
  | relation r => exact ⟨rfl, quantTime_spec _⟩
  | sentinel => trivial

theorem kept_nodes {es : List Element} (h : ∀ e ∈ es, ∃ n, e = .node n) : kept es = es := by
  have : ((nodesOf es).map Element.node) = es := by
    induction es with
    | nil => rfl
    | cons e es ih =>
      obtain ⟨n, rfl⟩ := h e (by simp)
      have := ih fun e he => h e (by simp [he])
      simpa [nodesOf] using this
  cases es with
  | nil => rfl
  | cons e es =>
    obtain ⟨n, rfl⟩ := h e (by simp)
    rw [kept, if_pos (by simp [nodesOf])]; exact this

theorem kept_ways {es : List Element} (h : ∀ e ∈ es, ∃ n, e = .way n) : kept es = es := by
  have h1 : ((waysOf es).map Element.way) = es := by
    induction es with
    | nil => rfl
    | cons e es ih =>
      obtain ⟨n, rfl⟩ := h e (by simp)
      have := ih fun e he => h e (by simp [he])
      simpa [waysOf] using this
  have h2 : nodesOf es = [] := by
    simp only [nodesOf, List.filterMap_eq_nil_iff]
    intro e he; obtain ⟨n, rfl⟩ := h e he; rfl
  cases es with
  | nil => rfl
  | cons e es =>
    obtain ⟨n, rfl⟩ := h e (by simp)
    rw [kept, if_neg (by simp [h2]), if_pos (by simp [waysOf])]; exact h1

theorem kept_relations {es : List Element} (h : ∀ e ∈ es, ∃ n, e = .relation n) : kept es = es := by
  have h1 : ((relationsOf es).map Element.relation) = es := by
    induction es with
    | nil => rfl
    | cons e es ih =>
      obtain ⟨n, rfl⟩ := h e (by simp)
      have := ih fun e he => h e (by simp [he])
      simpa [relationsOf] using this
  have h2 : nodesOf es = [] := by
    simp only [nodesOf, List.filterMap_eq_nil_iff]
    intro e he; obtain ⟨n, rfl⟩ := h e he; rfl
  have h3 : waysOf es = [] := by
    simp only [waysOf, List.filterMap_eq_nil_iff]
    intro e he; obtain ⟨n, rfl⟩ := h e he; rfl
  rw [kept, if_neg (by simp [h2]), if_neg (by simp [h3])]; exact h1

theorem kept_homogeneous {es : List Element} (h : Homogeneous es) : kept es = es := by
  rcases h with h | h | h
  · exact kept_nodes h
  · exact kept_ways h
  · exact kept_relations h

theorem map_quant_exact {es : List Element} (h : ∀ e ∈ es, Exact e) : es.map Element.quant = es := by
  conv_rhs => rw [← List.map_id es]
  exact List.map_congr_left fun e he => quant_exact (h e he)

/-- Round trip of a homogeneous block of exact elements. -/
theorem parse_serialize_exact {es : List Element} (hh : Homogeneous es) (hx : ∀ e ∈ es, Exact e)
    (hl : (serializeData es).length < 2 ^ 31) : parseData (serializeData es) = .ok es := by
  rw [parse_serialize es hl, kept_homogeneous hh, map_quant_exact hx]

end OsmIo
