import Verif.Props.Ieee
/-!
# The laws of double precision arithmetic

`Model/Ieee.lean` writes every operation as a table of cases. That the tables are the ones of IEEE 754 is seen here from laws which do not mention
the cases: the order of the operands does not matter, subtracting is adding the opposite, and comparisons are those of the extended line from which
NaN is left out.
-/
namespace OsmIo
open Double

/-- The extended line: a number, or one of its two ends. -/
def Double.onLine : Double → WithBot (WithTop ℚ)
  | .nan => 0
  | .inf true => ⊥
  | .inf false => ((⊤ : WithTop ℚ) : WithBot (WithTop ℚ))
  | .fin q => ((q : WithTop ℚ) : WithBot (WithTop ℚ))

/-- The opposite of a double. -/
def Double.opposite : Double → Double
  | .nan => .nan
  | .inf s => .inf (!s)
  | .fin q => .fin (-q)

theorem Double.roundEven_neg (q : ℚ) : roundEven (-q) = -roundEven q := by
  have h1 := Int.floor_le q
  have h2 := Int.lt_floor_add_one q
  by_cases h : (⌊q⌋ : ℚ) = q
  · rw [← h]
    have : (-((⌊q⌋ : ℤ) : ℚ)) = ((-⌊q⌋ : ℤ) : ℚ) := by push_cast; rfl
    rw [this, roundEven_int, roundEven_int]
  · have h3 : (⌊q⌋ : ℚ) < q := lt_of_le_of_ne h1 h
    have hf : ⌊-q⌋ = -⌊q⌋ - 1 := by
      rw [Int.floor_eq_iff]
      push_cast
      constructor <;> linarith
    unfold roundEven
    rw [hf]
    simp only
    push_cast
    split_ifs <;> first | omega | (exfalso; linarith)

theorem Double.quantum_neg (q : ℚ) : quantum (-q) = quantum q := by unfold quantum; rw [abs_neg]

theorem Double.ofRat_neg (q : ℚ) : ofRat (-q) = (ofRat q).opposite := by
  by_cases h : q = 0
  · subst h; simp [ofRat, opposite]
  · have h' : -q ≠ 0 := neg_ne_zero.2 h
    have e : (roundEven (-q / quantum q) : ℚ) * quantum q = -(roundEven (q / quantum q) * quantum q) := by
      rw [neg_div, roundEven_neg]; push_cast; ring
    unfold ofRat
    rw [if_neg h, if_neg h', quantum_neg]
    simp only [e, abs_neg]
    split_ifs
    · rfl
    · simp only [opposite]
      congr 1
      rcases lt_or_gt_of_ne h with h2 | h2
      · simp [h2, h2.le]
      · simp [h2, h2.le]

theorem Double.line_negative {q : ℚ} (h : q ≠ 0) : decide (-q < 0) = !decide (q < 0) := by
  rcases lt_or_gt_of_ne h with h2 | h2
  · simp [h2, h2.le]
  · simp [h2, h2.le]

/-- C81: products and sums do not depend on the order of their operands, and subtracting is adding the opposite. -/
theorem C81_arithmetic (a b : Double) :
    a.mul b = b.mul a ∧ a.add b = b.add a ∧ a.sub b = a.add b.opposite ∧
    (a.mul b.opposite = (a.mul b).opposite) ∧
    (a.div b.opposite = (a.div b).opposite ∨ b = .fin 0) ∧ a.opposite.div b = (a.div b).opposite ∧ ∀ s q, (Double.fin q).div (.inf s) = .fin 0 := by
  refine ⟨?_, ?_, ?_, ?_, ?_, ?_, fun _ _ => rfl⟩
  · rcases a with _ | sa | p <;> rcases b with _ | sb | q <;> simp only [Double.mul]
    · cases sa <;> cases sb <;> rfl
    · rw [mul_comm]
  · rcases a with _ | sa | p <;> rcases b with _ | sb | q <;> simp only [Double.add]
    · cases sa <;> cases sb <;> rfl
    · rw [add_comm]
  · rcases a with _ | sa | p <;> rcases b with _ | sb | q <;> simp only [Double.add, Double.sub, opposite]
    · cases sa <;> cases sb <;> rfl
    · rw [sub_eq_add_neg]
  · rcases a with _ | sa | p <;> rcases b with _ | sb | q <;> simp only [Double.mul, opposite]
    · cases sa <;> cases sb <;> rfl
    · by_cases h : q = 0
      · simp [h]
      · rw [if_neg h, if_neg (neg_ne_zero.2 h), line_negative h]; cases sa <;> cases decide (q < 0) <;> rfl
    · by_cases h : p = 0
      · simp [h]
      · rw [if_neg h, if_neg h]; cases sb <;> cases decide (p < 0) <;> rfl
    · rw [mul_neg, ofRat_neg]; rfl
  · by_cases hb : b = .fin 0
    · exact Or.inr hb
    · left
      rcases a with _ | sa | p <;> rcases b with _ | sb | q <;> simp only [Double.div, opposite]
      · have h : q ≠ 0 := fun h => hb (by rw [h])
        rw [line_negative h]; cases sa <;> cases decide (q < 0) <;> rfl
      · simp
      · have h : q ≠ 0 := fun h => hb (by rw [h])
        rw [if_neg h, if_neg (neg_ne_zero.2 h), div_neg, ofRat_neg]; rfl
  · rcases a with _ | sa | p <;> rcases b with _ | sb | q <;> simp only [Double.div, opposite]
    · cases sa <;> cases decide (q < 0) <;> rfl
    · simp
    · by_cases h : q = 0
      · by_cases h2 : p = 0
        · simp [h, h2]
        · rw [if_pos h, if_pos h, if_neg h2, if_neg (neg_ne_zero.2 h2), line_negative h2]
      · rw [if_neg h, if_neg h, neg_div, ofRat_neg]; rfl

/-- C81: `<` and `<=` are the order of the extended line on everything but NaN, and false of NaN. -/
theorem C81_order (a b : Double) :
    (a.lt b = true ↔ a ≠ .nan ∧ b ≠ .nan ∧ a.onLine < b.onLine) ∧ (a.le b = true ↔ a ≠ .nan ∧ b ≠ .nan ∧ a.onLine ≤ b.onLine) := by
  rcases a with _ | sa | p <;> rcases b with _ | sb | q <;> (try cases sa) <;> (try cases sb) <;>
    simp [Double.lt, Double.le, Double.onLine, WithBot.coe_lt_coe, WithTop.coe_lt_coe]
  exact WithBot.coe_lt_coe.2 (WithTop.coe_lt_top p)

end OsmIo
