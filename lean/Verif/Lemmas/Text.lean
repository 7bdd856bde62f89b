import Verif.Model.Text
import Mathlib.Tactic.IntervalCases
import Mathlib.Tactic.Ring
/-! Lemmas about text: decimal numbers, splitting and joining. -/
namespace OsmIo.Text

theorem digitVal_digit {d : Nat} (h : d < 10) : digitVal (digit d) = some d := by
  interval_cases d <;> decide

theorem digit_range {d : Nat} (h : d < 10) : 48 ≤ (digit d).toNat ∧ (digit d).toNat ≤ 57 := by
  interval_cases d <;> decide

theorem digits_append (acc : Nat) (s t : Text) :
    digits acc (s ++ t) = (digits acc s).bind (fun a => digits a t) := by
  induction s generalizing acc with
  | nil => simp [digits]
  | cons c cs ih =>
    simp only [List.cons_append, digits]
    cases digitVal c <;> simp [ih]

theorem showNat_lt {n : Nat} (h : n < 10) : showNat n = [digit n] := by
  rw [showNat]; simp [h]

theorem showNat_ge {n : Nat} (h : ¬ n < 10) : showNat n = showNat (n / 10) ++ [digit (n % 10)] := by
  rw [showNat]; simp [h]

/-- The characters of a number are digits. -/
theorem showNat_digit (n : Nat) : ∀ c ∈ showNat n, 48 ≤ c.toNat ∧ c.toNat ≤ 57 := by
  induction n using Nat.strongRecOn with
  | ind n ih =>
    by_cases h : n < 10
    · rw [showNat_lt h]; intro c hc; simp at hc; subst hc; exact digit_range h
    · rw [showNat_ge h]; intro c hc
      rcases List.mem_append.1 hc with hc | hc
      · exact ih _ (by omega) c hc
      · simp at hc; subst hc; exact digit_range (by omega)

theorem showNat_ne_nil (n : Nat) : showNat n ≠ [] := by
  by_cases h : n < 10
  · rw [showNat_lt h]; simp
  · rw [showNat_ge h]; simp

theorem digits_showNat (n : Nat) : digits 0 (showNat n) = some n := by
  induction n using Nat.strongRecOn with
  | ind n ih =>
    by_cases h : n < 10
    · rw [showNat_lt h]; simp [digits, digitVal_digit h]
    · rw [showNat_ge h, digits_append, ih _ (by omega)]
      simp [digits, digitVal_digit (show n % 10 < 10 by omega)]
      omega

theorem parseInt_showInt (n : Int) : parseInt (showInt n) = some n := by
  unfold showInt
  have hd := digits_showNat n.natAbs
  have hr := showNat_digit n.natAbs
  have hn := showNat_ne_nil n.natAbs
  generalize showNat n.natAbs = s at *
  split
  · rename_i h
    cases s with
    | nil => exact absurd rfl hn
    | cons a as =>
      rw [parseInt.eq_def]
      split <;> simp_all
      rw [abs_of_neg h]; simp
  · rename_i h
    cases s with
    | nil => exact absurd rfl hn
    | cons a as =>
      have ha := hr a (by simp)
      have h1 : a ≠ '-' := by rintro rfl; revert ha; decide
      have h2 : a ≠ '+' := by rintro rfl; revert ha; decide
      rw [parseInt.eq_def]
      split <;> simp_all

theorem parseI64_showInt (n : Int64) : parseI64 (showInt n.toInt) = some n := by
  unfold parseI64
  rw [parseInt_showInt]
  have h1 := n.minValue_le_toInt
  have h2 : n.toInt ≤ 9223372036854775807 := n.toInt_le
  simp at h1
  simp [h1, h2]

theorem parseI32_showInt (n : Int32) : parseI32 (showInt n.toInt) = some n := by
  unfold parseI32
  rw [parseInt_showInt]
  have h1 := n.minValue_le_toInt
  have h2 : n.toInt ≤ 2147483647 := n.toInt_le
  simp at h1
  simp [h1, h2]

/-- The characters of a number: digits and `-`. -/
theorem showInt_chars (n : Int) : ∀ c ∈ showInt n, c = '-' ∨ (48 ≤ c.toNat ∧ c.toNat ≤ 57) := by
  intro c hc
  unfold showInt at hc
  split at hc
  · rcases List.mem_cons.1 hc with rfl | hc
    · simp
    · exact .inr (showNat_digit _ c hc)
  · exact .inr (showNat_digit _ c hc)

theorem showInt_ne_nil (n : Int) : showInt n ≠ [] := by
  unfold showInt; split
  · simp
  · exact showNat_ne_nil _

/-! ### Splitting -/

theorem split_ne_nil (sep : Char) (t : Text) : split sep t ≠ [] := by
  induction t with
  | nil => simp [split]
  | cons c cs ih =>
    simp only [split]
    split
    · simp
    · split <;> simp

theorem split_free {sep : Char} {t : Text} (h : sep ∉ t) : split sep t = [t] := by
  induction t with
  | nil => rfl
  | cons c cs ih =>
    simp at h
    simp [split, ih h.2, Ne.symm h.1]

theorem split_sep {sep : Char} {t : Text} (h : sep ∉ t) (u : Text) :
    split sep (t ++ sep :: u) = t :: split sep u := by
  induction t with
  | nil => simp [split]
  | cons c cs ih =>
    simp at h
    simp [split, ih h.2, Ne.symm h.1]

theorem split_tabbed {fs : List Text} (hne : fs ≠ []) (h : ∀ f ∈ fs, '\t' ∉ f) :
    split '\t' (tabbed fs) = fs := by
  induction fs with
  | nil => exact absurd rfl hne
  | cons f fs ih =>
    cases fs with
    | nil => simpa [tabbed] using split_free (h f (by simp))
    | cons g gs =>
      rw [tabbed, split_sep (h f (by simp)), ih (by simp) (fun x hx => h x (by simp [hx]))]
      simp

theorem mem_tabbed {c : Char} {fs : List Text} (h : c ∈ tabbed fs) : c = '\t' ∨ ∃ f ∈ fs, c ∈ f := by
  induction fs with
  | nil => simp [tabbed] at h
  | cons f fs ih =>
    cases fs with
    | nil => simp [tabbed] at h; exact .inr ⟨f, by simp, h⟩
    | cons g gs =>
      rw [tabbed] at h
      · rcases List.mem_append.1 h with h | h
        · exact .inr ⟨f, by simp, h⟩
        · rcases List.mem_cons.1 h with h | h
          · exact .inl h
          · rcases ih h with h | ⟨x, hx, hc⟩
            · exact .inl h
            · exact .inr ⟨x, by simp [hx], hc⟩
      · simp

theorem newline_not_mem_tabbed {fs : List Text} (h : ∀ f ∈ fs, '\n' ∉ f) : '\n' ∉ tabbed fs := by
  intro hm
  rcases mem_tabbed hm with h' | ⟨f, hf, hc⟩
  · exact absurd h' (by decide)
  · exact h f hf hc

theorem split_newline_lines {ls : List Text} (h : ∀ l ∈ ls, '\n' ∉ l) :
    split '\n' (ls.flatMap (fun l => l ++ ['\n'])) = ls ++ [[]] := by
  induction ls with
  | nil => rfl
  | cons l ls ih =>
    simp only [List.flatMap_cons, List.append_assoc, List.singleton_append]
    rw [split_sep (h l (by simp)), ih (fun x hx => h x (by simp [hx]))]
    simp

/-- A file made of terminated lines has exactly those lines. -/
theorem lines_of_lines {ls : List Text} (h : ∀ l ∈ ls, '\n' ∉ l) :
    lines (ls.flatMap (fun l => l ++ ['\n'])) = ls := by
  unfold lines
  rw [split_newline_lines h]
  cases ls with
  | nil => simp
  | cons a as =>
    have h1 : ((a :: as) ++ [[]]).getLast? = some ([] : Text) := List.getLast?_concat ..
    have h2 : ((a :: as) ++ [[]]).dropLast = (a :: as : List Text) := List.dropLast_concat
    simp only [List.cons_append] at h1 h2 ⊢
    rw [h1, h2]; simp

end OsmIo.Text
