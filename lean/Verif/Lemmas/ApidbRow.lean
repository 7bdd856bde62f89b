import Verif.Spec.ApidbRow
import Verif.Lemmas.Calendar
import Verif.Props.ApidbColumns
import Verif.Props.Sql
/-!
# Rows by the names of their columns
-/
namespace OsmIo
open Text Sql Apidb Spec

theorem digit_digitVal {c : Char} {d : Nat} (h : digitVal c = some d) : d < 10 ∧ digit d = c := by
  unfold digitVal at h
  split at h
  · rename_i hc
    injection h with h
    subst h
    refine ⟨by omega, ?_⟩
    unfold digit
    rw [show 48 + (c.toNat - 48) = c.toNat by omega]
    exact Char.ofNat_toNat c
  · cases h

theorem digits_some {acc v : Nat} {t : Text} (h : digits acc t = some v) :
    ∃ ds : List Nat, (∀ d ∈ ds, d < 10) ∧ t = ds.map digit ∧ v = ds.foldl (fun a d => 10 * a + d) acc := by
  induction t generalizing acc with
  | nil => simp [digits] at h; exact ⟨[], by simp, rfl, h.symm⟩
  | cons c cs ih =>
    simp only [digits] at h
    cases hd : digitVal c with
    | none => simp [hd] at h
    | some d =>
      simp only [hd] at h
      obtain ⟨ds, h1, h2, h3⟩ := ih h
      obtain ⟨e1, e2⟩ := digit_digitVal hd
      refine ⟨d :: ds, by simpa [e1] using h1, by rw [h2, List.map_cons, e2], ?_⟩
      rw [h3, Nat.mul_comm acc 10]; rfl

theorem digits_iff {v : Nat} {t : Text} : digits 0 t = some v ↔
    ∃ ds : List Nat, (∀ d ∈ ds, d < 10) ∧ t = ds.map digit ∧ v = decimal ds := by
  constructor
  · exact digits_some
  · rintro ⟨ds, h, rfl, rfl⟩; exact digits_map h 0

theorem digit_ne {d : Nat} (h : d < 10) : digit d ≠ '-' ∧ digit d ≠ '+' := by
  have key : ∀ d : Fin 10, digit d.1 ≠ '-' ∧ digit d.1 ≠ '+' := by decide
  exact key ⟨d, h⟩

theorem parseInt_iff {x : Text} {n : Int} : parseInt x = some n ↔ IntText x n := by
  constructor
  · intro h
    unfold parseInt at h
    split at h
    · cases h
    · cases h
    · cases h
    · rename_i cs hne
      cases hd : digits 0 cs with
      | none => simp [hd] at h
      | some v =>
      simp [hd] at h
      subst h
      obtain ⟨ds, h1, h2, h3⟩ := digits_iff.1 hd
      refine ⟨ds, ?_, h1, .inr (.inr ⟨by rw [h2], by rw [h3]⟩)⟩
      rintro rfl
      exact hne h2
    · rename_i cs hne
      cases hd : digits 0 cs with
      | none => simp [hd] at h
      | some v =>
      simp [hd] at h
      subst h
      obtain ⟨ds, h1, h2, h3⟩ := digits_iff.1 hd
      refine ⟨ds, ?_, h1, .inr (.inl ⟨by rw [h2], by rw [h3]⟩)⟩
      rintro rfl
      exact hne h2
    · rename_i hne _ _ _ _
      cases hd : digits 0 x with
      | none => simp [hd] at h
      | some v =>
      simp [hd] at h
      subst h
      obtain ⟨ds, h1, h2, h3⟩ := digits_iff.1 hd
      refine ⟨ds, ?_, h1, .inl ⟨by rw [h2], by rw [h3]⟩⟩
      rintro rfl
      exact hne h2
  · rintro ⟨ds, h0, h1, h⟩
    have hd : digits 0 (ds.map digit) = some (decimal ds) := digits_map h1 0
    cases ds with
    | nil => exact absurd rfl h0
    | cons d ds =>
      obtain ⟨n1, n2⟩ := digit_ne (h1 d (by simp))
      rcases h with ⟨rfl, rfl⟩ | ⟨rfl, rfl⟩ | ⟨rfl, rfl⟩
      · rw [List.map_cons] at hd ⊢
        unfold parseInt
        split
        · simp_all
        · simp_all
        · simp_all
        · simp_all
        · simp_all
        · rw [hd]; rfl
      · rw [List.map_cons] at hd ⊢
        simp [parseInt, hd]
      · rw [List.map_cons] at hd ⊢
        simp [parseInt, hd]

theorem parseI64_iff {x : Text} {v : Int64} : parseI64 x = some v ↔ IntText x v.toInt := by
  rw [← parseInt_iff]
  unfold parseI64
  have h1 := v.le_toInt
  have h2 := v.toInt_lt
  cases h : parseInt x with
  | none => simp
  | some n =>
    simp only [Option.some.injEq]
    split
    · rename_i hr
      simp only [Option.some.injEq]
      constructor
      · rintro rfl; rw [Int64.toInt_ofInt_of_le (by omega) (by omega)]
      · rintro rfl; exact Int64.ofInt_toInt v
    · rename_i hr
      simp only [reduceCtorEq, false_iff]
      rintro rfl
      exact hr (by omega)

theorem parseI32_iff {x : Text} {v : Int32} : parseI32 x = some v ↔ IntText x v.toInt := by
  rw [← parseInt_iff]
  unfold parseI32
  have h1 := v.le_toInt
  have h2 := v.toInt_lt
  cases h : parseInt x with
  | none => simp
  | some n =>
    simp only [Option.some.injEq]
    split
    · rename_i hr
      simp only [Option.some.injEq]
      constructor
      · rintro rfl; rw [Int32.toInt_ofInt_of_le (by omega) (by omega)]
      · rintro rfl; exact Int32.ofInt_toInt v
    · rename_i hr
      simp only [reduceCtorEq, false_iff]
      rintro rfl
      exact hr (by omega)

theorem parseI16_of {x : Text} {n : Int} (h1 : -32768 ≤ n) (h2 : n ≤ 32767) (h : IntText x n) : parseI16 x = some n := by
  unfold parseI16
  rw [parseInt_iff.2 h]
  simp [h1, h2]

theorem parseI32_optional {x : Text} {n : Option Int32} : parseI32 x = n ↔ OptionalText x n := by
  unfold OptionalText
  cases n with
  | none =>
    simp only [reduceCtorEq, false_and, exists_false, true_and, false_or, not_exists]
    rw [Option.eq_none_iff_forall_not_mem]
    exact forall_congr' fun v => not_congr parseI32_iff
  | some v =>
    rw [parseI32_iff]
    simp

theorem parseSqlBool_iff {x : Text} {b : Bool} : parseSqlBool x = some b ↔ BoolText x b := by
  rw [C47_bool]
  cases b <;> simp [BoolText, toSqlBool]

theorem unescapeOr_iff {z : Codec} {x : Text} {s : String} : unescapeOr z x = s ↔ StringText z x s := by
  unfold unescapeOr StringText
  cases z.unescape x <;> simp [eq_comm]

theorem parseMemberType_iff {x : Text} {k : MemberType} : parseMemberType x = some k ↔ KindText x k := by
  unfold parseMemberType
  have e : "n".toList = ['n'] ∧ "Node".toList = ['N', 'o', 'd', 'e'] ∧ "w".toList = ['w'] ∧ "Way".toList = ['W', 'a', 'y'] ∧
    "r".toList = ['r'] ∧ "Relation".toList = ['R', 'e', 'l', 'a', 't', 'i', 'o', 'n'] := by decide
  obtain ⟨e1, e2, e3, e4, e5, e6⟩ := e
  cases k <;> simp only [KindText, e1, e2, e3, e4, e5, e6] <;> split_ifs <;> simp_all

/-- The required columns of a line, found by name. -/
theorem columnsAt_of {t : Table} {cols : List Text} {d : TableDef} {line : Text} {vals : List Text} (hn : cols.Nodup)
    (hd : TableDef.new t cols = .ok d)
    (h : List.Forall₂ (fun name x => (name, x) ∈ cols.zip (split '\t' line)) (requiredColumns t) vals) :
    columnsAt (split '\t' line) d.fields = .ok vals := by
  have h1 := (new_ok hd).1
  have key : allSome (fun i => (split '\t' line)[i]?) d.fields = some vals := by
    generalize d.fields = fs at h1
    generalize requiredColumns t = vs at h1 h
    induction h1 generalizing vals with
    | nil => cases h; rfl
    | cons a _ ih =>
      cases h with
      | cons b c =>
        simp only [allSome, (column_value hn a).2 b, ih c]
  unfold columnsAt
  rw [key]; rfl

/-- The required columns of a line, or a panic. -/
theorem columnsAt_cases {t : Table} {cols : List Text} {d : TableDef} (line : Text) (hn : cols.Nodup)
    (hd : TableDef.new t cols = .ok d) : columnsAt (split '\t' line) d.fields = .panic ∨
    ∃ vals, columnsAt (split '\t' line) d.fields = .ok vals ∧
      List.Forall₂ (fun name x => (name, x) ∈ cols.zip (split '\t' line)) (requiredColumns t) vals := by
  have h1 := (new_ok hd).1
  cases h : allSome (fun i => (split '\t' line)[i]?) d.fields with
  | none => left; unfold columnsAt; rw [h]; rfl
  | some vals =>
    right
    refine ⟨vals, by unfold columnsAt; rw [h]; rfl, ?_⟩
    have h2 := allSome_forall₂ h
    generalize d.fields = fs at h1 h2
    generalize requiredColumns t = vs at h1
    clear h hd
    induction h1 generalizing vals with
    | nil => cases h2; exact .nil
    | cons a _ ih =>
      cases h2 with
      | cons b c => exact .cons ((column_value hn a).1 b) (ih _ c)

end OsmIo
