import Verif.Spec.Lenient
import Verif.Lemmas.ProtobufRead
/-! # The wire functions and the rules by which any byte string is read -/
namespace OsmIo
open Wire
open Spec.Protobuf (value IsVarint Group)
open Spec.Lenient (Content Entry Encodes FieldList)

/-! ## Varints -/

theorem decVarintGo_some {bs : Bytes} {i n : Nat} {r : Bytes} (hi : i ≤ 9) (h : decVarintGo i bs = some (n, r)) :
    ∃ b : Bytes, bs = b ++ r ∧ value b = n ∧ b ≠ [] ∧ i + b.length ≤ 10 ∧ n < 2 ^ (64 - 7 * i) ∧
      ∀ j x, b[j]? = some x → (128 ≤ x.toNat ↔ j + 1 < b.length) := by
  induction bs generalizing i n with
  | nil => simp [decVarintGo] at h
  | cons x bs ih =>
    simp only [decVarintGo] at h
    by_cases h1 : x.toNat < 128
    · rw [if_pos h1] at h
      by_cases h2 : i = 9 ∧ 2 ≤ x.toNat
      · rw [if_pos h2] at h; cases h
      · rw [if_neg h2] at h
        injection h with h
        injection h with h h'
        subst h; subst h'
        refine ⟨[x], rfl, by simp [value]; omega, by simp, by simp; omega, ?_, ?_⟩
        · rcases Nat.lt_or_eq_of_le hi with hi' | rfl
          · have : 2 ^ 7 ≤ 2 ^ (64 - 7 * i) := Nat.pow_le_pow_right (by norm_num) (by omega)
            omega
          · norm_num; omega
        · intro j y hy
          rcases j with _ | j
          · simp at hy; subst hy; simp; omega
          · simp at hy
    · rw [if_neg h1] at h
      by_cases h2 : i = 9
      · rw [if_pos h2] at h; cases h
      · rw [if_neg h2] at h
        cases h3 : decVarintGo (i + 1) bs with
        | none => rw [h3] at h; cases h
        | some p =>
          obtain ⟨v, r'⟩ := p
          rw [h3] at h
          simp only [Option.some.injEq, Prod.mk.injEq] at h
          obtain ⟨rfl, rfl⟩ := h
          obtain ⟨b, e1, e2, e3, e4, e5, e6⟩ := ih (by omega) h3
          have hx := x.toNat_lt
          refine ⟨x :: b, by rw [e1]; rfl, ?_, by simp, by simp; omega, ?_, ?_⟩
          · simp only [value, e2]; omega
          · have : 2 ^ (64 - 7 * i) = 128 * 2 ^ (64 - 7 * (i + 1)) := by
              rw [show 64 - 7 * i = 7 + (64 - 7 * (i + 1)) by omega, pow_add]; norm_num
            rw [this]
            generalize 2 ^ (64 - 7 * (i + 1)) = q at *
            omega
          · intro j y hy
            have := List.length_pos_of_ne_nil e3
            rcases j with _ | j
            · simp at hy; subst hy; simp; omega
            · have := e6 j y (by simpa using hy)
              simpa using this

theorem decVarint_iff {bs : Bytes} {n : Nat} {r : Bytes} : decVarint bs = some (n, r) ↔ ∃ b, bs = b ++ r ∧ IsVarint n b := by
  constructor
  · intro h
    obtain ⟨b, e1, e2, e3, e4, e5, e6⟩ := decVarintGo_some (by norm_num) h
    exact ⟨b, e1, e2, by simpa using e5, e3, by omega, e6⟩
  · rintro ⟨b, rfl, h⟩
    exact decVarint_of h r

theorem decKey_iff {bs : Bytes} {num wt : Nat} {r : Bytes} : decKey bs = some ((num, wt), r) ↔
    ∃ key, bs = key ++ r ∧ 1 ≤ num ∧ num < 2 ^ 29 ∧ wt < 8 ∧ IsVarint (8 * num + wt) key := by
  constructor
  · intro h
    unfold decKey at h
    split at h
    · cases h
    · next k r' hk =>
      obtain ⟨b, e, hv⟩ := decVarint_iff.1 hk
      by_cases h1 : 4294967295 < k
      · rw [if_pos h1] at h; cases h
      · rw [if_neg h1] at h
        by_cases h2 : k / 8 = 0
        · rw [if_pos h2] at h; cases h
        · rw [if_neg h2] at h
          simp only [Option.some.injEq, Prod.mk.injEq] at h
          obtain ⟨⟨rfl, rfl⟩, rfl⟩ := h
          refine ⟨b, e, by omega, by norm_num; omega, by omega, ?_⟩
          rwa [show 8 * (k / 8) + k % 8 = k by omega]
  · rintro ⟨key, rfl, h1, h2, h3, h4⟩
    exact decKey_of (decVarint_of h4 r) rfl h1 h2 h3

/-! ## Fields -/

/-- A parsed field, in the terms of the rules. -/
def contentOf : Val → Content
  | .varint n => .number n
  | .i64 b => .fixed64 b
  | .len b => .bytes b
  | .i32 b => .fixed32 b
  | .group => .group

/-- The converse. -/
def valOf : Content → Val
  | .number n => .varint n
  | .fixed64 b => .i64 b
  | .bytes b => .len b
  | .fixed32 b => .i32 b
  | .group => .group

@[simp] theorem contentOf_valOf (c : Content) : contentOf (valOf c) = c := by cases c <;> rfl
@[simp] theorem valOf_contentOf (v : Val) : valOf (contentOf v) = v := by cases v <;> rfl

/-- A field, in the terms of the rules. -/
def entryOf (f : Field) : Entry := (f.tag, contentOf f.val)

theorem takeExact_iff {n : Nat} {bs b r : Bytes} : takeExact n bs = some (b, r) ↔ bs = b ++ r ∧ b.length = n := by
  unfold takeExact
  constructor
  · intro h
    split at h
    · cases h
    · next hl =>
      simp only [Option.some.injEq, Prod.mk.injEq] at h
      obtain ⟨rfl, rfl⟩ := h
      exact ⟨(List.take_append_drop n bs).symm, by simp; omega⟩
  · rintro ⟨rfl, rfl⟩
    simp

theorem decVal_iff {depth num wt : Nat} (hw : wt ≠ 3) {bs : Bytes} {v : Val} {r : Bytes} : decVal wt bs = some (v, r) ↔
    ∃ b, bs = b ++ r ∧ Encodes depth num (contentOf v) wt b := by
  constructor
  · intro h
    unfold decVal at h
    split at h
    · simp only [Option.map_eq_some_iff, Prod.exists, Prod.mk.injEq] at h
      obtain ⟨n, r', h1, rfl, rfl⟩ := h
      obtain ⟨b, e, hv⟩ := decVarint_iff.1 h1
      exact ⟨b, e, .number hv⟩
    · simp only [Option.map_eq_some_iff, Prod.exists, Prod.mk.injEq] at h
      obtain ⟨b, r', h1, rfl, rfl⟩ := h
      obtain ⟨e, hl⟩ := takeExact_iff.1 h1
      exact ⟨b, e, .fixed64 hl⟩
    · split at h
      · cases h
      · next n r1 h0 =>
        simp only [Option.map_eq_some_iff, Prod.exists, Prod.mk.injEq] at h
        obtain ⟨b, r', h1, rfl, rfl⟩ := h
        obtain ⟨e, rfl⟩ := takeExact_iff.1 h1
        obtain ⟨l, e', hv⟩ := decVarint_iff.1 h0
        exact ⟨l ++ b, by rw [e', e, List.append_assoc], .bytes hv⟩
    · simp only [Option.map_eq_some_iff, Prod.exists, Prod.mk.injEq] at h
      obtain ⟨b, r', h1, rfl, rfl⟩ := h
      obtain ⟨e, hl⟩ := takeExact_iff.1 h1
      exact ⟨b, e, .fixed32 hl⟩
    · cases h
  · rintro ⟨b, rfl, h⟩
    generalize hc : contentOf v = c at h
    have hv : v = valOf c := by rw [← hc]; simp
    subst hv
    cases h with
    | number h => simp [decVal, decVarint_of h, valOf]
    | fixed64 h => simp only [decVal, ← h, takeExact_app]; rfl
    | bytes h => simp only [decVal, List.append_assoc, decVarint_of h, takeExact_app]; rfl
    | fixed32 h => simp only [decVal, ← h, takeExact_app]; rfl
    | group => exact absurd rfl hw

theorem payload_of_encodes {depth num wt : Nat} {c : Content} {b : Bytes} (hw : wt ≠ 3) (h : Encodes depth num c wt b) :
    ∃ item, Spec.Protobuf.Payload item wt b := by
  cases h with
  | @number n _ h =>
    refine ⟨.int (n : ℤ), .int ?_⟩
    have : Spec.Protobuf.twos n = n := by have := h.small; unfold Spec.Protobuf.twos; omega
    rwa [this]
  | fixed64 h => exact ⟨_, .fixed64 h⟩
  | bytes h => exact ⟨_, .bytes h⟩
  | fixed32 h => exact ⟨_, .fixed32 h⟩
  | group => exact absurd rfl hw

theorem skipGroup_some {count fuel num : Nat} {bs r : Bytes} (h : skipGroup (skipField count) num fuel bs = some r) :
    ∃ b, bs = b ++ r ∧ Group count num b := by
  induction count generalizing fuel num bs r with
  | zero =>
    cases fuel with
    | zero => simp [skipGroup] at h
    | succ fuel =>
      rw [skipGroup] at h
      split at h
      · cases h
      · next n wt r1 hk =>
        obtain ⟨key, e, h1, h2, h3, h4⟩ := decKey_iff.1 hk
        by_cases hw : wt = 4
        · rw [if_pos hw] at h
          by_cases hn : n = num
          · rw [if_pos hn] at h
            injection h with h
            subst h; subst hn; subst hw
            exact ⟨key, e, .stop h4⟩
          · rw [if_neg hn] at h; cases h
        · rw [if_neg hw] at h; simp [skipField] at h
  | succ count ih =>
    induction fuel generalizing num bs r with
    | zero => simp [skipGroup] at h
    | succ fuel ihf =>
      rw [skipGroup] at h
      split at h
      · cases h
      · next n wt r1 hk =>
        obtain ⟨key, e, h1, h2, h3, h4⟩ := decKey_iff.1 hk
        by_cases hw : wt = 4
        · rw [if_pos hw] at h
          by_cases hn : n = num
          · rw [if_pos hn] at h
            injection h with h
            subst h; subst hn; subst hw
            exact ⟨key, e, .stop h4⟩
          · rw [if_neg hn] at h; cases h
        · rw [if_neg hw] at h
          split at h
          · cases h
          · next r2 hs =>
            obtain ⟨b2, e2, g2⟩ := ihf h
            rw [skipField] at hs
            by_cases h3' : wt = 3
            · subst h3'
              rw [if_pos rfl] at hs
              obtain ⟨b1, e1, g1⟩ := ih hs
              exact ⟨key ++ b1 ++ b2, by rw [e, e1, e2]; simp, .group h1 h2 h4 g1 g2⟩
            · rw [if_neg h3'] at hs
              simp only [Option.map_eq_some_iff, Prod.exists] at hs
              obtain ⟨v, r3, hd, rfl⟩ := hs
              obtain ⟨b1, e1, g1⟩ := (decVal_iff (depth := 0) (num := 0) h3').1 hd
              obtain ⟨item, hp⟩ := payload_of_encodes h3' g1
              exact ⟨key ++ b1 ++ b2, by rw [e, e1, e2]; simp, .field h1 h2 h4 hp g2⟩

theorem decField_iff {depth : Nat} {bs r : Bytes} {f : Field} : decField (depth + 1) bs = some (f, r) ↔
    ∃ key wt b, bs = key ++ b ++ r ∧ 1 ≤ f.tag ∧ f.tag < 2 ^ 29 ∧ IsVarint (8 * f.tag + wt) key ∧ Encodes depth f.tag (contentOf f.val) wt b := by
  constructor
  · intro h
    unfold decField at h
    split at h
    · cases h
    · next num wt r1 hk =>
      obtain ⟨key, e, h1, h2, h3, h4⟩ := decKey_iff.1 hk
      by_cases hw : wt = 3
      · subst hw
        rw [if_pos rfl, skipField, if_pos rfl] at h
        simp only [Option.map_eq_some_iff, Prod.mk.injEq] at h
        obtain ⟨r2, hs, rfl, rfl⟩ := h
        obtain ⟨b, e2, g⟩ := skipGroup_some hs
        exact ⟨key, 3, b, by rw [e, e2, List.append_assoc], h1, h2, h4, .group g⟩
      · rw [if_neg hw] at h
        simp only [Option.map_eq_some_iff, Prod.exists, Prod.mk.injEq] at h
        obtain ⟨v, r2, hd, rfl, rfl⟩ := h
        obtain ⟨b, e2, g⟩ := (decVal_iff hw).1 hd
        exact ⟨key, wt, b, by rw [e, e2, List.append_assoc], h1, h2, h4, g⟩
  · rintro ⟨key, wt, b, rfl, h1, h2, h4, h5⟩
    obtain ⟨tag, v⟩ := f
    simp only at h1 h2 h4 h5
    have h8 : wt < 8 := by
      generalize contentOf v = c at h5
      cases h5 <;> norm_num
    unfold decField
    rw [List.append_assoc, decKey_iff.2 ⟨key, rfl, h1, h2, h8, h4⟩]
    by_cases hw : wt = 3
    · subst hw
      generalize hc : contentOf v = c at h5
      have hv : v = valOf c := by rw [← hc]; simp
      subst hv
      cases h5 with
      | group g =>
        simp only [if_true, skipField]
        rw [skipGroup_of h1 h2 g depth le_rfl r _ (by simp)]
        rfl
    · simp only [if_neg hw]
      rw [(decVal_iff hw).2 ⟨b, rfl, h5⟩]
      rfl

theorem parseGo_iff {depth fuel : Nat} {bs : Bytes} (hf : bs.length ≤ fuel) {raw : List Field} :
    parseGo (depth + 1) fuel bs = some raw ↔ FieldList depth (raw.map entryOf) bs := by
  induction fuel generalizing bs raw with
  | zero =>
    have : bs = [] := List.length_eq_zero_iff.1 (by omega)
    subst this
    simp only [parseGo, Option.some.injEq]
    constructor
    · rintro rfl; exact .nil
    · intro h
      generalize hfs : raw.map entryOf = fs at h
      generalize hb : ([] : Bytes) = b at h
      cases h with
      | nil => simpa using hfs.symm
      | cons _ _ h => have := h.nonempty; simp [this] at hb
  | succ fuel ih =>
    cases bs with
    | nil =>
      simp only [parseGo, Option.some.injEq]
      constructor
      · rintro rfl; exact .nil
      · intro h
        generalize hfs : raw.map entryOf = fs at h
        generalize hb : ([] : Bytes) = b at h
        cases h with
        | nil => simpa using hfs.symm
        | cons _ _ h => have := h.nonempty; simp [this] at hb
    | cons x xs =>
      rw [parseGo]
      swap
      · simp
      constructor
      · intro h
        split at h
        · cases h
        · next f r hd =>
          simp only [Option.map_eq_some_iff] at h
          obtain ⟨raw', hp, rfl⟩ := h
          obtain ⟨key, wt, b, e, h1, h2, h3, h4⟩ := decField_iff.1 hd
          have hk := List.length_pos_of_ne_nil h3.nonempty
          have hl := congrArg List.length e
          simp only [List.length_append, List.length_cons] at hl hf
          have := (ih (bs := r) (by omega)).1 hp
          rw [e]
          exact .cons h1 h2 h3 h4 this
      · intro h
        generalize hfs : raw.map entryOf = fs at h
        generalize hb : x :: xs = b at h
        cases h with
        | nil => cases hb
        | @cons num c key wt b fs r h1 h2 h3 h4 h5 =>
          cases raw with
          | nil => cases hfs
          | cons f raw =>
            simp only [List.map_cons, List.cons.injEq] at hfs
            obtain ⟨hf1, rfl⟩ := hfs
            obtain ⟨tag, v⟩ := f
            simp only [entryOf, Prod.mk.injEq] at hf1
            obtain ⟨rfl, rfl⟩ := hf1
            have hk := List.length_pos_of_ne_nil h3.nonempty
            have hl := congrArg List.length hb
            simp only [List.length_append, List.length_cons] at hl hf
            rw [decField_iff (f := ⟨tag, v⟩) |>.2 ⟨key, wt, b, rfl, h1, h2, h3, h4⟩]
            simp only [(ih (bs := r) (by omega)).2 h5]
            rfl

/-- The parser accepts exactly the lists of fields. -/
theorem parse_iff (depth : Nat) {bs : Bytes} {raw : List Field} :
    parse (depth + 1) bs = some raw ↔ FieldList depth (raw.map entryOf) bs := parseGo_iff le_rfl

theorem entries_surjective (fs : List Entry) : ∃ raw : List Field, raw.map entryOf = fs :=
  ⟨fs.map fun f => ⟨f.1, valOf f.2⟩, by simp [List.map_map, Function.comp_def, entryOf]⟩

end OsmIo
