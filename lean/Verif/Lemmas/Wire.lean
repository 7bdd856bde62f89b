import Verif.Model.Proto
import Mathlib.Tactic.Ring
import Mathlib.Tactic.Linarith
/-! # Lemmas about the wire format -/
namespace OsmIo.Wire

theorem encVarint_ne_nil (n : Nat) : encVarint n ≠ [] := by
  unfold encVarint; split <;> simp

theorem encVarint_length_pos (n : Nat) : 1 ≤ (encVarint n).length :=
  List.length_pos_iff.mpr (encVarint_ne_nil n)

theorem decVarintGo_enc (n i : Nat) (r : Bytes) (hi : i ≤ 9) (hn : n < 2 ^ (64 - 7 * i)) :
    decVarintGo i (encVarint n ++ r) = some (n, r) := by
  induction n using Nat.strongRecOn generalizing i with
  | ind n ih =>
    rw [encVarint]
    by_cases h : n < 128
    · have hb : (UInt8.ofNat n).toNat = n := by
        simp [UInt8.toNat_ofNat']; omega
      have h9 : ¬ (i = 9 ∧ 2 ≤ n) := by
        rintro ⟨rfl, h2⟩
        norm_num at hn
        omega
      simp only [h, if_true, List.cons_append, List.nil_append, decVarintGo, hb, h9, if_false]
    · have hb : (UInt8.ofNat (n % 128 + 128)).toNat = n % 128 + 128 := by
        simp [UInt8.toNat_ofNat']; omega
      have h9 : i ≠ 9 := by
        rintro rfl
        norm_num at hn
        omega
      have hlt : ¬ (n % 128 + 128 < 128) := by omega
      have hrec := ih (n / 128) (by omega) (i + 1) (by omega) (by
        have : 2 ^ (64 - 7 * i) = 128 * 2 ^ (64 - 7 * (i + 1)) := by
          have : 64 - 7 * i = 7 + (64 - 7 * (i + 1)) := by omega
          rw [this, pow_add]; norm_num
        rw [this] at hn
        exact Nat.div_lt_of_lt_mul hn)
      simp only [h, if_false, List.cons_append, decVarintGo, hb, hlt, h9, hrec]
      congr 1
      ext1
      · simp only; omega
      · rfl

theorem decVarint_enc (n : Nat) (r : Bytes) (hn : n < 2 ^ 64) :
    decVarint (encVarint n ++ r) = some (n, r) :=
  decVarintGo_enc n 0 r (by omega) (by simpa using hn)

/-- Payloads the encoder can represent. -/
def Val.WF : Val → Prop
  | .varint n => n < 2 ^ 64
  | .i64 b => b.length = 8
  | .len b => b.length < 2 ^ 64
  | .i32 b => b.length = 4
  | .group => False

/-- Fields the encoder can represent. -/
def Field.WF (f : Field) : Prop := 1 ≤ f.tag ∧ f.tag < 2 ^ 29 ∧ f.val.WF

theorem takeExact_append (b r : Bytes) : takeExact b.length (b ++ r) = some (b, r) := by
  simp [takeExact]

theorem decVal_enc (v : Val) (r : Bytes) (h : v.WF) : decVal v.wt (encVal v ++ r) = some (v, r) := by
  cases v with
  | varint n => simp [Val.wt, encVal, decVal, decVarint_enc n r h]
  | i64 b =>
    have hb : b.length = 8 := h
    have := takeExact_append b r
    rw [hb] at this
    simp [Val.wt, encVal, decVal, this]
  | len b =>
    have hb : b.length < 2 ^ 64 := h
    simp [Val.wt, encVal, decVal, List.append_assoc, decVarint_enc _ _ hb, takeExact_append]
  | i32 b =>
    have hb : b.length = 4 := h
    have := takeExact_append b r
    rw [hb] at this
    simp [Val.wt, encVal, decVal, this]
  | group => exact h.elim

theorem Val.wt_lt (v : Val) : v.wt < 8 := by cases v <;> simp [Val.wt]

theorem decKey_of {key tag wt : Nat} {bs r : Bytes} (h : decVarint bs = some (key, r)) (hk : key = 8 * tag + wt) (h1 : 1 ≤ tag)
    (h2 : tag < 2 ^ 29) (hw : wt < 8) : decKey bs = some ((tag, wt), r) := by
  subst hk
  have e1 : (8 * tag + wt) / 8 = tag := by omega
  have e2 : (8 * tag + wt) % 8 = wt := by omega
  rw [decKey, h]
  simp only [e1, e2]
  rw [if_neg (by omega), if_neg (by omega)]

theorem decField_of {count tag wt : Nat} {bs r r' : Bytes} {v : Val} (hk : decKey bs = some ((tag, wt), r)) (hw : wt ≠ 3)
    (hv : decVal wt r = some (v, r')) : decField count bs = some (⟨tag, v⟩, r') := by
  rw [decField, hk]
  simp [hw, hv]

theorem decField_enc (count : Nat) (f : Field) (r : Bytes) (h : f.WF) : decField count (encField f ++ r) = some (f, r) := by
  obtain ⟨h1, h2, h3⟩ := h
  have hw := f.val.wt_lt
  have hk : f.tag * 8 + f.val.wt < 2 ^ 64 := by omega
  have h3' : f.val.wt ≠ 3 := by
    cases e : f.val with
    | group => rw [e] at h3; exact h3.elim
    | _ => simp [Val.wt]
  unfold encField
  rw [List.append_assoc]
  exact decField_of (decKey_of (decVarint_enc _ _ hk) (by omega) h1 h2 hw) h3' (decVal_enc _ _ h3)

theorem encField_length_pos (f : Field) : 1 ≤ (encField f).length := by
  have := encVarint_length_pos (f.tag * 8 + f.val.wt)
  simp [encField]; omega

@[simp] theorem encFields_nil : encFields [] = [] := rfl
@[simp] theorem encFields_cons (f : Field) (fs : List Field) :
    encFields (f :: fs) = encField f ++ encFields fs := rfl
@[simp] theorem encFields_append (a b : List Field) : encFields (a ++ b) = encFields a ++ encFields b := by
  simp [encFields]

theorem parseGo_enc (count : Nat) (fs : List Field) (h : ∀ f ∈ fs, f.WF) (fuel : Nat)
    (hf : (encFields fs).length ≤ fuel) : parseGo count fuel (encFields fs) = some fs := by
  induction fs generalizing fuel with
  | nil => cases fuel <;> rfl
  | cons f fs ih =>
    have hpos := encField_length_pos f
    simp only [encFields_cons, List.length_append] at hf ⊢
    obtain ⟨fuel, rfl⟩ : ∃ k, fuel = k + 1 := ⟨fuel - 1, by omega⟩
    obtain ⟨b, bs, hb⟩ : ∃ b bs, encField f ++ encFields fs = b :: bs := by
      cases hE : encField f with
      | nil => simp [hE] at hpos
      | cons b bs => exact ⟨b, bs ++ encFields fs, by simp⟩
    rw [hb, parseGo]
    rw [← hb, decField_enc count f _ (h f (by simp))]
    simp [ih (fun g hg => h g (by simp [hg])) fuel (by omega)]
    simp

theorem parse_enc (count : Nat) (fs : List Field) (h : ∀ f ∈ fs, f.WF) : parse count (encFields fs) = some fs :=
  parseGo_enc count fs h _ (le_refl _)

theorem unpackGo_pack {α : Type} (enc : α → Nat) (xs : List α) (h : ∀ x ∈ xs, enc x < 2 ^ 64) (fuel : Nat)
    (hf : (packBytes enc xs).length ≤ fuel) :
    unpackGo fuel (packBytes enc xs) = some (xs.map enc) := by
  induction xs generalizing fuel with
  | nil => cases fuel <;> rfl
  | cons x xs ih =>
    have hpos := encVarint_length_pos (enc x)
    have hcons : packBytes enc (x :: xs) = encVarint (enc x) ++ packBytes enc xs := by simp [packBytes]
    rw [hcons] at hf ⊢
    simp only [List.length_append] at hf
    obtain ⟨fuel, rfl⟩ : ∃ k, fuel = k + 1 := ⟨fuel - 1, by omega⟩
    obtain ⟨b, bs, hb⟩ : ∃ b bs, encVarint (enc x) ++ packBytes enc xs = b :: bs := by
      cases hE : encVarint (enc x) with
      | nil => simp [hE] at hpos
      | cons b bs => exact ⟨b, bs ++ packBytes enc xs, by simp⟩
    rw [hb, unpackGo]
    rw [← hb, decVarint_enc _ _ (h x (by simp))]
    simp [ih (fun y hy => h y (by simp [hy])) fuel (by omega)]
    simp

theorem unpack_pack {α : Type} (enc : α → Nat) (xs : List α) (h : ∀ x ∈ xs, enc x < 2 ^ 64) :
    unpack (packBytes enc xs) = some (xs.map enc) :=
  unpackGo_pack enc xs h _ (le_refl _)

theorem getRep_pack {α : Type} (enc : α → Nat) (dec : Nat → α) (hb : ∀ x, enc x < 2 ^ 64)
    (hd : ∀ x, dec (enc x) = x) (xs : List α) :
    getRep dec (.len (packBytes enc xs)) = some xs := by
  simp only [getRep, unpack_pack enc xs (fun x _ => hb x), Option.map_some, List.map_map]
  congr 1
  conv_rhs => rw [← List.map_id xs]
  apply List.map_congr_left
  intro a _; simp [hd]

/-! ### scalars -/

theorem ofInt64_lt (x : Int64) : ofInt64 x < 2 ^ 64 := UInt64.toNat_lt _
theorem ofInt32_lt (x : Int32) : ofInt32 x < 2 ^ 64 := UInt64.toNat_lt _
theorem ofSInt64_lt (x : Int64) : ofSInt64 x < 2 ^ 64 := UInt64.toNat_lt _
theorem ofSInt32_lt (x : Int32) : ofSInt32 x < 2 ^ 64 :=
  lt_trans (UInt32.toNat_lt _) (by norm_num)
theorem ofUInt32_lt (x : UInt32) : ofUInt32 x < 2 ^ 64 := lt_trans (UInt32.toNat_lt _) (by norm_num)
theorem ofBool_lt (x : Bool) : ofBool x < 2 ^ 64 := by cases x <;> decide

theorem toInt64_of (x : Int64) : toInt64 (ofInt64 x) = x := by
  simp [toInt64, ofInt64]

theorem toInt32_of (x : Int32) : toInt32 (ofInt32 x) = x := by
  simp [toInt32, ofInt32]

theorem toUInt32_of (x : UInt32) : toUInt32 (ofUInt32 x) = x := by
  simp [toUInt32, ofUInt32]

theorem toBool_of (x : Bool) : toBool (ofBool x) = x := by cases x <;> rfl

theorem bv_neg_bit (w : Nat) (b : Bool) : (-(if b then 1#w else 0#w)) = if b then BitVec.allOnes w else 0#w := by
  cases b
  · simp
  · simp [BitVec.neg_one_eq_allOnes]

theorem bv_zigzag (w : Nat) (hw : 1 < w) (x : BitVec w) :
    (((x <<< 1) ^^^ (x.sshiftRight (w - 1))) >>> 1) ^^^
      (-(((x <<< 1) ^^^ (x.sshiftRight (w - 1))) &&& 1#w)) = x := by
  have hv : (((x <<< 1) ^^^ (x.sshiftRight (w - 1))) &&& 1#w) = if x.msb then 1#w else 0#w := by
    ext i hi
    simp only [BitVec.getElem_and, BitVec.getElem_xor, BitVec.getElem_sshiftRight, BitVec.getElem_shiftLeft,
      BitVec.getElem_one]
    by_cases h0 : i = 0
    · subst h0
      have : x.msb = x.getLsbD (w - 1) := BitVec.msb_eq_getLsbD_last x
      have hlt : w - 1 < w := by omega
      cases hm : x.msb <;> rw [hm] at this <;> simp [hlt, hi, ← BitVec.getLsbD_eq_getElem, ← this]
    · cases hm : x.msb <;> simp [h0]
  rw [hv, bv_neg_bit]
  ext i hi
  simp only [BitVec.getElem_xor, BitVec.getElem_ushiftRight, BitVec.getLsbD_xor, BitVec.getLsbD_shiftLeft,
    BitVec.getLsbD_sshiftRight]
  have hlast : x.msb = x.getLsbD (w - 1) := BitVec.msb_eq_getLsbD_last x
  by_cases h63 : i = w - 1
  · have e1 : ¬ (1 + i < w) := by omega
    have e2 : w ≤ 1 + i := by omega
    subst h63
    cases hm : x.msb <;> rw [hm] at hlast <;> simp [e1, e2, hi, ← BitVec.getLsbD_eq_getElem, ← hlast]
  · have e1 : 1 + i < w := by omega
    have e2 : ¬ (w ≤ 1 + i) := by omega
    have e3 : ¬ (w - 1 + (1 + i) < w) := by omega
    cases hm : x.msb <;> simp [e1, e2, e3, hi, ← BitVec.getLsbD_eq_getElem]

theorem toSInt64_of (x : Int64) : toSInt64 (ofSInt64 x) = x := by
  apply Int64.toBitVec_inj.1
  have := bv_zigzag 64 (by norm_num) x.toBitVec
  simp only [toSInt64, ofSInt64, UInt64.ofNat_toNat]
  exact this

theorem toSInt32_of (x : Int32) : toSInt32 (ofSInt32 x) = x := by
  apply Int32.toBitVec_inj.1
  have := bv_zigzag 32 (by norm_num) x.toBitVec
  simp only [toSInt32, ofSInt32, UInt32.ofNat_toNat]
  exact this

theorem strOf_strBytes (s : String) : strOf (strBytes s) = some s := by
  have h : (⟨(strBytes s).toArray⟩ : ByteArray) = s.toByteArray := by simp [strBytes]
  unfold strOf
  rw [h, String.fromUTF8?, dif_pos s.isValidUTF8]
  rfl

theorem strBytes_of_strOf {b : Bytes} {s : String} (h : strOf b = some s) : strBytes s = b := by
  simp only [strOf, String.fromUTF8?] at h
  split at h
  · simp only [Option.some.injEq] at h
    subst h
    simp [strBytes, String.fromUTF8]
  · simp at h

theorem strBytes_inj {s t : String} (h : strBytes s = strBytes t) : s = t := by
  have := strOf_strBytes s
  rw [h, strOf_strBytes] at this
  simpa using this.symm

/-! ### folding fields into messages -/

theorem encField_len_le (tag : Nat) (b : Bytes) : b.length ≤ (encField ⟨tag, .len b⟩).length := by
  simp [encField, encVal]; omega

theorem encField_mem_le {f : Field} {fs : List Field} (h : f ∈ fs) :
    (encField f).length ≤ (encFields fs).length := by
  induction fs with
  | nil => simp at h
  | cons g gs ih =>
    rcases List.mem_cons.1 h with rfl | h
    · simp
    · have := ih h
      simp; omega

/-- Fields whose tag and varint value are in range; length-delimited payloads are bounded separately. -/
def Field.Pre (f : Field) : Prop :=
  1 ≤ f.tag ∧ f.tag < 2 ^ 29 ∧ match f.val with
    | .varint n => n < 2 ^ 64
    | .i64 b => b.length = 8
    | .len _ => True
    | .i32 b => b.length = 4
    | .group => False

theorem wf_of_pre {fs : List Field} (hp : ∀ f ∈ fs, f.Pre) (hl : (encFields fs).length < 2 ^ 64) :
    ∀ f ∈ fs, f.WF := by
  intro f hf
  obtain ⟨h1, h2, h3⟩ := hp f hf
  refine ⟨h1, h2, ?_⟩
  have hle := encField_mem_le hf
  obtain ⟨tag, val⟩ := f
  cases val with
  | len b =>
    have := encField_len_le tag b
    simp only [Val.WF]; omega
  | _ => exact h3

theorem parse_enc_of_pre {count : Nat} {fs : List Field} (hp : ∀ f ∈ fs, f.Pre) (hl : (encFields fs).length < 2 ^ 64) :
    parse count (encFields fs) = some fs := parse_enc count fs (wf_of_pre hp hl)

theorem pre_optF {α : Type} {tag : Nat} {enc : α → Val} (o : Option α) (h : ∀ a, Field.Pre ⟨tag, enc a⟩) :
    ∀ f ∈ optF tag enc o, f.Pre := by
  intro f hf
  cases o with
  | none => simp [optF] at hf
  | some a => simp [optF] at hf; subst hf; exact h a

theorem pre_repF {α : Type} {tag : Nat} {enc : α → Val} (xs : List α) (h : ∀ a, Field.Pre ⟨tag, enc a⟩) :
    ∀ f ∈ repF tag enc xs, f.Pre := by
  intro f hf
  simp [repF] at hf
  obtain ⟨a, _, rfl⟩ := hf
  exact h a

theorem pre_packF {α : Type} {tag : Nat} {enc : α → Nat} (xs : List α) (h1 : 1 ≤ tag) (h2 : tag < 2 ^ 29) :
    ∀ f ∈ packF tag enc xs, f.Pre := by
  intro f hf
  unfold packF at hf
  split at hf
  · simp at hf
  · simp at hf; subst hf; exact ⟨h1, h2, trivial⟩

/-- Folding a repeated field. -/
theorem foldlM_repF {α M : Type} (step : M → Field → Option M) (tag : Nat) (enc : α → Val)
    (upd : M → List α → M) (xs : List α)
    (hstep : ∀ m, ∀ x ∈ xs, step m ⟨tag, enc x⟩ = some (upd m [x]))
    (hnil : ∀ m, upd m [] = m) (happ : ∀ m a b, upd (upd m a) b = upd m (a ++ b)) (m : M) :
    (repF tag enc xs).foldlM step m = some (upd m xs) := by
  induction xs generalizing m with
  | nil => simp [repF, hnil]
  | cons x xs ih =>
    have h := ih (fun m y hy => hstep m y (by simp [hy])) (upd m [x])
    simp only [repF, List.map_cons, List.foldlM_cons, hstep m x (by simp)] at h ⊢
    simpa [happ] using h

/-- Folding a packed field. -/
theorem foldlM_packF {α M : Type} (step : M → Field → Option M) (tag : Nat) (enc : α → Nat)
    (upd : M → List α → M) (xs : List α)
    (hstep : ∀ m, step m ⟨tag, .len (packBytes enc xs)⟩ = some (upd m xs))
    (hnil : ∀ m, upd m [] = m) (m : M) :
    (packF tag enc xs).foldlM step m = some (upd m xs) := by
  unfold packF
  cases xs with
  | nil => simp [hnil]
  | cons x xs => simp [hstep]

/-- Folding an optional field. -/
theorem foldlM_optF {α M : Type} (step : M → Field → Option M) (tag : Nat) (enc : α → Val)
    (upd : M → α → M) (o : Option α)
    (hstep : ∀ m, ∀ a ∈ o, step m ⟨tag, enc a⟩ = some (upd m a)) (m : M) :
    (optF tag enc o).foldlM step m = some (o.elim m (upd m)) := by
  cases o with
  | none => rfl
  | some a => simp [optF, hstep]

end OsmIo.Wire
