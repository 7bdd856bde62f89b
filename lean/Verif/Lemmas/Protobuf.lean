import Verif.Spec.Protobuf
import Verif.Lemmas.Wire
/-! # The wire functions and the published encoding -/
namespace OsmIo
open Wire Spec Spec.Protobuf

/-! ## Numbers -/

theorem ofInt64_twos (x : Int64) : ofInt64 x = twos x.toInt := by
  unfold ofInt64 twos
  have h : (x.toInt : ℤ) = x.toBitVec.toInt := rfl
  have h2 : x.toUInt64.toNat = x.toBitVec.toNat := rfl
  rw [h2, h]
  have := x.toBitVec.isLt
  rw [BitVec.toInt_eq_toNat_cond]
  split <;> omega

theorem ofInt32_twos (x : Int32) : ofInt32 x = twos x.toInt := by
  have := ofInt64_twos x.toInt64
  simpa [ofInt32, ofInt64] using this

theorem ofUInt32_twos (x : UInt32) : ofUInt32 x = twos (x.toNat : ℤ) := by
  unfold ofUInt32 twos
  have := x.toNat_lt
  omega

theorem ofBool_twos (x : Bool) : ofBool x = twos (bit x) := by cases x <;> decide

theorem sshiftRight_last {w : Nat} (hw : 1 < w) (x : BitVec w) :
    x.sshiftRight (w - 1) = if x.msb then BitVec.allOnes w else 0#w := by
  ext i hi
  have hlast : x.msb = x.getLsbD (w - 1) := BitVec.msb_eq_getLsbD_last x
  rw [BitVec.getElem_sshiftRight]
  by_cases h0 : i = 0
  · subst h0
    have hlt : w - 1 < w := by omega
    cases hm : x.msb <;> rw [hm] at hlast <;> simp [hlt, hi, ← BitVec.getLsbD_eq_getElem, ← hlast]
  · have : ¬ (w - 1 + i < w) := by omega
    cases hm : x.msb <;> simp [this]

theorem bv_zigzag_value {w : Nat} (hw : 1 < w) (x : BitVec w) :
    ((x <<< 1) ^^^ (x.sshiftRight (w - 1))).toNat = zigzag x.toInt := by
  rw [sshiftRight_last hw]
  have hx := x.isLt
  have hp : 2 ^ w = 2 * 2 ^ (w - 1) := by
    rw [← pow_succ']; congr 1; omega
  have hs : (x <<< 1).toNat = 2 * x.toNat % 2 ^ w := by
    rw [BitVec.toNat_shiftLeft, Nat.shiftLeft_eq, mul_comm]
  have hmsb : x.msb = decide (2 ^ (w - 1) ≤ x.toNat) := BitVec.msb_eq_decide x
  rw [BitVec.toInt_eq_toNat_cond]
  generalize 2 ^ (w - 1) = q at *
  unfold zigzag
  cases hm : x.msb with
  | false =>
    rw [hm] at hmsb
    simp at hmsb
    simp only [Bool.false_eq_true, if_false, BitVec.xor_zero]
    rw [hs, if_pos (by omega), if_pos (by omega), Nat.mod_eq_of_lt (by omega)]
    omega
  | true =>
    rw [hm] at hmsb
    simp at hmsb
    simp only [if_true, BitVec.xor_allOnes, BitVec.toNat_not]
    have : 2 * x.toNat % 2 ^ w = 2 * x.toNat - 2 ^ w := by
      rw [Nat.mod_eq_sub_mod (by omega), Nat.mod_eq_of_lt (by omega)]
    rw [hs, this, if_neg (by omega), if_neg (by omega)]
    have hpz : (2 : ℤ) ^ w = 2 * (q : ℤ) := by exact_mod_cast hp
    push_cast
    omega

theorem ofSInt64_zigzag (x : Int64) : ofSInt64 x = zigzag x.toInt :=
  bv_zigzag_value (w := 64) (by norm_num) x.toBitVec

theorem ofSInt32_zigzag (x : Int32) : ofSInt32 x = zigzag x.toInt :=
  bv_zigzag_value (w := 32) (by norm_num) x.toBitVec

/-! ## Varints -/

theorem decVarintGo_of (bs : Bytes) (i : Nat) (r : Bytes) (h0 : bs ≠ []) (h1 : i + bs.length ≤ 10) (h2 : value bs < 2 ^ (64 - 7 * i))
    (h3 : ∀ j b, bs[j]? = some b → (128 ≤ b.toNat ↔ j + 1 < bs.length)) : decVarintGo i (bs ++ r) = some (value bs, r) := by
  induction bs generalizing i with
  | nil => exact absurd rfl h0
  | cons b bs ih =>
    have hb := h3 0 b rfl
    simp only [List.length_cons, Nat.zero_add, Nat.lt_add_left_iff_pos] at hb h1
    simp only [List.cons_append, decVarintGo]
    cases bs with
    | nil =>
      have : b.toNat < 128 := by simp at hb; omega
      rw [if_pos this]
      simp only [value, Nat.mul_zero, Nat.add_zero, Nat.mod_eq_of_lt this] at h2 ⊢
      have : ¬ (i = 9 ∧ 2 ≤ b.toNat) := by
        rintro ⟨rfl, h⟩
        norm_num at h2
        omega
      rw [if_neg this]; simp
    | cons c cs =>
      have h128 : 128 ≤ b.toNat := hb.2 (by simp)
      have hi : i < 9 := by simp at h1; omega
      rw [if_neg (by omega), if_neg (by omega)]
      have hv : value (b :: c :: cs) = b.toNat % 128 + 128 * value (c :: cs) := rfl
      have hlt := b.toNat_lt
      have e1 : value (c :: cs) < 2 ^ (64 - 7 * (i + 1)) := by
        rw [hv] at h2
        have : 2 ^ (64 - 7 * i) = 128 * 2 ^ (64 - 7 * (i + 1)) := by
          rw [show 64 - 7 * i = 7 + (64 - 7 * (i + 1)) by omega, pow_add]; norm_num
        rw [this] at h2
        generalize value (c :: cs) = v at *
        generalize 2 ^ (64 - 7 * (i + 1)) = q at *
        omega
      have e2 := ih (i + 1) (by simp) (by simp at h1 ⊢; omega) e1 (by
        intro j x hx
        have := h3 (j + 1) x (by simpa using hx)
        simpa using this)
      rw [e2, hv]
      have : b.toNat - 128 = b.toNat % 128 := by omega
      rw [this]

theorem decVarint_of {n : Nat} {bs : Bytes} (h : IsVarint n bs) (r : Bytes) : decVarint (bs ++ r) = some (n, r) := by
  have := decVarintGo_of bs 0 r h.nonempty (by have := h.short; omega) (by rw [h.value]; exact h.small) h.marks
  rw [h.value] at this
  exact this

theorem enc_varint {n : Nat} (k : Nat) (hk : k ≤ 10) (h : n < 2 ^ (7 * k)) (h0 : 0 < k) :
    (encVarint n).length ≤ k ∧ value (encVarint n) = n ∧
      ∀ j b, (encVarint n)[j]? = some b → (128 ≤ b.toNat ↔ j + 1 < (encVarint n).length) := by
  induction k generalizing n with
  | zero => omega
  | succ k ih =>
    unfold encVarint
    split
    · next hn =>
      refine ⟨by simp, by simp [value]; omega, ?_⟩
      intro j b hb
      rcases j with _ | j
      · simp at hb; subst hb; simp; omega
      · simp at hb
    · next hn =>
      have hk0 : 0 < k := by
        rcases Nat.eq_zero_or_pos k with rfl | h'
        · norm_num at h; omega
        · exact h'
      have hlt : n / 128 < 2 ^ (7 * k) := by
        rw [Nat.div_lt_iff_lt_mul (by norm_num)]
        rw [show 7 * (k + 1) = 7 * k + 7 by ring, pow_add] at h
        simpa using h
      obtain ⟨a, b, c⟩ := ih (by omega) hlt hk0
      have hm : (UInt8.ofNat (n % 128 + 128)).toNat = n % 128 + 128 := by simp; omega
      refine ⟨by simp; omega, by simp only [value, hm, b]; omega, ?_⟩
      intro j x hx
      rcases j with _ | j
      · simp only [List.getElem?_cons_zero, Option.some.injEq] at hx
        have := encVarint_length_pos (n / 128)
        subst hx; rw [hm]; simp only [List.length_cons]; omega
      · have := c j x (by simpa using hx)
        simpa using this

theorem isVarint_enc {n : Nat} (h : n < 2 ^ 64) : IsVarint n (encVarint n) := by
  obtain ⟨a, b, c⟩ := enc_varint (n := n) 10 le_rfl (lt_trans h (by norm_num)) (by norm_num)
  exact ⟨b, h, encVarint_ne_nil n, a, c⟩

/-! ## Fields -/

/-- The payload the parser sees for an item. -/
inductive RawVal : Item → Val → Prop
  | int {n} : RawVal (.int n) (.varint (twos n))
  | sint {n} : RawVal (.sint n) (.varint (zigzag n))
  | ints {ns b} : unpack b = some (ns.map twos) → RawVal (.ints ns) (.len b)
  | sints {ns b} : unpack b = some (ns.map zigzag) → RawVal (.sints ns) (.len b)
  | bytes {b} : RawVal (.bytes b) (.len b)
  | fixed64 {b} : RawVal (.fixed64 b) (.i64 b)
  | fixed32 {b} : RawVal (.fixed32 b) (.i32 b)
  | group : RawVal .group .group

theorem unpackGo_of (enc : ℤ → Nat) {ns : List ℤ} {bs : List Bytes} (h : List.Forall₂ (fun n b => IsVarint (enc n) b) ns bs)
    (fuel : Nat) (hf : bs.flatten.length ≤ fuel) : unpackGo fuel bs.flatten = some (ns.map enc) := by
  induction h generalizing fuel with
  | nil => cases fuel <;> rfl
  | @cons n b ns bs h1 h2 ih =>
    have hb := h1.nonempty
    obtain ⟨c, cs, rfl⟩ := List.exists_cons_of_ne_nil hb
    simp only [List.flatten_cons, List.length_append, List.length_cons] at hf
    cases fuel with
    | zero => omega
    | succ fuel =>
      simp only [List.flatten_cons, List.cons_append, unpackGo]
      rw [← List.cons_append, decVarint_of h1]
      simp only [ih fuel (by omega)]
      rfl

theorem unpack_of (enc : ℤ → Nat) {ns : List ℤ} {bs : List Bytes} (h : List.Forall₂ (fun n b => IsVarint (enc n) b) ns bs) :
    unpack bs.flatten = some (ns.map enc) := unpackGo_of enc h _ le_rfl

theorem takeExact_app (b r : Bytes) : takeExact b.length (b ++ r) = some (b, r) := takeExact_append b r

theorem decVal_of {item : Item} {wt : Nat} {b : Bytes} (h : Payload item wt b) (r : Bytes) :
    ∃ v, decVal wt (b ++ r) = some (v, r) ∧ RawVal item v ∧ wt < 8 ∧ wt ≠ 3 ∧ wt ≠ 4 := by
  cases h with
  | int h => exact ⟨_, by simp [decVal, decVarint_of h], .int, by norm_num, by norm_num, by norm_num⟩
  | sint h => exact ⟨_, by simp [decVal, decVarint_of h], .sint, by norm_num, by norm_num, by norm_num⟩
  | ints h hl => exact ⟨_, by simp only [decVal, List.append_assoc, decVarint_of hl, takeExact_app]; rfl, .ints (unpack_of _ h), by norm_num, by norm_num, by norm_num⟩
  | sints h hl => exact ⟨_, by simp only [decVal, List.append_assoc, decVarint_of hl, takeExact_app]; rfl, .sints (unpack_of _ h), by norm_num, by norm_num, by norm_num⟩
  | bytes hl => exact ⟨_, by simp only [decVal, List.append_assoc, decVarint_of hl, takeExact_app]; rfl, .bytes, by norm_num, by norm_num, by norm_num⟩
  | fixed64 h => exact ⟨_, by simp only [decVal, ← h, takeExact_app]; rfl, .fixed64, by norm_num, by norm_num, by norm_num⟩
  | fixed32 h => exact ⟨_, by simp only [decVal, ← h, takeExact_app]; rfl, .fixed32, by norm_num, by norm_num, by norm_num⟩

theorem Group.ne_nil {d num : Nat} {b : Bytes} (h : Group d num b) : b ≠ [] := by
  cases h with
  | stop h => exact h.nonempty
  | field _ _ h => have := h.nonempty; simp [this]
  | group _ _ h => have := h.nonempty; simp [this]

/-- A group is skipped, up to its end. -/
theorem skipGroup_of {d num : Nat} {b : Bytes} (hn : 1 ≤ num) (hn' : num < 2 ^ 29) (h : Group d num b) (count : Nat) (hd : d ≤ count)
    (r : Bytes) (fuel : Nat) (hf : b.length ≤ fuel) : skipGroup (skipField count) num fuel (b ++ r) = some r := by
  induction h generalizing count r fuel with
  | @stop depth num b h =>
    have := List.length_pos_of_ne_nil h.nonempty
    obtain ⟨fuel, rfl⟩ : ∃ k, fuel = k + 1 := ⟨fuel - 1, by omega⟩
    rw [skipGroup, decKey_of (decVarint_of h r) rfl hn hn' (by norm_num)]
    simp
  | @field depth num n item wt key b r' h1 h2 h3 h4 h5 ih =>
    have := List.length_pos_of_ne_nil h3.nonempty
    obtain ⟨fuel, rfl⟩ : ∃ k, fuel = k + 1 := ⟨fuel - 1, by simp at hf; omega⟩
    obtain ⟨count, rfl⟩ : ∃ k, count = k + 1 := ⟨count - 1, by omega⟩
    obtain ⟨v, hv, -, h8, hw3, hw4⟩ := decVal_of h4 (r' ++ r)
    rw [List.append_assoc, List.append_assoc, skipGroup, decKey_of (decVarint_of h3 _) rfl h1 h2 h8]
    simp only [if_neg hw4, skipField, if_neg hw3, hv, Option.map_some]
    exact ih hn hn' (count + 1) hd r fuel (by simp at hf; omega)
  | @group depth num n key b r' h1 h2 h3 h4 h5 ih4 ih5 =>
    have := List.length_pos_of_ne_nil h3.nonempty
    obtain ⟨fuel, rfl⟩ : ∃ k, fuel = k + 1 := ⟨fuel - 1, by simp at hf; omega⟩
    obtain ⟨count, rfl⟩ : ∃ k, count = k + 1 := ⟨count - 1, by omega⟩
    rw [List.append_assoc, List.append_assoc, skipGroup, decKey_of (decVarint_of h3 _) rfl h1 h2 (by norm_num)]
    simp only [show ¬ (3 : Nat) = 4 by norm_num, if_false, skipField, if_true]
    rw [ih4 h1 h2 count (by omega) (r' ++ r) _ (by simp)]
    exact ih5 hn hn' (count + 1) hd r fuel (by simp at hf; omega)

theorem decField_group {num : Nat} {key b : Bytes} (h1 : 1 ≤ num) (h2 : num < 2 ^ 29) (h3 : IsVarint (8 * num + 3) key)
    (h4 : Group nesting num b) {count : Nat} (hc : nesting < count) (r : Bytes) :
    decField count (key ++ b ++ r) = some (⟨num, .group⟩, r) := by
  obtain ⟨count, rfl⟩ : ∃ k, count = k + 1 := ⟨count - 1, by omega⟩
  rw [List.append_assoc, decField, decKey_of (decVarint_of h3 _) rfl h1 h2 (by norm_num)]
  simp only [if_true, skipField]
  rw [skipGroup_of h1 h2 h4 count (by omega) r _ (by simp)]
  rfl

theorem decField_item {num wt : Nat} {item : Item} {key b : Bytes} (h1 : 1 ≤ num) (h2 : num < 2 ^ 29) (h3 : IsVarint (8 * num + wt) key)
    (h4 : Payload item wt b) (count : Nat) (r : Bytes) :
    ∃ v, decField count (key ++ b ++ r) = some (⟨num, v⟩, r) ∧ RawVal item v := by
  obtain ⟨v, hv, hraw, h8, hw3, -⟩ := decVal_of h4 r
  refine ⟨v, ?_, hraw⟩
  rw [List.append_assoc]
  exact decField_of (decKey_of (decVarint_of h3 _) rfl h1 h2 h8) hw3 hv

/-- Items and the fields the parser sees. -/
abbrev RawField (f : Nat × Item) (g : Field) : Prop := f.1 = g.tag ∧ RawVal f.2 g.val

theorem parseGo_of {count : Nat} (hc : nesting < count) {fs : List (Nat × Item)} {bs : Bytes} (h : Fields fs bs) (fuel : Nat) (hf : bs.length ≤ fuel) :
    ∃ raw, parseGo count fuel bs = some raw ∧ List.Forall₂ RawField fs raw := by
  have go : ∀ {num : Nat} {item : Item} {v : Val} {key rest r : Bytes} {fs : List (Nat × Item)} (fuel : Nat),
      key ≠ [] → decField count (key ++ rest) = some (⟨num, v⟩, r) → RawVal item v → (key ++ rest).length ≤ fuel → r.length + key.length ≤ (key ++ rest).length →
      (∀ fuel, r.length ≤ fuel → ∃ raw, parseGo count fuel r = some raw ∧ List.Forall₂ RawField fs raw) →
      ∃ raw, parseGo count fuel (key ++ rest) = some raw ∧ List.Forall₂ RawField ((num, item) :: fs) raw := by
    intro num item v key rest r fs fuel hk hd hraw hf hl ih
    obtain ⟨c, cs, rfl⟩ := List.exists_cons_of_ne_nil hk
    cases fuel with
    | zero => simp at hf
    | succ fuel =>
      obtain ⟨raw, e, hr⟩ := ih fuel (by simp at hf hl; omega)
      refine ⟨⟨num, v⟩ :: raw, ?_, .cons ⟨rfl, hraw⟩ hr⟩
      simp only [List.cons_append, parseGo]
      simp only [List.cons_append] at hd
      rw [hd]
      simp [e]
  induction h generalizing fuel with
  | nil => exact ⟨[], by cases fuel <;> rfl, .nil⟩
  | @group num key b fs r h1 h2 h3 h4 h5 ih =>
    have hd := decField_group h1 h2 h3 h4 hc r
    rw [List.append_assoc] at hd hf ⊢
    exact go fuel h3.nonempty hd .group hf (by simp; omega) ih
  | @cons num item key wt b fs r h1 h2 h3 h4 h5 ih =>
    obtain ⟨v, hd, hraw⟩ := decField_item h1 h2 h3 h4 count r
    rw [List.append_assoc] at hd hf ⊢
    exact go fuel h3.nonempty hd hraw hf (by simp; omega) ih

theorem parse_of (count : Nat) {fs : List (Nat × Item)} {bs : Bytes} (h : Fields fs bs) (hc : nesting < count := by decide) :
    ∃ raw, parse count bs = some raw ∧ List.Forall₂ RawField fs raw :=
  parseGo_of hc h _ le_rfl

/-! ## Order of fields -/

/-- Fields of different numbers may be merged in any order. -/
def Commutes {M : Type} (P : Nat → Prop) (step : M → Field → Option M) : Prop :=
  ∀ m f g, P f.tag → P g.tag → f.tag ≠ g.tag → (step m f).bind (fun m => step m g) = (step m g).bind (fun m => step m f)

/-- The fields number `t`. -/
def seg (t : Nat) (fs : List Field) : List Field := fs.filter fun f => f.tag = t

theorem foldlM_swap {M : Type} {P : Nat → Prop} {step : M → Field → Option M} (hc : Commutes P step) (f : Field) (hf : P f.tag)
    (gs rest : List Field) (hg : ∀ g ∈ gs, g.tag ≠ f.tag ∧ P g.tag) (m : M) :
    (f :: (gs ++ rest)).foldlM step m = (gs ++ f :: rest).foldlM step m := by
  induction gs generalizing m with
  | nil => rfl
  | cons g gs ih =>
    have h1 := hc m f g hf (hg g (by simp)).2 (hg g (by simp)).1.symm
    have h2 : ∀ m, ((step m f).bind fun m => (gs ++ rest).foldlM step m) = (gs ++ f :: rest).foldlM step m := fun m => by
      have := ih (fun g hg' => hg g (by simp [hg'])) m
      simpa [List.foldlM_cons] using this
    simp only [List.cons_append, List.foldlM_cons] at h2 ⊢
    calc (step m f >>= fun m => step m g >>= fun m => (gs ++ rest).foldlM step m)
        = ((step m f).bind fun m => step m g).bind fun m => (gs ++ rest).foldlM step m := by
          cases step m f <;> rfl
      _ = ((step m g).bind fun m => step m f).bind fun m => (gs ++ rest).foldlM step m := by rw [h1]
      _ = (step m g >>= fun m => (gs ++ f :: rest).foldlM step m) := by
          cases hs : step m g with
          | none => rfl
          | some m' => exact h2 m'

theorem foldlM_front {M : Type} {P : Nat → Prop} {step : M → Field → Option M} (hc : Commutes P step) (t : Nat) (fs : List Field)
    (hp : ∀ f ∈ fs, P f.tag) (m : M) :
    fs.foldlM step m = (seg t fs ++ fs.filter fun f => f.tag ≠ t).foldlM step m := by
  induction fs generalizing m with
  | nil => rfl
  | cons f fs ih =>
    have ih' := ih fun f hf => hp f (by simp [hf])
    by_cases h : f.tag = t
    · simp only [seg, List.filter_cons, h, decide_true, if_true, List.cons_append, List.foldlM_cons, ne_eq, not_true, decide_false,
        Bool.false_eq_true, if_false]
      congr 1; funext m'
      have := ih' m'
      simpa [seg] using this
    · have e1 : seg t (f :: fs) = seg t fs := by simp [seg, h]
      have e2 : ((f :: fs).filter fun f => f.tag ≠ t) = f :: (fs.filter fun f => f.tag ≠ t) := by simp [h]
      rw [e1, e2, ← foldlM_swap hc f (hp f (by simp)) (seg t fs) _ ?_ m]
      · simp only [List.foldlM_cons]
        congr 1; funext m'
        exact ih' m'
      · intro g hg
        simp only [seg, List.mem_filter, decide_eq_true_eq] at hg
        exact ⟨fun h' => h (h' ▸ hg.2), hp g (by simp [hg.1])⟩

theorem foldlM_ignored {M : Type} {step : M → Field → Option M} (fs : List Field) (h : ∀ f ∈ fs, ∀ m, step m f = some m) (m : M) :
    fs.foldlM step m = some m := by
  induction fs generalizing m with
  | nil => rfl
  | cons f fs ih => simp [h f (by simp), ih fun g hg => h g (by simp [hg])]

theorem foldlM_by_tags {M : Type} {P : Nat → Prop} {step : M → Field → Option M} (hc : Commutes P step) (tags : List Nat)
    (hn : tags.Nodup) (fs : List Field) (hp : ∀ f ∈ fs, P f.tag)
    (hi : ∀ f, P f.tag → f.tag ∉ tags → ∀ m, step m f = some m) (m : M) :
    fs.foldlM step m = (tags.flatMap fun t => seg t fs).foldlM step m := by
  have gen : ∀ (tags : List Nat), tags.Nodup → ∀ (fs : List Field), (∀ f ∈ fs, P f.tag) → ∀ m,
      fs.foldlM step m = ((tags.flatMap fun t => seg t fs) ++ fs.filter fun f => f.tag ∉ tags).foldlM step m := by
    intro tags
    induction tags with
    | nil => intro _ fs _ m; simp
    | cons t tags ih =>
      intro hn fs hp m
      obtain ⟨hn1, hn2⟩ := List.nodup_cons.1 hn
      rw [foldlM_front hc t fs hp]
      have hp' : ∀ f ∈ fs.filter (fun f => f.tag ≠ t), P f.tag := fun f hf => hp f (List.mem_of_mem_filter hf)
      have e1 : ∀ t' ∈ tags, seg t' (fs.filter fun f => f.tag ≠ t) = seg t' fs := by
        intro t' ht'
        have : t' ≠ t := fun h => hn1 (h ▸ ht')
        simp only [seg, List.filter_filter]
        apply List.filter_congr
        intro f _
        by_cases h : f.tag = t' <;> simp [h, this]
      have e2 : (fs.filter fun f => f.tag ≠ t).filter (fun f => f.tag ∉ tags) = fs.filter fun f => f.tag ∉ t :: tags := by
        rw [List.filter_filter]
        apply List.filter_congr
        intro f _
        by_cases h : f.tag = t <;> simp [h]
      have e3 : (tags.flatMap fun t' => seg t' (fs.filter fun f => f.tag ≠ t)) = tags.flatMap fun t' => seg t' fs :=
        List.flatMap_congr e1
      have key := ih hn2 (fs.filter fun f => f.tag ≠ t) hp'
      rw [List.foldlM_append]
      simp only [key, e2, e3]
      rw [← List.foldlM_append]
      simp
  rw [gen tags hn fs hp m, List.foldlM_append]
  have : ∀ m, (fs.filter fun f => f.tag ∉ tags).foldlM step m = some m := fun m =>
    foldlM_ignored _ (fun f hf => hi f (hp f (List.mem_of_mem_filter hf)) (by simpa using (List.mem_filter.1 hf).2)) m
  simp only [this]
  exact bind_pure _

/-! ## Segments -/

theorem seg_raw {fs : List (Nat × Item)} {raw : List Field} (h : List.Forall₂ RawField fs raw) (t : Nat) :
    List.Forall₂ (fun i g => RawVal i g.val ∧ g.tag = t) (numbered t fs) (seg t raw) := by
  induction h with
  | nil => exact .nil
  | @cons f g fs raw h1 _ ih =>
    obtain ⟨h1, h2⟩ := h1
    by_cases e : f.1 = t
    · have e' : g.tag = t := h1 ▸ e
      simp only [numbered, seg, List.filter_cons, e, e', decide_true, if_true, List.map_cons]
      exact .cons ⟨h2, e'⟩ ih
    · have e' : ¬ g.tag = t := h1 ▸ e
      simp only [numbered, seg, List.filter_cons, e, e', decide_false, Bool.false_eq_true, if_false]
      exact ih

/-- A singular field: the last value counts. -/
theorem seg_last {M α β : Type} {step : M → Field → Option M} {t : Nat} {f : β → Item} {bs : List β} {gs : List Field}
    (h : List.Forall₂ (fun i g => RawVal i g.val ∧ g.tag = t) (bs.map f) gs) (set : α → M → M) (dec : β → α)
    (hstep : ∀ a b v, RawVal (f b) v → b ∈ bs → step a ⟨t, v⟩ = some (set (dec b) a)) (hset : ∀ x y a, set x (set y a) = set x a) (a : M) :
    gs.foldlM step a = some ((bs.getLast?.map dec).elim a fun x => set x a) := by
  induction bs generalizing gs a with
  | nil => cases h; rfl
  | cons b bs ih =>
    cases h with
    | @cons _ g _ gs h1 h2 =>
      obtain ⟨h1, h1'⟩ := h1
      have hg : g = ⟨t, g.val⟩ := by cases g; simp at h1'; subst h1'; rfl
      rw [hg, List.foldlM_cons, hstep a b _ h1 (by simp)]
      have := ih h2 (fun a b v hv hb => hstep a b v hv (by simp [hb])) (set (dec b) a)
      simp only [Option.bind_eq_bind, Option.bind_some, this]
      rw [List.getLast?_cons]
      cases bs.getLast? <;> simp [hset]

theorem seg_optInt {M α : Type} {step : M → Field → Option M} {t : Nat} {fs : List (Nat × Item)} {raw : List Field}
    (h : List.Forall₂ RawField fs raw) (val : α → ℤ) (dec : Nat → α) (hdec : ∀ x, dec (twos (val x)) = x) (o : Option α)
    (ho : OptInt t fs (o.map val)) (set : α → M → M) (hstep : ∀ a n, step a ⟨t, .varint n⟩ = some (set (dec n) a))
    (hset : ∀ x y a, set x (set y a) = set x a) (a : M) : (seg t raw).foldlM step a = some (o.elim a fun x => set x a) := by
  obtain ⟨ns, h1, h2⟩ := ho
  have hs := seg_raw h t
  rw [h1] at hs
  rw [seg_last hs set (fun n => dec (twos n)) (fun a b v hv _ => by cases hv; exact hstep _ _) hset, h2]
  cases o <;> simp [hdec]

theorem seg_reqSint {M α : Type} {step : M → Field → Option M} {t : Nat} {fs : List (Nat × Item)} {raw : List Field}
    (h : List.Forall₂ RawField fs raw) (val : α → ℤ) (dec : Nat → α) (hdec : ∀ x, dec (zigzag (val x)) = x) (x : α)
    (ho : ReqSint t fs (val x)) (set : α → M → M) (hstep : ∀ a n, step a ⟨t, .varint n⟩ = some (set (dec n) a))
    (hset : ∀ x y a, set x (set y a) = set x a) (a : M) : (seg t raw).foldlM step a = some (set x a) := by
  obtain ⟨ns, h1, h2⟩ := ho
  have hs := seg_raw h t
  rw [h1] at hs
  rw [seg_last hs set (fun n => dec (zigzag n)) (fun a b v hv _ => by cases hv; exact hstep _ _) hset, h2]
  simp [hdec]

theorem seg_optBytes {M : Type} {step : M → Field → Option M} {t : Nat} {fs : List (Nat × Item)} {raw : List Field}
    (h : List.Forall₂ RawField fs raw) (o : Option Bytes)
    (ho : OptBytes t fs o) (set : Bytes → M → M) (hstep : ∀ a n, step a ⟨t, .len n⟩ = some (set n a))
    (hset : ∀ x y a, set x (set y a) = set x a) (a : M) : (seg t raw).foldlM step a = some (o.elim a fun x => set x a) := by
  obtain ⟨ns, h1, h2⟩ := ho
  have hs := seg_raw h t
  rw [h1] at hs
  rw [seg_last hs set id (fun a b v hv _ => by cases hv; exact hstep _ _) hset, h2]
  simp

/-- Repeated fields. -/
theorem seg_rep {M α β : Type} {step : M → Field → Option M} {t : Nat} {is : List Item} {gs : List Field}
    (h : List.Forall₂ (fun i g => RawVal i g.val ∧ g.tag = t) is gs) (app : List α → M → M) (pieces : List β) (dec : β → List α)
    (R : Item → β → Prop) (hp : List.Forall₂ R is pieces)
    (hstep : ∀ a i b v, RawVal i v → R i b → step a ⟨t, v⟩ = some (app (dec b) a))
    (hnil : ∀ a, app [] a = a) (happ : ∀ x y a, app x (app y a) = app (y ++ x) a) (a : M) :
    gs.foldlM step a = some (app (pieces.flatMap dec) a) := by
  induction h generalizing pieces a with
  | nil => cases hp; simp [hnil]
  | @cons i g is gs h1 h2 ih =>
    cases hp with
    | @cons _ b _ pieces hp1 hp2 =>
      obtain ⟨h1, h1'⟩ := h1
      have hg : g = ⟨t, g.val⟩ := by cases g; simp at h1'; subst h1'; rfl
      rw [hg, List.foldlM_cons, hstep a i b _ h1 hp1]
      simp only [Option.bind_eq_bind, Option.bind_some, ih pieces hp2, happ, List.flatMap_cons]

theorem seg_repInt {M α : Type} {step : M → Field → Option M} {t : Nat} {fs : List (Nat × Item)} {raw : List Field}
    (h : List.Forall₂ RawField fs raw) (val : α → ℤ) (dec : Nat → α) (hdec : ∀ x, dec (twos (val x)) = x) (xs : List α)
    (ho : RepInt t fs (xs.map val)) (app : List α → M → M)
    (hstep : ∀ a v, step a ⟨t, v⟩ = (getRep dec v).map (app · a))
    (hnil : ∀ a, app [] a = a) (happ : ∀ x y a, app x (app y a) = app (y ++ x) a) (a : M) :
    (seg t raw).foldlM step a = some (app xs a) := by
  obtain ⟨pieces, h1, h2⟩ := ho
  rw [seg_rep (seg_raw h t) app pieces (fun p => p.map fun n => dec (twos n)) IntPiece h1 ?_ hnil happ]
  · have : (pieces.flatMap fun p => p.map fun n => dec (twos n)) = pieces.flatten.map fun n => dec (twos n) := by
      rw [List.map_flatten, List.flatMap_def]
    rw [this, h2, List.map_map, show (fun n => dec (twos n)) ∘ val = id from funext hdec, List.map_id]
  · intro a i b v hv hr
    rw [hstep]
    cases hr with
    | one => cases hv; rfl
    | packed => cases hv with | ints hu => simp [getRep, hu, Function.comp_def]

theorem seg_repSint {M α : Type} {step : M → Field → Option M} {t : Nat} {fs : List (Nat × Item)} {raw : List Field}
    (h : List.Forall₂ RawField fs raw) (val : α → ℤ) (dec : Nat → α) (hdec : ∀ x, dec (zigzag (val x)) = x) (xs : List α)
    (ho : RepSint t fs (xs.map val)) (app : List α → M → M)
    (hstep : ∀ a v, step a ⟨t, v⟩ = (getRep dec v).map (app · a))
    (hnil : ∀ a, app [] a = a) (happ : ∀ x y a, app x (app y a) = app (y ++ x) a) (a : M) :
    (seg t raw).foldlM step a = some (app xs a) := by
  obtain ⟨pieces, h1, h2⟩ := ho
  rw [seg_rep (seg_raw h t) app pieces (fun p => p.map fun n => dec (zigzag n)) SintPiece h1 ?_ hnil happ]
  · have : (pieces.flatMap fun p => p.map fun n => dec (zigzag n)) = pieces.flatten.map fun n => dec (zigzag n) := by
      rw [List.map_flatten, List.flatMap_def]
    rw [this, h2, List.map_map, show (fun n => dec (zigzag n)) ∘ val = id from funext hdec, List.map_id]
  · intro a i b v hv hr
    rw [hstep]
    cases hr with
    | one => cases hv; rfl
    | packed => cases hv with | sints hu => simp [getRep, hu, Function.comp_def]

theorem seg_repBytes {M α : Type} {step : M → Field → Option M} {t : Nat} {fs : List (Nat × Item)} {raw : List Field}
    (h : List.Forall₂ RawField fs raw) (bs : List Bytes) (xs : List α) (R : α → Bytes → Prop)
    (ho : RepBytes t fs bs) (hx : List.Forall₂ R xs bs) (app : List α → M → M)
    (hstep : ∀ a x b, R x b → step a ⟨t, .len b⟩ = some (app [x] a))
    (hnil : ∀ a, app [] a = a) (happ : ∀ x y a, app x (app y a) = app (y ++ x) a) (a : M) :
    (seg t raw).foldlM step a = some (app xs a) := by
  have hs := seg_raw h t
  rw [show numbered t fs = bs.map .bytes from ho] at hs
  rw [seg_rep hs app xs (fun x => [x]) (fun i x => ∃ b, i = .bytes b ∧ R x b) ?_ ?_ hnil happ]
  · simp
  · rw [List.forall₂_map_left_iff]
    exact hx.flip.imp fun b x hb => ⟨b, rfl, hb⟩
  · rintro a i x v hv ⟨b, rfl, hb⟩
    cases hv
    exact hstep a x b hb

theorem seg_optMsg {M α : Type} {step : M → Field → Option M} {t : Nat} {fs : List (Nat × Item)} {raw : List Field}
    (h : List.Forall₂ RawField fs raw) (R : α → Bytes → Prop) (o : Option α) (ho : OptMsg t fs R o) (set : α → M → M)
    (a : M) (hstep : ∀ x b, R x b → step a ⟨t, .len b⟩ = some (set x a)) :
    (seg t raw).foldlM step a = some (o.elim a fun x => set x a) := by
  have hs := seg_raw h t
  generalize seg t raw = gs at *
  cases o with
  | none => rw [show numbered t fs = [] from ho] at hs; cases hs; rfl
  | some x =>
    obtain ⟨b, h1, h2⟩ := ho
    rw [h1] at hs
    cases hs with
    | @cons _ g _ gs k1 k2 =>
      cases k2
      obtain ⟨k1, k1'⟩ := k1
      obtain ⟨tag, v⟩ := g
      simp only at k1 k1'
      subst k1'
      cases k1
      simp [hstep x b h2]

end OsmIo
