import Verif.Lemmas.TocEntries
import Verif.Spec.TocStatements
import Verif.Lemmas.Wire
import Mathlib.Data.List.Induction
/-! Lemmas for the embedded table of contents: bytes given as hexadecimal numbers. -/
set_option linter.unusedSimpArgs false
set_option linter.flexible false
namespace OsmIo.Apidb
open OsmIo.Text OsmIo.Spec

theorem hex_go (k : Nat) : ∀ n acc, hex.go k n acc = hex k n ++ acc := by
  induction k with
  | zero => intro n acc; rfl
  | succ k ih =>
    intro n acc
    show hex.go k (n / 256) _ = hex.go k (n / 256) [_] ++ acc
    rw [ih, ih (n / 256) [_]]
    simp

theorem hex_zero (n : Nat) : hex 0 n = [] := rfl

theorem hex_succ (k n : Nat) : hex (k + 1) n = hex k (n / 256) ++ [UInt8.ofNat (n % 256)] := hex_go k (n / 256) _

theorem hex_append (k n l m : Nat) (hm : m < 256 ^ l) : hex k n ++ hex l m = hex (k + l) (n * 256 ^ l + m) := by
  induction l generalizing m with
  | zero => simp at hm; subst hm; simp [hex_zero]
  | succ l ih =>
    have h1 : m / 256 < 256 ^ l := by rw [Nat.div_lt_iff_lt_mul (by norm_num)]; rw [pow_succ] at hm; exact hm
    have h2 : (n * 256 ^ (l + 1) + m) / 256 = n * 256 ^ l + m / 256 := by
      rw [pow_succ, show n * (256 ^ l * 256) + m = m + 256 * (n * 256 ^ l) by ring, Nat.add_mul_div_left _ _ (by norm_num)]; ring
    have h3 : (n * 256 ^ (l + 1) + m) % 256 = m % 256 := by
      rw [pow_succ, show n * (256 ^ l * 256) + m = m + 256 * (n * 256 ^ l) by ring, Nat.add_mul_mod_self_left]
    rw [hex_succ, ← List.append_assoc, ih _ h1, show k + (l + 1) = (k + l) + 1 by omega, hex_succ, h2, h3]

/-- Two hexadecimal strings one after the other. -/
def cat (a b : Nat × Nat) : Nat × Nat := (a.1 + b.1, a.2 * 256 ^ b.1 + b.2)

/-- Numbers that fit their number of bytes. -/
def fits (a : Nat × Nat) : Bool := a.2 < 256 ^ a.1

theorem hex_cat {a b : Nat × Nat} (h : fits b = true) : hex (cat a b).1 (cat a b).2 = hex a.1 a.2 ++ hex b.1 b.2 := by
  rw [hex_append _ _ _ _ (by simpa [fits] using h)]; rfl

/-- No two neighbouring bytes with value `ab`. -/
def noPair (ab : Nat) : Nat → Nat → Bool
  | 0, _ => true
  | 1, _ => true
  | k + 2, n => !(Nat.beq (n % 65536) ab) && noPair ab (k + 1) (n / 256)

theorem noPair_infix {a b : UInt8} {ab : Nat} (hab : a.toNat * 256 + b.toNat = ab) (k : Nat) :
    ∀ n, noPair ab k n = true → ¬ [a, b] <:+: hex k n := by
  induction k with
  | zero => intro n _; simp [hex_zero]
  | succ k ih =>
    intro n h hi
    rw [hex_succ, List.infix_concat_iff] at hi
    rcases hi with hi | hi
    · cases k with
      | zero => simp [hex_zero] at hi; have := hi.length_le; simp at this
      | succ k =>
        rw [hex_succ, List.append_assoc] at hi
        have h2 : [a, b] = [UInt8.ofNat (n / 256 % 256), UInt8.ofNat (n % 256)] := by
          have := List.suffix_append (hex k (n / 256 / 256)) [UInt8.ofNat (n / 256 % 256), UInt8.ofNat (n % 256)]
          have h3 := List.suffix_of_suffix_length_le hi this (by simp)
          exact h3.eq_of_length (by simp)
        simp only [List.cons.injEq, and_true] at h2
        obtain ⟨rfl, rfl⟩ := h2
        have e : n % 65536 = ab := by
          rw [← hab]
          simp
          omega
        simp [noPair, e] at h
    · cases k with
      | zero => simp [hex_zero] at hi
      | succ k =>
        simp only [noPair, Bool.and_eq_true] at h
        exact ih _ h.2 hi

/-- `noPair` for strings in pieces; `p` is the byte before. -/
def noPairs (ab : Nat) : Nat → List (Nat × Nat) → Bool
  | _, [] => true
  | p, (k, n) :: cs => noPair ab (k + 1) (p * 256 ^ k + n) && fits (k, n) && Nat.ble 1 k && noPairs ab (n % 256) cs

theorem noPairs_infix {a b : UInt8} {ab : Nat} (hab : a.toNat * 256 + b.toNat = ab) (cs : List (Nat × Nat)) :
    ∀ p, noPairs ab p cs = true → ¬ [a, b] <:+: UInt8.ofNat (p % 256) :: cs.flatMap fun (k, n) => hex k n := by
  induction cs with
  | nil => intro p _ h; have := h.length_le; simp at this
  | cons c cs ih =>
    obtain ⟨k, n⟩ := c
    intro p h hi
    simp only [noPairs, Bool.and_eq_true] at h
    obtain ⟨⟨⟨h1, h2⟩, h3⟩, h4⟩ := h
    have e1 : UInt8.ofNat (p % 256) :: hex k n = hex (k + 1) (p * 256 ^ k + n) := by
      have := hex_append 1 p k n (by simpa [fits] using h2)
      rw [Nat.add_comm k 1, ← this, hex_succ]
      rfl
    have h5 := noPair_infix hab (k + 1) _ h1
    obtain ⟨k, rfl⟩ : ∃ k', k = k' + 1 := ⟨k - 1, by have := Nat.le_of_ble_eq_true h3; omega⟩
    have h6 := ih (n % 256) h4
    rw [Nat.mod_mod] at h6
    simp only [List.flatMap_cons] at hi
    rw [← List.cons_append, e1] at hi
    have e2 : hex (k + 1 + 1) (p * 256 ^ (k + 1) + n) = (UInt8.ofNat (p % 256) :: hex k (n / 256)) ++ [UInt8.ofNat (n % 256)] := by
      rw [← e1, hex_succ]; rfl
    rw [e2] at h5 hi
    generalize UInt8.ofNat (p % 256) :: hex k (n / 256) = L at h5 hi
    rw [List.append_assoc, List.singleton_append] at hi
    generalize UInt8.ofNat (n % 256) = x at h5 h6 hi
    generalize (cs.flatMap fun x => hex x.1 x.2) = R at h6 hi
    clear ih h1 h2 h3 h4 e1 e2
    obtain ⟨s, t, hi⟩ := hi
    rw [List.append_assoc] at hi
    rcases List.append_eq_append_iff.1 hi with ⟨u, h7, h8⟩ | ⟨u, h7, h8⟩
    · cases u with
      | nil => simp at h8; exact h6 ⟨[], t, by simpa using h8⟩
      | cons y u =>
        cases u with
        | nil =>
          simp at h8
          obtain ⟨rfl, rfl, rfl⟩ := h8
          exact h5 ⟨s, [], by rw [h7]; simp⟩
        | cons z u =>
          simp at h8
          obtain ⟨rfl, rfl, h8⟩ := h8
          exact h5 ⟨s, u ++ [x], by rw [h7]; simp⟩
    · exact h6 ⟨u, t, by rw [h8]; simp⟩

/-- The value of a text as a number. -/
def value (cs : Text) : Nat := cs.foldl (fun a c => a * 256 + c.toNat) 0

theorem value_hex (cs : Text) (h : cs.all (fun c => Nat.blt c.toNat 128) = true) : cs.flatMap String.utf8EncodeChar = hex cs.length (value cs) := by
  induction cs using List.reverseRecOn with
  | nil => rfl
  | append_singleton cs c ih =>
    simp only [List.all_append, Bool.and_eq_true, List.all_cons, List.all_nil, Bool.and_true] at h
    have hc : c.toNat < 128 := by simpa [Nat.blt_eq] using h.2
    rw [List.flatMap_append, ih h.1, List.length_append, List.length_singleton, hex_succ]
    have e1 : value (cs ++ [c]) = c.toNat + 256 * value cs := by simp [value]; ring
    have e2 : String.utf8EncodeChar c = [UInt8.ofNat c.toNat] := by
      unfold String.utf8EncodeChar
      simp only
      rw [if_pos (by exact Nat.lt_succ_iff.1 hc)]
      rfl
    rw [e1, Nat.add_mul_div_left _ _ (by norm_num), Nat.add_mul_mod_self_left, Nat.div_eq_of_lt (by omega), Nat.mod_eq_of_lt (by omega)]
    simp [e2]

theorem strBytes_hex (cs : Text) (h : cs.all (fun c => Nat.blt c.toNat 128) = true) : Wire.strBytes (String.ofList cs) = hex cs.length (value cs) := by
  rw [← value_hex cs h]
  simp [Wire.strBytes, List.utf8Encode]

/-! ## The entries -/

theorem infix_append_of_last {p l m : Bytes} {x : UInt8} (hx : p.getLast? = some x) (hm : x ∉ m) (h : p <:+: l ++ m) : p <:+: l := by
  obtain ⟨s, t, h⟩ := h
  rcases List.append_eq_append_iff.1 h with ⟨a, h1, h2⟩ | ⟨a, h1, h2⟩
  · exact ⟨s, a, by rw [h1]⟩
  · rcases List.eq_nil_or_concat a with rfl | ⟨a', y, rfl⟩
    · exact ⟨s, [], by simpa using h1⟩
    · have h3 : (s ++ p).getLast? = some y := by rw [h1]; simp
      have hp : p ≠ [] := by rintro rfl; simp at hx
      rw [List.getLast?_append, hx] at h3
      simp at h3
      subst h3
      exact absurd (by rw [h2]; simp) hm

/-- The bytes of an entry as a number. -/
def HexEntry.all (e : HexEntry) : Nat × Nat :=
  cat (cat (cat (cat (cat (cat (cat e.before (5, 0x434f505920)) e.definition) (11, 0x2046524f4d20737464696e)) e.middle) e.digits) (4, 0x2e646174)) (1, e.after)

/-- What is checked of an entry. -/
def HexEntry.ok (e : HexEntry) : Bool :=
  fits e.definition && fits e.middle && fits e.digits && Nat.blt e.after 256 &&
  noPair 0x5059 e.before.1 e.before.2 && noPair 0x2046 e.definition.1 e.definition.2 &&
  noPair 0x2e64 (cat e.middle e.digits).1 (cat e.middle e.digits).2 && Nat.beq (e.middle.2 % 256) 0

theorem entries_ok : ∀ e ∈ tocEntries, HexEntry.ok e = true := by decide +kernel

theorem entries_digits : ∀ e ∈ tocEntries, ∀ b ∈ e.entry.digits, 48 ≤ b ∧ b ≤ 57 := by decide +kernel

theorem copies_eq : tocEntries.map HexEntry.all = tocCopies := by decide +kernel

theorem entry_bytes {e : HexEntry} (h : HexEntry.ok e = true) : hex (HexEntry.all e).1 (HexEntry.all e).2 = e.entry.bytes := by
  simp only [HexEntry.ok, Bool.and_eq_true] at h
  obtain ⟨⟨⟨⟨⟨⟨⟨h1, h2⟩, h3⟩, h4⟩, h5⟩, h6⟩, h7⟩, h8⟩ := h
  unfold HexEntry.all
  have ha : fits (1, e.after) = true := by simpa [fits, Nat.blt_eq] using h4
  rw [hex_cat ha, hex_cat (by decide), hex_cat h3, hex_cat h2, hex_cat (by decide +kernel), hex_cat h1, hex_cat (by decide +kernel)]
  have a1 : hex 5 0x434f505920 = ascii "COPY " := by decide +kernel
  have a2 : hex 11 0x2046524f4d20737464696e = ascii " FROM stdin" := by decide +kernel
  have a3 : hex 4 0x2e646174 = ascii ".dat" := by decide +kernel
  have a4 : hex 1 e.after = [UInt8.ofNat e.after] := by
    rw [hex_succ, hex_zero]
    have : e.after < 256 := Nat.blt_eq ▸ h4
    rw [Nat.mod_eq_of_lt this]; rfl
  simp only [a1, a2, a3, a4]
  rfl

theorem entry_clear {e : HexEntry} {pre : Bytes} (h : HexEntry.ok e = true) (hd : ∀ b ∈ e.entry.digits, 48 ≤ b ∧ b ≤ 57)
    (hp : ¬ [80, 89] <:+: pre) : TocEntry.Clear { e.entry with before := pre } := by
  simp only [HexEntry.ok, Bool.and_eq_true] at h
  obtain ⟨⟨⟨⟨⟨⟨⟨h1, h2⟩, h3⟩, h4⟩, h5⟩, h6⟩, h7⟩, h8⟩ := h
  refine ⟨fun hi => hp ?_, fun hi => ?_, fun hi => ?_, hd, ?_⟩
  · exact List.IsInfix.trans (by decide) (infix_append_of_last (x := 32) (by decide) (by decide) hi)
  · refine noPair_infix (a := 32) (b := 70) (by decide) _ _ h6 ?_
    exact List.IsInfix.trans (by decide) (infix_append_of_last (x := 110) (by decide) (by decide) hi)
  · refine noPair_infix (a := 46) (b := 100) (by decide) _ _ h7 ?_
    rw [hex_cat h3]
    exact List.IsInfix.trans (by decide) (infix_append_of_last (x := 116) (by decide) (by decide) hi)
  · intro b hb
    simp only [HexEntry.entry] at hb
    cases hk : e.middle.1 with
    | zero => rw [hk, hex_zero] at hb; cases hb
    | succ k =>
      rw [hk, hex_succ] at hb
      have h8 := Nat.eq_of_beq_eq_true h8
      simp [h8] at hb
      subst hb
      decide

theorem head_clear : noPairs 0x5059 0 tocHead = true := by decide +kernel

theorem tail_clear : noPairs 0x5059 0 tocTail = true := by decide +kernel

/-- The bytes before the first statement. -/
def headBytes : Bytes := tocHead.flatMap fun (len, n) => hex len n

/-- The bytes after the last statement. -/
def tailBytes : Bytes := tocTail.flatMap fun (len, n) => hex len n

theorem head_noPair : ¬ [80, 89] <:+: headBytes := fun h =>
  noPairs_infix (a := 80) (b := 89) (by decide) tocHead 0 head_clear (h.trans (List.suffix_cons _ _).isInfix)

theorem tail_noPair : ¬ [80, 89] <:+: tailBytes := fun h =>
  noPairs_infix (a := 80) (b := 89) (by decide) tocTail 0 tail_clear (h.trans (List.suffix_cons _ _).isInfix)

/-- The entries of the embedded table of contents. -/
def embedded : List TocEntry :=
  match tocEntries with
  | [] => []
  | e :: es => { e.entry with before := headBytes } :: es.map HexEntry.entry

theorem before_first : ∀ e ∈ tocEntries.head?, e.before.1 = 0 := by decide +kernel

theorem entries_ne : tocEntries ≠ [] := by decide +kernel

theorem first_bytes (H : Bytes) (e : HexEntry) (es : List HexEntry) (hb : e.before.1 = 0) :
    (H ++ (e :: es).flatMap fun e => e.entry.bytes) = ({ e.entry with before := H } :: es.map HexEntry.entry).flatMap TocEntry.bytes := by
  simp [TocEntry.bytes, HexEntry.entry, hb, hex_zero, List.flatMap_map]

theorem toc_bytes : tocDat = tocBytes embedded tailBytes := by
  have split3 : ∀ a b c : List (Nat × Nat), ((a ++ b ++ c).flatMap fun (len, n) => hex len n) =
      ((a.flatMap fun (len, n) => hex len n) ++ b.flatMap fun (len, n) => hex len n) ++ c.flatMap fun (len, n) => hex len n := by
    intro a b c; rw [List.flatMap_append, List.flatMap_append]
  refine (split3 tocHead tocCopies tocTail).trans ?_
  show headBytes ++ (tocCopies.flatMap fun (len, n) => hex len n) ++ tailBytes = _
  refine congrArg (· ++ tailBytes) (?_ : _ = embedded.flatMap TocEntry.bytes)
  have hc : (tocCopies.flatMap fun (len, n) => hex len n) = tocEntries.flatMap fun e => e.entry.bytes := by
    rw [← copies_eq, List.flatMap_map]
    have := entries_ok
    generalize tocEntries = es at this
    induction es with
    | nil => rfl
    | cons e es ih =>
      rw [List.flatMap_cons, List.flatMap_cons, ih fun x hx => this x (by simp [hx]), ← entry_bytes (this e (by simp))]
  have hb := before_first
  have hne := entries_ne
  rw [hc]
  unfold embedded
  cases hes : tocEntries with
  | nil => exact absurd hes hne
  | cons e es =>
    rw [hes] at hb
    have hb := hb e (by simp)
    exact first_bytes headBytes e es hb

theorem embedded_clear : ∀ e ∈ embedded, e.Clear := by
  have h1 := entries_ok
  have h2 := entries_digits
  unfold embedded
  cases hes : tocEntries with
  | nil => simp
  | cons e es =>
    rw [hes] at h1 h2
    intro x hx
    rcases List.mem_cons.1 hx with rfl | hx
    · exact entry_clear (h1 e (by simp)) (h2 e (by simp)) head_noPair
    · obtain ⟨y, hy, rfl⟩ := List.mem_map.1 hx
      have h3 := h1 y (by simp [hy])
      refine entry_clear (pre := y.entry.before) h3 (h2 y (by simp [hy])) ?_
      simp only [HexEntry.ok, Bool.and_eq_true] at h3
      exact noPair_infix (by decide) _ _ h3.1.1.1.2

/-- What is checked of an entry and its statement. -/
def agree (e : HexEntry) (s : Statement) : Bool :=
  s.text.all (fun c => Nat.blt c.toNat 128) && Nat.beq s.text.length e.definition.1 && Nat.beq (value s.text) e.definition.2 &&
  s.file.toList.all (fun c => Nat.blt c.toNat 128) && Nat.beq s.file.toList.length (cat e.digits (4, 0x2e646174)).1 &&
    Nat.beq (value s.file.toList) (cat e.digits (4, 0x2e646174)).2

theorem agree_all : List.Forall₂ (fun e s => agree e s = true) tocEntries tocStatements := by
  rw [List.forall₂_iff_zip]
  exact ⟨by decide +kernel, by
    have : ∀ p ∈ tocEntries.zip tocStatements, agree p.1 p.2 = true := by decide +kernel
    intro a b h; exact this _ h⟩

theorem embedded_statements : List.Forall₂ (fun e s => e.definition = Wire.strBytes (String.ofList (Statement.text s)) ∧
      e.digits ++ ascii ".dat" = Wire.strBytes (Statement.file s)) embedded tocStatements := by
  have key : ∀ e s, agree e s = true → e.entry.definition = Wire.strBytes (String.ofList (Statement.text s)) ∧
      e.entry.digits ++ ascii ".dat" = Wire.strBytes (Statement.file s) := by
    intro e s h
    simp only [agree, Bool.and_eq_true] at h
    obtain ⟨⟨⟨⟨⟨h1, h2⟩, h3⟩, h4⟩, h5⟩, h6⟩ := h
    constructor
    · rw [strBytes_hex _ h1, Nat.eq_of_beq_eq_true h2, Nat.eq_of_beq_eq_true h3]; rfl
    · have := strBytes_hex _ h4
      rw [String.ofList_toList] at this
      rw [this, Nat.eq_of_beq_eq_true h5, Nat.eq_of_beq_eq_true h6, hex_cat (by decide)]
      have a3 : hex 4 0x2e646174 = ascii ".dat" := by decide +kernel
      rw [a3]; rfl
  have h := agree_all
  unfold embedded
  cases hes : tocEntries with
  | nil => rw [hes] at h; cases h
  | cons e es =>
    rw [hes] at h
    generalize tocStatements = ss at h
    cases h with
    | cons h1 h2 =>
      refine .cons (key _ _ h1) ?_
      rw [List.forall₂_map_left_iff]
      exact h2.imp fun _ _ => key _ _

end OsmIo.Apidb
