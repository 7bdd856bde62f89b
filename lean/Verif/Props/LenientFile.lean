import Verif.Props.Lenient
import Verif.Props.Header
/-! # C86: any bytes as a file -/
namespace OsmIo
open Wire
open Spec.Lenient (Message Holds Unsized IsHeader IsData Readable Walk LengthAt HeaderAt BodyAt word Kind Delivers Begins)
open Spec.Format (Complete elementCount)

theorem ofBeBytes_word (a b c d : UInt8) : (ofBeBytes a b c d).toUInt32.toNat = word a b c d := by
  have ha := a.toNat_lt
  have hb := b.toNat_lt
  have hc := c.toNat_lt
  have hd := d.toNat_lt
  obtain ⟨n, hn⟩ : ∃ n, n = word a b c d := ⟨_, rfl⟩
  have hlt : n < 2 ^ 32 := by rw [hn]; unfold word; omega
  obtain ⟨u, hu⟩ : ∃ u : UInt32, u.toNat = n := ⟨UInt32.ofNat n, UInt32.toNat_ofNat_of_lt' hlt⟩
  have hw : u.toNat = a.toNat * 2 ^ 24 + b.toNat * 2 ^ 16 + c.toNat * 2 ^ 8 + d.toNat := by rw [hu, hn]; rfl
  have key := ofBe_be u.toInt32
  have e : u.toInt32.toUInt32 = u := rfl
  rw [e] at key
  have ea : a = (u >>> 24).toUInt8 := by
    apply UInt8.toNat_inj.mp
    simp [UInt32.toNat_shiftRight, hw, Nat.shiftRight_eq_div_pow]; omega
  have eb : b = (u >>> 16).toUInt8 := by
    apply UInt8.toNat_inj.mp
    simp [UInt32.toNat_shiftRight, hw, Nat.shiftRight_eq_div_pow]; omega
  have ec : c = (u >>> 8).toUInt8 := by
    apply UInt8.toNat_inj.mp
    simp [UInt32.toNat_shiftRight, hw, Nat.shiftRight_eq_div_pow]; omega
  have ed : d = u.toUInt8 := by
    apply UInt8.toNat_inj.mp
    simp [hw]; omega
  rw [← ea, ← eb, ← ec, ← ed] at key
  rw [key, e, hu, hn]

theorem int32_sign (i : Int32) : (i < 0 ↔ 2 ^ 31 ≤ i.toUInt32.toNat) ∧ (¬ i < 0 → i.toInt.toNat = i.toUInt32.toNat) := by
  have h : i.toInt = if 2 * i.toUInt32.toNat < 2 ^ 32 then (i.toUInt32.toNat : Int) else i.toUInt32.toNat - 2 ^ 32 :=
    BitVec.toInt_eq_toNat_cond i.toBitVec
  have hlt := i.toUInt32.toNat_lt
  have hn : i < 0 ↔ i.toInt < 0 := by rw [Int32.lt_iff_toInt_lt]; simp
  rw [hn]
  split at h <;> omega

theorem readAt_iff {file b : Bytes} {p n : Nat} (h : p ≤ file.length ∨ 0 < n) :
    readAt file p n = some b ↔ b.length = n ∧ ∃ rest, file.drop p = b ++ rest := by
  unfold readAt
  constructor
  · intro hr
    split at hr
    · cases hr
    · injection hr with hr
      subst hr
      exact ⟨by simp; omega, _, (List.take_append_drop n (file.drop p)).symm⟩
  · rintro ⟨rfl, rest, hr⟩
    have hl := congrArg List.length hr
    simp only [List.length_drop, List.length_append] at hl
    rw [if_neg (by omega), hr]
    simp

theorem lengthAt_iff {file : Bytes} {pos n : Nat} : LengthAt file pos n ↔ ∃ a b c d, readAt file pos 4 = some [a, b, c, d] ∧ word a b c d = n := by
  constructor
  · rintro ⟨a, b, c, d, rest, h1, h2⟩
    exact ⟨a, b, c, d, (readAt_iff (.inr (by norm_num))).2 ⟨rfl, rest, h1⟩, h2⟩
  · rintro ⟨a, b, c, d, h1, h2⟩
    obtain ⟨-, rest, h⟩ := (readAt_iff (.inr (by norm_num))).1 h1
    exact ⟨a, b, c, d, rest, h, h2⟩

/-- What the iterator over frames finds. -/
theorem next_cases (file : Bytes) (it : BlobIter) (pos : Nat) (hp : it.pos + it.jump = (pos : ℤ)) :
    (∃ n, LengthAt file pos n ∧ 2 ^ 31 ≤ n ∧ it.next file = .panic) ∨
    (∃ h start, HeaderAt file pos h start ∧
      it.next file = .ok (some (⟨it.index, start, h.datasize.toInt64.toUInt64.toNat, h.type⟩, ⟨start, h.datasize.toInt, it.index + 1⟩))) ∨
    ((∀ n, LengthAt file pos n → n < 2 ^ 31) ∧ (∀ h start, ¬ HeaderAt file pos h start) ∧ it.next file = .ok none) := by
  have e : it.next file = match readAt file pos 4 with
    | some [a, b, c, d] =>
      if ofBeBytes a b c d < 0 then .panic
      else
        match readAt file (pos + 4) (ofBeBytes a b c d).toInt.toNat with
        | none => .ok none
        | some hdr =>
          match Pb.BlobHeader.decode hdr with
          | none => .ok none
          | some h => .ok (some (⟨it.index, pos + 4 + (ofBeBytes a b c d).toInt.toNat, h.datasize.toInt64.toUInt64.toNat, h.type⟩,
              ⟨pos + 4 + (ofBeBytes a b c d).toInt.toNat, h.datasize.toInt, it.index + 1⟩))
    | _ => .ok none := by
    unfold BlobIter.next
    simp only [hp, Int.toNat_natCast]
    rw [if_neg (by omega)]
    rfl
  cases hr : readAt file pos 4 with
  | none =>
    have hno : ∀ n, ¬ LengthAt file pos n := fun n h => by
      obtain ⟨a, b, c, d, h, -⟩ := lengthAt_iff.1 h
      rw [hr] at h; cases h
    refine .inr (.inr ⟨fun n h => (hno n h).elim, ?_, by rw [e, hr]⟩)
    rintro h start ⟨_, _, h1, -⟩
    exact hno _ h1
  | some l =>
    obtain ⟨hl, rest, hd⟩ := (readAt_iff (.inr (by norm_num))).1 hr
    obtain ⟨a, b, c, d, rfl⟩ : ∃ a b c d, l = [a, b, c, d] := by
      match l, hl with
      | [a, b, c, d], _ => exact ⟨a, b, c, d, rfl⟩
    have hpos : pos + 4 ≤ file.length := by
      have := congrArg List.length hd
      simp at this
      omega
    have hlen : ∀ n, LengthAt file pos n ↔ n = word a b c d := by
      intro n
      rw [lengthAt_iff]
      constructor
      · rintro ⟨a', b', c', d', h, rfl⟩
        rw [hr] at h
        simp only [Option.some.injEq, List.cons.injEq, and_true] at h
        obtain ⟨rfl, rfl, rfl, rfl⟩ := h; rfl
      · rintro rfl; exact ⟨a, b, c, d, hr, rfl⟩
    rw [hr] at e
    simp only at e
    obtain ⟨hs1, hs2⟩ := int32_sign (ofBeBytes a b c d)
    rw [ofBeBytes_word] at hs1 hs2
    by_cases hneg : ofBeBytes a b c d < 0
    · rw [if_pos hneg] at e
      exact .inl ⟨_, (hlen _).2 rfl, hs1.1 hneg, e⟩
    · rw [if_neg hneg, hs2 hneg] at e
      have hw : word a b c d < 2 ^ 31 := by by_contra hc; exact hneg (hs1.2 (by omega))
      right
      cases hr2 : readAt file (pos + 4) (word a b c d) with
      | none =>
        rw [hr2] at e
        refine .inr ⟨fun n h => by rw [(hlen n).1 h]; exact hw, ?_, e⟩
        rintro h start ⟨header, rest', h1, h2, h3, h4, h5⟩
        have := (readAt_iff (b := header) (.inl hpos)).2 ⟨(hlen _).1 h1, rest', h3⟩
        rw [hr2] at this; cases this
      | some hdr =>
        obtain ⟨hl2, rest2, hd2⟩ := (readAt_iff (.inl hpos)).1 hr2
        rw [hr2] at e
        simp only at e
        cases hdec : Pb.BlobHeader.decode hdr with
        | none =>
          rw [hdec] at e
          refine .inr ⟨fun n h => by rw [(hlen n).1 h]; exact hw, ?_, e⟩
          rintro h start ⟨header, rest', h1, h2, h3, h4, h5⟩
          have := (readAt_iff (b := header) (.inl hpos)).2 ⟨(hlen _).1 h1, rest', h3⟩
          rw [hr2] at this
          injection this with this; subst this
          rw [← BlobHeader.decode_iff, hdec] at h4; cases h4
        | some h =>
          rw [hdec] at e
          refine .inl ⟨h, pos + 4 + word a b c d, ⟨hdr, rest2, (hlen _).2 hl2, by omega, hd2, (BlobHeader.decode_iff _ _).1 hdec, by rw [hl2]⟩, e⟩

theorem headerAt_bound {file : Bytes} {pos start : Nat} {h : Pb.BlobHeader} (hh : HeaderAt file pos h start) : start ≤ file.length := by
  obtain ⟨header, rest, ⟨_, _, _, _, r, h0, -⟩, -, h1, -, rfl⟩ := hh
  have h2 := congrArg List.length h0
  have := congrArg List.length h1
  simp at this h2
  omega

/-- What becomes of a frame whose header has been read. -/
theorem fromBlobDesc_cases (z : Zlib) (file : Bytes) (hl : file.length < 2 ^ 63) (h : Pb.BlobHeader) (start i : Nat) (hs : start ≤ file.length) :
    (∃ b, BodyAt file h start b ∧ FileBlock.fromBlobDesc z file ⟨i, start, h.datasize.toInt64.toUInt64.toNat, h.type⟩ = FileBlock.deserialize z h.type b ∧
      b.length < 2 ^ 63) ∨
    ((∀ b, ¬ BodyAt file h start b) ∧ ∀ b, FileBlock.fromBlobDesc z file ⟨i, start, h.datasize.toInt64.toUInt64.toNat, h.type⟩ ≠ .ok b) := by
  unfold FileBlock.fromBlobDesc
  by_cases h0 : h.datasize.toInt < 0
  · rw [if_pos (neg_length h0)]
    refine .inr ⟨?_, by simp⟩
    rintro b ⟨rest, -, h2⟩
    omega
  · have hp := pos_length (i := h.datasize) (by omega)
    have h3 : h.datasize.toInt < 2 ^ 31 := Int32.toInt_lt _
    rw [if_neg (by simp only [hp]; omega)]
    simp only [hp]
    cases hr : readAt file start h.datasize.toInt.toNat with
    | none =>
      refine .inr ⟨?_, by simp⟩
      rintro b ⟨rest, h1, h2⟩
      have := (readAt_iff (b := b) (n := h.datasize.toInt.toNat) (.inl hs)).2 ⟨by omega, rest, h1⟩
      rw [hr] at this; cases this
    | some b =>
      obtain ⟨h1, rest, h2⟩ := (readAt_iff (.inl hs)).1 hr
      exact .inl ⟨b, ⟨rest, h2, by omega⟩, rfl, by omega⟩

theorem bodyAt_unique {file : Bytes} {h : Pb.BlobHeader} {start : Nat} {b b' : Bytes} (h1 : BodyAt file h start b) (h2 : BodyAt file h start b') : b = b' := by
  obtain ⟨r, e, l⟩ := h1
  obtain ⟨r', e', l'⟩ := h2
  exact (List.append_inj (e.symm.trans e') (by omega)).1

/-- A block. -/
def kindOf : FileBlock → Kind
  | .header i => .header i
  | .data es => .data es

theorem deserialize_readable (z : Zlib) (t : String) (b : Bytes) (hl : b.length < 2 ^ 63) :
    (∃ fb, FileBlock.deserialize z t b = .ok fb ∧ Readable z.stream t b (kindOf fb)) ∨
    ((∀ fb, FileBlock.deserialize z t b ≠ .ok fb) ∧ ∀ s, ¬ Readable z.stream t b s) := by
  obtain ⟨h1, h2, h3, h4⟩ := C86_block z t b hl
  have key : ∀ s, Readable z.stream t b s → ∃ fb, FileBlock.deserialize z t b = .ok fb := by
    intro s hs
    cases hs with
    | header h => exact ⟨_, (h1 _).2 h⟩
    | data h hc => exact ⟨_, (h2 _).2 ⟨_, h, hc⟩⟩
  cases e : FileBlock.deserialize z t b with
  | ok fb =>
    left
    cases fb with
    | header i => exact ⟨_, rfl, .header ((h1 i).1 e)⟩
    | data es =>
      obtain ⟨p, hp, hm⟩ := (h2 es).1 e
      exact ⟨_, rfl, .data hp hm⟩
  | err =>
    refine .inr ⟨by simp, fun s hs => ?_⟩
    obtain ⟨fb, h⟩ := key s hs
    rw [e] at h; cases h
  | panic =>
    refine .inr ⟨by simp, fun s hs => ?_⟩
    obtain ⟨fb, h⟩ := key s hs
    rw [e] at h; cases h

/-- What the iterator over blocks finds. -/
theorem nextBlock_cases (z : Zlib) (file : Bytes) (hl : file.length < 2 ^ 63) (it : BlobIter) (pos : Nat) (hp : it.pos + it.jump = (pos : ℤ)) :
    ((∃ n, LengthAt file pos n ∧ 2 ^ 31 ≤ n) ∧ nextBlock z file it = .panic) ∨
    (∃ h start, HeaderAt file pos h start ∧ (∀ b s, BodyAt file h start b → ¬ Readable z.stream h.type b s) ∧ nextBlock z file it = .panic) ∨
    (∃ h start b fb, HeaderAt file pos h start ∧ BodyAt file h start b ∧ FileBlock.deserialize z h.type b = .ok fb ∧ Readable z.stream h.type b (kindOf fb) ∧
      nextBlock z file it = .ok (some (fb, ⟨start, h.datasize.toInt, it.index + 1⟩))) ∨
    ((∀ n, LengthAt file pos n → n < 2 ^ 31) ∧ (∀ h start, ¬ HeaderAt file pos h start) ∧ nextBlock z file it = .ok none) := by
  rcases next_cases file it pos hp with ⟨n, h1, h2, e⟩ | ⟨h, start, h1, e⟩ | ⟨h1, h2, e⟩
  · exact .inl ⟨⟨n, h1, h2⟩, by simp [nextBlock, e]⟩
  · rcases fromBlobDesc_cases z file hl h start it.index (headerAt_bound h1) with ⟨b, hb, e2, hbl⟩ | ⟨hb, e2⟩
    · rcases deserialize_readable z h.type b hbl with ⟨fb, e3, hr⟩ | ⟨e3, hr⟩
      · exact .inr (.inr (.inl ⟨h, start, b, fb, h1, hb, e3, hr, by simp [nextBlock, e, e2, e3]⟩))
      · refine .inr (.inl ⟨h, start, h1, fun b' s hb' => by rw [bodyAt_unique hb' hb]; exact hr s, ?_⟩)
        simp only [nextBlock, e, e2]
    · refine .inr (.inl ⟨h, start, h1, fun b' s hb' => (hb b' hb').elim, ?_⟩)
      simp only [nextBlock, e]
  · exact .inr (.inr (.inr ⟨h1, h2, by simp [nextBlock, e]⟩))

theorem takeBlocks_walk (z : Zlib) (file : Bytes) (hl : file.length < 2 ^ 63) (fuel : Nat) (it : BlobIter) (pos : Nat) (hp : it.pos + it.jump = (pos : ℤ))
    (he : (takeBlocks z file fuel it).2 ≠ .more) :
    Walk z.stream file pos ((takeBlocks z file fuel it).1.map kindOf) ((takeBlocks z file fuel it).2 = .panic) := by
  induction fuel generalizing it pos with
  | zero => simp [takeBlocks] at he
  | succ fuel ih =>
    rcases nextBlock_cases z file hl it pos hp with ⟨⟨n, h1, h2⟩, e⟩ | ⟨h, start, h1, h2, e⟩ | ⟨h, start, b, fb, h1, h2, -, h3, e⟩ | ⟨h1, h2, e⟩
    · simp only [takeBlocks, e]
      exact .long h1 h2
    · simp only [takeBlocks, e]
      exact .bad h1 h2
    · simp only [takeBlocks, e] at he ⊢
      refine .block h1 h2 h3 (ih ⟨start, h.datasize.toInt, it.index + 1⟩ (start + b.length) ?_ he)
      obtain ⟨_, _, hb⟩ := h2
      simp only; omega
    · simp only [takeBlocks, e]
      exact .done h1 h2

theorem lengthAt_unique {file : Bytes} {pos n n' : Nat} (h : LengthAt file pos n) (h' : LengthAt file pos n') : n = n' := by
  obtain ⟨a, b, c, d, h1, rfl⟩ := lengthAt_iff.1 h
  obtain ⟨a', b', c', d', h2, rfl⟩ := lengthAt_iff.1 h'
  rw [h1] at h2
  simp only [Option.some.injEq, List.cons.injEq, and_true] at h2
  obtain ⟨rfl, rfl, rfl, rfl⟩ := h2
  rfl

theorem headerAt_unique {file : Bytes} {pos s s' : Nat} {h h' : Pb.BlobHeader} (a : HeaderAt file pos h s) (a' : HeaderAt file pos h' s') : h = h' ∧ s = s' := by
  obtain ⟨hd, r, l, -, e, m, rfl⟩ := a
  obtain ⟨hd', r', l', -, e', m', rfl⟩ := a'
  have hl := lengthAt_unique l l'
  have := (List.append_inj (e.symm.trans e') hl).1
  subst this
  rw [← BlobHeader.decode_iff] at m m'
  rw [m] at m'
  exact ⟨Option.some.inj m', rfl⟩

theorem readable_iff (z : Zlib) (t : String) (b : Bytes) (hl : b.length < 2 ^ 63) (k : Kind) :
    Readable z.stream t b k ↔ ∃ fb, FileBlock.deserialize z t b = .ok fb ∧ k = kindOf fb := by
  obtain ⟨h1, h2, h3, h4⟩ := C86_block z t b hl
  constructor
  · intro h
    cases h with
    | header h => exact ⟨_, (h1 _).2 h, rfl⟩
    | data h hm => exact ⟨_, (h2 _).2 ⟨_, h, hm⟩, rfl⟩
  · rintro ⟨fb, h, rfl⟩
    cases fb with
    | header i => exact .header ((h1 i).1 h)
    | data es =>
      obtain ⟨p, hp, hm⟩ := (h2 es).1 h
      exact .data hp hm

theorem bodyAt_small {file : Bytes} {h : Pb.BlobHeader} {start : Nat} {b : Bytes} (hb : BodyAt file h start b) : b.length < 2 ^ 63 := by
  obtain ⟨_, -, h2⟩ := hb
  have := Int32.toInt_lt h.datasize
  omega

theorem readable_unique {z : Zlib} {t : String} {b : Bytes} (hl : b.length < 2 ^ 63) {k k' : Kind} (h : Readable z.stream t b k) (h' : Readable z.stream t b k') : k = k' := by
  obtain ⟨fb, e, rfl⟩ := (readable_iff z t b hl k).1 h
  obtain ⟨fb', e', rfl⟩ := (readable_iff z t b hl k').1 h'
  rw [e] at e'; injection e' with e'; rw [e']

theorem walk_unique {z : Zlib} {file : Bytes} {pos : Nat} {ks ks' : List Kind} {p p' : Bool} (h : Walk z.stream file pos ks p) (h' : Walk z.stream file pos ks' p') :
    ks = ks' ∧ p = p' := by
  induction h generalizing ks' p' with
  | done a b =>
    cases h' with
    | done => exact ⟨rfl, rfl⟩
    | long c d => exact absurd (a _ c) (by omega)
    | bad c => exact (b _ _ c).elim
    | block c => exact (b _ _ c).elim
  | long a b =>
    cases h' with
    | done c => exact absurd (c _ a) (by omega)
    | long => exact ⟨rfl, rfl⟩
    | bad c => exact ⟨rfl, rfl⟩
    | block c =>
      obtain ⟨hd, r, l, s, -⟩ := c
      have := lengthAt_unique a l
      omega
  | bad a b =>
    cases h' with
    | done c d => exact (d _ _ a).elim
    | long => exact ⟨rfl, rfl⟩
    | bad => exact ⟨rfl, rfl⟩
    | block c d e =>
      obtain ⟨rfl, rfl⟩ := headerAt_unique a c
      exact (b _ _ d e).elim
  | block a b c _ ih =>
    cases h' with
    | done _ e => exact (e _ _ a).elim
    | long d e =>
      obtain ⟨hd, r, l, s, -⟩ := a
      have := lengthAt_unique d l
      omega
    | bad d e =>
      obtain ⟨rfl, rfl⟩ := headerAt_unique a d
      exact (e _ _ b c).elim
    | block d e f g =>
      obtain ⟨rfl, rfl⟩ := headerAt_unique a d
      have := bodyAt_unique b e
      subst this
      obtain ⟨rfl, rfl⟩ := ih g
      exact ⟨by rw [readable_unique (bodyAt_small b) c f], rfl⟩

/-- C86. Any file, as a sequence of blocks: the iteration over its blocks delivers exactly the blocks on the way through it, and panics exactly if the way ends so. Every file has
a way through it, and only one. -/
theorem C86_blocks (z : Zlib) (file : Bytes) (hl : file.length < 2 ^ 63) (n : Nat) (hn : file.length < n) :
    (takeBlocks z file n {}).2 ≠ .more ∧
    ∀ ks panic, Walk z.stream file 0 ks panic ↔ ks = (takeBlocks z file n {}).1.map kindOf ∧ (panic = true ↔ (takeBlocks z file n {}).2 = .panic) := by
  obtain ⟨m, rfl⟩ : ∃ m, n = m + 1 := ⟨n - 1, by omega⟩
  have he := takeBlocks_ends z file m {} (by simp; omega)
  refine ⟨he, fun ks panic => ?_⟩
  have hw := takeBlocks_walk z file hl (m + 1) {} 0 (by simp) he
  constructor
  · intro h
    obtain ⟨rfl, rfl⟩ := walk_unique h hw
    exact ⟨rfl, by simp⟩
  · rintro ⟨rfl, h⟩
    have : panic = decide ((takeBlocks z file (m + 1) {}).2 = .panic) := by
      rw [Bool.eq_iff_iff]; simp [h]
    rw [this]; exact hw

theorem delivers_iff (bs : List FileBlock) (e : End) (he : e ≠ .more) (es : List Element) (panic : Bool) :
    Delivers (bs.map kindOf) (e = .panic) es panic ↔ es = (stream bs e).1 ∧ (panic = true ↔ (stream bs e).2 = .panic) ∧ (stream bs e).2 ≠ .more := by
  induction bs generalizing es with
  | nil =>
    simp only [List.map_nil, stream]
    constructor
    · intro h; cases h; exact ⟨rfl, by simp, he⟩
    · rintro ⟨rfl, h, -⟩
      have : panic = decide (e = .panic) := by rw [Bool.eq_iff_iff]; simp [h]
      rw [this]; exact .nil
  | cons b bs ih =>
    cases b with
    | header i =>
      simp only [List.map_cons, kindOf, stream]
      constructor
      · intro h; cases h; simp
      · rintro ⟨rfl, h, -⟩
        have : panic = false := by simpa using h
        rw [this]; exact .header
    | data xs =>
      simp only [List.map_cons, kindOf, stream]
      constructor
      · intro h
        cases h with
        | data h =>
          obtain ⟨rfl, h2, h3⟩ := (ih _).1 h
          exact ⟨rfl, h2, h3⟩
      · rintro ⟨rfl, h2, h3⟩
        exact .data ((ih _).2 ⟨rfl, h2, h3⟩)

/-- C86. Any file, as a sequence of elements: the iteration over the elements skips the first block, whatever it is, and delivers the elements of the following data
blocks, until a header block, the end of the way through the file, or a panic at its end. -/
theorem C86_elements (z : Zlib) (file : Bytes) (hl : file.length < 2 ^ 63) (es : List Element) (r : End) :
    ReadsElements z file es r ↔ ∃ ks panic panic', Walk z.stream file 0 ks panic ∧ (Delivers ks.tail panic es panic') ∧ r = if panic' then .panic else .done := by
  obtain ⟨he, hw⟩ := C86_blocks z file hl (file.length + 1) (by omega)
  generalize htb : takeBlocks z file (file.length + 1) {} = tb at he hw
  obtain ⟨bs, e⟩ := tb
  simp only at he hw
  rw [reads_iff htb he]
  have hs : streamAll bs e = stream bs.tail e := by cases bs <;> rfl
  have ht : bs.tail.map kindOf = (bs.map kindOf).tail := by cases bs <;> rfl
  have hd := fun es p => delivers_iff bs.tail e he es p
  rw [ht] at hd
  have hne : (stream bs.tail e).2 ≠ .more := by
    have := (hd (stream bs.tail e).1 (decide ((stream bs.tail e).2 = .panic)))
    by_contra hc
    generalize bs.tail = l at hc
    induction l with
    | nil => exact he hc
    | cons b l ih =>
      cases b with
      | header i => simp [stream] at hc
      | data xs => exact ih (by simpa [stream] using hc)
  rw [hs]
  have hr : ∀ (p' : Bool) (r : End), (p' = true ↔ r = .panic) → r ≠ .more → r = if p' then .panic else .done := by
    intro p' r h1 h2
    cases p' <;> cases r <;> simp_all
  constructor
  · intro h
    rw [Prod.ext_iff] at h
    obtain ⟨rfl, rfl⟩ := h
    exact ⟨_, _, decide ((stream bs.tail e).2 = .panic), (hw _ (decide (e = .panic))).2 ⟨rfl, by simp⟩, (hd _ _).2 ⟨rfl, by simp, hne⟩, hr _ _ (by simp) hne⟩
  · rintro ⟨ks, p, p', h1, h2, rfl⟩
    obtain ⟨rfl, h1'⟩ := (hw _ _).1 h1
    have : p = decide (e = .panic) := by rw [Bool.eq_iff_iff]; simp [h1']
    rw [this] at h2
    obtain ⟨rfl, h3, h4⟩ := (hd _ _).1 h2
    rw [← hr p' _ h3 hne]

/-- C86. Opening any file: it succeeds exactly if the file begins with a header block all of whose required features are supported; it is an error exactly if it begins with
a data block, a header block that requires another feature, or no frame header at all; and in all other cases, a block that cannot be read or a length that is negative as a number of 32 bits,
a panic. -/
theorem C86_open (z : Zlib) (file : Bytes) (hl : file.length < 2 ^ 63) :
    (∀ i, openReader z file = .ok i ↔ Begins z.stream file (.header i) ∧ ∀ f ∈ i.required_features, f ∈ Spec.Lenient.supported) ∧
    (openReader z file = .err ↔ (∃ es, Begins z.stream file (.data es)) ∨ (∃ i, Begins z.stream file (.header i) ∧ ∃ f ∈ i.required_features, f ∉ Spec.Lenient.supported) ∨
      ((∀ n, LengthAt file 0 n → n < 2 ^ 31) ∧ ∀ h start, ¬ HeaderAt file 0 h start)) ∧
    (openReader z file = .panic ↔ (∃ n, LengthAt file 0 n ∧ 2 ^ 31 ≤ n) ∨ ∃ h start, HeaderAt file 0 h start ∧ ∀ k, ¬ Begins z.stream file k) := by
  have hv : ∀ i : FileInfo, ((∀ f ∈ i.required_features, f ∈ Spec.Lenient.supported) ∧ verifySupportedFeatures supportedFeatures i.required_features = .ok ()) ∨
      ((∃ f ∈ i.required_features, f ∉ Spec.Lenient.supported) ∧ verifySupportedFeatures supportedFeatures i.required_features = .err) := by
    intro i
    have e := fun f => C17_missing_features supportedFeatures i.required_features f
    unfold verifySupportedFeatures
    by_cases h : ∀ f ∈ i.required_features, f ∈ Spec.Lenient.supported
    · refine .inl ⟨h, if_pos ?_⟩
      rw [List.isEmpty_iff, List.eq_nil_iff_forall_not_mem]
      intro f hf
      exact ((e f).1 hf).2 (h f ((e f).1 hf).1)
    · have h : ∃ f ∈ i.required_features, f ∉ Spec.Lenient.supported := by
        by_contra hc
        exact h fun f hf => by by_contra hc'; exact hc ⟨f, hf, hc'⟩
      refine .inr ⟨h, if_neg ?_⟩
      obtain ⟨f, h1, h2⟩ := h
      rw [List.isEmpty_iff]
      intro hc
      have := (e f).2 ⟨h1, h2⟩
      rw [hc] at this; cases this
  have hb : ∀ {h start b k}, HeaderAt file 0 h start → BodyAt file h start b → Readable z.stream h.type b k → ∀ k', Begins z.stream file k' → k' = k := by
    rintro h start b k h1 h2 h3 k' ⟨h', start', b', a1, a2, a3⟩
    obtain ⟨rfl, rfl⟩ := headerAt_unique h1 a1
    have := bodyAt_unique h2 a2
    subst this
    exact readable_unique (bodyAt_small h2) a3 h3
  have hno : ∀ {h start}, HeaderAt file 0 h start → ∀ n, LengthAt file 0 n → n < 2 ^ 31 := by
    rintro h start ⟨hd, r, l, s, -⟩ n hn
    rw [lengthAt_unique hn l]; exact s
  unfold openReader
  rcases nextBlock_cases z file hl {} 0 (by simp) with ⟨⟨n, h1, h2⟩, e⟩ | ⟨h, start, h1, h2, e⟩ | ⟨h, start, b, fb, h1, h2, -, h3, e⟩ | ⟨h1, h2, e⟩
  · have hk : ∀ k, ¬ Begins z.stream file k := by
      rintro k ⟨h, s, b, h', -⟩
      have := hno h' n h1; omega
    simp only [e]
    refine ⟨fun i => ⟨(nomatch ·), fun h => (hk _ h.1).elim⟩, ⟨(nomatch ·), ?_⟩, ⟨fun _ => .inl ⟨n, h1, h2⟩, fun _ => by first | rfl | trivial⟩⟩
    rintro (⟨es, h⟩ | ⟨i, h, -⟩ | ⟨h, -⟩)
    · exact (hk _ h).elim
    · exact (hk _ h).elim
    · have := h n h1; omega
  · have hk : ∀ k, ¬ Begins z.stream file k := by
      rintro k ⟨h', s', b, a1, a2, a3⟩
      obtain ⟨rfl, rfl⟩ := headerAt_unique h1 a1
      exact h2 b k a2 a3
    simp only [e]
    refine ⟨fun i => ⟨(nomatch ·), fun h => (hk _ h.1).elim⟩, ⟨(nomatch ·), ?_⟩, ⟨fun _ => .inr ⟨h, start, h1, hk⟩, fun _ => by first | rfl | trivial⟩⟩
    rintro (⟨es, h⟩ | ⟨i, h, -⟩ | ⟨-, h⟩)
    · exact (hk _ h).elim
    · exact (hk _ h).elim
    · exact (h _ _ h1).elim
  · have hk := hb h1 h2 h3
    have hB : Begins z.stream file (kindOf fb) := ⟨h, start, b, h1, h2, h3⟩
    have hnp : ¬ ((∃ n, LengthAt file 0 n ∧ 2 ^ 31 ≤ n) ∨ ∃ h start, HeaderAt file 0 h start ∧ ∀ k, ¬ Begins z.stream file k) := by
      rintro (⟨n, a, a'⟩ | ⟨_, _, -, a⟩)
      · have := hno h1 n a; omega
      · exact a _ hB
    cases fb with
    | data es =>
      simp only [e]
      refine ⟨fun i => ⟨(nomatch ·), fun h => ?_⟩, ⟨fun _ => .inl ⟨es, hB⟩, fun _ => by first | rfl | trivial⟩, ⟨(nomatch ·), fun h => (hnp h).elim⟩⟩
      have := hk _ h.1; cases this
    | header i =>
      simp only [e]
      rcases hv i with ⟨a, a'⟩ | ⟨a, a'⟩ <;> rw [a']
      · refine ⟨fun i' => ⟨fun h => ?_, fun h => ?_⟩, ⟨(nomatch ·), ?_⟩, ⟨(nomatch ·), fun h => (hnp h).elim⟩⟩
        · have h : Out.ok i = Out.ok i' := h
          injection h with h; subst h; exact ⟨hB, a⟩
        · have := hk _ h.1; cases this; rfl
        · rintro (⟨es, h⟩ | ⟨i', h, f, hf, hf'⟩ | ⟨-, h⟩)
          · have := hk _ h; cases this
          · have := hk _ h; cases this; exact (hf' (a f hf)).elim
          · exact (h _ _ h1).elim
      · refine ⟨fun i' => ⟨(nomatch ·), fun h => ?_⟩, ⟨fun _ => .inr (.inl ⟨i, hB, a⟩), fun _ => by first | rfl | trivial⟩, ⟨(nomatch ·), fun h => (hnp h).elim⟩⟩
        have := hk _ h.1; cases this
        obtain ⟨f, hf, hf'⟩ := a
        exact (hf' (h.2 f hf)).elim
  · have hk : ∀ k, ¬ Begins z.stream file k := by
      rintro k ⟨h', s', b, a1, -⟩
      exact h2 _ _ a1
    simp only [e]
    refine ⟨fun i => ⟨(nomatch ·), fun h => (hk _ h.1).elim⟩, ⟨fun _ => .inr (.inr ⟨h1, h2⟩), fun _ => by first | rfl | trivial⟩, ⟨(nomatch ·), ?_⟩⟩
    rintro (⟨n, a, a'⟩ | ⟨_, _, a, -⟩)
    · have := h1 n a; omega
    · exact (h2 _ _ a).elim

/-! ## A block no writer would make

A table of strings in two parts, an unknown field between them, a plain node without metadata, and dense nodes without metadata whose ids leave the range of `i64`. -/

/-- The message. -/
def exOddData : Bytes :=
  [0x0a, 2, 0x0a, 0,
   0x12, 8, 0x0a, 6, 0x08, 2, 0x40, 0, 0x48, 0,
   0x12, 0x17, 0x12, 0x15, 0x0a, 11, 0xfe, 0xff, 0xff, 0xff, 0xff, 0xff, 0xff, 0xff, 0xff, 1, 2, 0x42, 2, 0, 0, 0x4a, 2, 0, 0,
   0x7a, 1, 0xff,
   0x0a, 3, 0x0a, 1, 0x61]

/-- The blob, with its data given twice: the last one counts. -/
def exOddBlob : Bytes := [0x0a, 1, 7, 0x0a, 47] ++ exOddData

/-- Its elements: the ids of the dense nodes are 2^63 - 1 and, one more, -2^63. -/
def exOddElements : List Element :=
  [.node ⟨1, 0, ⟨0, 0⟩, -1, -1, -1, "", true, []⟩,
   .node ⟨9223372036854775807, 0, ⟨0, 0⟩, 0, -1, -1, "", true, []⟩,
   .node ⟨-9223372036854775808, 0, ⟨0, 0⟩, 0, -1, -1, "", true, []⟩]

theorem exOdd_read : FileBlock.deserialize exZ "OSMData" exOddBlob = .ok (.data exOddElements) := by decide +kernel

example : ∃ p, IsData exZ.stream "OSMData" exOddBlob p ∧ Spec.Meaning.Block p exOddElements :=
  ((C86_block exZ "OSMData" exOddBlob (by decide)).2.1 _).1 exOdd_read

/-- The same with a byte of the second string cut off: not a message. -/
example : ¬ Unsized (exOddBlob.take 48) ∧ ∀ p, ¬ IsData exZ.stream "OSMData" (exOddBlob.take 48) p := by
  have := (C86_block exZ "OSMData" (exOddBlob.take 48) (by decide)).2.2.2.1 (by decide +kernel)
  exact ⟨this.1, this.2.2⟩

/-- A header that says nothing. -/
def exOddInfo : FileInfo := ⟨none, [], [], none, none, none, none, none⟩

/-- A header frame and the odd block, then half a frame header. -/
def exOddFile : Bytes :=
  [0, 0, 0, 13, 0x0a, 9, 0x4f, 0x53, 0x4d, 0x48, 0x65, 0x61, 0x64, 0x65, 0x72, 0x18, 2, 0x0a, 0] ++
  [0, 0, 0, 11, 0x0a, 7, 0x4f, 0x53, 0x4d, 0x44, 0x61, 0x74, 0x61, 0x18, 52] ++ exOddBlob ++ [0, 0]

theorem exOddFile_blocks : takeBlocks exZ exOddFile (exOddFile.length + 1) {} = ([.header exOddInfo, .data exOddElements], .done) := by decide +kernel

example : Walk exZ.stream exOddFile 0 [.header exOddInfo, .data exOddElements] false := by
  refine ((C86_blocks exZ exOddFile (by decide) (exOddFile.length + 1) (by omega)).2 _ _).2 ?_
  rw [exOddFile_blocks]; exact ⟨rfl, by simp⟩

example : ReadsElements exZ exOddFile exOddElements .done := by
  refine (C86_elements exZ exOddFile (by decide) _ _).2 ⟨_, false, false,
    ((C86_blocks exZ exOddFile (by decide) (exOddFile.length + 1) (by omega)).2 [.header exOddInfo, .data exOddElements] _).2 ?_, ?_, rfl⟩
  · rw [exOddFile_blocks]; exact ⟨rfl, by simp⟩
  · have := Delivers.data (es := exOddElements) (rest := []) (panic := false) .nil
    rwa [List.append_nil] at this

example : ∀ i, openReader exZ exOddFile = .ok i → Begins exZ.stream exOddFile (.header i) := fun i h =>
  (((C86_open exZ exOddFile (by decide)).1 i).1 h).1

example : openReader exZ exOddFile = .ok exOddInfo := by decide +kernel

end OsmIo
