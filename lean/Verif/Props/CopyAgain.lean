import Verif.Props.Pipelines
import Verif.Spec.CopyAgain
/-! # C91: copying a copy -/
set_option linter.unusedSimpArgs false
set_option linter.flexible false
namespace OsmIo
open Wire Spec

theorem data_quant (z : Zlib) (c : CompressionType) (es : List Element) (h : ∀ e ∈ es, InRange e) :
    (FileBlock.data (es.map Element.quant)).serialize z c = (FileBlock.data es).serialize z c := by
  unfold FileBlock.serialize
  have : (FileBlock.data (es.map Element.quant)).payload = (FileBlock.data es).payload := by
    simp only [FileBlock.payload, serialize_quant es h]
  rw [this]

/-- Two writers that have got the same elements, one of them after rounding. -/
structure SimWriter (w v : Writer) : Prop where
  compression : v.compression = w.compression
  file : v.file = w.file
  size : v.acc.block_size = w.acc.block_size
  state : v.acc.state = w.acc.state
  elements : v.acc.elements = w.acc.elements.map Element.quant
  range : ∀ e ∈ w.acc.elements, InRange e

theorem SimWriter.writeElements {z : Zlib} {w v : Writer} (h : SimWriter w v) (es : List Element) (hr : ∀ e ∈ es, InRange e) :
    SimWriter (w.writeElements z es) (v.writeElements z (es.map Element.quant)) := by
  obtain ⟨h2, h3, h4, h5, h6, h7⟩ := h
  unfold Writer.writeElements Writer.writeFileBlock Writer.writeBlob
  refine ⟨h2, ?_, h4, h5, h6, h7⟩
  simp only [h2, h3, data_quant z _ es hr]

theorem SimWriter.push {a b : Accumulator} (h1 : b.block_size = a.block_size) (h2 : b.state = a.state) (h3 : b.elements = a.elements.map Element.quant)
    (h4 : ∀ e ∈ a.elements, InRange e) (e : Element) (he : InRange e) :
    (b.push e.quant).1 = (a.push e).1.map (·.map Element.quant) ∧ (b.push e.quant).2.block_size = (a.push e).2.block_size ∧
    (b.push e.quant).2.state = (a.push e).2.state ∧ (b.push e.quant).2.elements = (a.push e).2.elements.map Element.quant ∧
    (∀ x ∈ (a.push e).2.elements, InRange x) ∧ ∀ l, (a.push e).1 = some l → ∀ x ∈ l, InRange x := by
  have hall : ∀ x ∈ a.elements ++ [e], InRange x := by
    intro x hx
    rcases List.mem_append.mp hx with hx | hx
    · exact h4 x hx
    · rw [List.mem_singleton.mp hx]; exact he
  have hl : (b.elements ++ [e.quant]).length = (a.elements ++ [e]).length := by simp [h3]
  unfold Accumulator.push
  simp only [hl, h1]
  split
  · refine ⟨by simp [h3], rfl, h2, by simp, by simp, ?_⟩
    rintro l ⟨⟩
    exact hall
  · exact ⟨rfl, rfl, h2, by simp [h3], hall, by simp⟩

theorem SimWriter.writeElement {z : Zlib} {w v w' : Writer} (h : SimWriter w v) (e : Element) (he : InRange e) (hw : w.writeElement z e = .ok w') :
    ∃ v', v.writeElement z e.quant = .ok v' ∧ SimWriter w' v' := by
  obtain ⟨h2, h3, h4, h5, h6, h7⟩ := h
  -- what `add` does
  have key : ∀ r, w.acc.add e = .ok r → ∃ r', v.acc.add e.quant = .ok r' ∧ r'.1 = r.1.map (·.map Element.quant) ∧ r'.2.block_size = r.2.block_size ∧
      r'.2.state = r.2.state ∧ r'.2.elements = r.2.elements.map Element.quant ∧ (∀ x ∈ r.2.elements, InRange x) ∧ ∀ l, r.1 = some l → ∀ x ∈ l, InRange x := by
    intro r hr
    have hp := SimWriter.push h4 h5 h6 h7 e he
    have hq : ∀ st, _ := fun st => SimWriter.push (a := { w.acc with state := st, elements := [] }) (b := { v.acc with state := st, elements := [] })
      h4 rfl rfl (by simp) e he
    unfold Accumulator.add at hr ⊢
    rw [h5]
    cases hs : w.acc.state <;> cases e <;> simp only [hs, Element.quant, reduceCtorEq, Out.ok.injEq] at hr hp hq ⊢
    all_goals first
      | (subst hr; exact ⟨_, rfl, hp⟩)
      | (subst hr
         refine ⟨_, rfl, by simp [h6], (hq _).2.1, (hq _).2.2.1, (hq _).2.2.2.1, (hq _).2.2.2.2.1, ?_⟩
         rintro l ⟨⟩
         exact h7)
      | (subst hr; exact ⟨_, rfl, rfl, h4, h5, h6, h7, by simp⟩)
  unfold Writer.writeElement at hw ⊢
  rw [Out.bind_eq_ok] at hw
  obtain ⟨r, hr, hw⟩ := hw
  obtain ⟨r', k1, k2, k3, k4, k5, k6, k7⟩ := key r hr
  rw [k1]
  obtain ⟨o, a⟩ := r
  obtain ⟨o', a'⟩ := r'
  simp only at k2 k3 k4 k5 k6 k7 hw
  have hsim : SimWriter { w with acc := a } { v with acc := a' } := ⟨h2, h3, k3, k4, k5, k6⟩
  cases o with
  | none =>
    simp only [Option.map_none] at k2
    subst k2
    simp only [Out.ok.injEq] at hw
    subst hw
    exact ⟨_, rfl, hsim⟩
  | some l =>
    simp only [Option.map_some] at k2
    subst k2
    simp only [Out.ok.injEq] at hw
    subst hw
    exact ⟨_, rfl, hsim.writeElements l (k7 l rfl)⟩

theorem SimWriter.writeAll {z : Zlib} (es : List Element) : ∀ {w v w' : Writer}, SimWriter w v → (∀ e ∈ es, InRange e) → w.writeAll z es = .ok w' →
    ∃ v', v.writeAll z (es.map Element.quant) = .ok v' ∧ SimWriter w' v' := by
  induction es with
  | nil => intro w v w' h _ hw; simp [Writer.writeAll] at hw; subst hw; exact ⟨v, rfl, h⟩
  | cons e es ih =>
    intro w v w' h hr hw
    rw [Writer.writeAll, Out.bind_eq_ok] at hw
    obtain ⟨w1, h1, h2⟩ := hw
    obtain ⟨v1, k1, k2⟩ := h.writeElement e (hr e (by simp)) h1
    obtain ⟨v', k3, k4⟩ := ih k2 (fun x hx => hr x (by simp [hx])) h2
    refine ⟨v', ?_, k4⟩
    rw [List.map_cons, Writer.writeAll, k1]
    exact k3

theorem SimWriter.close {z : Zlib} {w v : Writer} (h : SimWriter w v) : (v.close z).file = (w.close z).file := by
  unfold Writer.close Accumulator.take
  simp only [h.elements, List.isEmpty_map]
  split
  · exact h.file
  · exact (SimWriter.writeElements (w := { w with acc := { w.acc with elements := [] } }) (v := { v with acc := { v.acc with elements := [] } })
      ⟨h.compression, h.file, h.size, h.state, rfl, by simp⟩ w.acc.elements h.range).file

theorem header_settled {info : FileInfo} (hb : ∀ b, info.bounding_box = some b → SettledBox b) :
    toHeaderBlock (fromHeaderBlock (toHeaderBlock info)) = toHeaderBlock info := by
  unfold toHeaderBlock fromHeaderBlock
  cases h : info.bounding_box with
  | none => simp
  | some b =>
    obtain ⟨h1, h2, h3, h4⟩ := hb b h
    unfold SettledSide at h1 h2 h3 h4
    simp [headerBBox, h1, h2, h3, h4]

/-- C91. Reading a file written by this library and writing what was read, with the same settings, gives the same file again, byte for byte. -/
theorem C91_rewrite (z : Zlib) (hz : z.Lossless) (c : CompressionType) (info : FileInfo) (es : List Element) (w : Writer)
    (hn : ¬ EmptyInfo info) (hh : HeaderFits z c info) (hs : ∀ f ∈ info.required_features, Supported f)
    (hb : ∀ b, info.bounding_box = some b → SettledBox b) (hfit : RunsFit z c (realOnes es)) (hr : ∀ e ∈ realOnes es, InRange e)
    (hw : ((Writer.fromFileInfo info c).writeHeader z).writeAll z es = .ok w) :
    ∃ info' es' w', openReader z (w.close z).file = .ok info' ∧ ReadsElements z (w.close z).file es' .done ∧
      ((Writer.fromFileInfo info' c).writeHeader z).writeAll z es' = .ok w' ∧ (w'.close z).file = (w.close z).file := by
  obtain ⟨h1, it, h2⟩ := written_reads hz hn hh hfit hw
  have ho : openReader z (w.close z).file = .ok (fromHeaderBlock (toHeaderBlock info)) := (C17_open_iff z _ _).2 ⟨⟨it, h2⟩, hs⟩
  rw [writeAll_realOnes] at hw
  have hserial : serializeHeader (fromHeaderBlock (toHeaderBlock info)) = serializeHeader info := by
    unfold serializeHeader
    rw [header_settled hb]
  have hpay : (FileBlock.header (fromHeaderBlock (toHeaderBlock info))).serialize z c = (FileBlock.header info).serialize z c := by
    unfold FileBlock.serialize
    have : (FileBlock.header (fromHeaderBlock (toHeaderBlock info))).payload = (FileBlock.header info).payload := by
      simp only [FileBlock.payload, hserial]
    rw [this]
  have hsim : SimWriter ((Writer.fromFileInfo info c).writeHeader z) ((Writer.fromFileInfo (fromHeaderBlock (toHeaderBlock info)) c).writeHeader z) := by
    refine ⟨rfl, ?_, rfl, rfl, rfl, by simp [Writer.writeHeader, Writer.writeFileBlock, Writer.writeBlob, Writer.fromFileInfo, Accumulator.new]⟩
    simp only [Writer.writeHeader, Writer.writeFileBlock, Writer.writeBlob, Writer.fromFileInfo, hpay]
  obtain ⟨w', k1, k2⟩ := hsim.writeAll _ hr hw
  exact ⟨_, _, w', ho, h1, k1, k2.close⟩

/-- C91. Copying a copy: whatever file `pbf-io` has copied, keeping some of its elements, a second run on the result (keeping all) writes the same file. -/
theorem C91_copy_again (z : Zlib) (hz : z.Lossless) (keep : Element → Bool) (program : String) (c : CompressionType) (file out : Bytes)
    (h : PbfIo z keep program c file (.ok out)) (info : FileInfo) (ho : openReader z file = .ok info)
    (hh : HeaderFits z c { info with writingprogram := some program }) (hb : ∀ b, info.bounding_box = some b → SettledBox b)
    (es : List Element) (hes : ReadsElements z file es .done) (hfit : RunsFit z c (realOnes (es.filter keep))) (hr : ∀ e ∈ realOnes (es.filter keep), InRange e)
    (r : Out Bytes) : PbfIo z (fun _ => true) program c out r ↔ r = .ok out := by
  unfold PbfIo at h
  rw [ho] at h
  obtain ⟨es1, e1, hread, h⟩ := h
  obtain ⟨rfl, rfl⟩ := reads_det hes hread
  have h := h.symm
  rw [Out.bind_eq_ok] at h
  obtain ⟨w, hw, hout⟩ := h
  simp only [Out.ok.injEq] at hout
  subst hout
  have hsup := ((C17_open_iff z file info).1 ho).2
  obtain ⟨info', es', w', k1, k2, k3, k4⟩ := C91_rewrite z hz c { info with writingprogram := some program } (es.filter keep) w (by simp [EmptyInfo]) hh hsup hb hfit hr hw
  obtain ⟨-, it, j2⟩ := written_reads hz (by simp [EmptyInfo]) hh hfit hw
  have hi : info' = fromHeaderBlock (toHeaderBlock { info with writingprogram := some program }) := by
    have := (C17_open_iff z _ _).2 ⟨⟨it, j2⟩, hsup⟩
    rw [k1] at this
    simpa using this
  have hprog : { info' with writingprogram := some program } = info' := by rw [hi]; rfl
  rw [pbfIo_iff k1 (es := es') (fun es'' r => ⟨fun h => by obtain ⟨a, b⟩ := reads_det h k2; exact ⟨a, b⟩, fun ⟨a, b⟩ => by rw [a, b]; exact k2⟩),
    hprog, List.filter_eq_self.2 (by simp), k3]
  simp only [Out.ok_bind, k4]

/-- The nanodegree value stored for a side, with some room above 180 degrees. -/
theorem toNanodeg_spec181 (x : F64) (hx : |x| ≤ 181) : |((toNanodeg x).toInt : ℚ) - x * 10 ^ 9| < 1 + 1 / 40000 ∧
    |(toNanodeg x).toInt| ≤ 2 ^ 53 := by
  unfold toNanodeg F64.mul F64.toI64
  have h1 := rnd_err (x * 1000000000)
  have h2 : |x * 1000000000| ≤ 181 * 10 ^ 9 := by rw [abs_mul]; norm_num; linarith
  have h3 : |rnd (x * 1000000000) - x * 1000000000| ≤ 1 / 45000 := by
    refine h1.trans ?_
    calc (1 : ℚ) / 2 ^ 53 * |x * 1000000000| ≤ 1 / 2 ^ 53 * (181 * 10 ^ 9) := by gcongr
      _ ≤ 1 / 45000 := by norm_num
  set y := rnd (x * 1000000000) with hy
  have h4 : |y| ≤ 181 * 10 ^ 9 + 1 := by
    have := abs_sub_abs_le_abs_sub y (x * 1000000000)
    have : (1 : ℚ) / 45000 ≤ 1 := by norm_num
    linarith
  have h5 : |(F64.trunc y : ℚ) - y| < 1 := by
    unfold F64.trunc
    split
    · have a := Int.floor_le y; have b := Int.lt_floor_add_one y
      rw [abs_lt]; constructor <;> linarith
    · have a := Int.le_ceil y; have b := Int.ceil_lt_add_one y
      rw [abs_lt]; constructor <;> linarith
  have h6 : |(F64.trunc y : ℚ)| < 181 * 10 ^ 9 + 2 := by
    have := abs_sub_abs_le_abs_sub (F64.trunc y : ℚ) y
    linarith
  have h7 : |F64.trunc y| < 181 * 10 ^ 9 + 2 := by exact_mod_cast h6
  rw [abs_lt] at h7
  have h8 : max (-9223372036854775808) (min 9223372036854775807 (F64.trunc y)) = F64.trunc y := by
    rw [min_eq_right (by omega), max_eq_right (by omega)]
  rw [h8, toInt_ofInt64 (by omega) (by omega)]
  constructor
  · calc |(F64.trunc y : ℚ) - x * 10 ^ 9| = |((F64.trunc y : ℚ) - y) + (y - x * 1000000000)| := by norm_num
      _ ≤ |(F64.trunc y : ℚ) - y| + |y - x * 1000000000| := abs_add_le _ _
      _ < 1 + 1 / 45000 := by linarith
      _ ≤ 1 + 1 / 40000 := by norm_num
  · rw [abs_le]; constructor <;> omega

theorem fromNanodeg_near {n : Int64} (h : |n.toInt| ≤ 182 * 10 ^ 9) : |fromNanodeg n - (n.toInt : ℚ) / 10 ^ 9| ≤ 1 / 10 ^ 12 := by
  unfold fromNanodeg F64.div
  have hq : |(n.toInt : ℚ)| ≤ 182 * 10 ^ 9 := by exact_mod_cast h
  have h' : |n.toInt| ≤ 2 ^ 53 := h.trans (by norm_num)
  rw [F64.ofI64_eq _ h']
  have h4 := rnd_err ((n.toInt : ℚ) / 1000000000)
  have h5 : |(n.toInt : ℚ) / 1000000000| ≤ 182 := by
    rw [abs_div, abs_of_pos (by norm_num : (0 : ℚ) < 1000000000), div_le_iff₀ (by norm_num)]
    linarith
  have h6 : (1 : ℚ) / 2 ^ 53 * |(n.toInt : ℚ) / 1000000000| ≤ 1 / 2 ^ 53 * 182 := by gcongr
  have h7 : (1 : ℚ) / 2 ^ 53 * 182 ≤ 1 / 10 ^ 12 := by norm_num
  have e : (n.toInt : ℚ) / 10 ^ 9 = (n.toInt : ℚ) / 1000000000 := by norm_num
  rw [e]
  linarith

theorem settled_of_same {x : F64} (hx : |x| ≤ 180) (h : fromNanodeg (toNanodeg (fromNanodeg (toNanodeg x))) = fromNanodeg (toNanodeg x)) : SettledSide x := by
  have bound : ∀ y : F64, |y| ≤ 181 → |(toNanodeg y).toInt| ≤ 182 * 10 ^ 9 := by
    intro y hy
    obtain ⟨h1, -⟩ := toNanodeg_spec181 y hy
    have h2 : |((toNanodeg y).toInt : ℚ)| ≤ 182 * 10 ^ 9 := by
      have := abs_sub_abs_le_abs_sub ((toNanodeg y).toInt : ℚ) (y * 10 ^ 9)
      rw [abs_mul, abs_of_pos (by norm_num : (0 : ℚ) < 10 ^ 9)] at this
      have h3 : |y| * 10 ^ 9 ≤ 181 * 10 ^ 9 := by gcongr
      norm_num at this h1 h3 ⊢
      linarith
    exact_mod_cast h2
  have b1 := bound x (by linarith)
  have n1 := fromNanodeg_near b1
  have hy : |fromNanodeg (toNanodeg x)| ≤ 181 := by
    have h1 := C16_bbox_side x hx
    have := abs_sub_abs_le_abs_sub (fromNanodeg (toNanodeg x)) x
    have : (10001 : ℚ) / 10 ^ 13 ≤ 1 := by norm_num
    linarith
  have b2 := bound _ hy
  have n2 := fromNanodeg_near b2
  rw [h] at n2
  unfold SettledSide
  apply Int64.toInt_inj.1
  generalize (toNanodeg (fromNanodeg (toNanodeg x))).toInt = a at *
  generalize (toNanodeg x).toInt = b at *
  generalize fromNanodeg (toNanodeg x) = f at *
  have h3 : |(a : ℚ) - b| < 1 := by
    rw [abs_le] at n1 n2
    rw [abs_lt]
    constructor <;> norm_num at n1 n2 ⊢ <;> linarith
  have h4 : |a - b| < 1 := by exact_mod_cast h3
  rw [Int.abs_lt_one_iff] at h4
  omega

/-- C91. The condition on the box is needed: unless its sides are settled, the second file differs from the first. -/
theorem C91_box_moves (z : Zlib) (hz : z.Lossless) (c : CompressionType) (info : FileInfo) (es : List Element) (w : Writer) (b : BoundingBox)
    (hh : HeaderFits z c info) (hs : ∀ f ∈ info.required_features, Supported f) (hb : info.bounding_box = some b) (hr : BoxInRange b) (hns : ¬ SettledBox b)
    (hw : ((Writer.fromFileInfo info c).writeHeader z).writeAll z es = .ok w)
    (info' : FileInfo) (ho : openReader z (w.close z).file = .ok info') (hh' : HeaderFits z c info')
    (es' : List Element) (w' : Writer) (hw' : ((Writer.fromFileInfo info' c).writeHeader z).writeAll z es' = .ok w') :
    (w'.close z).file ≠ (w.close z).file := by
  have starts : ∀ (i : FileInfo) (l : List Element) (v : Writer), ((Writer.fromFileInfo i c).writeHeader z).writeAll z l = .ok v →
      ∃ rest, (v.close z).file = ((Writer.fromFileInfo i c).writeHeader z).file ++ rest := by
    intro i l v hv
    obtain ⟨blocks, hf, -⟩ := C11_C12_writer_blocks z c i l v hv
    refine ⟨blockBytes z c (blocks.map .data), ?_⟩
    rw [hf]
    simp [Writer.writeHeader, Writer.writeFileBlock, Writer.writeBlob, Writer.fromFileInfo, blockBytes]
  obtain ⟨rest, h1⟩ := starts info es w hw
  obtain ⟨rest', h1'⟩ := starts info' es' w' hw'
  obtain ⟨i, h2, h3, h4⟩ := C15_header_roundtrip z hz c info rest (by simp [EmptyInfo, hb]) hh hs
  rw [← h1, ho] at h2
  simp only [Out.ok.injEq] at h2
  subst h2
  rw [hb] at h4
  obtain ⟨i, k2, -, k4⟩ := C15_header_roundtrip z hz c info' rest' (by simp [EmptyInfo, h4]) hh' (by rw [h3]; exact hs)
  intro heq
  rw [← h1', heq, ho] at k2
  simp only [Out.ok.injEq] at k2
  subst k2
  rw [h4] at k4
  simp only [Option.map_some, Option.some.injEq, BoundingBox.mk.injEq] at k4
  obtain ⟨r1, r2, r3, r4⟩ := hr
  obtain ⟨e1, e2, e3, e4⟩ := k4
  exact hns ⟨settled_of_same r1 e1.symm, settled_of_same r2 e2.symm, settled_of_same r3 e3.symm, settled_of_same r4 e4.symm⟩

/-- Written again, a number of nanodegrees stays or loses one towards zero. -/
theorem again_le {n : Int64} (h : |n.toInt| ≤ 180 * 10 ^ 9 + 10) :
    |(toNanodeg (fromNanodeg n)).toInt| ≤ |n.toInt| ∧ |(toNanodeg (fromNanodeg n)).toInt - n.toInt| ≤ 1 := by
  have hrel : ∀ q : ℚ, |rnd q| ≤ |q| * (1 + 1 / 2 ^ 53) := by
    intro q
    have h := rnd_err q
    have := abs_sub_abs_le_abs_sub (rnd q) q
    nlinarith
  have htr : ∀ y : ℚ, |(F64.trunc y : ℚ)| ≤ |y| := by
    intro y
    unfold F64.trunc
    split
    · rename_i h
      rw [abs_of_nonneg h, abs_of_nonneg (by exact_mod_cast Int.floor_nonneg.mpr h)]
      exact Int.floor_le y
    · rename_i h
      have h : y < 0 := not_le.mp h
      have hc : ⌈y⌉ ≤ 0 := Int.ceil_le.mpr (by exact_mod_cast h.le)
      rw [abs_of_neg h, abs_of_nonpos (by exact_mod_cast hc)]
      have := Int.le_ceil y
      linarith
  have hq : |(n.toInt : ℚ)| ≤ 180 * 10 ^ 9 + 10 := by exact_mod_cast h
  have h53 : |n.toInt| ≤ 2 ^ 53 := h.trans (by norm_num)
  have hy : |fromNanodeg n| ≤ |(n.toInt : ℚ)| / 1000000000 * (1 + 1 / 2 ^ 53) := by
    unfold fromNanodeg F64.div
    rw [F64.ofI64_eq _ h53]
    refine (hrel _).trans ?_
    rw [abs_div, abs_of_pos (by norm_num : (0 : ℚ) < 1000000000)]
  have hnear := fromNanodeg_near (n := n) (h.trans (by norm_num))
  set y := fromNanodeg n with hydef
  clear_value y
  constructor
  · have hm : |((toNanodeg y).toInt : ℚ)| ≤ |y * 1000000000| * (1 + 1 / 2 ^ 53) := by
      refine le_trans ?_ (hrel (y * 1000000000))
      refine le_trans ?_ (htr (rnd (y * 1000000000)))
      unfold toNanodeg F64.mul F64.toI64
      generalize F64.trunc (rnd (y * 1000000000)) = t
      have h3 : (Int64.ofInt (max (-9223372036854775808) (min 9223372036854775807 t))).toInt =
          max (-9223372036854775808) (min 9223372036854775807 t) := toInt_ofInt64 (by omega) (by omega)
      rw [h3]
      have : |max (-9223372036854775808) (min 9223372036854775807 t)| ≤ |t| := by
        rw [abs_le]
        rcases abs_cases t with ⟨h, h'⟩ | ⟨h, h'⟩ <;> rw [h] <;> constructor <;> omega
      exact_mod_cast this
    rw [abs_mul, abs_of_pos (by norm_num : (0 : ℚ) < 1000000000)] at hm
    have h2 : |((toNanodeg y).toInt : ℚ)| < |(n.toInt : ℚ)| + 1 := by
      generalize |((toNanodeg y).toInt : ℚ)| = m at *
      generalize |(n.toInt : ℚ)| = k at *
      have e1 : |y| * 1000000000 * (1 + 1 / 2 ^ 53) ≤ k / 1000000000 * (1 + 1 / 2 ^ 53) * 1000000000 * (1 + 1 / 2 ^ 53) := by gcongr
      have e2 : k / 1000000000 * (1 + 1 / 2 ^ 53) * 1000000000 * (1 + 1 / 2 ^ 53) = k + k * (2 / 2 ^ 53 + 1 / 2 ^ 106) := by ring
      have e3 : k * (2 / 2 ^ 53 + 1 / 2 ^ 106) ≤ (180 * 10 ^ 9 + 10) * (2 / 2 ^ 53 + 1 / 2 ^ 106) := by gcongr
      have e4 : ((180 : ℚ) * 10 ^ 9 + 10) * (2 / 2 ^ 53 + 1 / 2 ^ 106) < 1 := by norm_num
      linarith
    have h3 : |(toNanodeg y).toInt| < |n.toInt| + 1 := by exact_mod_cast h2
    omega
  · have hy1 : |y| ≤ 181 := by
      refine hy.trans ?_
      calc |(n.toInt : ℚ)| / 1000000000 * (1 + 1 / 2 ^ 53) ≤ (180 * 10 ^ 9 + 10) / 1000000000 * (1 + 1 / 2 ^ 53) := by gcongr
        _ ≤ 181 := by norm_num
    obtain ⟨h1, -⟩ := toNanodeg_spec181 y hy1
    have h2 : |((toNanodeg y).toInt : ℚ) - n.toInt| < 2 := by
      rw [abs_lt] at h1 ⊢
      rw [abs_le] at hnear
      norm_num at h1 hnear ⊢
      constructor <;> linarith
    have h3 : |(toNanodeg y).toInt - n.toInt| < 2 := by exact_mod_cast h2
    omega

/-- A side after it has been written and read back. -/
def backSide (x : F64) : F64 := fromNanodeg (toNanodeg x)

theorem side_settles {x : F64} (hx : |x| ≤ 180) : ∃ n, ∀ k ≥ n, SettledSide (backSide^[k] x) := by
  have semi : ∀ k, toNanodeg (backSide^[k] x) = (fun n => toNanodeg (fromNanodeg n))^[k] (toNanodeg x) := by
    intro k
    induction k with
    | zero => rfl
    | succ k ih =>
      rw [Function.iterate_succ_apply', Function.iterate_succ_apply', ← ih]
      rfl
  have settle : ∀ (N : Nat) (n : Int64), |n.toInt| ≤ 180 * 10 ^ 9 + 10 → n.toInt.natAbs ≤ N →
      ∃ K, ∀ k ≥ K, toNanodeg (fromNanodeg ((fun n => toNanodeg (fromNanodeg n))^[k] n)) = (fun n => toNanodeg (fromNanodeg n))^[k] n := by
    intro N
    induction N with
    | zero =>
      intro n hn h0
      have hfix : toNanodeg (fromNanodeg n) = n := by
        obtain ⟨a, -⟩ := again_le hn
        apply Int64.toInt_inj.1
        generalize (toNanodeg (fromNanodeg n)).toInt = m at *
        rw [Int.abs_eq_natAbs, Int.abs_eq_natAbs] at a
        omega
      exact ⟨0, fun k _ => by rw [Function.iterate_fixed hfix k]; exact hfix⟩
    | succ N ih =>
      intro n hn h0
      by_cases hfix : toNanodeg (fromNanodeg n) = n
      · exact ⟨0, fun k _ => by rw [Function.iterate_fixed hfix k]; exact hfix⟩
      · obtain ⟨a, b⟩ := again_le hn
        have hne : (toNanodeg (fromNanodeg n)).toInt ≠ n.toInt := fun h => hfix (Int64.toInt_inj.1 h)
        obtain ⟨K, hK⟩ := ih (toNanodeg (fromNanodeg n)) (a.trans hn) (by
          generalize (toNanodeg (fromNanodeg n)).toInt = m at *
          generalize n.toInt = i at *
          rw [Int.abs_eq_natAbs, Int.abs_eq_natAbs] at a
          rw [Int.abs_eq_natAbs] at b
          omega)
        refine ⟨K + 1, fun k hk => ?_⟩
        obtain ⟨k, rfl⟩ : ∃ j, k = j + 1 := ⟨k - 1, by omega⟩
        rw [Function.iterate_succ_apply]
        exact hK k (by omega)
  obtain ⟨K, hK⟩ := settle (toNanodeg x).toInt.natAbs (toNanodeg x) (by
    obtain ⟨h1, -⟩ := toNanodeg_spec181 x (by linarith)
    have h2 : |((toNanodeg x).toInt : ℚ)| ≤ 180 * 10 ^ 9 + 10 := by
      have := abs_sub_abs_le_abs_sub ((toNanodeg x).toInt : ℚ) (x * 10 ^ 9)
      rw [abs_mul, abs_of_pos (by norm_num : (0 : ℚ) < 10 ^ 9)] at this
      have h3 : |x| * 10 ^ 9 ≤ 180 * 10 ^ 9 := by gcongr
      norm_num at this h1 h3 ⊢
      linarith
    exact_mod_cast h2) le_rfl
  refine ⟨K, fun k hk => ?_⟩
  unfold SettledSide
  rw [semi]
  exact hK k hk

/-- C91. But it does not move for ever: after some number of copies it stays. -/
theorem C91_box_settles (b : BoundingBox) (h : BoxInRange b) : ∃ n, ∀ k ≥ n, SettledBox (backBox^[k] b) := by
  obtain ⟨h1, h2, h3, h4⟩ := h
  obtain ⟨n1, k1⟩ := side_settles h1
  obtain ⟨n2, k2⟩ := side_settles h2
  obtain ⟨n3, k3⟩ := side_settles h3
  obtain ⟨n4, k4⟩ := side_settles h4
  refine ⟨max (max n1 n2) (max n3 n4), fun k hk => ?_⟩
  have sides : ∀ k, backBox^[k] b = ⟨backSide^[k] b.left, backSide^[k] b.bottom, backSide^[k] b.right, backSide^[k] b.top⟩ := by
    intro k
    induction k with
    | zero => rfl
    | succ k ih =>
      simp only [Function.iterate_succ_apply', ih]
      rfl
  rw [sides]
  exact ⟨k1 k (by omega), k2 k (by omega), k3 k (by omega), k4 k (by omega)⟩

/-- A box with a side of 1915 nanodegrees moves, one between whole degrees does not. -/
example : ¬ SettledBox ⟨rnd (1915 / 10 ^ 9), 0, 1, 1⟩ ∧ SettledBox ⟨rnd (-7), rnd 50, 8, 51⟩ := by
  unfold SettledBox SettledSide
  decide +kernel

/-- The sample stream (C09) with settled box sides, written, read and written again. -/
example : ∃ w info' es' w', ((Writer.fromFileInfo { exInfo with bounding_box := some ⟨rnd (-7), rnd 50, 8, 51⟩ } .zlib).writeHeader exZ).writeAll exZ exStream = .ok w ∧
    openReader exZ (w.close exZ).file = .ok info' ∧ ReadsElements exZ (w.close exZ).file es' .done ∧
    ((Writer.fromFileInfo info' .zlib).writeHeader exZ).writeAll exZ es' = .ok w' ∧ (w'.close exZ).file = (w.close exZ).file := by
  obtain ⟨w, hw⟩ := (C13_writer_accepts_iff exZ .zlib { exInfo with bounding_box := some ⟨rnd (-7), rnd 50, 8, 51⟩ } exStream).1.mpr exStream_layered
  obtain ⟨info', es', w', h⟩ := C91_rewrite exZ exZ_lossless .zlib { exInfo with bounding_box := some ⟨rnd (-7), rnd 50, 8, 51⟩ } exStream w
    (by simp [EmptyInfo]) ⟨by decide +kernel, by decide +kernel⟩ (by simp [exInfo, FileInfo.default, Supported])
    (by rintro b ⟨⟩; unfold SettledBox SettledSide; decide +kernel) exStream_fits (by
      have h1 : InRange (.node { exNode with id := 8 }) := by unfold InRange; decide +kernel
      have h2 : InRange (.node exNode) := by unfold InRange; decide +kernel
      intro e he
      have he : e ∈ [Element.node exNode, .node { exNode with id := 8 }, .way exWay, .relation exRelation] := he
      simp only [List.mem_cons, List.not_mem_nil, or_false] at he
      rcases he with rfl | rfl | rfl | rfl
      · exact h2
      · exact h1
      · trivial
      · trivial) hw
  exact ⟨w, info', es', w', hw, h⟩

end OsmIo
