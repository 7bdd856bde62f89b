import Verif.Model.Pipelines
import Verif.Spec.Pipelines
import Verif.Props.ApidbSortable
import Verif.Props.FormatMore
import Verif.Props.ApidbRoundTrip
import Verif.Props.ApidbTables
/-! # C61-C63: the conversion programs of `examples/` -/
set_option linter.unusedSimpArgs false
set_option linter.flexible false
namespace OsmIo
open Wire Spec

/-! ## C61: copying and filtering -/

/-- C61. On every file, the program ends, in exactly one way. -/
theorem C61_total (z : Zlib) (keep : Element → Bool) (program : String) (c : CompressionType) (file : Bytes) :
    ∃! r, PbfIo z keep program c file r := by
  unfold PbfIo
  cases openReader z file with
  | err => exact ⟨_, rfl, fun _ h => h⟩
  | panic => exact ⟨_, rfl, fun _ h => h⟩
  | ok info =>
    obtain ⟨es, e, h, _⟩ := C32_sequential_terminates z file
    refine ⟨_, ⟨es, e, h, rfl⟩, ?_⟩
    rintro r ⟨es', e', h', rfl⟩
    obtain ⟨rfl, rfl⟩ := reads_det h h'
    rfl

theorem pbfIo_iff {z : Zlib} {keep : Element → Bool} {program : String} {c : CompressionType} {file : Bytes} {info : FileInfo} {es : List Element}
    (ho : openReader z file = .ok info) (h : ∀ es' r, ReadsElements z file es' r ↔ es' = es ∧ r = .done) (r : Out Bytes) :
    PbfIo z keep program c file r ↔
      r = (do
        let w ← ((Writer.fromFileInfo { info with writingprogram := some program } c).writeHeader z).writeAll z (es.filter keep)
        .ok (w.close z).file) := by
  unfold PbfIo
  rw [ho]
  constructor
  · rintro ⟨es', e, h', rfl⟩
    obtain ⟨rfl, rfl⟩ := (h _ _).1 h'
    rfl
  · rintro rfl
    exact ⟨es, .done, (h _ _).2 ⟨rfl, rfl⟩, rfl⟩

theorem published_real {inflates : Format.Inflates} {info : FileInfo} {blocks : List (List Element)} {file : Bytes}
    (h : Format.IsFile inflates info blocks file) : ∀ e ∈ blocks.flatten, e.isSentinel = false := by
  obtain ⟨head, frames, -, -, h⟩ := h
  intro e he
  obtain ⟨b, hb, he⟩ := List.mem_flatten.1 he
  obtain ⟨i, hi, rfl⟩ := List.mem_iff_getElem.1 hb
  obtain ⟨data, p, -, -, -, -, gs, hgs, hf⟩ := h.get hi (h.length_eq ▸ hi)
  simp only [List.get_eq_getElem] at hgs
  rw [hgs] at he
  obtain ⟨g, hg, he⟩ := List.mem_flatten.1 he
  obtain ⟨j, hj, rfl⟩ := List.mem_iff_getElem.1 hg
  obtain ⟨-, dns, ns, ws, rs, heq, -⟩ := hf.get (hf.length_eq ▸ hj) hj
  simp only [List.get_eq_getElem] at heq
  rw [heq] at he
  simp only [List.mem_append, List.mem_map] at he
  rcases he with ((⟨x, -, rfl⟩ | ⟨x, -, rfl⟩) | ⟨x, -, rfl⟩) | ⟨x, -, rfl⟩ <;> rfl

theorem realOnes_eq {es : List Element} (h : ∀ e ∈ es, e.isSentinel = false) : realOnes es = es :=
  List.filter_eq_self.2 fun e he => by simp [h e he]

/-- C61. Copying the kept elements of a published file. If they are nodes, then ways, then relations, with a way before the first relation:
the new file is, by the published format, a file with the same metadata except for the program name, holding exactly the kept elements in
the same order (rounded) in blocks of at most 8000 elements of one kind. -/
theorem C61_copy (z : Zlib) (inflates : Format.Inflates) (hz : ∀ c d, inflates c d → z.stream c = d) (hz' : ∀ l d, inflates (z.deflate l d) d)
    (info : FileInfo) (blocks : List (List Element)) (file : Bytes) (h : Format.IsFile inflates info blocks file)
    (hs : ∀ f ∈ info.required_features, Supported f)
    (keep : Element → Bool) (program : String) (c : CompressionType) (kept : List Element) (hk : kept = blocks.flatten.filter keep)
    (hh : HeaderFits z c { info with writingprogram := some program }) (hb : ∀ b, info.bounding_box = some b → BoxInRange b)
    (hl : Layered kept) (hm : Format.Steps kept) (hr : ∀ e ∈ kept, InRange e) (hfit : RunsFit z c kept) :
    ∃ out info' blocks', (∀ r, PbfIo z keep program c file r ↔ r = .ok out) ∧ Format.IsFile inflates info' blocks' out ∧
      SameInfo info' { info with writingprogram := some program } ∧
      List.Forall₂ Rounded kept blocks'.flatten ∧ ∀ b ∈ blocks', b.length ≤ 8000 ∧ Homogeneous b := by
  have hreal : realOnes kept = kept := realOnes_eq fun e he => published_real h e (List.mem_of_mem_filter (hk ▸ he))
  obtain ⟨ho, hread⟩ := C58_file_read_as_published z inflates hz info blocks file h hs
  obtain ⟨w, hw⟩ := (C13_writer_accepts_iff z c { info with writingprogram := some program } kept).1.2 (by rwa [hreal])
  obtain ⟨info', blocks', h1, h2, h3, h4⟩ := C57_file_written_as_published z inflates hz' c { info with writingprogram := some program }
    kept w (by simp [EmptyInfo]) hh hb (by rwa [hreal]) (by rwa [hreal]) (by rwa [hreal]) hw
  refine ⟨(w.close z).file, info', blocks', fun r => ?_, h1, h4, by rwa [hreal] at h2, h3⟩
  rw [pbfIo_iff ho hread, ← hk, hw]
  rfl

/-- C61. If the kept elements need no rounding, the new file reads back as exactly these. -/
theorem C61_copy_exact (z : Zlib) (hl : z.Lossless) (inflates : Format.Inflates) (hz : ∀ c d, inflates c d → z.stream c = d)
    (info : FileInfo) (blocks : List (List Element)) (file : Bytes) (h : Format.IsFile inflates info blocks file)
    (hs : ∀ f ∈ info.required_features, Supported f)
    (keep : Element → Bool) (program : String) (c : CompressionType) (kept : List Element) (hk : kept = blocks.flatten.filter keep)
    (hh : HeaderFits z c { info with writingprogram := some program })
    (hl : Layered kept) (hx : ∀ e ∈ kept, Exact e) (hfit : RunsFit z c kept) :
    ∃ out, (∀ r, PbfIo z keep program c file r ↔ r = .ok out) ∧ (∃ info', openReader z out = .ok info' ∧ info'.writingprogram = some program) ∧
      ∀ es r, ReadsElements z out es r ↔ es = kept ∧ r = .done := by
  have hreal : realOnes kept = kept := realOnes_eq fun e he => published_real h e (List.mem_of_mem_filter (hk ▸ he))
  obtain ⟨ho, hread⟩ := C58_file_read_as_published z inflates hz info blocks file h hs
  obtain ⟨w, hw⟩ := (C13_writer_accepts_iff z c { info with writingprogram := some program } kept).1.2 (by rwa [hreal])
  have h1 := C09_file_roundtrip z ‹_› c { info with writingprogram := some program } kept w (by simp [EmptyInfo]) hh (by rwa [hreal]) hx hw
  refine ⟨(w.close z).file, fun r => ?_, ?_, by rwa [hreal] at h1⟩
  · rw [pbfIo_iff ho hread, ← hk, hw]
    rfl
  · obtain ⟨it, h2⟩ := (written_reads ‹_› (by simp [EmptyInfo]) hh (by rwa [hreal]) hw).2
    exact ⟨_, (C17_open_iff z _ _).2 ⟨⟨it, h2⟩, hs⟩, rfl⟩

/-- C61. If the kept elements are in another order, or relations are kept and all ways dropped, the program panics. -/
theorem C61_refused (z : Zlib) (inflates : Format.Inflates) (hz : ∀ c d, inflates c d → z.stream c = d)
    (info : FileInfo) (blocks : List (List Element)) (file : Bytes) (h : Format.IsFile inflates info blocks file)
    (hs : ∀ f ∈ info.required_features, Supported f) (keep : Element → Bool) (program : String) (c : CompressionType)
    (hl : ¬ Layered (blocks.flatten.filter keep)) (r : Out Bytes) : PbfIo z keep program c file r ↔ r = .panic := by
  have hreal : realOnes (blocks.flatten.filter keep) = blocks.flatten.filter keep :=
    realOnes_eq fun e he => published_real h e (List.mem_of_mem_filter he)
  obtain ⟨ho, hread⟩ := C58_file_read_as_published z inflates hz info blocks file h hs
  rw [pbfIo_iff ho hread, (C13_writer_accepts_iff z c { info with writingprogram := some program } (blocks.flatten.filter keep)).2 (by rwa [hreal])]
  rfl


/-! ## C62: a file into a dump -/

/-- C62. On every file, the program ends, in exactly one way. -/
theorem C62_total (z : Zlib) (cod : Apidb.Codec) (uc cc : Int64 → Int64) (file : Bytes) : ∃! r, PbfToApidb z cod uc cc file r := by
  unfold PbfToApidb
  cases openReader z file with
  | err => exact ⟨_, rfl, fun _ h => h⟩
  | panic => exact ⟨_, rfl, fun _ h => h⟩
  | ok info =>
    obtain ⟨es, e, h, _⟩ := C32_sequential_terminates z file
    refine ⟨_, ⟨es, e, h, rfl⟩, ?_⟩
    rintro r ⟨es', e', h', rfl⟩
    obtain ⟨rfl, rfl⟩ := reads_det h h'
    rfl

theorem pbfToApidb_iff {z : Zlib} {cod : Apidb.Codec} {uc cc : Int64 → Int64} {file : Bytes} {info : FileInfo} {es : List Element}
    (ho : openReader z file = .ok info) (h : ∀ es' r, ReadsElements z file es' r ↔ es' = es ∧ r = .done) (r : Out (Apidb.Table → Text)) :
    PbfToApidb z cod uc cc file r ↔
      r = (do
        let w ← Apidb.Writer.new.writeAll cod es
        let w' ← w.close uc cc
        .ok w'.files) := by
  unfold PbfToApidb
  rw [ho]
  constructor
  · rintro ⟨es', e, h', rfl⟩
    obtain ⟨rfl, rfl⟩ := (h _ _).1 h'
    rfl
  · rintro rfl
    exact ⟨es, .done, (h _ _).2 ⟨rfl, rfl⟩, rfl⟩

theorem toSqlTimeMillis_outOfRange {t : Int64} (h : ¬ Sql.inRange (t.toInt / 1000) = true) : Sql.toSqlTimeMillis t = .panic := by
  unfold Sql.toSqlTimeMillis; simp only; rw [if_neg h]

theorem writeAll_panics (cod : Apidb.Codec) (es : List Element) (h : ∃ e ∈ es, ¬ TimeOk e) :
    ∀ w : Apidb.Writer, w.writeAll cod es = .panic := by
  induction es with
  | nil => simp at h
  | cons e es ih =>
    intro w
    by_cases he : TimeOk e
    · obtain ⟨w1, h1⟩ := writeAll_total cod [e] (by simpa using he) w
      simp only [Apidb.Writer.writeAll] at h1 ⊢
      obtain ⟨w2, h2, h3⟩ := Out.bind_eq_ok.1 h1
      rw [h2, Out.ok_bind]
      obtain ⟨x, hx, hx'⟩ := h
      rcases List.mem_cons.1 hx with rfl | hx
      · exact absurd he hx'
      · exact ih ⟨x, hx, hx'⟩ w2
    · have : w.writeElement cod e = .panic := by
        cases e with
        | node n => simp only [Apidb.Writer.writeElement, Apidb.Writer.writeNode, toSqlTimeMillis_outOfRange he]; rfl
        | way n => simp only [Apidb.Writer.writeElement, Apidb.Writer.writeWay, toSqlTimeMillis_outOfRange he]; rfl
        | relation n => simp only [Apidb.Writer.writeElement, Apidb.Writer.writeRelation, toSqlTimeMillis_outOfRange he]; rfl
        | sentinel => exact absurd trivial he
      simp only [Apidb.Writer.writeAll, this]
      rfl

/-- C62. A published file becomes a dump of its elements in the order of the file if every timestamp can be represented (and the clock can);
the program panics if one cannot. -/
theorem C62_convert (z : Zlib) (inflates : Format.Inflates) (hz : ∀ c d, inflates c d → z.stream c = d)
    (info : FileInfo) (blocks : List (List Element)) (file : Bytes) (h : Format.IsFile inflates info blocks file)
    (hs : ∀ f ∈ info.required_features, Supported f) (cod : Apidb.Codec) (uc cc : Int64 → Int64)
    (hu : ∀ k, Sql.inRange ((uc k).toInt / 1000000) = true) (hc : ∀ k, Sql.inRange ((cc k).toInt / 1000000) = true) :
    ((∀ e ∈ blocks.flatten, TimeOk e) → ∃ files, (∀ r, PbfToApidb z cod uc cc file r ↔ r = .ok files) ∧ Dump cod uc cc blocks.flatten files) ∧
    ((∃ e ∈ blocks.flatten, ¬ TimeOk e) → ∀ r, PbfToApidb z cod uc cc file r ↔ r = .panic) := by
  obtain ⟨ho, hread⟩ := C58_file_read_as_published z inflates hz info blocks file h hs
  constructor
  · intro ht
    obtain ⟨files, w, w', h1, h2, rfl⟩ := dump_total cod uc cc _ ht hu hc
    refine ⟨_, fun r => ?_, w, w', h1, h2, rfl⟩
    rw [pbfToApidb_iff ho hread, h1, Out.ok_bind, h2]
    rfl
  · intro ht r
    rw [pbfToApidb_iff ho hread, writeAll_panics cod _ ht]
    rfl

/-! ## C63: a dump into a file -/

theorem yields_stop {S α : Type} {next : S → Out (Option α × S)} {s t u v : S} {as bs : List α} (h1 : Yields next s as t) (h2 : next t = .ok (none, u))
    (h3 : Yields next s bs v) : ¬ (next v = .panic ∨ next v = .err) := by
  induction h1 generalizing bs with
  | nil s =>
    cases h3 with
    | nil => rw [h2]; simp
    | cons h4 _ => rw [h2] at h4; simp at h4
  | cons h4 _ ih =>
    cases h3 with
    | nil => rw [h4]; simp
    | cons h5 h6 => rw [h4] at h5; simp at h5; obtain ⟨rfl, rfl⟩ := h5; exact ih h2 h6

/-- C63. On every dump and every sorted copy, the program ends, in exactly one way. -/
theorem C63_total (z : Zlib) (cod : Apidb.Codec) (tables : Apidb.Tables) (sorted : Apidb.Table → Text) (info : FileInfo) (c : CompressionType) :
    ∃! r, ApidbToPbf z cod tables sorted info c r := by
  unfold ApidbToPbf
  cases hit : Apidb.ElementIterator.new tables sorted with
  | err => exact ⟨_, rfl, fun _ h => h⟩
  | panic => exact ⟨_, rfl, fun _ h => h⟩
  | ok it =>
    obtain ⟨es, -, ⟨it', h⟩ | ⟨s, h, hp⟩⟩ := C45_ends cod tables sorted it hit
    · refine ⟨_, .inl ⟨es, it', h, rfl⟩, ?_⟩
      rintro r (⟨es', it'', h', rfl⟩ | ⟨es', s, h', hp, rfl⟩)
      · obtain ⟨rfl, rfl⟩ := Iterates.det h h'
        rfl
      · obtain ⟨s1, h1, h2⟩ := h
        exact absurd hp (yields_stop h1 h2 h')
    · refine ⟨_, .inr ⟨es, s, h, .inl hp, rfl⟩, ?_⟩
      rintro r (⟨es', it'', h', rfl⟩ | ⟨es', s, h', hp, rfl⟩)
      · obtain ⟨s1, h1, h2⟩ := h'
        exact absurd (.inl hp) (yields_stop h1 h2 h)
      · rfl

theorem apidbToPbf_iff {z : Zlib} {cod : Apidb.Codec} {tables : Apidb.Tables} {sorted : Apidb.Table → Text} {info : FileInfo} {c : CompressionType}
    {it it' : Apidb.ElementIterator} {es : List Element} (h1 : Apidb.ElementIterator.new tables sorted = .ok it)
    (h2 : Iterates (Apidb.ElementIterator.next cod) it es it') (r : Out Bytes) :
    ApidbToPbf z cod tables sorted info c r ↔
      r = (do
        let w ← ((Writer.fromFileInfo info c).writeHeader z).writeAll z es
        .ok (w.close z).file) := by
  unfold ApidbToPbf
  rw [h1]
  constructor
  · rintro (⟨es', it'', h', rfl⟩ | ⟨es', s, h', hp, rfl⟩)
    · obtain ⟨rfl, rfl⟩ := Iterates.det h2 h'
      rfl
    · obtain ⟨s1, h3, h4⟩ := h2
      exact absurd hp (yields_stop h3 h4 h')
  · rintro rfl
    exact .inl ⟨es, it', h2, rfl⟩

theorem realOnes_withSentinels (ns : List Node) (ws : List Way) (rs : List Relation) : realOnes (withSentinels ns ws rs) = together ns ws rs := by
  have e : ∀ {α : Type} (f : α → Element) (l : List α), (∀ a, (f a).isSentinel = false) → realOnes (l.map f) = l.map f := by
    intro α f l h
    exact realOnes_eq fun e he => by obtain ⟨a, -, rfl⟩ := List.mem_map.1 he; exact h a
  have e1 := e Element.node ns (fun _ => rfl)
  have e2 := e Element.way ws (fun _ => rfl)
  have e3 := e Element.relation rs (fun _ => rfl)
  unfold realOnes at *
  simp only [withSentinels, together, List.filter_append, e1, e2, e3]
  simp [Element.isSentinel]

theorem layered_together (ns : List Node) (ws : List Way) (rs : List Relation) : Layered (together ns ws rs) ↔ (rs ≠ [] → ws ≠ []) := by
  constructor
  · rintro ⟨ns', ws', rs', he, h1, h2, h3, h4⟩ hr rfl
    simp only [together, List.map_nil, List.append_nil] at he
    obtain ⟨r, rs, rfl⟩ := List.exists_cons_of_ne_nil hr
    have hws : ws' = [] := by
      apply List.eq_nil_iff_forall_not_mem.2
      intro e hm
      obtain ⟨w, rfl⟩ := h2 e hm
      have : Element.way w ∈ ns.map Element.node ++ (r :: rs).map Element.relation := he ▸ (by simp [hm])
      simp at this
    have hrs : rs' ≠ [] := by
      rintro rfl
      have : Element.relation r ∈ ns' ++ ws' ++ [] := he ▸ (by simp)
      rw [hws] at this
      simp at this
      obtain ⟨n, hn⟩ := h1 _ this
      cases hn
    exact h4 hrs hws
  · intro h
    refine ⟨_, _, _, rfl, ?_, ?_, ?_, by simpa using h⟩ <;> intro e he <;> obtain ⟨x, -, rfl⟩ := List.mem_map.1 he <;> exact ⟨x, rfl⟩

theorem div_onGrid (x : Int32) : OnGrid (F64.div (x.toInt : F64) 10000000) := by
  refine ⟨x.toInt, ?_, by rw [F64.div]; norm_num⟩
  have := x.toInt_lt; have := x.le_toInt
  rw [abs_le]; omega

theorem div_inRange (x : Int32) : |F64.div (x.toInt : F64) 10000000| ≤ 360 := by
  have h1 := x.toInt_lt; have h2 := x.le_toInt
  have e1 := rnd_err ((x.toInt : ℚ) / 10000000)
  have hb : |(x.toInt : ℚ) / 10000000| ≤ 2 ^ 31 / 10000000 := by
    rw [abs_div, abs_of_pos (show (0 : ℚ) < 10000000 by norm_num)]
    apply div_le_div_of_nonneg_right _ (by norm_num)
    rw [abs_le]
    constructor
    · have : ((-2 ^ 31 : ℤ) : ℚ) ≤ (x.toInt : ℚ) := by exact_mod_cast h2
      norm_num at this ⊢; linarith
    · have : (x.toInt : ℚ) ≤ ((2 ^ 31 : ℤ) : ℚ) := by exact_mod_cast h1.le
      norm_num at this ⊢; linarith
  rw [F64.div]
  calc |rnd ((x.toInt : ℚ) / 10000000)| = |(rnd ((x.toInt : ℚ) / 10000000) - (x.toInt : ℚ) / 10000000) + (x.toInt : ℚ) / 10000000| := by ring_nf
    _ ≤ |rnd ((x.toInt : ℚ) / 10000000) - (x.toInt : ℚ) / 10000000| + |(x.toInt : ℚ) / 10000000| := abs_add_le _ _
    _ ≤ 1 / 2 ^ 53 * (2 ^ 31 / 10000000) + 2 ^ 31 / 10000000 := by
        have := mul_le_mul_of_nonneg_left hb (show (0 : ℚ) ≤ 1 / 2 ^ 53 by norm_num)
        linarith
    _ ≤ 360 := by norm_num

theorem quantised_onGrid {x x' : F64} (hx : |x| ≤ 180) (h : Quantised x x') : OnGrid x' := by
  obtain ⟨k, rfl, hk⟩ := h
  refine ⟨k, ?_, rfl⟩
  have h1 : |(k : ℚ) / 10 ^ 7| ≤ 181 := by
    calc |(k : ℚ) / 10 ^ 7| = |((k : ℚ) / 10 ^ 7 - x) + x| := by ring_nf
      _ ≤ |(k : ℚ) / 10 ^ 7 - x| + |x| := abs_add_le _ _
      _ ≤ 181 := by
        have : ((1 : ℚ) / 2 + 1 / 2 ^ 19) / 10 ^ 7 ≤ 1 := by norm_num
        linarith
  rw [abs_div, abs_of_pos (show (0 : ℚ) < 10 ^ 7 by norm_num), div_le_iff₀ (by norm_num)] at h1
  have : (|k| : ℚ) ≤ ((2 ^ 45 : ℤ) : ℚ) := by push_cast; linarith
  exact_mod_cast this

/-- What is read from a dump changes when it is written to a file only by truncating its timestamp. -/
theorem truncated_quant_of {ns : List Node} {ws : List Way} {rs : List Relation}
    (hin : ∀ n ∈ ns, OnGrid n.coordinate.lat ∧ OnGrid n.coordinate.lon ∧ InRange (.node n)) :
    ∀ e ∈ together ns ws rs, Truncated e e.quant := by
  intro e he
  simp only [together, List.mem_append, List.mem_map] at he
  rcases he with (⟨n, hm, rfl⟩ | ⟨n, hm, rfl⟩) | ⟨n, hm, rfl⟩
  · have hq := quant_rounded (hin n hm).2.2
    revert hq
    cases h : (Element.node n).quant with
    | node n' =>
      rintro ⟨q1, q2, q3, q4⟩
      have e1 := quantised_grid q2 (hin n hm).1
      have e2 := quantised_grid q3 (hin n hm).2.1
      refine ⟨?_, q4⟩
      rw [q1]
      have : n'.coordinate = n.coordinate := by
        cases hA : n'.coordinate; cases hB : n.coordinate
        rw [hA, hB] at e1 e2
        simp only at e1 e2
        rw [e1, e2]
      rw [this]
    | _ => exact id
  · have hq := quant_rounded (e := .way n) trivial
    revert hq
    cases h : (Element.way n).quant with
    | way n' => exact id
    | _ => exact id
  · have hq := quant_rounded (e := .relation n) trivial
    revert hq
    cases h : (Element.relation n).quant with
    | relation n' => exact id
    | _ => exact id

theorem truncated_quant {dump : Content} {ns : List Node} {ws : List Way} {rs : List Relation} (hel : dump.Elements ns ws rs) :
    ∀ e ∈ together ns ws rs, Truncated e e.quant := by
  apply truncated_quant_of
  intro n hn
  obtain ⟨i, hi, rfl⟩ := List.mem_iff_getElem.1 hn
  obtain ⟨uid, user, -, e⟩ := hel.nodes.get (hel.nodes.length_eq ▸ hi) hi
  simp only [List.get_eq_getElem] at e
  rw [e]
  exact ⟨div_onGrid _, div_onGrid _, div_inRange _, div_inRange _⟩

/-- C63. A well formed dump whose changesets have owners, if it has a way or no relation, becomes a file that reads back as all nodes, then all
ways, then all relations of the dump in the order of the sorted tables, unchanged but for timestamps truncated to seconds. -/
theorem C63_convert (z : Zlib) (hz : z.Lossless) (cod : Apidb.Codec) (tables : Apidb.Tables) (sorted : Apidb.Table → Text) (dump : Content)
    (hread : dump.ReadFrom cod tables sorted) (hwf : dump.WellFormed)
    (ns : List Node) (ws : List Way) (rs : List Relation) (hel : dump.Elements ns ws rs)
    (info : FileInfo) (c : CompressionType) (hn : ¬ EmptyInfo info) (hh : HeaderFits z c info)
    (hl : rs ≠ [] → ws ≠ []) (hfit : RunsFit z c (together ns ws rs)) :
    ∃ out es, (∀ r, ApidbToPbf z cod tables sorted info c r ↔ r = .ok out) ∧ ReadsElements z out es .done ∧
      List.Forall₂ Truncated (together ns ws rs) es := by
  obtain ⟨it, it', h1, h2, -⟩ := C43_elements cod tables sorted dump hread hwf ns ws rs hel
  obtain ⟨w, hw⟩ := (C13_writer_accepts_iff z c info (withSentinels ns ws rs)).1.2
    (by rw [realOnes_withSentinels]; exact (layered_together _ _ _).2 hl)
  have hr := (written_reads hz hn hh (by rwa [realOnes_withSentinels]) hw).1
  rw [realOnes_withSentinels] at hr
  refine ⟨_, _, fun r => ?_, hr, ?_⟩
  · rw [apidbToPbf_iff h1 h2, hw]
    rfl
  · rw [List.forall₂_map_right_iff, List.forall₂_same]
    intro e he
    exact truncated_quant hel e he

/-- C63. The writer does not take relations when there is no way: the program panics. -/
theorem C63_refused (z : Zlib) (cod : Apidb.Codec) (tables : Apidb.Tables) (sorted : Apidb.Table → Text) (dump : Content)
    (hread : dump.ReadFrom cod tables sorted) (hwf : dump.WellFormed) (ns : List Node) (rs : List Relation) (hel : dump.Elements ns [] rs)
    (hr : rs ≠ []) (info : FileInfo) (c : CompressionType) (r : Out Bytes) : ApidbToPbf z cod tables sorted info c r ↔ r = .panic := by
  obtain ⟨it, it', h1, h2, -⟩ := C43_elements cod tables sorted dump hread hwf ns [] rs hel
  rw [apidbToPbf_iff h1 h2, (C13_writer_accepts_iff z c info (withSentinels ns [] rs)).2
    (by rw [realOnes_withSentinels, layered_together]; exact fun h => h hr rfl)]
  rfl

/-- C63. A dump with an object whose changeset has no owner stops the program with a panic. -/
theorem C63_unowned (z : Zlib) (cod : Apidb.Codec) (tables : Apidb.Tables) (sorted : Apidb.Table → Text) (dump : Content)
    (hread : dump.ReadFrom cod tables sorted) (ho : ¬ dump.AllOwned) (info : FileInfo) (c : CompressionType) (r : Out Bytes) :
    ApidbToPbf z cod tables sorted info c r ↔ r = .panic := by
  obtain ⟨it, h1, -, -, h2⟩ := C44_missing cod tables sorted dump hread
  obtain ⟨h2, es, s, h3, h4⟩ := h2 ho
  unfold ApidbToPbf
  rw [h1]
  constructor
  · rintro (⟨es', it'', h', rfl⟩ | ⟨es', s, h', hp, rfl⟩)
    · exact absurd ⟨_, _, h'⟩ h2
    · rfl
  · rintro rfl
    exact .inr ⟨es, s, h3, .inl h4, rfl⟩

/-- C63. From a published file into a dump and back: if the dump can hold the elements, whatever order `le` sorts text by and whatever sorted
copy is used, the new file reads back exactly as the elements that come back from the dump (`Back`), nodes before ways before relations, each
in ascending order of id and version. -/
theorem C63_there_and_back (z : Zlib) (hz : z.Lossless) (inflates : Format.Inflates) (hi : ∀ c d, inflates c d → z.stream c = d)
    (info : FileInfo) (blocks : List (List Element)) (file : Bytes) (h : Format.IsFile inflates info blocks file)
    (hs : ∀ f ∈ info.required_features, Supported f) (cod : Apidb.Codec) (hcod : Faithful cod) (le : Text → Text → Prop)
    (uc cc : Int64 → Int64) (hu : ∀ k, Sql.inRange ((uc k).toInt / 1000000) = true) (hc : ∀ k, Sql.inRange ((cc k).toInt / 1000000) = true)
    (ht : ∀ e ∈ blocks.flatten, TimeOk e) (hst : Storable blocks.flatten)
    (info' : FileInfo) (c : CompressionType) (hn : ¬ EmptyInfo info') (hh : HeaderFits z c info') :
    ∃ files, (∀ r, PbfToApidb z cod uc cc file r ↔ r = .ok files) ∧ ∀ sorted, SortedCopy le files sorted →
      ∃ ns ns' ws ws' rs rs', Back cod le blocks.flatten ns ns' ws ws' rs rs' ∧
        ((rs ≠ [] → ws ≠ []) → RunsFit z c (together ns' ws' rs') →
          ∃ out, (∀ r, ApidbToPbf z cod Apidb.dumpTables sorted info' c r ↔ r = .ok out) ∧
            ∀ es r, ReadsElements z out es r ↔ es = together ns' ws' rs' ∧ r = .done) := by
  obtain ⟨files, h1, h2⟩ := (C62_convert z inflates hi info blocks file h hs cod uc cc hu hc).1 ht
  refine ⟨files, h1, fun sorted hsort => ?_⟩
  obtain ⟨it, it', ns, ns', ws, ws', rs, rs', h3, h4, -, hb⟩ := C53_round_trip cod hcod le uc cc _ files sorted h2 hst hsort
  refine ⟨ns, ns', ws, ws', rs, rs', hb, fun hl hfit => ?_⟩
  have hl' : rs' ≠ [] → ws' ≠ [] := by
    intro hr e
    have l1 := hb.ways.2.2.length_eq
    have l2 := hb.relations.2.2.length_eq
    rw [e] at l1
    have : ws = [] := List.eq_nil_of_length_eq_zero (by simpa using l1)
    refine hl ?_ this
    rintro rfl
    exact hr (List.eq_nil_of_length_eq_zero (by simpa using l2.symm))
  obtain ⟨w, hw⟩ := (C13_writer_accepts_iff z c info' (withSentinels ns' ws' rs')).1.2
    (by rw [realOnes_withSentinels]; exact (layered_together _ _ _).2 hl')
  have hwhole : ∀ {t t' : Int64}, FlooredToSecond t t' → WholeSecond t' := fun ⟨s, h, _⟩ => ⟨s, h⟩
  have hx : ∀ e ∈ withSentinels ns' ws' rs', Exact e := by
    have en : ∀ n ∈ ns', Exact (.node n) := by
      intro n hm
      obtain ⟨i, hi, rfl⟩ := List.mem_iff_getElem.1 hm
      have hi' : i < ns.length := hb.nodes.2.2.length_eq ▸ hi
      have hnb := hb.nodes.2.2.get hi' hi
      have hco := hst.coordinates _ (hb.nodes.1.subset (List.getElem_mem hi'))
      simp only [List.get_eq_getElem] at hnb
      exact ⟨quantised_onGrid (by linarith [hco.1]) hnb.lat, quantised_onGrid hco.2 hnb.lon, hwhole hnb.time⟩
    have ew : ∀ n ∈ ws', Exact (.way n) := by
      intro n hm
      obtain ⟨i, hi, rfl⟩ := List.mem_iff_getElem.1 hm
      exact hwhole (hb.ways.2.2.get (hb.ways.2.2.length_eq ▸ hi) hi).time
    have er : ∀ n ∈ rs', Exact (.relation n) := by
      intro n hm
      obtain ⟨i, hi, rfl⟩ := List.mem_iff_getElem.1 hm
      exact hwhole (hb.relations.2.2.get (hb.relations.2.2.length_eq ▸ hi) hi).time
    intro e he
    simp only [withSentinels, List.mem_append, List.mem_map, List.mem_singleton] at he
    rcases he with ((((⟨n, hm, rfl⟩ | rfl) | ⟨n, hm, rfl⟩) | rfl) | ⟨n, hm, rfl⟩) | rfl
    · exact en n hm
    · trivial
    · exact ew n hm
    · trivial
    · exact er n hm
    · trivial
  have hback := C09_file_roundtrip z hz c info' _ w hn hh (by rwa [realOnes_withSentinels]) hx hw
  rw [realOnes_withSentinels] at hback
  refine ⟨(w.close z).file, fun r => ?_, hback⟩
  rw [apidbToPbf_iff h3 h4, hw]
  rfl


/-! ### Examples -/

namespace PipelineExample

theorem fits_of_sublists {z : Zlib} {c : CompressionType} {es : List Element} (h : ∀ run ∈ es.sublists, Fits z c run) : RunsFit z c es :=
  fun run hr _ => h run (List.mem_sublists.mpr hr.sublist)

/-- `C61_copy_exact` on the foreign file, everything kept. -/
example : ∃ out, (∀ r, PbfIo exZ (fun _ => true) "copy" .zlib exForeignFile r ↔ r = .ok out) ∧
    ReadsElements exZ out [.way exForeignFileWay] .done := by
  obtain ⟨out, h1, -, h2⟩ := C61_copy_exact exZ exZ_lossless _ (fun _ _ h => h) _ _ _ exForeignFile_is (by simp [exForeignInfo, Supported])
    (fun _ => true) "copy" .zlib [.way exForeignFileWay] rfl ⟨by decide +kernel, by decide +kernel⟩
    ⟨[], [.way exForeignFileWay], [], rfl, by simp, by simp, by simp, by simp⟩
    (by intro e he; simp at he; subst he; exact ⟨2, rfl⟩) (fits_of_sublists (by unfold Fits; decide +kernel))
  exact ⟨out, h1, (h2 _ _).2 ⟨rfl, rfl⟩⟩

/-- `C61_copy` on the foreign file. -/
example : ∃ out, (∀ r, PbfIo exZ (fun _ => true) "copy" .zlib exForeignFile r ↔ r = .ok out) ∧ ∃ info' blocks', Format.IsFile (fun c d => exZ.stream c = d) info' blocks' out := by
  obtain ⟨out, info', blocks', h1, h2, -⟩ := C61_copy exZ _ (fun _ _ h => h) (fun _ _ => rfl) _ _ _ exForeignFile_is (by simp [exForeignInfo, Supported])
    (fun _ => true) "copy" .zlib [.way exForeignFileWay] rfl ⟨by decide +kernel, by decide +kernel⟩ (by simp [exForeignInfo])
    ⟨[], [.way exForeignFileWay], [], rfl, by simp, by simp, by simp, by simp⟩
    (steps_of_moderate _ (by
      intro e he; simp at he; subst he
      show ∀ r ∈ exForeignFileWay.refs, Format.Moderate64 r
      unfold Format.Moderate64; decide))
    (by simp [InRange]) (fits_of_sublists (by unfold Fits; decide +kernel))
  exact ⟨out, h1, info', blocks', h2⟩

/-- A program that drops ways. -/
def noWays : Element → Bool
  | .way _ => false
  | _ => true

theorem four {n n' : Node} {w : Way} {r : Relation} {es : List Element}
    (h : List.Forall₂ Rounded [.node n, .node n', .way w, .relation r] es) : ∃ a b c d, es = [.node a, .node b, .way c, .relation d] := by
  cases h with
  | cons ha h => cases h with
    | cons hb h => cases h with
      | cons hc h => cases h with
        | cons hd h =>
          cases h
          rename_i a b c d
          cases a <;> first | exact ha.elim | skip
          cases b <;> first | exact hb.elim | skip
          cases c <;> first | exact hc.elim | skip
          cases d <;> first | exact hd.elim | skip
          exact ⟨_, _, _, _, rfl⟩

/-- `C61_refused`: a file with nodes, a way and a relation from which the ways are dropped. -/
example : ∃ file, (∃ es, ReadsElements exZ file es .done ∧ es.length = 4) ∧ ∀ r, PbfIo exZ noWays "filter" .zlib file r ↔ r = .panic := by
  obtain ⟨w, hw⟩ := (C13_writer_accepts_iff exZ .zlib FileInfo.default exPlain).1.mpr exPlain_layered
  obtain ⟨info', blocks, h1, h2, -, h3, -⟩ := C57_file_written_as_published exZ (fun c d => exZ.stream c = d) (fun _ _ => rfl) .zlib FileInfo.default exPlain w
    (by simp [EmptyInfo, FileInfo.default]) ⟨by decide +kernel, by decide +kernel⟩ (by simp [FileInfo.default]) (steps_of_moderate _ exPlain_moderate)
    (by
      intro e he
      simp [realOnes, exPlain, Element.isSentinel] at he
      rcases he with rfl | rfl | rfl | rfl
      · exact ⟨by decide +kernel, by decide +kernel⟩
      · exact ⟨by decide +kernel, by decide +kernel⟩
      · trivial
      · trivial) exPlain_fits hw
  have hs : ∀ f ∈ info'.required_features, Supported f := by
    rw [h3]; simp [FileInfo.default, Supported]
  refine ⟨_, ⟨blocks.flatten, ?_, ?_⟩, C61_refused exZ _ (fun _ _ h => h) info' blocks _ h1 hs noWays "filter" .zlib ?_⟩
  · exact ((C58_file_read_as_published exZ _ (fun _ _ h => h) info' blocks _ h1 hs).2 _ _).2 ⟨rfl, rfl⟩
  · rw [← h2.length_eq]; rfl
  · have e : realOnes exPlain = [.node exNode, .node { exNode with id := 8 }, .way { exWay with refs := [10, 7, -10] }, .relation exRelation] := rfl
    rw [e] at h2
    obtain ⟨a, b, c, d, e⟩ := four h2
    rw [e, show List.filter noWays [.node a, .node b, .way c, .relation d] = together [a, b] [] [d] from rfl, layered_together]
    simp

/-- `C62_convert` on the foreign file. -/
example : ∃ files, (∀ r, PbfToApidb exZ ReadExample.plain (fun _ => 0) (fun _ => 0) exForeignFile r ↔ r = .ok files) := by
  obtain ⟨files, h, -⟩ := (C62_convert exZ _ (fun _ _ h => h) _ _ _ exForeignFile_is (by simp [exForeignInfo, Supported]) ReadExample.plain
    (fun _ => 0) (fun _ => 0) (fun _ => by decide +kernel) (fun _ => by decide +kernel)).1
    (by intro e he; simp at he; subst he; unfold TimeOk; decide +kernel)
  exact ⟨files, h⟩

/-- `C63_convert` on the sample dump. -/
example : ∃ out es, (∀ r, ApidbToPbf exZ ReadExample.plain Apidb.dumpTables ReadExample.sorted exInfo .zlib r ↔ r = .ok out) ∧
    ReadsElements exZ out es .done ∧ es.length = 4 := by
  obtain ⟨out, es, h1, h2, h3⟩ := C63_convert exZ exZ_lossless ReadExample.plain Apidb.dumpTables ReadExample.sorted ReadExample.content
    ReadExample.readFrom ReadExample.wellFormed _ _ _ ReadExample.elements exInfo .zlib exInfo_nonempty exInfo_fits (by simp)
    (fits_of_sublists (by unfold Fits; decide +kernel))
  exact ⟨out, es, h1, h2, h3.length_eq.symm⟩

/-- `C63_unowned` on the sample dump without changesets. -/
example : ∀ r, ApidbToPbf exZ ReadExample.plain Apidb.dumpTables ReadExample.sortedNoChangeset exInfo .zlib r ↔ r = .panic :=
  C63_unowned exZ ReadExample.plain Apidb.dumpTables ReadExample.sortedNoChangeset _ ReadExample.readFromNoChangeset ReadExample.notOwned exInfo .zlib

/-- The sample dump without ways. -/
def sortedNoWays : Apidb.Table → Text
  | .ways => []
  | .wayNodes => []
  | .wayTags => []
  | t => ReadExample.sorted t

/-- `C63_refused` on the sample dump without ways. -/
example : ∀ r, ApidbToPbf exZ ReadExample.plain Apidb.dumpTables sortedNoWays exInfo .zlib r ↔ r = .panic := by
  have h1 : ({ ReadExample.content with ways := [], wayNodes := [], wayTags := [] } : Content).ReadFrom ReadExample.plain Apidb.dumpTables sortedNoWays :=
    { ReadExample.readFrom with
      ways := ⟨Apidb.dumpDef .ways, Apidb.tocFile .ways, Apidb.dumpTables_eq _ (by decide), .nil⟩
      wayNodes := ⟨Apidb.dumpDef .wayNodes, Apidb.tocFile .wayNodes, Apidb.dumpTables_eq _ (by decide), .nil⟩
      wayTags := ⟨Apidb.dumpDef .wayTags, Apidb.tocFile .wayTags, Apidb.dumpTables_eq _ (by decide), .nil⟩ }
  have h2 : ({ ReadExample.content with ways := [], wayNodes := [], wayTags := [] } : Content).WellFormed :=
    { ReadExample.wellFormed with
      wayTags := ⟨by simp, by simp, by simp⟩
      wayNodes := ⟨by simp, by simp, by simp⟩ }
  exact C63_refused exZ ReadExample.plain Apidb.dumpTables sortedNoWays _ h1 h2 _ _
    { nodes := ReadExample.elements.nodes, ways := .nil, relations := ReadExample.elements.relations } (by simp) exInfo .zlib

/-- The hypotheses of `C63_there_and_back` for the foreign file. -/
example : Storable [Element.way exForeignFileWay] ∧ Faithful RoundTripExample.codec ∧ ∀ e ∈ [Element.way exForeignFileWay], TimeOk e := by
  refine ⟨⟨by simp [Spec.nodesOf], by simp [Spec.waysOf], by simp [Spec.relationsOf], by simp [Spec.nodesOf], ?_, by simp [Spec.waysOf, exForeignFileWay], by simp [Spec.relationsOf]⟩,
    RoundTripExample.faithful, ?_⟩
  · rw [show userNames [Element.way exForeignFileWay] = [(4, "a")] from rfl]
    decide
  · intro e he; simp at he; subst he; unfold TimeOk; decide +kernel

end PipelineExample

end OsmIo
