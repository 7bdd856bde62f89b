import Verif.Props.CopyAgain
import Verif.Props.FormatFile
/-! # C106: filtering in two steps -/
namespace OsmIo
open Spec

theorem quant_sentinel (e : Element) : e.quant.isSentinel = e.isSentinel := by cases e <;> rfl

theorem realOnes_quant (es : List Element) : realOnes (es.map Element.quant) = (realOnes es).map Element.quant := by
  unfold realOnes
  rw [List.filter_map]
  congr 1
  exact List.filter_congr fun e _ => by simp [quant_sentinel]

theorem layered_quant (es : List Element) : Layered (es.map Element.quant) ↔ Layered es := by
  constructor
  · rintro ⟨ns, ws, rs, h, h1, h2, h3, h4⟩
    obtain ⟨l, rs', rfl, h5, rfl⟩ := List.map_eq_append_iff.1 h
    obtain ⟨ns', ws', rfl, rfl, rfl⟩ := List.map_eq_append_iff.1 h5
    refine ⟨ns', ws', rs', rfl, ?_, ?_, ?_, by simpa using h4⟩
    · intro e he
      obtain ⟨n, hn⟩ := h1 e.quant (List.mem_map_of_mem he)
      cases e <;> simp [Element.quant] at hn ⊢
    · intro e he
      obtain ⟨n, hn⟩ := h2 e.quant (List.mem_map_of_mem he)
      cases e <;> simp [Element.quant] at hn ⊢
    · intro e he
      obtain ⟨n, hn⟩ := h3 e.quant (List.mem_map_of_mem he)
      cases e <;> simp [Element.quant] at hn ⊢
  · rintro ⟨ns, ws, rs, rfl, h1, h2, h3, h4⟩
    refine ⟨ns.map Element.quant, ws.map Element.quant, rs.map Element.quant, by simp, ?_, ?_, ?_, by simpa using h4⟩
    · intro e he
      obtain ⟨x, hx, rfl⟩ := List.mem_map.1 he
      obtain ⟨n, rfl⟩ := h1 x hx
      exact ⟨_, rfl⟩
    · intro e he
      obtain ⟨x, hx, rfl⟩ := List.mem_map.1 he
      obtain ⟨n, rfl⟩ := h2 x hx
      exact ⟨_, rfl⟩
    · intro e he
      obtain ⟨x, hx, rfl⟩ := List.mem_map.1 he
      obtain ⟨n, rfl⟩ := h3 x hx
      exact ⟨_, rfl⟩

/-- What a copy is, and what a further run of the program makes of it. -/
theorem copy_reads {z : Zlib} (hz : z.Lossless) {keep : Element → Bool} {program : String} {c : CompressionType} {file out : Bytes}
    (h : PbfIo z keep program c file (.ok out)) {info : FileInfo} (ho : openReader z file = .ok info)
    (hh : HeaderFits z c { info with writingprogram := some program })
    {es : List Element} (hes : ReadsElements z file es .done) (hfit : RunsFit z c (realOnes (es.filter keep))) :
    openReader z out = .ok (fromHeaderBlock (toHeaderBlock { info with writingprogram := some program })) ∧
    ReadsElements z out ((realOnes (es.filter keep)).map Element.quant) .done := by
  unfold PbfIo at h
  rw [ho] at h
  obtain ⟨es1, e1, hread, h⟩ := h
  obtain ⟨rfl, rfl⟩ := reads_det hes hread
  have h := h.symm
  rw [Out.bind_eq_ok] at h
  obtain ⟨w, hw, hout⟩ := h
  simp only [Out.ok.injEq] at hout
  subst hout
  have hsup := ((C17_open_iff z file info).1 ho).2
  obtain ⟨j1, it, j2⟩ := written_reads hz (by simp [EmptyInfo]) hh hfit hw
  exact ⟨(C17_open_iff z _ _).2 ⟨⟨it, j2⟩, hsup⟩, j1⟩

theorem header_again_bytes {info : FileInfo} {program : String} (hb : ∀ b, info.bounding_box = some b → SettledBox b) :
    serializeHeader { fromHeaderBlock (toHeaderBlock { info with writingprogram := some program }) with writingprogram := some program } =
      serializeHeader { info with writingprogram := some program } := by
  unfold serializeHeader
  have : toHeaderBlock { fromHeaderBlock (toHeaderBlock { info with writingprogram := some program }) with writingprogram := some program } =
      toHeaderBlock (fromHeaderBlock (toHeaderBlock { info with writingprogram := some program })) := rfl
  rw [this, header_settled (info := { info with writingprogram := some program }) hb]

/-- The header of a copy of a copy. -/
theorem header_again {z : Zlib} {c : CompressionType} {info : FileInfo} {program : String} (hb : ∀ b, info.bounding_box = some b → SettledBox b) :
    (FileBlock.header { fromHeaderBlock (toHeaderBlock { info with writingprogram := some program }) with writingprogram := some program }).serialize z c =
      (FileBlock.header { info with writingprogram := some program }).serialize z c := by
  unfold FileBlock.serialize
  simp only [FileBlock.payload, header_again_bytes hb]

/-- C106. Filtering a file in two steps gives the file that filtering it once by both conditions gives, byte for byte, and fails when that fails,
provided that the second condition is not about what writing rounds. -/
theorem C106_two_steps (z : Zlib) (hz : z.Lossless) (first second : Element → Bool) (program : String) (c : CompressionType) (file between : Bytes)
    (h : PbfIo z first program c file (.ok between)) (info : FileInfo) (ho : openReader z file = .ok info)
    (hh : HeaderFits z c { info with writingprogram := some program }) (hb : ∀ b, info.bounding_box = some b → SettledBox b)
    (es : List Element) (hes : ReadsElements z file es .done) (hfit : RunsFit z c (realOnes (es.filter first)))
    (hr : ∀ e ∈ realOnes (es.filter first), InRange e)
    (hk : ∀ e ∈ es, ∀ e', Rounded e e' → second e' = second e) (r : Out Bytes) :
    PbfIo z second program c between r ↔ PbfIo z (fun e => first e && second e) program c file r := by
  obtain ⟨k1, k2⟩ := copy_reads hz h ho hh hes hfit
  have hfi : ∀ es' r, ReadsElements z file es' r ↔ es' = es ∧ r = .done :=
    fun es'' r => ⟨fun h => by obtain ⟨a, b⟩ := reads_det h hes; exact ⟨a, b⟩, fun ⟨a, b⟩ => by rw [a, b]; exact hes⟩
  have hbe : ∀ es' r, ReadsElements z between es' r ↔ es' = (realOnes (es.filter first)).map Element.quant ∧ r = .done :=
    fun es'' r => ⟨fun h => by obtain ⟨a, b⟩ := reads_det h k2; exact ⟨a, b⟩, fun ⟨a, b⟩ => by rw [a, b]; exact k2⟩
  rw [pbfIo_iff k1 hbe, pbfIo_iff ho hfi]
  -- the elements of the second run are those of the single run, rounded
  have hsec : ((realOnes (es.filter first)).map Element.quant).filter second = (realOnes (es.filter fun e => first e && second e)).map Element.quant := by
    rw [List.filter_map]
    congr 1
    unfold realOnes
    rw [List.filter_filter, List.filter_filter, List.filter_filter]
    apply List.filter_congr
    intro e he
    by_cases hs : e.isSentinel = true
    · simp [hs]
    · by_cases hf : first e = true
      · have : InRange e := hr e (List.mem_filter.2 ⟨List.mem_filter.2 ⟨he, hf⟩, by simp [hs]⟩)
        simp [hk e he _ (quant_rounded this), hf, hs, Bool.and_comm]
      · simp [hf]
  have hr2 : ∀ e ∈ realOnes (es.filter fun e => first e && second e), InRange e := by
    intro e he
    obtain ⟨h1, h2⟩ := List.mem_filter.1 he
    obtain ⟨h3, h4⟩ := List.mem_filter.1 h1
    exact hr e (List.mem_filter.2 ⟨List.mem_filter.2 ⟨h3, (Bool.and_eq_true _ _ ▸ h4).1⟩, h2⟩)
  rw [hsec]
  generalize hL : (es.filter fun e => first e && second e) = L at *
  have hpay := header_again (z := z) (c := c) (program := program) hb
  have hsim : SimWriter ((Writer.fromFileInfo { info with writingprogram := some program } c).writeHeader z)
      ((Writer.fromFileInfo { fromHeaderBlock (toHeaderBlock { info with writingprogram := some program }) with writingprogram := some program } c).writeHeader z) := by
    refine ⟨rfl, ?_, rfl, rfl, rfl, by simp [Writer.writeHeader, Writer.writeFileBlock, Writer.writeBlob, Writer.fromFileInfo, Accumulator.new]⟩
    simp only [Writer.writeHeader, Writer.writeFileBlock, Writer.writeBlob, Writer.fromFileInfo, hpay]
  have key : (do
        let w ← ((Writer.fromFileInfo { fromHeaderBlock (toHeaderBlock { info with writingprogram := some program }) with writingprogram := some program } c).writeHeader z).writeAll z
          ((realOnes L).map Element.quant)
        .ok (w.close z).file) = (do
        let w ← ((Writer.fromFileInfo { info with writingprogram := some program } c).writeHeader z).writeAll z L
        .ok (w.close z).file : Out Bytes) := by
    by_cases hl : Layered (realOnes L)
    · obtain ⟨w, hw⟩ := (C13_writer_accepts_iff z c { info with writingprogram := some program } L).1.2 hl
      have hw' := hw
      rw [writeAll_realOnes] at hw'
      obtain ⟨v, hv1, hv2⟩ := hsim.writeAll _ hr2 hw'
      rw [hw, hv1]
      simp only [Out.ok_bind, hv2.close]
    · rw [(C13_writer_accepts_iff z c { info with writingprogram := some program } L).2 hl, (C13_writer_accepts_iff z c _ _).2]
      rw [realOnes_quant, layered_quant]
      have : realOnes (realOnes L) = realOnes L := by unfold realOnes; rw [List.filter_filter]; simp
      rwa [this]
  rw [key]

/-- C106. The order of two filters does not matter, where neither is about what writing rounds and both orders get through the first step. -/
theorem C106_either_order (z : Zlib) (hz : z.Lossless) (first second : Element → Bool) (program : String) (c : CompressionType)
    (file between between' : Bytes) (h : PbfIo z first program c file (.ok between)) (h' : PbfIo z second program c file (.ok between'))
    (info : FileInfo) (ho : openReader z file = .ok info)
    (hh : HeaderFits z c { info with writingprogram := some program }) (hb : ∀ b, info.bounding_box = some b → SettledBox b)
    (es : List Element) (hes : ReadsElements z file es .done) (hfit : RunsFit z c (realOnes (es.filter first)))
    (hfit' : RunsFit z c (realOnes (es.filter second))) (hr : ∀ e ∈ es, InRange e)
    (hk : ∀ e ∈ es, ∀ e', Rounded e e' → first e' = first e ∧ second e' = second e) (r : Out Bytes) :
    PbfIo z second program c between r ↔ PbfIo z first program c between' r := by
  have sub : ∀ (p : Element → Bool), ∀ e ∈ realOnes (es.filter p), InRange e := fun p e he =>
    hr e (List.mem_of_mem_filter (List.mem_of_mem_filter he))
  rw [C106_two_steps z hz first second program c file between h info ho hh hb es hes hfit (sub first) (fun e he e' h => (hk e he e' h).2),
    C106_two_steps z hz second first program c file between' h' info ho hh hb es hes hfit' (sub second) (fun e he e' h => (hk e he e' h).1)]
  have : (fun e => first e && second e) = fun e => second e && first e := funext fun e => Bool.and_comm _ _
  rw [this]

/-- C106. Why the condition must not be about what writing rounds: a copy holds whole seconds only, so that asking a copy for the elements with
a part of a second finds none, while asking the file itself finds those it has. -/
theorem C106_rounding_shows (z : Zlib) (hz : z.Lossless) (program : String) (c : CompressionType) (file between once : Bytes)
    (fraction : Element → Bool) (hfr : ∀ e, fraction e = true ↔ (∃ n, e = .node n ∧ ¬ WholeSecond n.timestamp) ∨
      (∃ w, e = .way w ∧ ¬ WholeSecond w.timestamp) ∨ ∃ r, e = .relation r ∧ ¬ WholeSecond r.timestamp)
    (h : PbfIo z (fun _ => true) program c file (.ok between)) (h' : PbfIo z fraction program c file (.ok once))
    (info : FileInfo) (ho : openReader z file = .ok info) (hh : HeaderFits z c { info with writingprogram := some program })
    (hb : ∀ b, info.bounding_box = some b → SettledBox b)
    (es : List Element) (hes : ReadsElements z file es .done) (hfit : RunsFit z c (realOnes es)) (hfit' : RunsFit z c (realOnes (es.filter fraction)))
    (hr : ∀ e ∈ es, InRange e) :
    (∃ twice, PbfIo z fraction program c between (.ok twice) ∧ ReadsElements z twice [] .done) ∧
    ∃ es', ReadsElements z once es' .done ∧ es'.length = (es.filter fraction).length := by
  have htrue : es.filter (fun _ => true) = es := List.filter_eq_self.2 (by simp)
  obtain ⟨k1, k2⟩ := copy_reads hz h ho hh hes (by rwa [htrue])
  rw [htrue] at k2
  obtain ⟨-, j2⟩ := copy_reads hz h' ho hh hes hfit'
  have whole : ∀ {t t' : Int64}, TruncatedToSecond t t' → WholeSecond t' := fun ⟨s, h, _⟩ => ⟨s, h⟩
  have hnone : ((realOnes es).map Element.quant).filter fraction = [] := by
    rw [List.filter_eq_nil_iff]
    intro e he hf
    obtain ⟨x, hx, rfl⟩ := List.mem_map.1 he
    have hq := quant_rounded (hr x (List.mem_of_mem_filter hx))
    rw [hfr] at hf
    rcases hf with ⟨n, hn, hw⟩ | ⟨n, hn, hw⟩ | ⟨n, hn, hw⟩ <;> rw [hn] at hq <;> cases x <;> simp only [Rounded] at hq
    · exact hw (whole hq.2.2.2)
    · exact hw (whole hq.2)
    · exact hw (whole hq.2)
  have hbe : ∀ es' r, ReadsElements z between es' r ↔ es' = (realOnes es).map Element.quant ∧ r = .done :=
    fun es'' r => ⟨fun h => by obtain ⟨a, b⟩ := reads_det h k2; exact ⟨a, b⟩, fun ⟨a, b⟩ => by rw [a, b]; exact k2⟩
  refine ⟨?_, _, j2, ?_⟩
  · have := pbfIo_iff (keep := fraction) (program := program) (c := c) k1 hbe
    rw [hnone] at this
    simp only [Writer.writeAll, Out.ok_bind] at this
    have h2 := (this _).2 rfl
    refine ⟨_, h2, ?_⟩
    obtain ⟨-, j4⟩ := copy_reads hz h2 k1 ⟨by rw [header_again_bytes hb]; exact hh.1, by rw [header_again hb]; exact hh.2⟩ k2
      (by rw [hnone]; intro run hrun hl; exact hfit run (hrun.trans (List.nil_infix)) hl)
    rw [hnone] at j4
    exact j4
  · rw [List.length_map]
    congr 1
    unfold realOnes
    rw [List.filter_eq_self]
    intro e he
    have := (hfr e).1 (List.mem_filter.1 he).2
    rcases this with ⟨n, rfl, -⟩ | ⟨n, rfl, -⟩ | ⟨n, rfl, -⟩ <;> rfl

namespace FilterExample

def noNodes : Element → Bool
  | .node _ => false
  | _ => true

def waysOnly : Element → Bool
  | .way _ => true
  | _ => false

def relationsOnly : Element → Bool
  | .relation _ => true
  | _ => false

/-- A file with nodes, a way and a relation: dropping the nodes and then the relation is dropping both. Dropping the nodes and then
the way is refused, as is dropping both at once, since relations have to come after ways. -/
example : ∃ file between out, PbfIo exZ noNodes "filter" .zlib file (.ok between) ∧
    (∀ r, PbfIo exZ waysOnly "filter" .zlib between r ↔ r = .ok out) ∧
    (∀ r, PbfIo exZ (fun e => noNodes e && waysOnly e) "filter" .zlib file r ↔ r = .ok out) ∧
    (∀ r, PbfIo exZ relationsOnly "filter" .zlib between r ↔ r = .panic) ∧
    (∀ r, PbfIo exZ (fun e => noNodes e && relationsOnly e) "filter" .zlib file r ↔ r = .panic) := by
  obtain ⟨w, hw⟩ := (C13_writer_accepts_iff exZ .zlib { FileInfo.default with source := some "s" } exPlain).1.mpr exPlain_layered
  obtain ⟨h1, it, h2⟩ := written_reads exZ_lossless (by simp [EmptyInfo, FileInfo.default]) ⟨by decide +kernel, by decide +kernel⟩ exPlain_fits hw
  have ho : openReader exZ (w.close exZ).file = .ok (fromHeaderBlock (toHeaderBlock { FileInfo.default with source := some "s" })) :=
    (C17_open_iff exZ _ _).2 ⟨⟨it, h2⟩, by simp [FileInfo.default, fromHeaderBlock, toHeaderBlock, Supported]⟩
  generalize (w.close exZ).file = file at *
  have e : ((realOnes exPlain).map Element.quant).filter noNodes = [(Element.way { exWay with refs := [10, 7, -10] }).quant, (Element.relation exRelation).quant] := rfl
  have hfit : RunsFit exZ .zlib (realOnes (((realOnes exPlain).map Element.quant).filter noNodes)) := by
    rw [e]
    exact PipelineExample.fits_of_sublists (by unfold Fits; decide +kernel)
  have hlay : Layered (((realOnes exPlain).map Element.quant).filter noNodes) := by
    rw [e]
    exact ⟨[], [_], [_], rfl, by simp, by simp [Element.quant], by simp [Element.quant], by simp⟩
  have hi : ∀ es' r, ReadsElements exZ file es' r ↔ es' = (realOnes exPlain).map Element.quant ∧ r = .done :=
    fun es'' r => ⟨fun h => by obtain ⟨a, b⟩ := reads_det h h1; exact ⟨a, b⟩, fun ⟨a, b⟩ => by rw [a, b]; exact h1⟩
  obtain ⟨v, hv⟩ := (C13_writer_accepts_iff exZ .zlib { fromHeaderBlock (toHeaderBlock { FileInfo.default with source := some "s" }) with writingprogram := some "filter" } _).1.2
    (show Layered (realOnes (((realOnes exPlain).map Element.quant).filter noNodes)) from hlay)
  have hb : PbfIo exZ noNodes "filter" .zlib file (.ok (v.close exZ).file) := by
    rw [pbfIo_iff ho hi, hv]
    rfl
  have hr : ∀ x ∈ realOnes (((realOnes exPlain).map Element.quant).filter noNodes), InRange x := by
    rw [e]
    intro x hx
    simp [realOnes, Element.isSentinel, Element.quant] at hx
    rcases hx with rfl | rfl <;> trivial
  have hnb : ∀ b, (fromHeaderBlock (toHeaderBlock { FileInfo.default with source := some "s" })).bounding_box = some b → SettledBox b := by
    intro b h
    simp [fromHeaderBlock, toHeaderBlock, FileInfo.default] at h
  have two := fun second hk => C106_two_steps exZ exZ_lossless noNodes second "filter" .zlib file _ hb _ ho ⟨by decide +kernel, by decide +kernel⟩ hnb _ h1 hfit hr hk
  have t1 := two waysOnly (by intro x _ y h; cases x <;> cases y <;> first | rfl | exact h.elim)
  have t2 := two relationsOnly (by intro x _ y h; cases x <;> cases y <;> first | rfl | exact h.elim)
  have e1 : ((realOnes exPlain).map Element.quant).filter (fun x => noNodes x && waysOnly x) = [(Element.way { exWay with refs := [10, 7, -10] }).quant] := rfl
  have e2 : ((realOnes exPlain).map Element.quant).filter (fun x => noNodes x && relationsOnly x) = [(Element.relation exRelation).quant] := rfl
  obtain ⟨u, hu⟩ := (C13_writer_accepts_iff exZ .zlib { fromHeaderBlock (toHeaderBlock { FileInfo.default with source := some "s" }) with writingprogram := some "filter" } _).1.2
    (show Layered (realOnes [(Element.way { exWay with refs := [10, 7, -10] }).quant]) from
      ⟨[], [_], [], rfl, by simp, by simp [Element.quant], by simp, by simp⟩)
  have s1 : ∀ r, PbfIo exZ (fun e => noNodes e && waysOnly e) "filter" .zlib file r ↔ r = .ok (u.close exZ).file := by
    intro r
    rw [pbfIo_iff ho hi, e1, hu]
    rfl
  have s2 : ∀ r, PbfIo exZ (fun e => noNodes e && relationsOnly e) "filter" .zlib file r ↔ r = .panic := by
    intro r
    rw [pbfIo_iff ho hi, e2, (C13_writer_accepts_iff exZ .zlib _ _).2]
    · rfl
    · exact fun h => by simpa using (layered_together [] [] [_]).1 h
  exact ⟨file, _, _, hb, fun r => (t1 r).trans (s1 r), s1, fun r => (t2 r).trans (s2 r), s2⟩

open Protobuf in
/-- A file of another program with times in milliseconds: the file of `exForeignFile` with a `date_granularity`. -/
def milliFile : Bytes :=
  [0, 0, 0, 13] ++ ([10, 9] ++ utf8 "OSMHeader" ++ [24, 21]) ++ ([16, 16] ++ [26, 17, 7] ++ exHeaderBytes) ++
  ([0, 0, 0, 11] ++ ([24, 48] ++ [10, 7] ++ utf8 "OSMData") ++ ([72, 1] ++ [10, 44] ++ ([144, 1, 1] ++ exBlockBytes)))

def milliWay : Way := { exForeignFileWay with timestamp := 2 }

def milliMsg : Pb.PrimitiveBlock := { exBlockMsg with date_granularity := some 1 }

open Protobuf in
theorem milli_is : IsPrimitiveBlock milliMsg ([144, 1, 1] ++ exBlockBytes) := by
  have hg : IsPrimitiveGroup { ways := [exWayMsg] } ([26, 28] ++ exWayBytes) := by
    refine ⟨[(3, .bytes exWayBytes)], .mk1 (b := 28 :: exWayBytes) 26 rfl (by decide) (by decide) (.bytes1 28 rfl (by decide)) .nil,
      ⟨[], rfl, .nil⟩, rfl, ⟨[_], rfl, .cons exWay_is .nil⟩, ⟨[], rfl, .nil⟩, ⟨[], rfl, .nil⟩⟩
  have hs : IsStringTable ⟨[[], [97]]⟩ [10, 0, 10, 1, 97] :=
    ⟨[(1, .bytes []), (1, .bytes [97])], .mk1 (b := [0]) 10 rfl (by decide) (by decide) (.bytes1 0 rfl (by decide))
      (.mk1 (b := [1, 97]) 10 rfl (by decide) (by decide) (.bytes1 1 rfl (by decide)) .nil), rfl⟩
  refine ⟨[(18, .int 1), (2, .bytes ([26, 28] ++ exWayBytes)), (15, .int 9), (1, .bytes [10, 0, 10, 1, 97])], ?_, ⟨_, rfl, hs⟩,
    ⟨[_], rfl, .cons hg .nil⟩, ⟨[], rfl, rfl⟩, ⟨[1], rfl, rfl⟩, ⟨[], rfl, rfl⟩, ⟨[], rfl, rfl⟩⟩
  exact .cons (key := [144, 1]) (b := [1]) (by decide) (by decide) (varint2 144 (by decide)) (.int1 1 rfl (by decide))
    (.mk1 (b := 30 :: ([26, 28] ++ exWayBytes)) 18 rfl (by decide) (by decide) (.bytes1 30 rfl (by decide))
    (.mk1 (b := [9]) 120 rfl (by decide) (by decide) (.int1 9 rfl (by decide))
    (.mk1 (b := [5, 10, 0, 10, 1, 97]) 10 rfl (by decide) (by decide) (.bytes1 5 rfl (by decide)) .nil)))

theorem milli_says : Format.Block milliMsg [.way milliWay] := by
  refine ⟨?_, by decide, [[.way milliWay]], rfl, .cons ?_ .nil⟩
  · intro b hb
    simp only [milliMsg, exBlockMsg, List.mem_cons, List.not_mem_nil, or_false] at hb
    rcases hb with rfl | rfl
    · exact ⟨"", rfl⟩
    · exact ⟨"a", rfl⟩
  · refine ⟨rfl, [], [], [milliWay], [], rfl, rfl, .nil, .cons ?_ .nil, .nil⟩
    refine ⟨rfl, rfl, ?_, ⟨_, rfl, rfl, ⟨2, rfl, by decide⟩, rfl, rfl, ⟨1, rfl, 1, by decide, rfl⟩, .inr ⟨rfl, rfl⟩⟩, [], rfl, rfl, .nil⟩
    intro i r h
    rcases i with _ | _ | i <;> simp [milliWay, exForeignFileWay] at h <;> subst h <;> decide

open Protobuf in
theorem milliFile_is : Format.IsFile (fun c d => exZ.stream c = d) exForeignInfo [[.way milliWay]] milliFile := by
  refine ⟨[0, 0, 0, 13] ++ ([10, 9] ++ utf8 "OSMHeader" ++ [24, 21]) ++ ([16, 16] ++ [26, 17, 7] ++ exHeaderBytes),
    [[0, 0, 0, 11] ++ ([24, 48] ++ [10, 7] ++ utf8 "OSMData") ++ ([72, 1] ++ [10, 44] ++ ([144, 1, 1] ++ exBlockBytes))], by simp [milliFile],
    ⟨exHeaderBytes, { required_features := ["OsmSchema-V0.6"] }, ?_, ?_, ?_⟩,
    .cons ⟨[144, 1, 1] ++ exBlockBytes, milliMsg, ?_, milli_is, milli_says⟩ .nil⟩
  · refine ⟨0, 0, 0, 13, _, _, { type := "OSMHeader", datasize := 21 }, rfl, rfl, by decide, ?_, rfl, rfl, by decide, .inr ⟨7 :: exHeaderBytes, rfl, ?_⟩⟩
    · exact ⟨[(1, .bytes (utf8 "OSMHeader")), (3, .int 21)], .mk1 (b := 9 :: utf8 "OSMHeader") 10 rfl (by decide) (by decide) (.bytes1 9 rfl (by decide))
        (.mk1 (b := [21]) 24 rfl (by decide) (by decide) (.int1 21 rfl (by decide)) .nil), ⟨["OSMHeader"], rfl, rfl⟩, ⟨[], rfl, rfl⟩, ⟨[21], rfl, rfl⟩⟩
    · exact ⟨[(2, .int 16), (3, .bytes (7 :: exHeaderBytes))], .mk1 (b := [16]) 16 rfl (by decide) (by decide) (.int1 16 rfl (by decide))
        (.mk1 (b := 17 :: 7 :: exHeaderBytes) 26 rfl (by decide) (by decide) (.bytes1 17 rfl (by decide)) .nil), ⟨[16], rfl, rfl⟩, ⟨[_], rfl, rfl⟩,
        by intro t ht; simp only [List.mem_cons, List.not_mem_nil, or_false] at ht; rcases ht with rfl | rfl | rfl | rfl | rfl <;> rfl⟩
  · exact ⟨[(4, .bytes (utf8 "OsmSchema-V0.6"))], .mk1 (b := 14 :: utf8 "OsmSchema-V0.6") 34 rfl (by decide) (by decide) (.bytes1 14 rfl (by decide)) .nil,
      rfl, rfl, rfl, ⟨[], rfl, rfl⟩, ⟨[], rfl, rfl⟩, ⟨[], rfl, rfl⟩, ⟨[], rfl, rfl⟩, ⟨[], rfl, rfl⟩⟩
  · exact ⟨rfl, rfl, rfl, rfl, rfl, rfl, rfl, rfl⟩
  · refine ⟨0, 0, 0, 11, _, _, { type := "OSMData", datasize := 48 }, rfl, rfl, by decide, ?_, rfl, rfl, by decide, .inl ?_⟩
    · exact ⟨[(3, .int 48), (1, .bytes (utf8 "OSMData"))], .mk1 (b := [48]) 24 rfl (by decide) (by decide) (.int1 48 rfl (by decide))
        (.mk1 (b := 7 :: utf8 "OSMData") 10 rfl (by decide) (by decide) (.bytes1 7 rfl (by decide)) .nil), ⟨["OSMData"], rfl, rfl⟩, ⟨[], rfl, rfl⟩, ⟨[48], rfl, rfl⟩⟩
    · exact ⟨[(9, .int 1), (1, .bytes ([144, 1, 1] ++ exBlockBytes))], .mk1 (b := [1]) 72 rfl (by decide) (by decide) (.int1 1 rfl (by decide))
        (.mk1 (b := 44 :: ([144, 1, 1] ++ exBlockBytes)) 10 rfl (by decide) (by decide) (.bytes1 44 rfl (by decide)) .nil), ⟨[_], rfl, rfl⟩, ⟨none, [], rfl, rfl⟩,
        by intro t ht; simp only [List.mem_cons, List.not_mem_nil, or_false] at ht; rcases ht with rfl | rfl | rfl | rfl | rfl <;> rfl⟩

/-- A file in milliseconds meets the hypotheses of `C106_rounding_shows`: the way has a part of a second, its copy has none. -/
example : ∃ fraction between once twice, PbfIo exZ (fun _ => true) "p" .zlib milliFile (.ok between) ∧ PbfIo exZ fraction "p" .zlib milliFile (.ok once) ∧
    PbfIo exZ fraction "p" .zlib between (.ok twice) ∧ ReadsElements exZ twice [] .done ∧ ∃ e, ReadsElements exZ once [e] .done := by
  classical
  let fraction : Element → Bool := fun e => decide ((∃ n, e = .node n ∧ ¬ WholeSecond n.timestamp) ∨
      (∃ w, e = .way w ∧ ¬ WholeSecond w.timestamp) ∨ ∃ r, e = .relation r ∧ ¬ WholeSecond r.timestamp)
  have hway : fraction (.way milliWay) = true := by
    simp only [fraction, decide_eq_true_eq]
    refine .inr (.inl ⟨_, rfl, ?_⟩)
    rintro ⟨s, h⟩
    have : milliWay.timestamp.toInt = 2 := rfl
    omega
  obtain ⟨ho, hread⟩ := C58_file_read_as_published exZ _ (fun _ _ h => h) _ _ _ milliFile_is (by simp [exForeignInfo, Supported])
  have hi : ∀ es' r, ReadsElements exZ milliFile es' r ↔ es' = [.way milliWay] ∧ r = .done := hread
  have hlay : Layered (realOnes [.way milliWay]) := ⟨[], [_], [], rfl, by simp, by simp, by simp, by simp⟩
  obtain ⟨w, hw⟩ := (C13_writer_accepts_iff exZ .zlib { exForeignInfo with writingprogram := some "p" } [.way milliWay]).1.2 hlay
  have ht : List.filter (fun _ => true) [Element.way milliWay] = [.way milliWay] := rfl
  have hf : List.filter fraction [Element.way milliWay] = [.way milliWay] := by simp [hway]
  have h1 : PbfIo exZ (fun _ => true) "p" .zlib milliFile (.ok (w.close exZ).file) := by
    rw [pbfIo_iff ho hi, ht, hw]; rfl
  have h2 : PbfIo exZ fraction "p" .zlib milliFile (.ok (w.close exZ).file) := by
    rw [pbfIo_iff ho hi, hf, hw]; rfl
  have hfit : RunsFit exZ .zlib (realOnes [.way milliWay]) := PipelineExample.fits_of_sublists (by unfold Fits; decide +kernel)
  obtain ⟨⟨twice, h3, h4⟩, es', h5, h6⟩ := C106_rounding_shows exZ exZ_lossless "p" .zlib milliFile _ _ fraction (by simp [fraction]) h1 h2 exForeignInfo ho
    ⟨by decide +kernel, by decide +kernel⟩ (by simp [exForeignInfo]) _ ((hi _ _).2 ⟨rfl, rfl⟩) hfit (by rw [hf]; exact hfit)
    (by intro e he; simp at he; subst he; trivial)
  rw [hf] at h6
  obtain ⟨e, rfl⟩ := List.length_eq_one_iff.1 h6
  exact ⟨fraction, _, _, twice, h1, h2, h3, h4, e, h5⟩

end FilterExample

end OsmIo
