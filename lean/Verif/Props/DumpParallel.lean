import Verif.Model.DumpParallel
import Verif.Props.Pipelines
import Verif.Props.ParallelIo
/-! # C73: from a dump into a file through the parallel writer -/
set_option linter.unusedSimpArgs false
set_option linter.flexible false
namespace OsmIo
open Spec

theorem kept_oneType {b : List Element} (h : OneType b) : kept b = realOnes b := by
  by_cases hs : ∃ e ∈ b, e = .sentinel
  · obtain ⟨e, he, rfl⟩ := hs
    have hall : ∀ f ∈ b, f = .sentinel := by
      intro f hf
      have := h f hf _ he
      cases f <;> simp_all [Element.sameType]
    obtain ⟨n, rfl⟩ : ∃ n, b = List.replicate n .sentinel := ⟨b.length, List.eq_replicate_iff.mpr ⟨rfl, hall⟩⟩
    have e1 : OsmIo.nodesOf (List.replicate n Element.sentinel) = [] := by
      induction n with
      | zero => rfl
      | succ n ih => simp [List.replicate_succ, OsmIo.nodesOf] 
    have e2 : OsmIo.waysOf (List.replicate n Element.sentinel) = [] := by
      induction n with
      | zero => rfl
      | succ n ih => simp [List.replicate_succ, OsmIo.waysOf] 
    have e3 : OsmIo.relationsOf (List.replicate n Element.sentinel) = [] := by
      induction n with
      | zero => rfl
      | succ n ih => simp [List.replicate_succ, OsmIo.relationsOf] 
    simp [kept, e1, e2, e3, realOnes, Element.isSentinel]
  · have hn : NoSentinel b := fun e he hse => hs ⟨e, he, hse⟩
    rw [kept_homogeneous (homogeneous_of_oneType h hn)]
    exact (realOnes_eq fun e he => by have := hn e he; cases e <;> simp_all [Element.isSentinel]).symm

theorem realOnes_append (a b : List Element) : realOnes (a ++ b) = realOnes a ++ realOnes b := by simp [realOnes]

/-- Sequential reading of a file made of a header and data blocks of one type each, sentinels included. -/
theorem reads_written_oneType {z : Zlib} (hz : z.Lossless) {c : CompressionType} {info : FileInfo} {blocks : List (List Element)}
    (hn : ¬ EmptyInfo info) (hh : HeaderFits z c info) (hg : ∀ b ∈ blocks, OneType b) (hfit : ∀ b ∈ blocks, Fits z c b)
    (es : List Element) (r : End) :
    ReadsElements z (blockBytes z c (.header info :: blocks.map .data)) es r ↔ es = (realOnes blocks.flatten).map Element.quant ∧ r = .done := by
  have ok : ∀ b ∈ FileBlock.header info :: blocks.map .data, BlockOk z c b := by
    intro b hb
    simp at hb
    rcases hb with rfl | ⟨b, hb, rfl⟩
    · exact headerOk hn hh
    · exact ⟨serializeData_ne_nil b, (hfit b hb).1, (hfit b hb).2⟩
  have hb : takeBlocks z (blockBytes z c (.header info :: blocks.map .data)) (blocks.length + 2) {} =
      (.header (fromHeaderBlock (toHeaderBlock info)) :: blocks.map fun b => .data ((realOnes b).map Element.quant), .done) := by
    have := takeBlocks_written hz _ ok (file := blockBytes z c (.header info :: blocks.map .data)) [] (by simp) {} (by simp) (blocks.length + 2) (by simp)
    rw [this]
    simp only [List.map_cons, List.map_map, FileBlock.readBack]
    congr 2
    apply List.map_congr_left
    intro b hb
    simp [FileBlock.readBack, kept_oneType (hg b hb)]
  rw [reads_iff hb (by simp)]
  have h2 : ∀ bs : List (List Element), stream (bs.map fun b => .data ((realOnes b).map Element.quant)) .done =
      ((realOnes bs.flatten).map Element.quant, .done) := by
    intro bs
    induction bs with
    | nil => rfl
    | cons b bs ih => simp [stream, ih, realOnes_append]
  simp only [streamAll, h2, Prod.mk.injEq]

theorem submitted_dump (es : List Element) : submitted (callsOf (es.map fun e => Op.write (.element e))) = es := by
  induction es with
  | nil => rfl
  | cons e es ih => simpa [callsOf, submitted] using ih

theorem dump_elements {g : ParSystem.Config} {cod : Apidb.Codec} {tables : Apidb.Tables} {sorted : Apidb.Table → Text} {dump : Content}
    (hread : dump.ReadFrom cod tables sorted) (hwf : dump.WellFormed)
    {ns : List Node} {ws : List Way} {rs : List Relation} (hel : dump.Elements ns ws rs) {s : ParSystem} :
    DumpParallelOccurs g cod tables sorted s ↔ Occurs g (.header :: (withSentinels ns ws rs).map fun e => .write (.element e)) s := by
  obtain ⟨it, it', h1, h2, -⟩ := C43_elements cod tables sorted dump hread hwf ns ws rs hel
  constructor
  · rintro ⟨it1, it1', es, _, h1', h2', h3⟩
    rw [h1] at h1'
    cases h1'
    obtain ⟨rfl, rfl⟩ := Iterates.det h2 h2'
    exact h3
  · exact fun h => .run it it' _ s h1 h2 h

/-- C73. When `close` has returned, the file holds exactly the elements of the dump, each once, in blocks of one type and bounded size. Nothing is said about their order. -/
theorem C73_complete (g : ParSystem.Config) (hF : 0 < g.blockSize) (cod : Apidb.Codec) (tables : Apidb.Tables) (sorted : Apidb.Table → Text) (dump : Content)
    (hread : dump.ReadFrom cod tables sorted) (hwf : dump.WellFormed) (ns : List Node) (ws : List Way) (rs : List Relation) (hel : dump.Elements ns ws rs)
    (s : ParSystem) (hs : DumpParallelOccurs g cod tables sorted s) (hc : Closed s) :
    ∃ blocks : List (List Element), s.file = some (blockBytes g.z g.c (.header g.info :: blocks.map .data)) ∧
      (realOnes blocks.flatten).Perm (together ns ws rs) ∧
      ∀ b ∈ blocks, 1 ≤ b.length ∧ b.length ≤ g.blockSize ∧ ∀ e ∈ b, ∀ f ∈ b, rank e = rank f := by
  rw [dump_elements hread hwf hel] at hs
  obtain ⟨blocks, h1, h2⟩ := C68_close_complete g hF _ _ hs hc
  refine ⟨blocks, h2, ?_, ?_⟩
  · have := C25_permutation _ _ _ _ _ h1
    rw [submitted_dump] at this
    have := this.filter (fun e => !e.isSentinel)
    rw [← realOnes_withSentinels]
    exact this
  · intro b hb
    obtain ⟨a1, a2, a3⟩ := C35_block_shape _ _ _ hF _ _ h1 b hb
    exact ⟨a1, a2, fun e he f hf => (sameType_rank e f).mp (a3 e he f hf)⟩

/-- C73. And a reader of the file gets the elements of the dump, each once, with timestamps truncated to seconds, if blocks fit the format. -/
theorem C73_reads_back (g : ParSystem.Config) (hz : g.z.Lossless) (hF : 0 < g.blockSize) (cod : Apidb.Codec) (tables : Apidb.Tables) (sorted : Apidb.Table → Text)
    (dump : Content) (hread : dump.ReadFrom cod tables sorted) (hwf : dump.WellFormed) (ns : List Node) (ws : List Way) (rs : List Relation)
    (hel : dump.Elements ns ws rs) (hn : ¬ EmptyInfo g.info) (hh : HeaderFits g.z g.c g.info)
    (hfit : ∀ b : List Element, b.length ≤ g.blockSize → b.Subperm (withSentinels ns ws rs) → (∀ e ∈ b, ∀ f ∈ b, rank e = rank f) → Fits g.z g.c b)
    (s : ParSystem) (hs : DumpParallelOccurs g cod tables sorted s) (hc : Closed s) :
    ∃ out es es', s.file = some out ∧ (∀ es'' r, ReadsElements g.z out es'' r ↔ es'' = es' ∧ r = .done) ∧ es.Perm (together ns ws rs) ∧
      List.Forall₂ Truncated es es' := by
  rw [dump_elements hread hwf hel] at hs
  obtain ⟨blocks, h1, h2⟩ := C68_close_complete g hF _ _ hs hc
  have hp := C25_permutation _ _ _ _ _ h1
  rw [submitted_dump] at hp
  have hshape := C35_block_shape _ _ _ hF _ _ h1
  have hq : (realOnes blocks.flatten).Perm (together ns ws rs) := by
    rw [← realOnes_withSentinels]
    exact hp.filter _
  refine ⟨_, realOnes blocks.flatten, (realOnes blocks.flatten).map Element.quant, h2, fun es'' r => ?_, hq, ?_⟩
  · refine reads_written_oneType hz hn hh (fun b hb => (hshape b hb).2.2) (fun b hb => hfit b (hshape b hb).2.1 ?_ ?_) es'' r
    · exact (infix_of_mem_flatten hb).sublist.subperm.trans hp.subperm
    · exact fun e he f hf => (sameType_rank e f).mp ((hshape b hb).2.2 e he f hf)
  · rw [List.forall₂_map_right_iff, List.forall₂_same]
    exact fun e he => truncated_quant hel e (hq.mem_iff.mp he)

/-- C73. If the ordering buffer has room for the elements of the dump and three sentinels, no thread panics, the program never gets stuck and can always reach its end. -/
theorem C73_ends (g : ParSystem.Config) (hF : 0 < g.blockSize) (hq : 0 < g.cap) (ht : 0 < g.threads)
    (cod : Apidb.Codec) (tables : Apidb.Tables) (sorted : Apidb.Table → Text)
    (dump : Content) (hread : dump.ReadFrom cod tables sorted) (hwf : dump.WellFormed) (ns : List Node) (ws : List Way) (rs : List Relation)
    (hel : dump.Elements ns ws rs) (hl : ns.length + ws.length + rs.length + 3 ≤ g.bufferSize)
    (s : ParSystem) (hs : DumpParallelOccurs g cod tables sorted s) :
    ¬ Panicked s ∧ (¬ Closed s → ¬ Stuck g s) ∧ ∃ t, ParSystem.Steps g s t ∧ Closed t := by
  rw [dump_elements hread hwf hel] at hs
  refine C68_no_deadlock g hF hq ht _ ⟨_, run_small _ _ _ _ {} rfl ?_⟩ s hs
  rw [submitted_dump]
  simp [withSentinels]
  omega

/-- The sort that puts sentinels first: the standard library does not exclude it. -/
def sentinelsFirst : StdSort where
  sort l := l.filter (·.isSentinel) ++ (l.filter (!·.isSentinel)).mergeSort Element.le
  perm l := ((List.mergeSort_perm _ _).append_left _).trans (List.filter_append_perm _ _)
  stable l h := by
    have e : ∀ x ∈ l, x.isSentinel = false := fun x hx => by have := h x hx; cases x <;> simp_all [Element.isSentinel]
    rw [List.filter_eq_nil_iff.mpr (fun x hx => by simp [e x hx]), List.filter_eq_self.mpr (fun x hx => by simp [e x hx])]
    rfl

theorem sentinelsFirst_head (l : List Element) (h : .sentinel ∈ l) : ((sentinelsFirst.sort l).head? = some .sentinel) := by
  have hm : .sentinel ∈ l.filter (·.isSentinel) := List.mem_filter.mpr ⟨h, rfl⟩
  obtain ⟨a, t, ha⟩ := List.exists_cons_of_ne_nil (List.ne_nil_of_mem hm)
  have : a.isSentinel = true := (List.mem_filter.mp (ha ▸ List.mem_cons_self : a ∈ l.filter (·.isSentinel))).2
  simp only [sentinelsFirst, ha, List.cons_append, List.head?_cons]
  cases a <;> simp_all [Element.isSentinel]

theorem emit_min (F : Nat) (hF : 0 < F) (o : Orderer) (h : o.buffer.head? = some .sentinel) : (o.emit F).min = some .sentinel := by
  obtain ⟨buf, m, bl⟩ := o
  cases buf with
  | nil => simp at h
  | cons a buf =>
    simp only [List.head?_cons, Option.some.injEq] at h
    subst h
    obtain ⟨F, rfl⟩ : ∃ k, F = k + 1 := ⟨F - 1, by omega⟩
    have : ∀ (n : Nat) (acc buf : List Element), acc.head? = some .sentinel → (splitGo n acc buf).1.head? = some .sentinel := by
      intro n
      induction n with
      | zero => exact fun acc buf h => h
      | succ n ih =>
        intro acc buf h
        cases buf with
        | nil => exact h
        | cons b buf =>
          simp only [splitGo]
          split
          · exact ih _ _ (by cases acc <;> simp_all)
          · exact h
    have h1 := this F [.sentinel] buf rfl
    simp only [Orderer.emit, splitFileBlock, splitGo, List.isEmpty_nil, Bool.true_or, if_true, List.nil_append]
    simp [h1]

/-- Elements after a sentinel that has been flushed or waits in the buffer: as soon as the buffer has overflowed and one more element comes, the writer panics. -/
theorem run_tainted {S : StdSort} (hS : ∀ l, .sentinel ∈ l → (S.sort l).head? = some .sentinel) {B F : Nat} (hF : 0 < F) (es : List Element)
    (hr : NoSentinel es) (o : Orderer)
    (ht : o.min = some .sentinel ∧ es ≠ [] ∨ .sentinel ∈ o.buffer ∧ o.buffer.length ≤ B ∧ B + 1 < o.buffer.length + es.length) :
    Orderer.run S B F o (es.map .element) = .panic := by
  induction es generalizing o with
  | nil =>
    rcases ht with ht | ht
    · exact absurd rfl ht.2
    · simp at ht; omega
  | cons e es ih =>
    have he : e.isSentinel = false := by have := hr e (by simp); cases e <;> simp_all [Element.isSentinel]
    simp only [List.map_cons, Orderer.run, List.foldlM_cons]
    by_cases hmin : o.min = some .sentinel
    · have : o.exec S B F (.element e) = .panic := by
        have hlt : e.cmp .sentinel = .lt := by
          cases e with
          | sentinel => simp [Element.isSentinel] at he
          | _ => rfl
        simp only [Orderer.exec, Orderer.push, Orderer.assertOrder, hmin, he, hlt]
        rfl
      rw [this]
      rfl
    · obtain ⟨hb, hlen, hl⟩ := ht.resolve_left (fun h => hmin h.1)
      simp only [List.length_cons] at hl
      by_cases ha : o.assertOrder e
      · have hx : o.exec S B F (.element e) = .ok (Orderer.checkFull S B F { o with buffer := o.buffer ++ [e] }) := by
          simp only [Orderer.exec, Orderer.push, ha]
          rfl
        rw [hx]
        refine ih (fun x hx => hr x (by simp [hx])) _ ?_
        unfold Orderer.checkFull
        split
        · rename_i hfull
          simp at hfull
          left
          exact ⟨emit_min F hF _ (hS _ (by simp [hb])), by intro h; simp [h] at hl; omega⟩
        · rename_i hfull
          simp at hfull
          right
          refine ⟨by simp [hb], by simp; omega, by simp; omega⟩
      · have : o.exec S B F (.element e) = .panic := by
          simp only [Orderer.exec, Orderer.push, ha]
          rfl
        rw [this]
        rfl

theorem push_not_err (o : Orderer) (e : Element) : o.push e ≠ .err := by
  unfold Orderer.push
  split <;> simp

theorem run_element_not_err (S : StdSort) (B F : Nat) (es : List Element) (o : Orderer) : Orderer.run S B F o (es.map .element) ≠ .err := by
  induction es generalizing o with
  | nil => simp [Orderer.run]
  | cons e es ih =>
    simp only [List.map_cons, Orderer.run, List.foldlM_cons, Orderer.exec]
    cases h : o.push e with
    | err => exact absurd h (push_not_err o e)
    | panic => simp [Bind.bind, Out.bind]
    | ok o' => exact ih _

theorem run_sentinel_then {S : StdSort} (hS : ∀ l, .sentinel ∈ l → (S.sort l).head? = some .sentinel) {B F : Nat} (hF : 0 < F) (pre es post : List Element)
    (hr : NoSentinel es) (hl : B < es.length) :
    Orderer.run S B F {} ((pre ++ .sentinel :: (es ++ post)).map .element) = .panic := by
  have append : ∀ (a b : List WriteCall) (o : Orderer), Orderer.run S B F o (a ++ b) = (Orderer.run S B F o a).bind (fun o => Orderer.run S B F o b) := by
    intro a b o
    simp only [Orderer.run, List.foldlM_append]
    rfl
  rw [List.map_append, append]
  cases h : Orderer.run S B F {} (pre.map .element) with
  | err => exact absurd h (run_element_not_err _ _ _ _ _)
  | panic => rfl
  | ok o =>
    simp only [Out.bind, List.map_cons, List.map_append]
    rw [show ∀ (c : WriteCall) l, c :: l = [c] ++ l from fun _ _ => rfl, append]
    have hx : Orderer.run S B F o [.element .sentinel] = .ok (Orderer.checkFull S B F { o with buffer := o.buffer ++ [.sentinel] }) := by
      simp only [Orderer.run, List.foldlM_cons, List.foldlM_nil, Orderer.exec, Orderer.push, Orderer.assertOrder, Element.isSentinel]
      rfl
    rw [hx]
    simp only [Out.bind]
    rw [append, run_tainted hS hF es hr]
    · rfl
    · unfold Orderer.checkFull
      split
      · left
        exact ⟨emit_min F hF _ (hS _ (by simp)), by rintro rfl; simp at hl⟩
      · right
        rename_i hfull
        simp at hfull
        refine ⟨by simp, by simp; omega, by simp; omega⟩

/-- C73. The sentinels between the types are not in the order of elements. If the sort used by the standard library puts a sentinel first (it is free to), a dump with more ways or
relations than there is room in the ordering buffer makes the program panic: it never ends well. -/
theorem C73_order_lost (g : ParSystem.Config) (hS : g.S = sentinelsFirst) (hF : 0 < g.blockSize) (hq : 0 < g.cap) (ht : 0 < g.threads)
    (cod : Apidb.Codec) (tables : Apidb.Tables) (sorted : Apidb.Table → Text)
    (dump : Content) (hread : dump.ReadFrom cod tables sorted) (hwf : dump.WellFormed) (ns : List Node) (ws : List Way) (rs : List Relation)
    (hel : dump.Elements ns ws rs) (hl : g.bufferSize < ws.length ∨ g.bufferSize < rs.length)
    (s : ParSystem) (hs : DumpParallelOccurs g cod tables sorted s) :
    ¬ Closed s ∧ (Stuck g s → Panicked s) := by
  rw [dump_elements hread hwf hel] at hs
  refine C68_lost_order g hF hq ht _ ?_ s hs
  have hcalls : callsOf (.header :: (withSentinels ns ws rs).map fun e => Op.write (.element e)) = (withSentinels ns ws rs).map .element := by
    have : ∀ es : List Element, callsOf (es.map fun e => Op.write (.element e)) = es.map .element := by
      intro es
      induction es with
      | nil => rfl
      | cons e es ih => simpa [callsOf] using ih
    exact this _
  rw [hcalls]
  have hS' : ∀ l, .sentinel ∈ l → (g.S.sort l).head? = some .sentinel := by rw [hS]; exact sentinelsFirst_head
  rcases hl with hl | hl
  · have e : withSentinels ns ws rs = ns.map .node ++ .sentinel :: (ws.map .way ++ (.sentinel :: (rs.map .relation ++ [.sentinel]))) := by
      simp [withSentinels]
    rw [e]
    exact run_sentinel_then hS' hF _ _ _ (by simp [NoSentinel]) (by simpa using hl)
  · have e : withSentinels ns ws rs = (ns.map .node ++ .sentinel :: ws.map .way) ++ .sentinel :: (rs.map .relation ++ [.sentinel]) := by
      simp [withSentinels]
    rw [e]
    exact run_sentinel_then hS' hF _ _ _ (by simp [NoSentinel]) (by simpa using hl)

namespace DumpParallelExample

def config (B : Nat) : ParSystem.Config := ⟨exZ, sentinelsFirst, exInfo, .zlib, B, 1, 1, 2⟩

def nodes : List Node :=
  [⟨1, 1, ⟨F64.div 515000000 10000000, F64.div (-1000000) 10000000⟩, 1704164645000, 5, 7, "Ada", true, [⟨"k", "old"⟩]⟩,
   ⟨1, 2, ⟨F64.div 515000000 10000000, F64.div (-1000000) 10000000⟩, 1704164645000, 5, 7, "Ada", true, [⟨"k", "new"⟩, ⟨"name", "x"⟩]⟩]

def ways : List Way := [⟨4, 1, 1704164645000, 5, 7, "Ada", true, [1, 1], [⟨"highway", "path"⟩]⟩]

def relations : List Relation := [⟨9, 1, 1704164645000, 5, 7, "Ada", false, [.node ⟨1, "stop"⟩, .way ⟨4, ""⟩], [⟨"type", "route"⟩]⟩]

theorem elements : ReadExample.content.Elements nodes ways relations := ReadExample.elements

theorem fits_nil : Fits exZ .zlib [] := by unfold Fits; decide +kernel

theorem fits_one (e : Element) (he : e ∈ withSentinels nodes ways relations) : Fits exZ .zlib [e] := by
  have key : ∀ l ∈ (withSentinels nodes ways relations).map fun e => [e], Fits exZ .zlib l := by unfold Fits; decide +kernel
  exact key [e] (List.mem_map.mpr ⟨e, he, rfl⟩)

/-- `C73_ends`, `C73_complete` and `C73_reads_back` on the sample dump, with room for seven in the buffer: the program ends and its file holds four elements. -/
example : ∃ s, DumpParallelOccurs (config 7) ReadExample.plain Apidb.dumpTables ReadExample.sorted s ∧ Closed s ∧
    ∃ out es, s.file = some out ∧ ReadsElements exZ out es .done ∧ es.length = 4 := by
  have h0 : DumpParallelOccurs (config 7) ReadExample.plain Apidb.dumpTables ReadExample.sorted _ :=
    (dump_elements ReadExample.readFrom ReadExample.wellFormed elements).mpr .refl
  obtain ⟨-, -, s, hs, hc⟩ := C73_ends (config 7) Nat.one_pos Nat.one_pos Nat.two_pos ReadExample.plain Apidb.dumpTables ReadExample.sorted ReadExample.content
    ReadExample.readFrom ReadExample.wellFormed nodes ways relations elements (Nat.le_refl 7) _ h0
  have hs' : DumpParallelOccurs (config 7) ReadExample.plain Apidb.dumpTables ReadExample.sorted s :=
    (dump_elements ReadExample.readFrom ReadExample.wellFormed elements).mpr hs
  refine ⟨s, hs', hc, ?_⟩
  obtain ⟨out, es, es', h1, h2, h3, h4⟩ := C73_reads_back (config 7) exZ_lossless Nat.one_pos ReadExample.plain Apidb.dumpTables ReadExample.sorted ReadExample.content
    ReadExample.readFrom ReadExample.wellFormed nodes ways relations elements exInfo_nonempty exInfo_fits (by
      intro b hb hsub _
      cases b with
      | nil => exact fits_nil
      | cons e b =>
        cases b with
        | cons => exact absurd hb (by simp [config])
        | nil => exact fits_one e (hsub.subset (List.mem_singleton.mpr rfl))) s hs' hc
  refine ⟨out, es', h1, (h2 _ _).mpr ⟨rfl, rfl⟩, ?_⟩
  rw [← h4.length_eq, h3.length_eq]
  rfl

/-- `C73_order_lost` on the sample dump, with a buffer for no element. -/
example (s : ParSystem) (hs : DumpParallelOccurs (config 0) ReadExample.plain Apidb.dumpTables ReadExample.sorted s) : ¬ Closed s :=
  (C73_order_lost (config 0) rfl Nat.one_pos Nat.one_pos Nat.two_pos ReadExample.plain Apidb.dumpTables ReadExample.sorted ReadExample.content
    ReadExample.readFrom ReadExample.wellFormed nodes ways relations elements (.inl Nat.one_pos) s hs).1

end DumpParallelExample

end OsmIo
