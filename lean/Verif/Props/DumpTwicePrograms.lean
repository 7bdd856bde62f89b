import Verif.Props.DumpTwice
import Verif.Props.Pipelines
/-! # C92: the two conversion programs, a second time -/
namespace OsmIo
open Wire Spec Apidb

theorem apidb_writeAll_real (cod : Codec) (es : List Element) : ∀ w : Apidb.Writer,
    w.writeAll cod (realOnes es) = w.writeAll cod es := by
  induction es with
  | nil => intro w; rfl
  | cons e es ih =>
    intro w
    cases e with
    | sentinel => exact (ih w).trans rfl
    | node n =>
      show (do (← w.writeElement cod (.node n)).writeAll cod (realOnes es)) = do (← w.writeElement cod (.node n)).writeAll cod es
      cases w.writeElement cod (.node n) <;> simp [ih]
    | way n =>
      show (do (← w.writeElement cod (.way n)).writeAll cod (realOnes es)) = do (← w.writeElement cod (.way n)).writeAll cod es
      cases w.writeElement cod (.way n) <;> simp [ih]
    | relation n =>
      show (do (← w.writeElement cod (.relation n)).writeAll cod (realOnes es)) = do (← w.writeElement cod (.relation n)).writeAll cod es
      cases w.writeElement cod (.relation n) <;> simp [ih]

theorem dump_real {cod : Codec} {uc cc : Int64 → Int64} {es : List Element} {files : Table → Text} :
    Dump cod uc cc (realOnes es) files ↔ Dump cod uc cc es files := by
  unfold Dump
  simp only [apidb_writeAll_real]

/-- C92. Once `apidb-to-pbf` has made a file of a dump, `pbf-to-apidb` on that file and `apidb-to-pbf` on the new dump, whatever sorted
copy of it is used, give the same file again, byte for byte. -/
theorem C92_there_and_back_again (z : Zlib) (hz : z.Lossless) (cod : Codec) (hcod : Faithful cod) (le : Text → Text → Prop)
    (anti : ∀ a b, le a b → le b a → a = b) (uc cc : Int64 → Int64) (es : List Element) (files sorted : Table → Text)
    (hd : Dump cod uc cc es files) (hst : Storable es) (hk : ∀ e ∈ es, ((tagsOf e).map Tag.k).Nodup) (hsort : SortedCopy le files sorted)
    (info : FileInfo) (c : CompressionType) (hn : ¬ EmptyInfo info) (hh : HeaderFits z c info)
    (hs : ∀ f ∈ info.required_features, Supported f) (it it' : ElementIterator) (es₁ : List Element)
    (hnew : ElementIterator.new dumpTables sorted = .ok it) (hit : Iterates (ElementIterator.next cod) it es₁ it')
    (hfit : RunsFit z c (realOnes es₁)) (out : Bytes) (hout : ApidbToPbf z cod dumpTables sorted info c (.ok out))
    (uc₂ cc₂ : Int64 → Int64) (hu : ∀ k, Sql.inRange ((uc₂ k).toInt / 1000000) = true)
    (hc : ∀ k, Sql.inRange ((cc₂ k).toInt / 1000000) = true) :
    ∃ files₂, (∀ r, PbfToApidb z cod uc₂ cc₂ out r ↔ r = .ok files₂) ∧
      ∀ sorted₂, SortedCopy le files₂ sorted₂ → ∀ r, ApidbToPbf z cod dumpTables sorted₂ info c r ↔ r = .ok out := by
  obtain ⟨kt, kt', ns, ns', ws, ws', rs, rs', h1, h2, _, hb⟩ := C53_round_trip cod hcod le uc cc es files sorted hd hst hsort
  rw [hnew] at h1
  cases h1
  obtain ⟨rfl, -⟩ := Iterates.det hit h2
  obtain ⟨-, hex, hall⟩ := C92_twice cod hcod le anti uc cc es files sorted hd hst hk hsort it it' _ hnew hit
  have hprog := (apidbToPbf_iff hnew hit _).1 hout
  obtain ⟨w, hw, e⟩ := Out.bind_eq_ok.1 hprog.symm
  simp only [Out.ok.injEq] at e
  subst e
  have hx : ∀ e ∈ realOnes (withSentinels ns' ws' rs'), Exact e := fun e he => back_exact hb hst e (List.mem_filter.1 he).1
  obtain ⟨r1, jt, r2⟩ := written_reads hz hn hh hfit hw
  rw [map_quant_exact hx] at r1
  have ho : openReader z (w.close z).file = .ok (fromHeaderBlock (toHeaderBlock info)) := (C17_open_iff z _ _).2 ⟨⟨jt, r2⟩, hs⟩
  obtain ⟨files₂, hd₂⟩ := hex uc₂ cc₂ hu hc
  refine ⟨files₂, fun r => ?_, fun sorted₂ hs₂ r => ?_⟩
  · obtain ⟨v, v', g1, g2, rfl⟩ := dump_real.2 hd₂
    rw [pbfToApidb_iff ho (fun es' r => ⟨fun h => reads_det h r1, by rintro ⟨rfl, rfl⟩; exact r1⟩), g1, Out.ok_bind, g2]
    rfl
  · obtain ⟨lt, lt', k1, k2, -⟩ := hall uc₂ cc₂ files₂ sorted₂ hd₂ hs₂
    rw [apidbToPbf_iff k1 k2, hw]
    rfl

namespace RoundTripExample

/-- The hypotheses are met by elements that come back changed. -/
example : ∃ files sorted it it' es₁ out, Dump codec (fun _ => 0) (fun _ => 0) [.node rough, .way y1, .relation r2] files ∧
    SortedCopy le files sorted ∧ ElementIterator.new dumpTables sorted = .ok it ∧
    Iterates (ElementIterator.next codec) it es₁ it' ∧ ApidbToPbf exZ codec dumpTables sorted exInfo .zlib (.ok out) := by
  have hst : Storable [.node rough, .way y1, .relation r2] := by
    refine ⟨by simp [Spec.nodesOf], by simp [Spec.waysOf], by simp [Spec.relationsOf], ?_, ?_, by simp [Spec.waysOf, y1],
      by simp [Spec.relationsOf, r2]⟩
    · intro n hn
      have : n = rough := by simpa [Spec.nodesOf] using hn
      subst this
      exact ⟨by decide +kernel, by decide +kernel⟩
    · rw [show userNames [.node rough, .way y1, .relation r2] = [(8, "Bob"), (-1, ""), (7, "Ada")] from rfl]
      decide
  obtain ⟨files, hd⟩ := dump_total codec (fun _ => 0) (fun _ => 0) [.node rough, .way y1, .relation r2] (by
    intro e he
    simp only [List.mem_cons, List.not_mem_nil, or_false] at he
    rcases he with rfl | rfl | rfl <;> (unfold TimeOk; decide +kernel)) (fun _ => by decide +kernel) (fun _ => by decide +kernel)
  obtain ⟨sorted, hs⟩ := C53_sortable codec faithful le (fun a b => List.le_total a b) (fun a b c => List.le_trans) _ _ _ files hd hst.names
  obtain ⟨it, it', ns, ns', ws, ws', rs, rs', h1, h2, _, hb⟩ := C53_round_trip codec faithful le _ _ _ files sorted hd hst hs
  obtain ⟨w, hw⟩ := (C13_writer_accepts_iff exZ .zlib exInfo (withSentinels ns' ws' rs')).1.2 (by
    rw [realOnes_withSentinels, layered_together]
    intro _ e
    have l := hb.ways.2.2.length_eq
    rw [hb.ways.1.length_eq, e] at l
    exact absurd l (by decide))
  exact ⟨files, sorted, it, it', _, _, hd, hs, h1, h2, (apidbToPbf_iff h1 h2 _).2 (by rw [hw]; rfl)⟩

end RoundTripExample

end OsmIo
