import Verif.Props.ApidbDirectory
import Verif.Props.Pipelines
/-! # C64: the two conversion programs one after the other, through a directory -/
namespace OsmIo
open Wire Spec Apidb

/-- C64. `pbf-to-apidb` on a published file, its dump written into any directory, and `apidb-to-pbf` on that directory: if the dump can
hold the elements, the directory can be opened, and the new file reads back exactly as the elements that come back from the dump. -/
theorem C64_programs (z : Zlib) (hz : z.Lossless) (inflates : Format.Inflates) (hi : ∀ c d, inflates c d → z.stream c = d)
    (info : FileInfo) (blocks : List (List Element)) (file : Bytes) (h : Format.IsFile inflates info blocks file)
    (hs : ∀ f ∈ info.required_features, Supported f) (cod : Apidb.Codec) (hcod : Faithful cod) (le : Text → Text → Prop)
    (uc cc : Int64 → Int64) (hu : ∀ k, Sql.inRange ((uc k).toInt / 1000000) = true) (hc : ∀ k, Sql.inRange ((cc k).toInt / 1000000) = true)
    (ht : ∀ e ∈ blocks.flatten, TimeOk e) (hst : Storable blocks.flatten)
    (info' : FileInfo) (c : CompressionType) (hn : ¬ EmptyInfo info') (hh : HeaderFits z c info') :
    ∃ files, (∀ r, PbfToApidb z cod uc cc file r ↔ r = .ok files) ∧
      ∀ (dir : Directory) (r : Out (Tables × (Table → Text))), OpenDirectory le (dir.create.flush files) r →
        ∃ tables sorted, r = .ok (tables, sorted) ∧
          ∃ ns ns' ws ws' rs rs', Back cod le blocks.flatten ns ns' ws ws' rs rs' ∧
            ((rs ≠ [] → ws ≠ []) → RunsFit z c (together ns' ws' rs') →
              ∃ out, (∀ r, ApidbToPbf z cod tables sorted info' c r ↔ r = .ok out) ∧
                ∀ es r, ReadsElements z out es r ↔ es = together ns' ws' rs' ∧ r = .done) := by
  obtain ⟨files, h1, h2⟩ := C63_there_and_back z hz inflates hi info blocks file h hs cod hcod le uc cc hu hc ht hst info' c hn hh
  refine ⟨files, h1, fun dir r hr => ?_⟩
  obtain ⟨sorted, h3, rfl⟩ := (C64_open le dir files r).1 hr
  exact ⟨_, sorted, rfl, h2 sorted h3⟩

/-- The hypotheses are met by the foreign file, with a dump into any directory and no order on text at all. -/
example : ∃ files, (∀ r, PbfToApidb exZ RoundTripExample.codec (fun _ => 0) (fun _ => 0) exForeignFile r ↔ r = .ok files) ∧
    ∀ (dir : Directory) (r : Out (Tables × (Table → Text))), OpenDirectory (fun _ _ => True) (dir.create.flush files) r →
      ∃ tables sorted, r = .ok (tables, sorted) := by
  have hst : Storable [Element.way exForeignFileWay] := by
    refine ⟨by simp [Spec.nodesOf], by simp [Spec.waysOf], by simp [Spec.relationsOf], by simp [Spec.nodesOf], ?_,
      by simp [Spec.waysOf, exForeignFileWay], by simp [Spec.relationsOf]⟩
    rw [show userNames [Element.way exForeignFileWay] = [(4, "a")] from rfl]
    decide
  have hfile := exForeignFile_is
  generalize exForeignFile = file at hfile
  obtain ⟨files, h1, h2⟩ := C64_programs exZ exZ_lossless _ (fun _ _ h => h) _ _ _ hfile (by simp [exForeignInfo, Supported])
    RoundTripExample.codec RoundTripExample.faithful (fun _ _ => True) (fun _ => 0) (fun _ => 0) (fun _ => by decide +kernel)
    (fun _ => by decide +kernel) (by intro e he; simp at he; subst he; unfold TimeOk; decide +kernel) hst exInfo .zlib exInfo_nonempty exInfo_fits
  exact ⟨files, h1, fun dir r hr => by
    obtain ⟨tables, sorted, h, _⟩ := h2 dir r hr
    exact ⟨tables, sorted, h⟩⟩

end OsmIo
