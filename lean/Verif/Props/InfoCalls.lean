import Verif.Props.Header
import Verif.Spec.InfoCalls
/-!
# C101: the settings of a file
-/
namespace OsmIo
open Spec Spec.Settings

theorem last_snoc {α : Type} (d a : α) (l : List α) : last d (l ++ [a]) = a := by simp [last]

/-- C101. After any sequence of calls of the setters, every setting has the last value given to it; settings that were not given any keep theirs. -/
theorem C101_last_wins (i : FileInfo) (cs : List InfoCall) : SetBy i cs (i.calls cs) := by
  induction cs using List.reverseRecOn with
  | nil => exact ⟨rfl, rfl, rfl, rfl, rfl, rfl, rfl, rfl⟩
  | append_singleton cs c ih =>
    obtain ⟨h1, h2, h3, h4, h5, h6, h7, h8⟩ := ih
    have e : i.calls (cs ++ [c]) = (i.calls cs).call c := by simp [FileInfo.calls]
    rw [e]
    unfold SetBy boxes required Settings.optional programs sources timestamps sequenceNumbers baseUrls at *
    simp only [List.filterMap_append]
    cases c <;>
      simp only [FileInfo.call, List.filterMap_cons, List.filterMap_nil, List.append_nil, last_snoc, h1, h2, h3, h4, h5, h6, h7, h8, and_self]

/-- C101. There is only one such metadata: so calls that give each setting the same last value have the same result, in whatever order the
settings are made. -/
theorem C101_unique (i : FileInfo) (cs cs' : List InfoCall) (i' : FileInfo) (h : SetBy i cs i') : i' = i.calls cs ∧
    (SetBy i cs' i' → i.calls cs' = i.calls cs) := by
  have key : ∀ (cs : List InfoCall) (a b : FileInfo), SetBy i cs a → SetBy i cs b → a = b := by
    rintro cs ⟨_, _, _, _, _, _, _, _⟩ ⟨_, _, _, _, _, _, _, _⟩ ⟨h1, h2, h3, h4, h5, h6, h7, h8⟩ ⟨g1, g2, g3, g4, g5, g6, g7, g8⟩
    simp only at h1 h2 h3 h4 h5 h6 h7 h8 g1 g2 g3 g4 g5 g6 g7 g8
    rw [h1, h2, h3, h4, h5, h6, h7, h8, g1, g2, g3, g4, g5, g6, g7, g8]
  have e := key cs _ _ h (C101_last_wins i cs)
  exact ⟨e, fun h' => by rw [← e]; exact (key cs' _ _ h' (C101_last_wins i cs')).symm⟩

/-- C101. A file written with metadata made by any calls is opened with the settings last made; only the sides of the bounding box may differ
(C16), not whether there is one. -/
theorem C101_read_back (z : Zlib) (hz : z.Lossless) (c : CompressionType) (i : FileInfo) (cs : List InfoCall) (rest : Bytes)
    (hn : ¬ EmptyInfo (i.calls cs)) (hh : HeaderFits z c (i.calls cs)) (hs : ∀ f ∈ last i.required_features (required cs), Supported f) :
    ∃ info, openReader z (((Writer.fromFileInfo (i.calls cs) c).writeHeader z).file ++ rest) = .ok info ∧
      SetBy i cs { info with bounding_box := last i.bounding_box (boxes cs) } ∧
      info.bounding_box.isSome = (last i.bounding_box (boxes cs)).isSome := by
  obtain ⟨h1, h2, h3, h4, h5, h6, h7, h8⟩ := C101_last_wins i cs
  obtain ⟨info, ho, he, hb⟩ := C15_header_roundtrip z hz c (i.calls cs) rest hn hh (by rw [h2]; exact hs)
  refine ⟨info, ho, ?_, by rw [hb, ← h1]; simp⟩
  rw [he]
  exact ⟨rfl, h2, h3, h4, h5, h6, h7, h8⟩

/-- Settings as a program makes them. -/
def exSettings : List InfoCall :=
  [.source (some "a"), .writingprogram none, .replicationTimestamp (some 5), .source (some "b"), .writingprogramStr "p"]

example : FileInfo.default.calls exSettings =
    { FileInfo.default with source := some "b", writingprogram := some "p", osmosis_replication_timestamp := some 5 } := by decide +kernel

/-- The hypotheses of C101_read_back hold for them. -/
example : ¬ EmptyInfo (FileInfo.default.calls exSettings) ∧ HeaderFits exZ .zlib (FileInfo.default.calls exSettings) ∧
    ∀ f ∈ last FileInfo.default.required_features (required exSettings), Supported f := by
  refine ⟨?_, ⟨by decide +kernel, by decide +kernel⟩, ?_⟩
  · intro h
    have : (FileInfo.default.calls exSettings).source = some "b" := by decide +kernel
    unfold EmptyInfo at h
    simp [this] at h
  · have : last FileInfo.default.required_features (required exSettings) = ["OsmSchema-V0.6", "DenseNodes"] := by decide +kernel
    rw [this]
    simp [Supported]

/-- The hypotheses of C101_unique: the same settings in another order. -/
example : SetBy .default exSettings.reverse (FileInfo.default.calls
    [.writingprogram none, .replicationTimestamp (some 5), .source (some "a")]) ∧
    FileInfo.default.calls exSettings ≠ FileInfo.default.calls exSettings.reverse :=
  ⟨by unfold SetBy; decide +kernel, by decide +kernel⟩

end OsmIo
