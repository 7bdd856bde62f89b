import Verif.Props.Box
/-! # C21, C22, C39, continued: default box, box of a block, box of a file's metadata -/
set_option linter.unusedSimpArgs false
set_option linter.flexible false
namespace OsmIo
open Spec

/-- C22. The default box is the whole world: it contains exactly the points with valid latitude and longitude. -/
theorem C22_default_is_world (c : Coordinate) :
    Inside c .default ↔ (-90 ≤ c.lat ∧ c.lat ≤ 90) ∧ (-180 ≤ c.lon ∧ c.lon ≤ 180) := by
  simp only [Inside, BoundingBox.default]
  tauto

/-- The boxes present, as lists of their corners. -/
def corners (b : Option BoundingBox) : List Coordinate :=
  match b with
  | none => []
  | some b => [⟨b.bottom, b.left⟩, ⟨b.top, b.right⟩]

/-- C22. Merging a box into the metadata of a file: the new box is the smallest containing both (for proper boxes), a missing box counts as
empty, and nothing else changes. -/
theorem C22_file_info_merge (i : FileInfo) (b : Option BoundingBox) (hi : ∀ a, i.bounding_box = some a → Proper a)
    (hb : ∀ a, b = some a → Proper a) :
    (match (i.mergeBoundingBox b).bounding_box with
      | none => i.bounding_box = none ∧ b = none
      | some m => Tight m (corners i.bounding_box ++ corners b)) ∧
    { i.mergeBoundingBox b with bounding_box := i.bounding_box } = i := by
  have own : ∀ a : BoundingBox, Proper a → Tight a (corners (some a)) := by
    intro a ha
    constructor
    · simp only [corners, List.mem_cons, List.not_mem_nil, or_false, forall_eq_or_imp, forall_eq, Inside, le_refl, true_and, and_true]
      exact ⟨ha, ha⟩
    · intro b' hb'
      have h1 := hb' ⟨a.bottom, a.left⟩ (by simp [corners])
      have h2 := hb' ⟨a.top, a.right⟩ (by simp [corners])
      simp only [Inside, Within] at *
      tauto
  obtain ⟨bb, _, _, _, _, _, _, _⟩ := i
  cases bb with
  | none =>
    refine ⟨?_, rfl⟩
    cases b with
    | none => simp [FileInfo.mergeBoundingBox]
    | some o => simpa [FileInfo.mergeBoundingBox, corners] using own o (hb o rfl)
  | some a =>
    cases b with
    | none => exact ⟨by simpa [FileInfo.mergeBoundingBox, corners] using own a (hi a rfl), rfl⟩
    | some o => exact ⟨tight_merge (own a (hi a rfl)) (own o (hb o rfl)), rfl⟩

example : (FileInfo.mergeBoundingBox { FileInfo.default with bounding_box := some ⟨0, 1, 2, 3⟩ } (some ⟨-1, 2, 1, 5⟩)).bounding_box =
    some ⟨-1, 1, 2, 5⟩ := by decide +kernel

theorem bboxOfElements_eq (es : List Element) (acc : Option BoundingBox) :
    bboxOfElements acc es = (es.takeWhile Element.isNode).foldl boxStep acc := by
  induction es generalizing acc with
  | nil => rfl
  | cons e es ih =>
    cases e with
    | node n =>
      simp only [bboxOfElements, ih, Element.isNode, List.takeWhile_cons, if_true, List.foldl_cons]
      cases acc <;> rfl
    | way _ => rfl
    | relation _ => rfl
    | sentinel => rfl

/-- C21 (one block). The box computed for a block whose nodes come first is the smallest containing its nodes; there is none exactly
when the block has no nodes. -/
theorem C21_block_box (es : List Element) (h : NodesFirst es) :
    match bboxOfElements none es with
    | none => coordinates es = []
    | some b => Tight b (coordinates es) := by
  rw [bboxOfElements_eq, ← nodesFirst_coordinates h]
  have := blockBox_tight es
  unfold blockBox at this
  split <;> rename_i hb
  · rw [hb] at this; exact this
  · rw [hb] at this; exact this.2

/-- C21. Nodes after a way are not seen: the box of the block is that of its leading nodes. -/
theorem C21_later_nodes_missed :
    ∃ es, coordinates es = [⟨1, 2⟩, ⟨50, 60⟩] ∧ bboxOfElements none es = some ⟨2, 1, 2, 1⟩ ∧ blockBox es = some ⟨2, 1, 2, 1⟩ :=
  ⟨[.node ⟨1, 1, ⟨1, 2⟩, 0, 0, 0, "", true, []⟩, .way ⟨1, 1, 0, 0, 0, "", true, [], []⟩, .node ⟨2, 1, ⟨50, 60⟩, 0, 0, 0, "", true, []⟩],
    by decide +kernel, by decide +kernel, by decide +kernel⟩

example : NodesFirst [.node ⟨1, 1, ⟨1, 2⟩, 0, 0, 0, "", true, []⟩, .way ⟨1, 1, 0, 0, 0, "", true, [], []⟩] :=
  ⟨[.node ⟨1, 1, ⟨1, 2⟩, 0, 0, 0, "", true, []⟩], [.way ⟨1, 1, 0, 0, 0, "", true, [], []⟩], rfl, by simp [Element.isNode], by simp [Element.isNode]⟩

end OsmIo
