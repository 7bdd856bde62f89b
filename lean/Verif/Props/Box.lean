import Verif.Props.Parallel
import Mathlib.Order.Lattice
/-! # C21, C22, C23: bounding boxes and the order of elements -/
set_option linter.unusedSimpArgs false
set_option linter.flexible false
namespace OsmIo
open Spec Pool

/-! ## C22: merging boxes -/

theorem mergeBox_eq (a b : BoundingBox) :
    a.mergeBox b = ⟨min a.left b.left, min a.bottom b.bottom, max a.right b.right, max a.top b.top⟩ := by
  obtain ⟨l, bo, r, t⟩ := a
  obtain ⟨l', bo', r', t'⟩ := b
  simp only [BoundingBox.mergeBox, min_def, max_def]
  split_ifs <;> simp_all <;> grind

theorem mergePoint_eq (a : BoundingBox) (c : Coordinate) : a.mergePoint c = a.mergeBox (.fromPoint c) := by
  rfl

/-- C22. The merged box contains both boxes and lies in every box that contains both. -/
theorem C22_merge_is_least (a b : BoundingBox) :
    Within a (a.mergeBox b) ∧ Within b (a.mergeBox b) ∧ ∀ c, Within a c → Within b c → Within (a.mergeBox b) c := by
  rw [mergeBox_eq]
  simp only [Within, min_le_iff, le_min_iff, max_le_iff, le_max_iff, le_refl, true_or, or_true, true_and]
  tauto

/-- C22. Merging a point gives the smallest box containing the box and the point. -/
theorem C22_merge_point_is_least (a : BoundingBox) (p : Coordinate) :
    Within a (a.mergePoint p) ∧ Inside p (a.mergePoint p) ∧ ∀ c, Within a c → Inside p c → Within (a.mergePoint p) c := by
  rw [mergePoint_eq, mergeBox_eq]
  simp only [Within, Inside, BoundingBox.fromPoint, min_le_iff, le_min_iff, max_le_iff, le_max_iff, le_refl, true_or, or_true, true_and]
  tauto

/-- C22. The order of merging does not matter. -/
theorem C22_merge_algebra (a b c : BoundingBox) :
    a.mergeBox b = b.mergeBox a ∧ (a.mergeBox b).mergeBox c = a.mergeBox (b.mergeBox c) ∧ a.mergeBox a = a := by
  simp only [mergeBox_eq, min_comm, max_comm, min_assoc, max_assoc, min_self, max_self, and_self, and_true]
  simp [min_comm, max_comm, min_left_comm, max_left_comm]

/-- C22. Merging keeps boxes proper, and a box from a point is proper. -/
theorem C22_merge_proper (a b : BoundingBox) (p : Coordinate) (ha : Proper a) :
    Proper (a.mergeBox b) ∧ Proper (a.mergePoint p) ∧ Proper (.fromPoint p) := by
  rw [mergePoint_eq, mergeBox_eq, mergeBox_eq]
  unfold Proper BoundingBox.fromPoint at *
  simp only [min_le_iff, le_max_iff]
  tauto

/-- C22. Merging a list of points into the box of the first one gives the smallest box containing all, whatever their order. -/
theorem C22_merge_points_tight (p : Coordinate) (ps : List Coordinate) :
    Tight (ps.foldl BoundingBox.mergePoint (.fromPoint p)) (p :: ps) := by
  suffices h : ∀ (b : BoundingBox) (cs : List Coordinate), Tight b cs → Tight (ps.foldl BoundingBox.mergePoint b) (cs ++ ps) by
    refine h (.fromPoint p) [p] ⟨by simp [Inside, BoundingBox.fromPoint], fun b' hb' => ?_⟩
    have := hb' p (by simp)
    simpa [Within, Inside, BoundingBox.fromPoint] using this
  induction ps with
  | nil => intro b cs h; simpa using h
  | cons q ps ih =>
    intro b cs h
    have := ih (b.mergePoint q) (cs ++ [q]) ?_
    · simpa using this
    · obtain ⟨h1, h2, h3⟩ := C22_merge_point_is_least b q
      constructor
      · intro c hc
        simp at hc
        rcases hc with hc | rfl
        · have := h.1 c hc
          simp only [Inside, Within] at *
          grind
        · exact h2
      · intro b' hb'
        exact h3 b' (h.2 b' fun c hc => hb' c (by simp [hc])) (hb' q (by simp))

example : Proper ⟨1, 2, 3, 4⟩ ∧ ¬ Proper ⟨3, 2, 1, 4⟩ := by simp [Proper]; norm_num

/-! ## C21: the box of a file -/

/-- An optional box is the tight box of some points; absent when there are none. -/
def TightOpt (o : Option BoundingBox) (cs : List Coordinate) : Prop :=
  match o with
  | none => cs = []
  | some b => cs ≠ [] ∧ Tight b cs

theorem tight_merge {a b : BoundingBox} {cs ds : List Coordinate} (ha : Tight a cs) (hb : Tight b ds) : Tight (a.mergeBox b) (cs ++ ds) := by
  obtain ⟨h1, h2, h3⟩ := C22_merge_is_least a b
  constructor
  · intro c hc
    simp at hc
    rcases hc with hc | hc
    · have := ha.1 c hc; simp only [Inside, Within] at *; grind
    · have := hb.1 c hc; simp only [Inside, Within] at *; grind
  · intro b' hb'
    exact h3 b' (ha.2 b' fun c hc => hb' c (by simp [hc])) (hb.2 b' fun c hc => hb' c (by simp [hc]))

theorem tightOpt_merge {r o : Option BoundingBox} {cs ds : List Coordinate} (hr : TightOpt r cs) (ho : TightOpt o ds) :
    TightOpt (mergeResult r o) (cs ++ ds) := by
  cases o with
  | none => simp [TightOpt] at ho; subst ho; simpa [mergeResult] using hr
  | some b =>
    cases r with
    | none => simp [TightOpt] at hr; subst hr; simpa [mergeResult] using ho
    | some a => exact ⟨by simp [hr.1], tight_merge hr.2 ho.2⟩

theorem blockBox_tight (es : List Element) : TightOpt (blockBox es) (coordinates (es.takeWhile Element.isNode)) := by
  unfold blockBox
  suffices h : ∀ (l : List Element) (o : Option BoundingBox) (cs : List Coordinate), TightOpt o cs →
      TightOpt (l.foldl boxStep o) (cs ++ coordinates l) by
    simpa using h (es.takeWhile Element.isNode) none [] rfl
  intro l
  induction l with
  | nil => intro o cs h; simpa [coordinates] using h
  | cons e l ih =>
    intro o cs h
    cases e with
    | node n =>
      have key : TightOpt (some (BoundingBox.fromPoint n.coordinate)) [n.coordinate] := by
        have := C22_merge_points_tight n.coordinate []
        exact ⟨by simp, this⟩
      have := tightOpt_merge h key
      have h2 := ih _ _ this
      cases o <;> simpa [coordinates, mergeResult, mergePoint_eq, boxStep] using h2
    | way w => simpa [coordinates, boxStep] using ih o cs h
    | relation w => simpa [coordinates, boxStep] using ih o cs h
    | sentinel => simpa [coordinates, boxStep] using ih o cs h

theorem mergeResult_comm (r a b : Option BoundingBox) : mergeResult (mergeResult r a) b = mergeResult (mergeResult r b) a := by
  cases r with
  | none =>
    cases a <;> cases b <;> simp [mergeResult]
    exact (C22_merge_algebra _ _ .default).1
  | some r =>
    cases a <;> cases b <;> simp [mergeResult]
    rename_i a b
    rw [(C22_merge_algebra r a b).2.1, (C22_merge_algebra r b a).2.1, (C22_merge_algebra a b .default).1]

/-- The actions of a block. -/
def boxOf : FileBlock → List (Option BoundingBox)
  | .data es => [blockBox es]
  | .header _ => []

theorem box_commands {z : Zlib} {file : Bytes} {ds : List BlobDesc} {bs : List FileBlock}
    (h : List.Forall₂ (fun d b => FileBlock.fromBlobDesc z file d = .ok b) ds bs) :
    ds.mapM (boxCalls z file) = some (bs.map boxOf) := by
  induction h with
  | nil => rfl
  | @cons d b ds bs h1 _ ih =>
    have : boxCalls z file d = some (boxOf b) := by
      unfold boxCalls; rw [h1]; cases b <;> rfl
    simp [List.mapM_cons, this, ih]

/-- The box does not depend on the schedule: it is the tight box of the leading nodes of all blocks. -/
theorem box_shared {z : Zlib} {file : Bytes} {bs : List FileBlock} (hb : HasBlocks z file bs) {T : Nat}
    {p : Pool T (Option BoundingBox) (Option BoundingBox)} (hp : BoxCalculation z file p) :
    TightOpt p.shared (bs.flatMap fun b => coordinates ((elementsOf b).takeWhile Element.isNode)) := by
  obtain ⟨fuel, hb⟩ := hb
  obtain ⟨fuel', ds, calls, p, h1, h2, hs, hd⟩ := hp
  obtain ⟨ds', h1', -, h3⟩ := commands_of_blocks fuel {} bs hb
  obtain rfl := takeBlobs_mono fuel' fuel {} ds ds' h1 h1'
  rw [box_commands h3] at h2
  simp at h2
  subst h2
  have hi := steps_inv (init_inv boxAct _ none) hs
  have hf := hi.fold
  have : p.shared = (p.log.map (·.2.2)).foldl mergeResult none := by
    rw [hf, List.foldl_map]; rfl
  rw [this]
  have hperm := done_perm hi hd
  have hfold : (p.log.map (·.2.2)).foldl mergeResult none =
      (bs.map boxOf).flatten.foldl mergeResult none :=
    hperm.foldl_eq' (fun x _ y _ r => mergeResult_comm r x y) none
  rw [hfold]
  clear hfold this hf hperm hi hs hd h3 h1 h1' hb
  suffices h : ∀ (o : Option BoundingBox) (cs : List Coordinate), TightOpt o cs →
      TightOpt ((bs.map boxOf).flatten.foldl mergeResult o)
        (cs ++ bs.flatMap fun b => coordinates ((elementsOf b).takeWhile Element.isNode)) by
    simpa using h none [] rfl
  induction bs with
  | nil => intro o cs h; simpa using h
  | cons b bs ih =>
    intro o cs h
    cases b with
    | header i => simpa [elementsOf, coordinates, boxOf] using ih o cs h
    | data es =>
      have := ih _ _ (tightOpt_merge h (blockBox_tight es))
      simpa [elementsOf, boxOf] using this

theorem nodesFirst_coordinates {es : List Element} (h : NodesFirst es) :
    coordinates (es.takeWhile Element.isNode) = coordinates es := by
  obtain ⟨ns, rest, rfl, h1, h2⟩ := h
  have e1 : List.takeWhile Element.isNode (ns ++ rest) = ns := by
    rw [List.takeWhile_append_of_pos h1]
    cases rest with
    | nil => simp
    | cons x rest => simp [List.takeWhile_cons, h2 x (by simp)]
  rw [e1]
  have e2 : coordinates rest = [] := by
    unfold coordinates
    rw [List.filterMap_eq_nil_iff]
    intro e he
    have := h2 e he
    cases e <;> simp_all [Element.isNode]
  simp only [coordinates, List.filterMap_append] at e2 ⊢
  rw [e2, List.append_nil]

/-- C21. For every number of threads and every schedule, `BoundingBoxCalculator::calc` returns the smallest box that contains all nodes of the
file, if in each block the nodes come first and there is at least one node; without nodes it panics. -/
theorem C21_box_is_tight (z : Zlib) (file : Bytes) (bs : List FileBlock) (hb : HasBlocks z file bs)
    (hn : ∀ b ∈ bs, NodesFirst (elementsOf b)) (T : Nat) (p : Pool T (Option BoundingBox) (Option BoundingBox))
    (hp : BoxCalculation z file p) :
    (coordinates (bs.flatMap elementsOf) ≠ [] → ∃ b, boxResult p.shared = .ok b ∧ Tight b (coordinates (bs.flatMap elementsOf))) ∧
    (coordinates (bs.flatMap elementsOf) = [] → boxResult p.shared = .panic) := by
  have h := box_shared hb hp
  have he : (bs.flatMap fun b => coordinates ((elementsOf b).takeWhile Element.isNode)) = coordinates (bs.flatMap elementsOf) := by
    clear h hp hb
    induction bs with
    | nil => rfl
    | cons b bs ih =>
      simp only [List.flatMap_cons, nodesFirst_coordinates (hn b (by simp)), ih fun b hb => hn b (by simp [hb])]
      simp [coordinates]
  rw [he] at h
  cases hs : p.shared with
  | none => rw [hs] at h; simp [TightOpt] at h; simp [h, boxResult]
  | some b => rw [hs] at h; simp [boxResult]; exact ⟨fun _ => h.2, fun hc => h.1 hc⟩

/-- C21. The result is the same for any two runs, with any numbers of threads, also when nodes do not come first. -/
theorem C21_box_deterministic (z : Zlib) (file : Bytes) (bs : List FileBlock) (hb : HasBlocks z file bs) (T T' : Nat)
    (p : Pool T (Option BoundingBox) (Option BoundingBox)) (p' : Pool T' (Option BoundingBox) (Option BoundingBox))
    (hp : BoxCalculation z file p) (hp' : BoxCalculation z file p') : boxResult p.shared = boxResult p'.shared := by
  have h := box_shared hb hp
  have h' := box_shared hb hp'
  cases hs : p.shared with
  | none =>
    cases hs' : p'.shared with
    | none => rfl
    | some b => rw [hs] at h; rw [hs'] at h'; exact absurd h h'.1
  | some b =>
    cases hs' : p'.shared with
    | none => rw [hs] at h; rw [hs'] at h'; exact absurd h' h.1
    | some b' =>
      rw [hs] at h; rw [hs'] at h'
      have h1 := h.2.2 b' h'.2.1
      have h2 := h'.2.2 b h.2.1
      obtain ⟨a1, a2, a3, a4⟩ := b
      obtain ⟨b1, b2, b3, b4⟩ := b'
      simp only [Within] at h1 h2
      simp only [boxResult, Out.unwrap_some, Out.ok.injEq, BoundingBox.mk.injEq]
      refine ⟨le_antisymm h2.1 h1.1, le_antisymm h2.2.2.1 h1.2.2.1, le_antisymm h1.2.1 h2.2.1, le_antisymm h1.2.2.2 h2.2.2.2⟩

/-! ## C23: order of elements -/

theorem compare64 (a b : Int64) : compare a b = compare a.toInt b.toInt := by
  show compareOfLessAndEq a b = compareOfLessAndEq _ _
  simp [compareOfLessAndEq, Int64.lt_iff_toInt_lt, Int64.toInt_inj]

theorem compare32 (a b : Int32) : compare a b = compare a.toInt b.toInt := by
  show compareOfLessAndEq a b = compareOfLessAndEq _ _
  simp [compareOfLessAndEq, Int32.lt_iff_toInt_lt, Int32.toInt_inj]

theorem cmpIdVersion_lt (a : Int64) (v : Int32) (b : Int64) (w : Int32) :
    Element.cmpIdVersion a v b w = .lt ↔ a < b ∨ a = b ∧ v < w := by
  unfold Element.cmpIdVersion
  rw [compare64, compare32, Int64.lt_iff_toInt_lt, Int32.lt_iff_toInt_lt, ← Int64.toInt_inj]
  cases h : compare a.toInt b.toInt
  · rw [compare_lt_iff_lt] at h; simp [h]
  · rw [compare_eq_iff_eq] at h; simp [h, compare_lt_iff_lt]
  · rw [compare_gt_iff_gt] at h; simp; omega

theorem cmpIdVersion_eq (a : Int64) (v : Int32) (b : Int64) (w : Int32) :
    Element.cmpIdVersion a v b w = .eq ↔ a = b ∧ v = w := by
  unfold Element.cmpIdVersion
  rw [compare64, compare32, ← Int64.toInt_inj, ← Int32.toInt_inj]
  cases h : compare a.toInt b.toInt
  · rw [compare_lt_iff_lt] at h; simp; omega
  · rw [compare_eq_iff_eq] at h; simp [h]
  · rw [compare_gt_iff_gt] at h; simp; omega

theorem cmpIdVersion_gt (a : Int64) (v : Int32) (b : Int64) (w : Int32) :
    Element.cmpIdVersion a v b w = .gt ↔ b < a ∨ b = a ∧ w < v := by
  unfold Element.cmpIdVersion
  rw [eq_comm (a := b)]
  rw [compare64, compare32, Int64.lt_iff_toInt_lt, Int32.lt_iff_toInt_lt, ← Int64.toInt_inj]
  cases h : compare a.toInt b.toInt
  · rw [compare_lt_iff_lt] at h; simp; omega
  · rw [compare_eq_iff_eq] at h; simp [h, compare_gt_iff_gt]
  · rw [compare_gt_iff_gt] at h; simp [h]

/-- C23. On nodes, ways and relations, comparison is by type, then id, then version, and `==` means same type, id and version. -/
theorem C23_order_is_type_id_version (a b : Element) (ha : a ≠ .sentinel) (hb : b ≠ .sentinel) :
    (a.cmp b = .lt ↔ Before a b) ∧ (a.cmp b = .gt ↔ Before b a) ∧ (a.cmp b = .eq ↔ SameKey a b) ∧
    (a.beq b = true ↔ SameKey a b) := by
  cases a <;> cases b <;> simp_all [Element.cmp, Element.beq, Before, SameKey, rank, eid, ever, cmpIdVersion_lt, cmpIdVersion_eq, cmpIdVersion_gt]

/-- C23. The order on all elements other than sentinels is total: exactly one of before, same key and after holds; it is transitive. -/
theorem C23_order_total (a b c : Element) :
    (Before a b ∧ ¬ SameKey a b ∧ ¬ Before b a ∨ ¬ Before a b ∧ SameKey a b ∧ ¬ Before b a ∨ ¬ Before a b ∧ ¬ SameKey a b ∧ Before b a) ∧
    (Before a b → Before b c → Before a c) ∧ (SameKey a b → (Before a c ↔ Before b c) ∧ (Before c a ↔ Before c b)) := by
  simp only [Before, SameKey, Int64.lt_iff_toInt_lt, Int32.lt_iff_toInt_lt, ← Int64.toInt_inj, ← Int32.toInt_inj]
  omega

/-- C23. With a Sentinel the comparison is not antisymmetric: each is less than the other. -/
theorem C23_sentinel_not_ordered (a : Element) (ha : a ≠ .sentinel) :
    a.cmp .sentinel = .lt ∧ Element.cmp .sentinel a = .lt ∧ a.beq .sentinel = false ∧ Element.beq .sentinel a = false := by
  cases a <;> simp_all [Element.cmp, Element.beq]

/-- C23. For all elements, Sentinels included, the comparison says "equal" exactly when `==` holds; `==` is an equivalence relation, and two
elements of which one is a Sentinel are equal only if both are. -/
theorem C23_eq (a b c : Element) :
    (a.cmp b = .eq ↔ a.beq b = true) ∧ a.beq a = true ∧ (a.beq b = true → b.beq a = true) ∧ (a.beq b = true → b.beq c = true → a.beq c = true) ∧
    (Element.beq a .sentinel = true ↔ a = .sentinel) := by
  refine ⟨?_, ?_, ?_, ?_, ?_⟩
  · cases a <;> cases b <;> simp [Element.cmp, Element.beq, cmpIdVersion_eq]
  · cases a <;> simp [Element.beq]
  · cases a <;> cases b <;> simp [Element.beq] <;> exact fun h1 h2 => ⟨h1.symm, h2.symm⟩
  · cases a <;> cases b <;> cases c <;> simp [Element.beq] <;> exact fun h1 h2 h3 h4 => ⟨h1.trans h3, h2.trans h4⟩
  · cases a <;> simp [Element.beq]

/-- C23. `is_node`, `is_way`, `is_relation` and `is_sentinel` tell the kind of an element, and `same_type` whether two are of the same kind. -/
theorem C23_kinds (a b : Element) :
    (a.isNode = true ↔ ∃ n, a = .node n) ∧ (a.isWay = true ↔ ∃ w, a = .way w) ∧ (a.isRelation = true ↔ ∃ r, a = .relation r) ∧
    (a.isSentinel = true ↔ a = .sentinel) ∧
    (a.sameType b = true ↔ (∃ n m, a = .node n ∧ b = .node m) ∨ (∃ v w, a = .way v ∧ b = .way w) ∨ (∃ r q, a = .relation r ∧ b = .relation q) ∨
      a = .sentinel ∧ b = .sentinel) := by
  refine ⟨?_, ?_, ?_, ?_, ?_⟩
  · cases a <;> simp [Element.isNode]
  · cases a <;> simp [Element.isWay]
  · cases a <;> simp [Element.isRelation]
  · cases a <;> simp [Element.isSentinel]
  · cases a <;> cases b <;> simp [Element.sameType]

example : Before (.node exNode) (.way exWay) ∧ SameKey (.node exNode) (.node { exNode with user := "x" }) := by
  simp [Before, SameKey, rank, eid, ever]

/-! ## A concrete file for C19, C20, C21, C28 -/

/-- Three data blocks. -/
def exBlocks : List (List Element) := [[.node exNode, .node { exNode with id := 8 }], [.way exWay], [.relation exRelation]]

/-- The file with these blocks. -/
def exParFile : Bytes := blockBytes exZ .zlib (.header exInfo :: exBlocks.map .data)

theorem exPar_blocks : HasBlocks exZ exParFile
    (.header (fromHeaderBlock (toHeaderBlock exInfo)) :: exBlocks.map fun b => .data (b.map Element.quant)) :=
  hasBlocks_written exZ_lossless exInfo_nonempty exInfo_fits
    (by intro b hb; simp [exBlocks] at hb; rcases hb with rfl | rfl | rfl <;> simp [Homogeneous, Element.sameType])
    (by unfold Fits; decide +kernel)

/-- Runs exist, with three threads, for the counting, box and accumulating functions. -/
example : (∃ p : Pool 3 Element _, ParallelForEach exZ exParFile countAct (0, 0, 0) p) ∧
    (∃ p : Pool 3 Element _, ParallelForEach exZ exParFile (tlAct (·.isWay)) ⟨fun _ => [], []⟩ p) :=
  ⟨forEach_exists exPar_blocks (by simp) _ _, forEach_exists exPar_blocks (by simp) _ _⟩

example : ∃ p : Pool 3 (Option BoundingBox) (Option BoundingBox), BoxCalculation exZ exParFile p := by
  obtain ⟨fuel, hb⟩ := exPar_blocks
  obtain ⟨ds, h1, -, h3⟩ := commands_of_blocks fuel {} _ hb
  obtain ⟨p, hs, hd⟩ := reaches_done (act := boxAct) (by simp) (init (T := 3) (List.map boxOf _) none)
  exact ⟨p, .run fuel ds _ p h1 (box_commands h3) hs hd⟩

example : ∀ b ∈ (FileBlock.header (fromHeaderBlock (toHeaderBlock exInfo)) :: exBlocks.map fun b => .data (b.map Element.quant)),
    NodesFirst (elementsOf b) := by
  intro b hb
  simp [exBlocks] at hb
  rcases hb with rfl | rfl | rfl | rfl
  · exact ⟨[], [], rfl, by simp, by simp⟩
  · exact ⟨_, [], (List.append_nil _).symm, by simp [elementsOf, Element.quant, Element.isNode], by simp⟩
  · exact ⟨[], _, rfl, by simp, by simp [elementsOf, Element.quant, Element.isNode]⟩
  · exact ⟨[], _, rfl, by simp, by simp [elementsOf, Element.quant, Element.isNode]⟩

end OsmIo
