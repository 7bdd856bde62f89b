import Verif.Lemmas.FormatWrite
import Verif.Props.Block
/-!
# C55, C56: data blocks are read and written as the published format says

`Format.Block p es` (`Spec/Format.lean`) is the published meaning of a `PrimitiveBlock` message; the
reader is `parseData` (`OsmData::new`), the writer `toPrimitiveBlock` (`OsmData::serialize` before the protobuf encoding).
-/
namespace OsmIo
open Wire Spec

/-- C55 (message). A block that says its elements are `es` is read as `es`. -/
theorem C55_block_read_as_published (p : Pb.PrimitiveBlock) (es : List Element) (h : Format.Block p es) :
    fromPrimitiveBlock p = .ok es := by
  obtain ⟨h1, h2, gs, rfl, h3⟩ := h
  have ht : TblOk (tblOf p) := ⟨h1, h2⟩
  simp only [fromPrimitiveBlock, mapM_strOf _ ht.utf, Out.ok_bind]
  have := mapM_of (g := id) h3 fun a b hab => readGroup_of ht hab
  simp [this]

/-- C55 (bytes). The same from the encoded block. -/
theorem C55_bytes_read_as_published (p : Pb.PrimitiveBlock) (es : List Element) (h : Format.Block p es)
    (hl : p.encode.length < 2 ^ 64) : parseData p.encode = .ok es := by
  have hd : Pb.PrimitiveBlock.decode p.encode = some p := Pb.PrimitiveBlock.merge_encode _ hl
  rw [parseData, hd]
  exact C55_block_read_as_published p es h

/-- A block another program may have written: coarse units, an origin, two groups, plain and dense nodes, no visible column. -/
def exForeign : Pb.PrimitiveBlock :=
  { stringtable := ⟨["", "k", "v", "anna", "stop"].map strBytes⟩
    granularity := some 1000, date_granularity := some 500, lat_offset := some 7, lon_offset := some (-1000000000)
    primitivegroup :=
      [{ dense := some
          { id := [10, -3], lat := [52000000, 1], lon := [4000000, -1], keys_vals := [1, 2, 0, 0]
            denseinfo := some
              { version := [1, 2], timestamp := [3, 4], changeset := [8, -1], uid := [6, 1], user_sid := [3, -3], visible := [] } } },
       { nodes := [{ id := -1, lat := 5, lon := 6, keys := [1], vals := [4]
                     info := some { version := some 1, timestamp := some 2, changeset := some 3, uid := some 4, user_sid := some 3 } }]
         ways := [{ id := 20, refs := [10, -3, 0]
                    info := some { version := some 1, timestamp := some 2, changeset := some 3, uid := some 4, user_sid := some 0, visible := some false } }]
         relations := [{ id := 30, types := [1, 0], memids := [20, -10], roles_sid := [0, 4]
                         info := some { version := some 1, timestamp := some 2, changeset := some 3, uid := some 4, user_sid := some 3 } }] }] }

/-- What it says: two dense nodes, -/
def exForeignDense : List Node :=
  [{ id := 10, version := 1, coordinate := ⟨rnd ((52000000007 : ℤ) / 10 ^ 9), rnd ((3000000000 : ℤ) / 10 ^ 9)⟩, timestamp := 1500, changeset := 8
     uid := 6, user := "anna", visible := true, tags := [⟨"k", "v"⟩] },
   { id := 7, version := 2, coordinate := ⟨rnd ((52000001007 : ℤ) / 10 ^ 9), rnd ((2999999000 : ℤ) / 10 ^ 9)⟩, timestamp := 3500, changeset := 7
     uid := 7, user := "", visible := true, tags := [] }]
/-- a plain node, -/
def exForeignNode : Node :=
  { id := -1, version := 1, coordinate := ⟨rnd ((5007 : ℤ) / 10 ^ 9), rnd ((-999994000 : ℤ) / 10 ^ 9)⟩, timestamp := 1000, changeset := 3
    uid := 4, user := "anna", visible := true, tags := [⟨"k", "stop"⟩] }
/-- a way, -/
def exForeignWay : Way :=
  { id := 20, version := 1, timestamp := 1000, changeset := 3, uid := 4, user := "", visible := false, refs := [10, 7, 7], tags := [] }
/-- and a relation. -/
def exForeignRelation : Relation :=
  { id := 30, version := 1, timestamp := 1000, changeset := 3, uid := 4, user := "anna", visible := true
    members := [.way ⟨20, ""⟩, .node ⟨10, "stop"⟩], tags := [] }

theorem exForeign_degrees (n k : ℤ) (h : n = k) (h' : |n| ≤ 2 ^ 53) : Format.Degrees n (rnd (k / 10 ^ 9)) := ⟨h', by rw [h]⟩

/-- The meaning of the foreign block. -/
theorem exForeign_block : Format.Block exForeign
    (exForeignDense.map .node ++ [.node exForeignNode, .way exForeignWay, .relation exForeignRelation]) := by
  refine ⟨?_, by decide, [exForeignDense.map .node, [.node exForeignNode, .way exForeignWay, .relation exForeignRelation]], rfl, .cons ?_ (.cons ?_ .nil)⟩
  · intro b hb
    simp only [exForeign, List.mem_map] at hb
    obtain ⟨s, _, rfl⟩ := hb
    exact ⟨s, rfl⟩
  · refine ⟨rfl, exForeignDense, [], [], [], by simp, ⟨rfl, ?_, ?_, ⟨_, rfl, ?_⟩, .inr ⟨[[1, 2], []], rfl, .cons ?_ (.cons ?_ .nil)⟩⟩, .nil, .nil, .nil⟩
    · intro i n h
      rcases i with _ | _ | i <;> simp [exForeignDense] at h <;> subst h <;> decide
    · intro i n h
      rcases i with _ | _ | i <;> simp [exForeignDense] at h <;> subst h <;>
        exact ⟨by decide, by decide, exForeign_degrees _ _ (by decide) (by decide), exForeign_degrees _ _ (by decide) (by decide)⟩
    · intro i n h
      rcases i with _ | _ | i <;> simp [exForeignDense] at h <;> subst h
      · exact ⟨rfl, by decide, by decide, by decide, ⟨by decide, 3, by decide, rfl⟩, .inr ⟨rfl, rfl⟩⟩
      · exact ⟨rfl, by decide, by decide, by decide, ⟨by decide, 0, by decide, rfl⟩, .inr ⟨rfl, rfl⟩⟩
    · exact ⟨[(1, 2)], rfl, .cons ⟨by decide, ⟨1, by decide, rfl⟩, ⟨2, by decide, rfl⟩⟩ .nil⟩
    · exact ⟨[], rfl, .nil⟩
  · refine ⟨rfl, [], [exForeignNode], [exForeignWay], [exForeignRelation], rfl, rfl, .cons ?_ .nil, .cons ?_ .nil, .cons ?_ .nil⟩
    · exact ⟨rfl, ⟨exForeign_degrees _ _ (by decide) (by decide), exForeign_degrees _ _ (by decide) (by decide)⟩,
        ⟨_, rfl, rfl, ⟨2, rfl, by decide⟩, rfl, rfl, ⟨3, rfl, 3, by decide, rfl⟩, .inr ⟨rfl, rfl⟩⟩,
        [(1, 4)], rfl, rfl, .cons ⟨⟨1, by decide, rfl⟩, ⟨4, by decide, rfl⟩⟩ .nil⟩
    · refine ⟨rfl, rfl, ?_, ⟨_, rfl, rfl, ⟨2, rfl, by decide⟩, rfl, rfl, ⟨0, rfl, 0, by decide, rfl⟩, .inl rfl⟩, [], rfl, rfl, .nil⟩
      intro i r h
      rcases i with _ | _ | _ | i <;> simp [exForeignWay] at h <;> subst h <;> decide
    · refine ⟨rfl, rfl, rfl, ?_, .cons ⟨0, by decide, rfl⟩ (.cons ⟨4, by decide, rfl⟩ .nil),
        ⟨_, rfl, rfl, ⟨2, rfl, by decide⟩, rfl, rfl, ⟨3, rfl, 3, by decide, rfl⟩, .inr ⟨rfl, rfl⟩⟩, [], rfl, rfl, .nil⟩
      intro i r h
      rcases i with _ | _ | i <;> simp [exForeignRelation] at h <;> subst h <;> decide

example : exForeign.encode.length < 2 ^ 64 := by decide +kernel

/-! ## C56: written blocks -/

/-- C56. A block written for elements of one kind says, by the published format, that its elements are these, up to the
rounding of coordinates and timestamps. -/
theorem C56_block_written_as_published (es : List Element) (hh : Homogeneous es) (hm : ∀ e ∈ es, Format.Moderate e)
    (hr : ∀ e ∈ es, InRange e) (hl : (serializeData es).length < 2 ^ 31) :
    ∃ es', List.Forall₂ Rounded es es' ∧ Format.Block (toPrimitiveBlock es) es' := by
  have ht : (toPrimitiveBlock es).stringtable.s.length < 2 ^ 31 := lt_of_le_of_lt (table_length_le _) hl
  refine ⟨_, ?_, block_written hh (steps_of_moderate es hm) hr ht⟩
  rw [List.forall₂_map_right_iff]
  exact List.forall₂_same.2 fun e he => quant_rounded (hr e he)

/-- C56, with the weakest condition on the numbers (`C56_condition`): only the differences that are stored must be representable. -/
theorem C56_steps_written_as_published (es : List Element) (hh : Homogeneous es) (hs : Format.Steps es)
    (hr : ∀ e ∈ es, InRange e) (hl : (serializeData es).length < 2 ^ 31) :
    ∃ es', List.Forall₂ Rounded es es' ∧ Format.Block (toPrimitiveBlock es) es' := by
  refine ⟨_, ?_, block_written hh hs hr (lt_of_le_of_lt (table_length_le _) hl)⟩
  rw [List.forall₂_map_right_iff]
  exact List.forall₂_same.2 fun e he => quant_rounded (hr e he)

/-- C56 (exact). When nothing needs rounding the block says exactly `es`. -/
theorem C56_exact_block_written_as_published (es : List Element) (hh : Homogeneous es) (hm : ∀ e ∈ es, Format.Moderate e)
    (hr : ∀ e ∈ es, InRange e) (hx : ∀ e ∈ es, Exact e) (hl : (serializeData es).length < 2 ^ 31) :
    Format.Block (toPrimitiveBlock es) es := by
  have ht : (toPrimitiveBlock es).stringtable.s.length < 2 ^ 31 := lt_of_le_of_lt (table_length_le _) hl
  simpa [map_quant_exact hx] using block_written hh (steps_of_moderate es hm) hr ht

example : Homogeneous [.node exNode, .node { exNode with id := -12 }] ∧
    (∀ e ∈ [Element.node exNode, .node { exNode with id := -12 }], Format.Moderate e ∧ InRange e ∧ Exact e) ∧
    (serializeData [.node exNode, .node { exNode with id := -12 }]).length < 2 ^ 31 :=
  ⟨.inl (by simp), by
    intro e he
    have h : Exact (.node exNode) := exNode_exact
    have h' : InRange (.node exNode) := ⟨by decide +kernel, by decide +kernel⟩
    simp at he
    rcases he with rfl | rfl
    · exact ⟨⟨by unfold Format.Moderate64; decide, by unfold Format.Moderate64; decide, by unfold Format.Moderate32; decide⟩, h', h⟩
    · exact ⟨⟨by unfold Format.Moderate64; decide, by unfold Format.Moderate64; decide, by unfold Format.Moderate32; decide⟩, h', h⟩,
   by decide +kernel⟩

/-- The units of every written block: 100 nanodegrees, 1000 milliseconds, origin 0 (the defaults of the format). -/
theorem C56_units (es : List Element) : Format.granularity (toPrimitiveBlock es) = 100 ∧ Format.dateGranularity (toPrimitiveBlock es) = 1000 ∧
    Format.latOffset (toPrimitiveBlock es) = 0 ∧ Format.lonOffset (toPrimitiveBlock es) = 0 := by
  refine ⟨?_, ?_, ?_, ?_⟩ <;> rfl

end OsmIo
