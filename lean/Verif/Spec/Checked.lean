import Verif.Spec.Complete
/-!
# Numbers that fit

The sums and products a reader has to form for a block, as integers, and whether they fit the machine types.
-/
namespace OsmIo.Spec.Format

/-- A coordinate: the product with the unit fits, and so does its sum with the offset. -/
def FitsCoordinate (p : Pb.PrimitiveBlock) (offset v : ℤ) : Prop := Fits64 (granularity p * v) ∧ Fits64 (offset + granularity p * v)

/-- Time of an element that is not a dense node; absent means 0. -/
def FitsInfo (p : Pb.PrimitiveBlock) (info : Option Pb.Info) : Prop :=
  ∀ inf, info = some inf → Fits64 ((inf.timestamp.getD 0).toInt * dateGranularity p)

/-- All numbers of the dense nodes. -/
def FitsDense (p : Pb.PrimitiveBlock) (d : Pb.DenseNodes) : Prop :=
  ∀ i < d.id.length, Fits64 (sum64 d.id i) ∧ Fits64 (sum64 d.lat i) ∧ Fits64 (sum64 d.lon i) ∧
    FitsCoordinate p (latOffset p) (sum64 d.lat i) ∧ FitsCoordinate p (lonOffset p) (sum64 d.lon i) ∧
    ∀ inf, d.denseinfo = some inf → Fits64 (sum64 inf.timestamp i) ∧ Fits64 (sum64 inf.timestamp i * dateGranularity p) ∧
      Fits64 (sum64 inf.changeset i) ∧ Fits32 (sum32 inf.uid i) ∧ Fits32 (sum32 inf.user_sid i)

/-- A delta coded column. -/
def FitsColumn (ds : List Int64) : Prop := ∀ i < ds.length, Fits64 (sum64 ds i)

/-- All numbers of a group. -/
def FitsGroup (p : Pb.PrimitiveBlock) (g : Pb.PrimitiveGroup) : Prop :=
  (∀ d, g.dense = some d → FitsDense p d) ∧
  (∀ n ∈ g.nodes, FitsCoordinate p (latOffset p) n.lat.toInt ∧ FitsCoordinate p (lonOffset p) n.lon.toInt ∧ FitsInfo p n.info) ∧
  (∀ w ∈ g.ways, FitsInfo p w.info ∧ FitsColumn w.refs) ∧
  (∀ r ∈ g.relations, FitsInfo p r.info ∧ FitsColumn r.memids)

/-- All numbers of the block. -/
def NoOverflow (p : Pb.PrimitiveBlock) : Prop := ∀ g ∈ p.primitivegroup, FitsGroup p g

/-- Units as files have them: positive, with offsets that are not extreme. -/
def UsualUnits (p : Pb.PrimitiveBlock) : Prop :=
  1 ≤ granularity p ∧ 1 ≤ dateGranularity p ∧ |latOffset p| ≤ 2 ^ 62 ∧ |lonOffset p| ≤ 2 ^ 62

end OsmIo.Spec.Format
