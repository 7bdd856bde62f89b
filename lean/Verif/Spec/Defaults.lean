import Verif.Model.Proto
import Verif.Model.Element
/-! # Specification vocabulary for absent metadata -/
namespace OsmIo.Spec

/-- The metadata message with all defaults written out: version -1, time 0, changeset -1, uid -1, user string 0 (the empty one), visible. -/
def explicitInfo (i : Pb.Info) : Pb.Info :=
  { version := some (i.version.getD (-1)), timestamp := some (i.timestamp.getD 0), changeset := some (i.changeset.getD (-1))
    uid := some (i.uid.getD (-1)), user_sid := some (i.user_sid.getD 0), visible := some (i.visible.getD true) }

/-- The block with the defaults of all present metadata messages written out. -/
def explicitBlock (p : Pb.PrimitiveBlock) : Pb.PrimitiveBlock :=
  { p with primitivegroup := p.primitivegroup.map fun g =>
      { g with
        nodes := g.nodes.map fun n => { n with info := n.info.map explicitInfo }
        ways := g.ways.map fun w => { w with info := w.info.map explicitInfo }
        relations := g.relations.map fun r => { r with info := r.info.map explicitInfo } } }

/-- The time stamp of an element. -/
def timestampOf : Element → Option Int64
  | .node n => some n.timestamp
  | .way w => some w.timestamp
  | .relation r => some r.timestamp
  | .sentinel => none

end OsmIo.Spec
