import Verif.Spec.ApidbRead
import Verif.Spec.Block
/-!
# Specification vocabulary for the conversion programs
-/
namespace OsmIo.Spec

/-- The elements without the sentinels between them. -/
def together (ns : List Node) (ws : List Way) (rs : List Relation) : List Element := ns.map .node ++ ws.map .way ++ rs.map .relation

/-- `e'` is `e` with its timestamp truncated to seconds. -/
def Truncated : Element → Element → Prop
  | .node n, .node n' => n' = { n with timestamp := n'.timestamp } ∧ TruncatedToSecond n.timestamp n'.timestamp
  | .way w, .way w' => w' = { w with timestamp := w'.timestamp } ∧ TruncatedToSecond w.timestamp w'.timestamp
  | .relation r, .relation r' => r' = { r with timestamp := r'.timestamp } ∧ TruncatedToSecond r.timestamp r'.timestamp
  | _, _ => False

end OsmIo.Spec
