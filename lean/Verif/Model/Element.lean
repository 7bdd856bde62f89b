import Verif.Model.F64
/-!
# Elements (`src/osm/model/*.rs`)
-/
namespace OsmIo

/-- `src/osm/model/tag.rs:1-5`. -/
structure Tag where
  k : String
  v : String
  deriving DecidableEq, Repr

/-- `src/osm/model/coordinate.rs:1-13`. -/
structure Coordinate where
  lat : F64
  lon : F64
  deriving DecidableEq, Repr

/-- `Coordinate::lat7`, `src/osm/model/coordinate.rs:19-21`. -/
def Coordinate.lat7 (c : Coordinate) : Int64 := F64.toI64 (F64.round (F64.mul c.lat 10000000))

/-- `Coordinate::lon7`, `src/osm/model/coordinate.rs:27-29`. -/
def Coordinate.lon7 (c : Coordinate) : Int64 := F64.toI64 (F64.round (F64.mul c.lon 10000000))

/-- `src/osm/model/node.rs:4-15`. -/
structure Node where
  id : Int64
  version : Int32
  coordinate : Coordinate
  timestamp : Int64
  changeset : Int64
  uid : Int32
  user : String
  visible : Bool
  tags : List Tag
  deriving DecidableEq, Repr

/-- `src/osm/model/way.rs:3-14`. -/
structure Way where
  id : Int64
  version : Int32
  timestamp : Int64
  changeset : Int64
  uid : Int32
  user : String
  visible : Bool
  refs : List Int64
  tags : List Tag
  deriving DecidableEq, Repr

/-- `src/osm/model/relation.rs:3-7`. -/
structure MemberData where
  id : Int64
  role : String
  deriving DecidableEq, Repr

/-- `src/osm/model/relation.rs:25-36`. -/
inductive Member where
  | node (member : MemberData)
  | way (member : MemberData)
  | relation (member : MemberData)
  deriving DecidableEq, Repr

/-- `src/osm/model/relation.rs:38-49`. -/
structure Relation where
  id : Int64
  version : Int32
  timestamp : Int64
  changeset : Int64
  uid : Int32
  user : String
  visible : Bool
  members : List Member
  tags : List Tag
  deriving DecidableEq, Repr

/-- `src/osm/model/element.rs:7-19`. -/
inductive Element where
  | node (node : Node)
  | way (way : Way)
  | relation (relation : Relation)
  | sentinel
  deriving DecidableEq, Repr

namespace Element

/-- `Element::same_type`, `src/osm/model/element.rs:22-57`. -/
def sameType : Element → Element → Bool
  | .node _, .node _ => true
  | .way _, .way _ => true
  | .relation _, .relation _ => true
  | .sentinel, .sentinel => true
  | _, _ => false

/-- `Element::is_node`, `src/osm/model/element.rs:59-74`. -/
def isNode : Element → Bool
  | .node _ => true
  | _ => false

/-- `Element::is_way`, `src/osm/model/element.rs:76-91`. -/
def isWay : Element → Bool
  | .way _ => true
  | _ => false

/-- `Element::is_relation`, `src/osm/model/element.rs:93-108`. -/
def isRelation : Element → Bool
  | .relation _ => true
  | _ => false

/-- `Element::is_sentinel`, `src/osm/model/element.rs:110-126`. -/
def isSentinel : Element → Bool
  | .sentinel => true
  | _ => false

/-- `i64::cmp` on ids, then `i32::cmp` on versions: the inner `match` of `Element::cmp`,
`src/osm/model/element.rs:222-232` and its copies. -/
def cmpIdVersion (id : Int64) (version : Int32) (id' : Int64) (version' : Int32) : Ordering :=
  match compare id id' with
  | .lt => .lt
  | .eq => compare version version'
  | .gt => .gt

/-- `Ord::cmp` for `Element`, `src/osm/model/element.rs:212-317`. -/
def cmp : Element → Element → Ordering
  | .node a, .node b => cmpIdVersion a.id a.version b.id b.version
  | .node _, .way _ => .lt
  | .node _, .relation _ => .lt
  | .node _, .sentinel => .lt
  | .way _, .node _ => .gt
  | .way a, .way b => cmpIdVersion a.id a.version b.id b.version
  | .way _, .relation _ => .lt
  | .way _, .sentinel => .lt
  | .relation _, .node _ => .gt
  | .relation _, .way _ => .gt
  | .relation a, .relation b => cmpIdVersion a.id a.version b.id b.version
  | .relation _, .sentinel => .lt
  | .sentinel, .node _ => .lt
  | .sentinel, .way _ => .lt
  | .sentinel, .relation _ => .lt
  | .sentinel, .sentinel => .eq

/-- `PartialEq::eq` for `Element` (id and version only), `src/osm/model/element.rs:130-205`. -/
def beq : Element → Element → Bool
  | .node a, .node b => a.id == b.id && a.version == b.version
  | .way a, .way b => a.id == b.id && a.version == b.version
  | .relation a, .relation b => a.id == b.id && a.version == b.version
  | .sentinel, .sentinel => true
  | _, _ => false

end Element
end OsmIo
