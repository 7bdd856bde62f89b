import Verif.Model.Element
/-!
# Taking the user and the tags out of an element (`src/osm/model/{node,way,relation}.rs`)
-/
namespace OsmIo

/-- A call on a node, way or relation that a program holds: the two that change it, and looking at the same two fields.
(`src/osm/model/node.rs:57-75`, `src/osm/model/way.rs:52-74`, `src/osm/model/relation.rs:87-109`) -/
inductive TakeCall where
  | user
  | tags
  | takeUser
  | takeTags
  deriving DecidableEq, Repr

/-- What a call returns. (`src/osm/model/node.rs:57-75`) -/
inductive TakeAnswer where
  | user (s : String)
  | tags (ts : List Tag)
  deriving DecidableEq, Repr

/-- `Node::user`, `take_user`, `tags` and `take_tags`, `src/osm/model/node.rs:57-75`; `std::mem::take` leaves the default value, which is empty. -/
def Node.takeCall (n : Node) : TakeCall → TakeAnswer × Node
  | .user => (.user n.user, n)
  | .tags => (.tags n.tags, n)
  | .takeUser => (.user n.user, { n with user := "" })
  | .takeTags => (.tags n.tags, { n with tags := [] })

/-- The same of `Way`, `src/osm/model/way.rs:52-74`. -/
def Way.takeCall (w : Way) : TakeCall → TakeAnswer × Way
  | .user => (.user w.user, w)
  | .tags => (.tags w.tags, w)
  | .takeUser => (.user w.user, { w with user := "" })
  | .takeTags => (.tags w.tags, { w with tags := [] })

/-- The same of `Relation`, `src/osm/model/relation.rs:87-109`. -/
def Relation.takeCall (r : Relation) : TakeCall → TakeAnswer × Relation
  | .user => (.user r.user, r)
  | .tags => (.tags r.tags, r)
  | .takeUser => (.user r.user, { r with user := "" })
  | .takeTags => (.tags r.tags, { r with tags := [] })

/-- The call on the node, way or relation in an `Element`; a `Sentinel` has nothing to call. (`src/osm/model/element.rs:7-19`) -/
def Element.takeCall (e : Element) (c : TakeCall) : List TakeAnswer × Element :=
  match e with
  | .node n => ([(n.takeCall c).1], .node (n.takeCall c).2)
  | .way w => ([(w.takeCall c).1], .way (w.takeCall c).2)
  | .relation r => ([(r.takeCall c).1], .relation (r.takeCall c).2)
  | .sentinel => ([], .sentinel)

/-- Calls one after the other: the answers, and what is left of the element. (`src/osm/model/node.rs:57-75` and the like) -/
def Element.takeCalls (e : Element) : List TakeCall → List TakeAnswer × Element
  | [] => ([], e)
  | c :: cs =>
    let a := e.takeCall c
    let b := a.2.takeCalls cs
    (a.1 ++ b.1, b.2)

end OsmIo
