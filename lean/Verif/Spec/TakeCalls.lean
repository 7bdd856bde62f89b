import Verif.Model.TakeCalls
/-! # What taking the user and the tags out of an element means -/
namespace OsmIo.Spec.Take

/-- The answer to call number `i`: what the element had at first, unless the field was taken out by an earlier call; then nothing. -/
def answerTo (user : String) (tags : List Tag) (earlier : List TakeCall) : TakeCall → TakeAnswer
  | .user | .takeUser => .user (if .takeUser ∈ earlier then "" else user)
  | .tags | .takeTags => .tags (if .takeTags ∈ earlier then [] else tags)

/-- The element with other contents of the two fields. -/
def withFields (e : Element) (user : String) (tags : List Tag) : Element :=
  match e with
  | .node n => .node ⟨n.id, n.version, n.coordinate, n.timestamp, n.changeset, n.uid, user, n.visible, tags⟩
  | .way w => .way ⟨w.id, w.version, w.timestamp, w.changeset, w.uid, user, w.visible, w.refs, tags⟩
  | .relation r => .relation ⟨r.id, r.version, r.timestamp, r.changeset, r.uid, user, r.visible, r.members, tags⟩
  | .sentinel => .sentinel

/-- The user and the tags of an element. -/
def fields : Element → Option (String × List Tag)
  | .node n => some (n.user, n.tags)
  | .way w => some (w.user, w.tags)
  | .relation r => some (r.user, r.tags)
  | .sentinel => none

end OsmIo.Spec.Take
