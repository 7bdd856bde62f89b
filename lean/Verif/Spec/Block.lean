import Verif.Model.F64
import Verif.Model.Element
/-!
# Specification vocabulary for data blocks

Nothing here refers to the functions of the model: only to its data types (`Element`, `Node`, ...), to
numbers, and to `rnd q`, the double nearest to the rational `q` (see `rnd_is_nearest_double`).
-/
namespace OsmIo.Spec

/-- A number with a 53-bit significand: a double (exponent limits ignored). -/
def IsDouble (q : ℚ) : Prop := ∃ m e : ℤ, |m| < 2 ^ 53 ∧ q = m * (2 : ℚ) ^ e

/-- `c` is the double nearest to a multiple of 1e-7 degree (at most 2^45 steps, i.e. far beyond 360 degrees). -/
def OnGrid (c : F64) : Prop := ∃ k : ℤ, |k| ≤ 2 ^ 45 ∧ c = rnd (k / 10 ^ 7)

/-- `t` milliseconds is a whole number of seconds. -/
def WholeSecond (t : Int64) : Prop := ∃ s : ℤ, t.toInt = 1000 * s

/-- `t'` is `t` rounded toward zero to whole seconds. -/
def TruncatedToSecond (t t' : Int64) : Prop :=
  ∃ s : ℤ, t'.toInt = 1000 * s ∧
    ((0 ≤ t.toInt ∧ 1000 * s ≤ t.toInt ∧ t.toInt < 1000 * (s + 1)) ∨
     (t.toInt < 0 ∧ t.toInt ≤ 1000 * s ∧ 1000 * (s - 1) < t.toInt))

/-- `c'` is the double nearest to a multiple of 1e-7 degree lying within half a step of `c` (plus a slack of
`2^-19` steps, less than 2e-13 degree, for the roundings of double arithmetic). -/
def Quantised (c c' : F64) : Prop :=
  ∃ k : ℤ, c' = rnd (k / 10 ^ 7) ∧ |(k : ℚ) / 10 ^ 7 - c| ≤ (1 / 2 + 1 / 2 ^ 19) / 10 ^ 7

/-- An element that needs no rounding: grid coordinates, whole-second timestamp. -/
def Exact : Element → Prop
  | .node n => OnGrid n.coordinate.lat ∧ OnGrid n.coordinate.lon ∧ WholeSecond n.timestamp
  | .way w => WholeSecond w.timestamp
  | .relation r => WholeSecond r.timestamp
  | .sentinel => True

/-- An element whose coordinates are in the range of degrees. -/
def InRange : Element → Prop
  | .node n => |n.coordinate.lat| ≤ 360 ∧ |n.coordinate.lon| ≤ 360
  | _ => True

/-- `e'` is `e` up to rounding of coordinates and truncation of the timestamp: every other field is identical. -/
def Rounded : Element → Element → Prop
  | .node n, .node n' =>
    n' = { n with coordinate := n'.coordinate, timestamp := n'.timestamp } ∧
    Quantised n.coordinate.lat n'.coordinate.lat ∧ Quantised n.coordinate.lon n'.coordinate.lon ∧
    TruncatedToSecond n.timestamp n'.timestamp
  | .way w, .way w' => w' = { w with timestamp := w'.timestamp } ∧ TruncatedToSecond w.timestamp w'.timestamp
  | .relation r, .relation r' =>
    r' = { r with timestamp := r'.timestamp } ∧ TruncatedToSecond r.timestamp r'.timestamp
  | .sentinel, .sentinel => True
  | _, _ => False

/-- All elements are of one kind (nodes, ways or relations). -/
def Homogeneous (es : List Element) : Prop :=
  (∀ e ∈ es, ∃ n, e = .node n) ∨ (∀ e ∈ es, ∃ w, e = .way w) ∨ (∀ e ∈ es, ∃ r, e = .relation r)

/-- The strings occurring in an element, except the user name. -/
def strings : Element → List String
  | .node n => n.tags.flatMap fun t => [t.k, t.v]
  | .way w => w.tags.flatMap fun t => [t.k, t.v]
  | .relation r =>
    (r.members.map fun m => match m with | .node d => d.role | .way d => d.role | .relation d => d.role) ++
      r.tags.flatMap fun t => [t.k, t.v]
  | .sentinel => []

/-- The user name of an element. -/
def user : Element → Option String
  | .node n => some n.user
  | .way w => some w.user
  | .relation r => some r.user
  | .sentinel => none

/-- Metadata of an element that was stored without any: version 0, changeset -1, uid -1, no user, visible. -/
def DefaultMeta : Element → Prop
  | .node n => n.version = 0 ∧ n.changeset = -1 ∧ n.uid = -1 ∧ n.user = "" ∧ n.visible = true
  | .way w => w.version = 0 ∧ w.changeset = -1 ∧ w.uid = -1 ∧ w.user = "" ∧ w.visible = true
  | .relation r => r.version = 0 ∧ r.changeset = -1 ∧ r.uid = -1 ∧ r.user = "" ∧ r.visible = true
  | .sentinel => False

/-- The visibility flag. -/
def visible : Element → Bool
  | .node n => n.visible
  | .way w => w.visible
  | .relation r => r.visible
  | .sentinel => false

end OsmIo.Spec
