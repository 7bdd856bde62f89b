import Verif.Model.InfoCalls
/-!
# Settings

Which value a call gives to which setting; the last value given to a setting is the one it has.
-/
namespace OsmIo.Spec.Settings

def boxes (cs : List InfoCall) : List (Option BoundingBox) := cs.filterMap fun | .boundingBox v => some v | _ => none
def required (cs : List InfoCall) : List (List String) := cs.filterMap fun | .requiredFeatures v => some v | _ => none
def optional (cs : List InfoCall) : List (List String) := cs.filterMap fun | .optionalFeatures v => some v | _ => none
/-- The writing program can be set in two ways. -/
def programs (cs : List InfoCall) : List (Option String) :=
  cs.filterMap fun | .writingprogram v => some v | .writingprogramStr v => some (some v) | _ => none
def sources (cs : List InfoCall) : List (Option String) := cs.filterMap fun | .source v => some v | _ => none
def timestamps (cs : List InfoCall) : List (Option Int64) := cs.filterMap fun | .replicationTimestamp v => some v | _ => none
def sequenceNumbers (cs : List InfoCall) : List (Option Int64) := cs.filterMap fun | .replicationSequenceNumber v => some v | _ => none
def baseUrls (cs : List InfoCall) : List (Option String) := cs.filterMap fun | .replicationBaseUrl v => some v | _ => none

/-- The last of the values given, or the initial one if none was. -/
def last {α : Type} (initial : α) (given : List α) : α := given.getLastD initial

/-- Every setting of `i'` has the last value given to it, or the value in `i`. -/
def SetBy (i : FileInfo) (cs : List InfoCall) (i' : FileInfo) : Prop :=
  i'.bounding_box = last i.bounding_box (boxes cs) ∧
  i'.required_features = last i.required_features (required cs) ∧
  i'.optional_features = last i.optional_features (optional cs) ∧
  i'.writingprogram = last i.writingprogram (programs cs) ∧
  i'.source = last i.source (sources cs) ∧
  i'.osmosis_replication_timestamp = last i.osmosis_replication_timestamp (timestamps cs) ∧
  i'.osmosis_replication_sequence_number = last i.osmosis_replication_sequence_number (sequenceNumbers cs) ∧
  i'.osmosis_replication_base_url = last i.osmosis_replication_base_url (baseUrls cs)

end OsmIo.Spec.Settings
