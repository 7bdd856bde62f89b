import Verif.Model.Sql
/-!
# Times for people (`src/osm/converters/mod.rs`)

`DateTime::to_rfc3339_opts` is a function of the `chrono` crate, outside of `/repo`; modelled as documented.
-/
namespace OsmIo
open Text Sql

/-- `to_rfc3339_opts(SecondsFormat::Secs, true)` of the time `secs` seconds after the epoch, as used in `src/osm/converters/mod.rs:7` and
`src/osm/apidb_dump/sql.rs:40`. -/
def rfc3339Seconds (secs : Int) : Text :=
  let d := Date.ofDays (secs / 86400)
  let s := (secs % 86400).toNat
  showYear d.year ++ '-' :: padNat 2 d.month ++ '-' :: padNat 2 d.day ++ 'T' ::
    padNat 2 (s / 3600) ++ ':' :: padNat 2 (s / 60 % 60) ++ ':' :: padNat 2 (s % 60) ++ ['Z']

/-- `timestamp_to_iso8601_seconds`, `src/osm/converters/mod.rs:4-8`. -/
def timestampToIso8601Seconds (usec : Int64) : Out Text :=
  let secs := usec.toInt / 1000000
  if inRange secs then .ok (rfc3339Seconds secs) else .err

/-- What `pbf-info` prints for a replication timestamp, `examples/pbf-info.rs:44-50` (the multiplication wraps, as in a release build). -/
def replicationTime (t : Int64) : Out Text := timestampToIso8601Seconds (t * 1000000)

/-- `replace('T', " ").replace('Z', "")`, `src/osm/apidb_dump/sql.rs:41,47`. -/
def replaceTZ (x : Text) : Text := (x.map fun c => if c = 'T' then ' ' else c).filter fun c => c ≠ 'Z'

end OsmIo
