import Verif.Spec.ApidbRoundTrip
/-!
# Specification vocabulary: one writer of a dump closed several times (C95)
-/
namespace OsmIo
open Spec
open OsmIo.Text OsmIo.Sql OsmIo.Apidb

/-- What a program does with a writer between two calls of `close`: the elements it writes, and the times at which `close` then
writes the rows of users and changesets. -/
structure Spec.Session where
  es : List Element
  userClock : Int64 → Int64
  changesetClock : Int64 → Int64

/-- The sessions one after the other on a writer. -/
def Spec.sessions (z : Codec) (w : Apidb.Writer) : List Session → Out Apidb.Writer
  | [] => .ok w
  | s :: ss => do
    let w1 ← w.writeAll z s.es
    let w2 ← w1.close s.userClock s.changesetClock
    sessions z w2 ss

/-- The files of the tables that a new writer leaves behind after the sessions. -/
def Spec.InSessions (z : Codec) (ss : List Session) (files : Table → Text) : Prop :=
  ∃ w, sessions z Apidb.Writer.new ss = .ok w ∧ files = w.files

/-- All elements of the sessions. -/
def Spec.allOf (ss : List Session) : List Element := ss.flatMap Session.es

/-- The tables of users and changesets. -/
def Spec.ownerTables : List Table := [.users, .changesets, .changesetTags]

/-- The parts that the sessions, coming after elements `before`, add to the tables: each part is, in the tables of users and changesets, as in
a dump of all elements so far, and in the other tables as in a dump of the elements of its session alone. -/
inductive Spec.SessionParts (z : Codec) : List Element → List Session → List (Table → Text) → Prop
  | nil {before} : SessionParts z before [] []
  | cons {before s ss parts own all} : Dump z s.userClock s.changesetClock s.es own →
      Dump z s.userClock s.changesetClock (before ++ s.es) all → SessionParts z (before ++ s.es) ss parts →
      SessionParts z before (s :: ss) ((fun t => if t ∈ ownerTables then all t else own t) :: parts)

end OsmIo
