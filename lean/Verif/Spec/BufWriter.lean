import Verif.Model.BufWriter
/-!
# What should be in the files of a dump (C79)
-/
namespace OsmIo
open Apidb

/-- What was written to a table, in order. -/
def Spec.writtenTo (t : Table) : List TableOp → Bytes
  | [] => []
  | .write t' b :: ops => (if t' = t then b else []) ++ writtenTo t ops
  | .flush _ :: ops => writtenTo t ops

/-- The table is flushed after the last write to it. -/
def Spec.FlushedLast (t : Table) (ops : List TableOp) : Prop :=
  ∃ before after, ops = before ++ .flush t :: after ∧ ∀ b, TableOp.write t b ∉ after

/-- The files of a dump that has just been created, on a device with these faults. -/
def Spec.freshFiles (faults : Table → Nat → Option Nat) : Table → BufFile := fun t => ⟨{ faults := faults t }, []⟩

end OsmIo
