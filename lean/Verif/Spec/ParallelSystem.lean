import Verif.Model.ParallelSystem
import Verif.Spec.ParallelWriter
/-! # Specification vocabulary for programs that use a parallel writer -/
namespace OsmIo.Spec

/-- The calls of `write_element` and `write_elements` a program makes, in order. -/
def callsOf (ops : List Op) : List WriteCall :=
  ops.filterMap fun
    | .header => none
    | .write c => some c

/-- What a program can bring about with a parallel writer, its threads running in any order: the states that can occur between its creation and
the return of `close`. -/
def Occurs (g : ParSystem.Config) (ops : List Op) (s : ParSystem) : Prop := ParSystem.Steps g (ParSystem.init ops) s

/-- `close` has returned. -/
def Closed (s : ParSystem) : Prop := s.stage = 4

/-- No thread can do anything. -/
def Stuck (g : ParSystem.Config) (s : ParSystem) : Prop := ¬ ∃ t, ParSystem.Step g s t

/-- A thread has panicked. -/
def Panicked (s : ParSystem) : Prop := s.failed = true

end OsmIo.Spec
