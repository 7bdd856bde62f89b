import Mathlib.Logic.Relation
import Verif.Spec.LenientFile
/-!
# Going through any file from frame header to frame header

`blobs()` and everything built on it (`parallel_for_each`, `count_objects`, the bounding box) looks at the frame headers only and jumps over the
blobs. Nothing here refers to functions of the model.
-/
namespace OsmIo.Spec.Lenient

/-- The frames found from `pos` on: header and start of the blob; and whether the search ends with a panic. The size in a header may be negative, which leads backwards. -/
inductive Frames (file : Bytes) : ℤ → List (Pb.BlobHeader × Nat) → Bool → Prop
  /-- before the beginning of the file -/
  | before {pos} : pos < 0 → Frames file pos [] false
  /-- no frame header -/
  | done {pos : Nat} : (∀ n, LengthAt file pos n → n < 2 ^ 31) → (∀ h start, ¬ HeaderAt file pos h start) → Frames file pos [] false
  /-- a length that is negative as a number of 32 bits -/
  | long {pos n : Nat} : LengthAt file pos n → 2 ^ 31 ≤ n → Frames file pos [] true
  /-- a frame header; whether there is a blob does not matter -/
  | frame {pos : Nat} {h start rest panic} : HeaderAt file pos h start → Frames file (start + h.datasize.toInt) rest panic →
      Frames file pos ((h, start) :: rest) panic

/-- There is a frame header at `pos`, and the next one is looked for at `pos'`. -/
def Leads (file : Bytes) (pos pos' : ℤ) : Prop := ∃ (n : Nat) (h : Pb.BlobHeader) (start : Nat), pos = n ∧ HeaderAt file n h start ∧ pos' = start + h.datasize.toInt

/-- The data block of a frame, if it is one that can be read, else nothing. -/
inductive Gives (stream : Bytes → Bytes) (file : Bytes) (f : Pb.BlobHeader × Nat) : Option (List Element) → Prop
  | data {b es} : BodyAt file f.1 f.2 b → Readable stream f.1.type b (.data es) → Gives stream file f (some es)
  | nothing : (∀ b es, BodyAt file f.1 f.2 b → ¬ Readable stream f.1.type b (.data es)) → Gives stream file f none

end OsmIo.Spec.Lenient
