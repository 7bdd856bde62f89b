import Verif.Model.Reader
import Verif.Model.Writer
import Verif.Model.Pool
/-!
# Reading a file that changes meanwhile (`src/osm/pbf/blob_iterator.rs`, `file_block.rs`, `element_iterator.rs`)
-/
namespace OsmIo

/-- What the file holds at the three moments at which it is read for one block: when the four bytes of the length are read and when the blob
header is read (both through the file the iterator has opened, `src/osm/pbf/blob_iterator.rs:38-44`), and when the body is read, for which the
file is opened anew by its path (`src/osm/pbf/file_block.rs:157-168`; opening, seeking and reading are taken as one moment). -/
structure Sight where
  length : Bytes
  header : Bytes
  body : Bytes
  deriving DecidableEq, Repr

/-- `BlobIterator::next`, `src/osm/pbf/blob_iterator.rs:37-53`. -/
def BlobIter.nextSeen (s : Sight) (it : BlobIter) : Out (Option (BlobDesc × BlobIter)) :=
  let p : Int := it.pos + it.jump
  if p < 0 then .ok none
  else
    match readAt s.length p.toNat 4 with
    | some [a, b, c, d] =>
      let header_len := ofBeBytes a b c d
      if header_len < 0 then .panic
      else
        let n := header_len.toInt.toNat
        match readAt s.header (p.toNat + 4) n with
        | none => .ok none
        | some hdr =>
          match Pb.BlobHeader.decode hdr with
          | none => .ok none
          | some h =>
            let offset := p.toNat + 4 + n
            .ok (some (⟨it.index, offset, h.datasize.toInt64.toUInt64.toNat, h.type⟩,
              ⟨offset, h.datasize.toInt, it.index + 1⟩))
    | _ => .ok none

/-- `FileBlockIterator::next`, `src/osm/pbf/file_block_iterator.rs:20-27`. -/
def nextBlockSeen (z : Zlib) (s : Sight) (it : BlobIter) : Out (Option (FileBlock × BlobIter)) :=
  match it.nextSeen s with
  | .ok none => .ok none
  | .ok (some (d, it')) =>
    match FileBlock.fromBlobDesc z s.body d with
    | .ok b => .ok (some (b, it'))
    | _ => .panic
  | _ => .panic

/-- `ElementIterator::next`, `src/osm/pbf/element_iterator.rs:42-59`, until the end: one sight for each block that is read. `.more`: there is still
something to read after these sights. -/
def drainSeen (z : Zlib) : List Sight → BlobIter → List Element × End
  | [], _ => ([], .more)
  | s :: h, it =>
    match nextBlockSeen z s it with
    | .ok none => ([], .done)
    | .ok (some (.header _, _)) => ([], .done)
    | .ok (some (.data es, it')) => (es ++ (drainSeen z h it').1, (drainSeen z h it').2)
    | _ => ([], .panic)

/-- `for element in reader.elements()?`, `src/osm/pbf/reader.rs:122-133`, `src/osm/pbf/element_iterator.rs:14-23`: the first block is skipped. The
reader exists because its first block could be read before; as long as that beginning of the file stays, the case `.ok none` does not arise (the
code would call `next` again). -/
def elementsSeen (z : Zlib) : List Sight → List Element × End
  | [] => ([], .more)
  | s :: h =>
    match nextBlockSeen z s {} with
    | .ok none => ([], .done)
    | .ok (some (_, it)) => drainSeen z h it
    | _ => ([], .panic)

/-- Draining the `BlobIterator` (`for blob_desc in self.blobs()?`, `src/osm/pbf/reader.rs:191-199`), one sight for each blob: what is submitted, and
what the file will hold when the body of that blob is read by its command. -/
def takeBlobsSeen : List Sight → BlobIter → List (BlobDesc × Bytes)
  | [], _ => []
  | s :: h, it =>
    match it.nextSeen s with
    | .ok (some (d, it')) => (d, s.body) :: takeBlobsSeen h it'
    | _ => []

/-- `parallel_for_each`, `src/osm/pbf/reader.rs:183-204`: the pool has executed the commands of the blobs. A command that cannot read its block fails without
calling the function (`src/osm/pbf/parallel_element_iteration_command.rs:25-34`). -/
def ForEachSeen (z : Zlib) (h : List Sight) {T : Nat} {σ : Type} (act : Fin T → Element → σ → σ) (s : σ) (p : Pool T Element σ) : Prop :=
  Pool.Steps act (Pool.init ((takeBlobsSeen h {}).map fun x => (iterationCalls z x.2 x.1).getD []) s) p ∧ Pool.Done p

/-- The loop of `examples/pbf-io.rs:31-52` when the input is the output: the iterator reads what the writer has written so far (`write_blob` passes everything
on to the file, `src/osm/pbf/writer.rs:151-158`). The result is what the file holds in the end. -/
inductive CopyOnto (z : Zlib) (keep : Element → Bool) : ElementIter → Writer → Out Bytes → Prop
  | done (st st' : ElementIter) (w : Writer) (h : ElementIter.Next z w.file st (.ok (none, st'))) :
      CopyOnto z keep st w (.ok (w.close z).file)
  | fail (st : ElementIter) (w : Writer) (h : ElementIter.Next z w.file st .panic) : CopyOnto z keep st w .panic
  | drop (st st' : ElementIter) (w : Writer) (e : Element) (r : Out Bytes) (h : ElementIter.Next z w.file st (.ok (some e, st')))
      (hk : keep e = false) (hr : CopyOnto z keep st' w r) : CopyOnto z keep st w r
  | write (st st' : ElementIter) (w w' : Writer) (e : Element) (r : Out Bytes) (h : ElementIter.Next z w.file st (.ok (some e, st')))
      (hk : keep e = true) (hw : w.writeElement z e = .ok w') (hr : CopyOnto z keep st' w' r) : CopyOnto z keep st w r
  | refuse (st st' : ElementIter) (w : Writer) (e : Element) (h : ElementIter.Next z w.file st (.ok (some e, st')))
      (hk : keep e = true) (hw : ∀ w', w.writeElement z e ≠ .ok w') : CopyOnto z keep st w .panic

/-- `examples/pbf-io.rs:15-54` with the same path for input and output: the reader is opened, the writer truncates the file and writes the header, then the
elements are read. -/
def PbfIoOnto (z : Zlib) (keep : Element → Bool) (program : String) (c : CompressionType) (file : Bytes) (r : Out Bytes) : Prop :=
  match openReader z file with
  | .err => r = .err
  | .panic => r = .panic
  | .ok info =>
    let w := (Writer.fromFileInfo { info with writingprogram := some program } c).writeHeader z
    match ElementIter.new z w.file with
    | .ok st => CopyOnto z keep st w r
    | _ => r = .panic

end OsmIo
