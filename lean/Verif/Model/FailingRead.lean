import Verif.Model.ForEach
/-!
# Reading from a device whose reads may fail (`src/osm/pbf/blob_iterator.rs`, `file_block.rs`, `reader.rs`)
-/
namespace OsmIo

/-- Which I/O operations fail. `frame k j`: operation `j` of the `k`-th call of `BlobIterator::next` (0 `seek`, 1 `read_exact` of the length, 2 `read_exact` of
the blob header, 3 `stream_position`). `body k j`: operation `j` of reading the body of blob `k` (0 `open`, 1 `seek`, 2 `read_exact`).
(`src/osm/pbf/blob_iterator.rs:37-53`, `src/osm/pbf/file_block.rs:157-169`) -/
structure ReadFaults where
  frame : Nat → Nat → Bool
  body : Nat → Nat → Bool

/-- `BlobIterator::next`, `src/osm/pbf/blob_iterator.rs:37-53`, when operations may fail: every error is turned into `None` by `.ok()?`. -/
def BlobIter.nextF (fa : ReadFaults) (file : Bytes) (it : BlobIter) : Out (Option (BlobDesc × BlobIter)) :=
  let p : Int := it.pos + it.jump
  if fa.frame it.index 0 || p < 0 then .ok none
  else
    match (if fa.frame it.index 1 then none else readAt file p.toNat 4) with
    | some [a, b, c, d] =>
      let header_len := ofBeBytes a b c d
      if header_len < 0 then .panic
      else
        let n := header_len.toInt.toNat
        match (if fa.frame it.index 2 then none else readAt file (p.toNat + 4) n) with
        | none => .ok none
        | some hdr =>
          match Pb.BlobHeader.decode hdr with
          | none => .ok none
          | some h =>
            if fa.frame it.index 3 then .ok none
            else
              let offset := p.toNat + 4 + n
              .ok (some (⟨it.index, offset, h.datasize.toInt64.toUInt64.toNat, h.type⟩,
                ⟨offset, h.datasize.toInt, it.index + 1⟩))
    | _ => .ok none

/-- `FileBlock::from_blob_desc`, `src/osm/pbf/file_block.rs:157-169`, when operations may fail. -/
def FileBlock.fromBlobDescF (fa : ReadFaults) (z : Zlib) (file : Bytes) (d : BlobDesc) : Out FileBlock :=
  if fa.body d.index 0 then .err
  else if fa.body d.index 1 then .err
  else if 2 ^ 63 ≤ d.length then .panic
  else
    match (if fa.body d.index 2 then none else readAt file d.start d.length) with
    | none => .err
    | some buf => FileBlock.deserialize z d.t buf

/-- Draining a `BlobIterator` (`for blob_desc in self.blobs()?`, `src/osm/pbf/reader.rs:191`), at most `fuel` items. -/
def takeBlobsF (fa : ReadFaults) (file : Bytes) : Nat → BlobIter → List BlobDesc × End
  | 0, _ => ([], .more)
  | fuel + 1, it =>
    match it.nextF fa file with
    | .ok none => ([], .done)
    | .ok (some (d, it')) =>
      let (ds, e) := takeBlobsF fa file fuel it'
      (d :: ds, e)
    | _ => ([], .panic)

/-- `FileBlockIterator::next`, `src/osm/pbf/file_block_iterator.rs:20-27`: a block that cannot be read is a panic. -/
def nextBlockF (fa : ReadFaults) (z : Zlib) (file : Bytes) (it : BlobIter) : Out (Option (FileBlock × BlobIter)) :=
  match it.nextF fa file with
  | .ok none => .ok none
  | .ok (some (d, it')) =>
    match FileBlock.fromBlobDescF fa z file d with
    | .ok b => .ok (some (b, it'))
    | _ => .panic
  | _ => .panic

/-- `ElementIterator::create_element_iterator`, `src/osm/pbf/element_iterator.rs:26-36`. -/
def createElementIteratorF (fa : ReadFaults) (z : Zlib) (file : Bytes) (it : BlobIter) : Out ElementIter :=
  match nextBlockF fa z file it with
  | .ok (some (.data es, it')) => .ok ⟨it', some es⟩
  | .ok (some (.header _, it')) => .ok ⟨it', none⟩
  | .ok none => .ok ⟨it, none⟩
  | _ => .panic

/-- `ElementIterator::new`, `src/osm/pbf/element_iterator.rs:14-23`. When reading the first frame fails, the code reads a second time and may get the
first block (a header) then or nothing: either way the iterator is at its end. -/
def ElementIter.newF (fa : ReadFaults) (z : Zlib) (file : Bytes) : Out ElementIter :=
  match nextBlockF fa z file {} with
  | .ok none => .ok ⟨{}, none⟩
  | .ok (some (_, it)) => createElementIteratorF fa z file it
  | _ => .panic

/-- `ElementIterator::next`, `src/osm/pbf/element_iterator.rs:42-59`, as in `ElementIter.Next`. -/
inductive ElementIter.NextF (fa : ReadFaults) (z : Zlib) (file : Bytes) : ElementIter → Out (Option Element × ElementIter) → Prop
  | ended (it : BlobIter) : NextF fa z file ⟨it, none⟩ (.ok (none, ⟨it, none⟩))
  | item (it : BlobIter) (e : Element) (es : List Element) :
      NextF fa z file ⟨it, some (e :: es)⟩ (.ok (some e, ⟨it, some es⟩))
  | again (it : BlobIter) (st : ElementIter) (r) (h : createElementIteratorF fa z file it = .ok st)
      (hn : NextF fa z file st r) : NextF fa z file ⟨it, some []⟩ r
  | fail (it : BlobIter) (h : createElementIteratorF fa z file it = .panic) : NextF fa z file ⟨it, some []⟩ .panic

/-- Calling `next` until it returns `None` or panics. (a `for` loop over the iterator of `src/osm/pbf/element_iterator.rs:1-60`) -/
inductive ElementIter.DrainsF (fa : ReadFaults) (z : Zlib) (file : Bytes) : ElementIter → List Element → End → Prop
  | done (st st' : ElementIter) (h : NextF fa z file st (.ok (none, st'))) : DrainsF fa z file st [] .done
  | fail (st : ElementIter) (h : NextF fa z file st .panic) : DrainsF fa z file st [] .panic
  | item (st st' : ElementIter) (e : Element) (es : List Element) (r : End)
      (h : NextF fa z file st (.ok (some e, st'))) (hd : DrainsF fa z file st' es r) : DrainsF fa z file st (e :: es) r

/-- `for element in reader.elements()?`, `src/osm/pbf/reader.rs:122-133`, on a device with these faults. -/
inductive ReadsElementsF (fa : ReadFaults) (z : Zlib) (file : Bytes) : List Element → End → Prop
  | new_fail (h : ElementIter.newF fa z file = .panic) : ReadsElementsF fa z file [] .panic
  | iterate (st : ElementIter) (es : List Element) (r : End) (h : ElementIter.newF fa z file = .ok st)
      (hd : ElementIter.DrainsF fa z file st es r) : ReadsElementsF fa z file es r

/-- `Reader::new`, `src/osm/pbf/reader.rs:39-67`, on a device with these faults. -/
def openReaderF (fa : ReadFaults) (z : Zlib) (file : Bytes) : Out FileInfo :=
  match nextBlockF fa z file {} with
  | .ok (some (.header info, _)) => do
    verifySupportedFeatures supportedFeatures info.required_features
    .ok info
  | .ok (some (.data _, _)) => .err
  | .ok none => .err
  | _ => .panic

/-- The calls of the user function made by one `ParallelElementIterationCommand`, `src/osm/pbf/parallel_element_iteration_command.rs:25-34`. -/
def iterationCallsF (fa : ReadFaults) (z : Zlib) (file : Bytes) (d : BlobDesc) : Option (List Element) :=
  match FileBlock.fromBlobDescF fa z file d with
  | .ok (.data es) => some (es ++ [.sentinel])
  | .ok (.header _) => some []
  | _ => none

/-- The states of `reader.parallel_for_each(T, f)` on a device with these faults. (`src/osm/pbf/reader.rs:183-204`) -/
inductive ForEachOccursF (fa : ReadFaults) (z : Zlib) (file : Bytes) {T : Nat} {σ : Type} (f : Fin T → Element → σ → σ × Bool) (cap : Nat) (s : σ) (ds : List BlobDesc) :
    ForEach T σ → Prop
  | run (fuel : Nat) (p : ForEach T σ) (hb : takeBlobsF fa file fuel {} = (ds, .done))
      (hs : ForEach.Steps f cap (ForEach.init (ds.map (iterationCallsF fa z file)) s) p) : ForEachOccursF fa z file f cap s ds p

end OsmIo
