import Verif.Model.FileBlock
/-!
# Reading (`src/osm/pbf/reader.rs`, `file_block_iterator.rs`, `element_iterator.rs`,
`parallel_element_iteration_command.rs`, `calc_bounding_box_command.rs`, `bounding_box_calculator.rs`)
-/
namespace OsmIo

/-- How an iteration ended: the iterator returned `None`, it panicked, or it is still going after the
allotted number of steps. (a `for` loop over the iterator of `src/osm/pbf/element_iterator.rs:1-60`) -/
inductive End where
  | done
  | panic
  | more
  deriving DecidableEq, Repr

/-- Draining a `BlobIterator` (`for blob_desc in self.blobs()?`, `reader.rs:191`), at most `fuel` items. -/
def takeBlobs (file : Bytes) : Nat → BlobIter → List BlobDesc × End
  | 0, _ => ([], .more)
  | fuel + 1, it =>
    match it.next file with
    | .ok none => ([], .done)
    | .ok (some (d, it')) =>
      let (ds, e) := takeBlobs file fuel it'
      (d :: ds, e)
    | _ => ([], .panic)

/-- `FileBlockIterator::next`, `file_block_iterator.rs:20-27`: a block that cannot be read is a panic. -/
def nextBlock (z : Zlib) (file : Bytes) (it : BlobIter) : Out (Option (FileBlock × BlobIter)) :=
  match it.next file with
  | .ok none => .ok none
  | .ok (some (d, it')) =>
    match FileBlock.fromBlobDesc z file d with
    | .ok b => .ok (some (b, it'))
    | _ => .panic
  | _ => .panic

/-- Draining a `FileBlockIterator` (`Reader::blocks()`, `reader.rs:136-147`), at most `fuel` items. -/
def takeBlocks (z : Zlib) (file : Bytes) : Nat → BlobIter → List FileBlock × End
  | 0, _ => ([], .more)
  | fuel + 1, it =>
    match nextBlock z file it with
    | .ok none => ([], .done)
    | .ok (some (b, it')) =>
      let (bs, e) := takeBlocks z file fuel it'
      (b :: bs, e)
    | _ => ([], .panic)

/-- `ElementIterator`, `element_iterator.rs:7-10`: the block iterator and the current block's remaining elements. -/
structure ElementIter where
  blocks : BlobIter
  current : Option (List Element)
  deriving DecidableEq, Repr

/-- `ElementIterator::create_element_iterator`, `element_iterator.rs:26-36`. After the block iterator has returned
`None` it is never called again; its position is left unchanged. -/
def createElementIterator (z : Zlib) (file : Bytes) (it : BlobIter) : Out ElementIter :=
  match nextBlock z file it with
  | .ok (some (.data es, it')) => .ok ⟨it', some es⟩
  | .ok (some (.header _, it')) => .ok ⟨it', none⟩
  | .ok none => .ok ⟨it, none⟩
  | _ => .panic

/-- `ElementIterator::new`, `element_iterator.rs:14-23`: skip the first block, load the next one. (A `Reader` exists only
if `Reader::new` could read the first block, so the `.ok none` case does not arise; the code would call `next` again.) -/
def ElementIter.new (z : Zlib) (file : Bytes) : Out ElementIter :=
  match nextBlock z file {} with
  | .ok none => .ok ⟨{}, none⟩
  | .ok (some (_, it)) => createElementIterator z file it
  | _ => .panic

/-- `ElementIterator::next`, `element_iterator.rs:42-59`, as a big-step relation: it calls itself once for each
used-up block. The result is an element (or the end) and the new state, or a panic. -/
inductive ElementIter.Next (z : Zlib) (file : Bytes) : ElementIter → Out (Option Element × ElementIter) → Prop
  | ended (it : BlobIter) : Next z file ⟨it, none⟩ (.ok (none, ⟨it, none⟩))
  | item (it : BlobIter) (e : Element) (es : List Element) :
      Next z file ⟨it, some (e :: es)⟩ (.ok (some e, ⟨it, some es⟩))
  | again (it : BlobIter) (st : ElementIter) (r) (h : createElementIterator z file it = .ok st)
      (hn : Next z file st r) : Next z file ⟨it, some []⟩ r
  | fail (it : BlobIter) (h : createElementIterator z file it = .panic) : Next z file ⟨it, some []⟩ .panic

/-- Calling `next` until it returns `None` or panics: the elements handed out and how it ended.
(a `for` loop over the iterator of `src/osm/pbf/element_iterator.rs:1-60`) -/
inductive ElementIter.Drains (z : Zlib) (file : Bytes) : ElementIter → List Element → End → Prop
  | done (st st' : ElementIter) (h : Next z file st (.ok (none, st'))) : Drains z file st [] .done
  | fail (st : ElementIter) (h : Next z file st .panic) : Drains z file st [] .panic
  | item (st st' : ElementIter) (e : Element) (es : List Element) (r : End)
      (h : Next z file st (.ok (some e, st'))) (hd : Drains z file st' es r) : Drains z file st (e :: es) r

/-- `for element in reader.elements()?`, `reader.rs:122-133`: the elements delivered to the loop body, and how the loop
ended (`.panic`: a panic unwinds it). -/
inductive ReadsElements (z : Zlib) (file : Bytes) : List Element → End → Prop
  | new_fail (h : ElementIter.new z file = .panic) : ReadsElements z file [] .panic
  | iterate (st : ElementIter) (es : List Element) (r : End) (h : ElementIter.new z file = .ok st)
      (hd : ElementIter.Drains z file st es r) : ReadsElements z file es r

/-- `supported_features`, `reader.rs:40-45`. -/
def supportedFeatures : List String :=
  ["OsmSchema-V0.6", "DenseNodes", "HistoricalInformation", "Sort.Type_then_ID"]

/-- `Reader::find_missing_features`, `reader.rs:206-216`: set difference (the order of a hash set is unspecified; the
model uses first occurrences). -/
def findMissingFeatures (supported required : List String) : List String :=
  if required.all (supported.contains ·) then []
  else required.eraseDups.filter fun f => !supported.contains f

/-- `Reader::verify_supported_features`, `reader.rs:218-227`. -/
def verifySupportedFeatures (supported required : List String) : Out Unit :=
  if (findMissingFeatures supported required).isEmpty then .ok () else .err

/-- `Reader::new`, `reader.rs:39-67`: the `FileInfo` of the opened reader. -/
def openReader (z : Zlib) (file : Bytes) : Out FileInfo :=
  match nextBlock z file {} with
  | .ok (some (.header info, _)) => do
    verifySupportedFeatures supportedFeatures info.required_features
    .ok info
  | .ok (some (.data _, _)) => .err
  | .ok none => .err
  | _ => .panic

/-- The calls of the user function made by one `ParallelElementIterationCommand`,
`parallel_element_iteration_command.rs:25-34`, when the function does not fail: the elements of a data block in order, then a
Sentinel. A blob that cannot be read makes the command fail (`none`). -/
def iterationCalls (z : Zlib) (file : Bytes) (d : BlobDesc) : Option (List Element) :=
  match FileBlock.fromBlobDesc z file d with
  | .ok (.data es) => some (es ++ [.sentinel])
  | .ok (.header _) => some []
  | _ => none

/-- One node of the loop, `calc_bounding_box_command.rs:36-42`. -/
def boxStep (acc : Option BoundingBox) (e : Element) : Option BoundingBox :=
  match e with
  | .node n =>
    match acc with
    | none => some (BoundingBox.fromPoint n.coordinate)
    | some b => some (b.mergePoint n.coordinate)
  | _ => acc

/-- The box computed by one `CalcBoundingBoxCommand`, `calc_bounding_box_command.rs:33-46`: leading nodes only. -/
def blockBox (es : List Element) : Option BoundingBox := (es.takeWhile Element.isNode).foldl boxStep none

/-- The critical section of `CalcBoundingBoxCommand`, `calc_bounding_box_command.rs:47-54`. -/
def mergeResult (result : Option BoundingBox) (b : Option BoundingBox) : Option BoundingBox :=
  match b with
  | none => result
  | some b =>
    match result with
    | none => some b
    | some r => some (r.mergeBox b)

end OsmIo
