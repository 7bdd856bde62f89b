# Formal model of osm-io in Lean 4: design

## Approach

The model is a set of small, total, computable Lean functions that follow the Rust source function by
function (`lean/Verif/Model/*.lean`, every definition cites file and lines). Independent
specifications live in `lean/Verif/Spec/*.lean`. Helper lemmas live in `lean/Verif/Lemmas/*.lean`;
the property theorems, with a concrete non-trivial instance beside each, live in
`lean/Verif/Props/*.lean`.

### Modelling decisions

* **Integers.** `i64`/`i32`/`u32`/`u64` are Lean `Int64`/`Int32`/`UInt32`/`UInt64`: two's complement with
  wrapping arithmetic, i.e. the release profile of rustc. In a build with overflow checks an overflowing
  operation panics instead: `Model/Checked.lean` models the data block code that way, and C85 relates the two; `pbfInfoChecked` does so for `pbf-info` (C76). `usize`, `Vec::len` and file offsets are `Nat`
  (64-bit address space never exhausted), except where the code casts them to `i32`
  (string table index, blob sizes), which is modelled as the wrapping cast.
* **Floating point.** `f64` values are modelled as the rational numbers they denote; every arithmetic operation
  is the exact rational operation followed by `rnd`, IEEE round-to-nearest-even to 53 bits, defined
  concretely and computably (not assumed). NaN, infinities and the under/overflow limits of the exponent range are left out there; C81 models
  them (`Model/Ieee.lean`) and proves that for finite values the integers written and the coordinates read are the same. The sign of zero is not modelled.
* **Strings** are Lean `String`s, i.e. valid UTF-8 byte sequences as in Rust. Bytes are `List UInt8`.
* **Panics and errors** are explicit outcomes (`Out.err`, `Out.panic`), so "does not fail" is provable. A panic in a
  `ParallelWriter` call happens on its ordering thread; what the thread pool then does (`command-executor`) is not modelled.
* **prost** is modelled concretely (varints with the 10-byte limit, zigzag, keys, wire types, packed and unpacked repeated
  fields, unknown field skipping, merge semantics of repeated singular fields). Groups are
  skipped in unknown fields down to the recursion limit and refused in known ones.
* **zlib** is a parameter: a pair (`deflate`, `inflate`) with the contract
  `inflate (deflate b) = b`; it is a hypothesis of the theorems that need it, instantiated by the
  identity codec to show it is satisfiable.
* **Files** are byte lists. Writes that fail after part of their bytes are modelled for the sequential writer (C78), the parallel writer (C82) and for the dump tables behind `BufWriter` (C79);
  seeks, reads and opens that fail for the PBF reader (C80, where a failed read of the first frame in `elements()` is taken to end the iteration); elsewhere I/O does not fail except for reads past the end. `create` and `open` of files that cannot be created or read are not modelled, except missing files of a dump.
* **Thread pools** (`command-executor`) are modelled as: each submitted command is executed exactly once;
  a 1-thread pool executes in submission order; a k-thread pool in any order (any permutation / any
  interleaving of the per-command steps), quantified universally in the theorems.
* **`HashMap`/`HashSet`** are association lists/lists with the lookup laws only.
* **`slice::sort`** on elements is any function that returns a permutation, sorted by the modelled `cmp` when that is an order (`StdSort`).
* **text-file-sort, escape-string, unescape, chrono, BTree index** (apidb dump): see below.

### The apidb dump

* Table data files are lists of characters (`Model/Text.lean` models `split`, `lines`, `parse`, ... of the standard library).
  Files that are not valid UTF-8 are not represented.
* `chrono` (calendar, formatting and parsing of timestamps) is modelled concretely in `Model/Sql.lean`, following its
  documentation; C47 proves the conversions inverse for every instant in the range.
* `escape_string::escape` and `unescape::unescape` are a parameter (`Codec`) with the contract `Spec.Faithful` (unescape inverts
  escape; no tab or newline in escaped text). A backslash codec that meets it is defined and proved to do so.
* `text_file_sort` is a relation `Sorted` between the file and its sorted copy: a permutation of the lines in the order of the key
  the code passes to it. Where several lines have the same key any order is allowed. `C53_sortable` proves that such a sorted copy exists for every written dump.
* `BtreeIndex` (users, changesets, versions) is an association list with insert and lookup; `HashMap` likewise.
* The `COPY` regular expression of `Reader::new` is modelled by a function on byte lists (`captures`).
* `toc.dat` (150838 bytes) and `mapping.json`, both embedded in the crate, are in the model byte for byte: `scripts/gen_toc.py` wrote
  `Model/TocDat.lean` (as numbers in hexadecimal), `Spec/TocStatements.lean` (its 53 `COPY` statements) and `Lemmas/TocEntries.lean` from them. The kernel checks
  that the bytes are those statements and that the scanner of the reader finds exactly them (C64).
* A directory is a map from file names to bytes (`Model/ApidbDirectory.lean`). Loading into a database (C65) is specified in `Spec/ApidbLoad.lean`.

### The published format

C55-C58 do not compare the reader with the writer but each of them with the documentation of the PBF format: `Spec/Protobuf.lean`
(encodings of a message: a relation, so that all encodings are covered), `Spec/Format.lean` (what a `PrimitiveBlock` says about
elements, with plain integer sums) and `Spec/FormatFile.lean` (frames, blobs, header first). None of these files refers to functions of the model, only
to the data types. `inflates` (RFC 1950) is a relation parameter.

## Modules

| what | model | specification | properties |
|---|---|---|---|
| elements, boxes, doubles | `Model/Basic, F64, Element, BoundingBox` | `Spec/Block` | `Props/Block, Box, BoxMore` |
| prost and the message schemas | `Model/Wire, Proto` | `Spec/Protobuf` | `Props/Block` (C07), `Props/FormatFile` |
| data blocks, string table, builders | `Model/OsmData` | `Spec/Block, Format, Defaults` | `Props/Block, Format, Defaults` |
| header, file info | `Model/Header` | `Spec/File` | `Props/Header` |
| frames, blobs, blob iterator | `Model/FileBlock` | `Spec/File, FormatFile, Concat` | `Props/File, FormatFile, FormatMore, Concat` |
| reader, iterators, counting | `Model/Reader, Pool` | `Spec/File, Parallel` | `Props/File, Parallel` |
| writer, accumulators | `Model/Writer, WriterCalls` | `Spec/File, WriterCalls` | `Props/File, Accumulator, WriterCalls` |
| parallel writer | `Model/ParallelWriter` | `Spec/ParallelWriter` | `Props/ParallelWriter` |
| `parallel_for_each` as a whole | `Model/ForEach` | `Spec/Parallel` | `Props/ForEach` |
| parallel writer as a whole | `Model/ParallelSystem` | `Spec/ParallelSystem, ParallelHeader` | `Props/ParallelSystem, ParallelMemory, ParallelHeader` |
| SQL values, tiles | `Model/Text, Sql` | in the statements | `Props/Sql` |
| apidb writer | `Model/ApidbWriter` | `Spec/Apidb` | `Props/ApidbWriter, ApidbTables` |
| apidb reader | `Model/ApidbReader, ApidbToc` | `Spec/ApidbRead, ApidbJoin, ApidbRoundTrip, ApidbColumns, ApidbToc, ApidbRow, DamagedRow` | `Props/ApidbReader, ApidbRoundTrip, ApidbSortable, ApidbColumns, ApidbToc, ApidbRow, ApidbShown, DumpShown, DamagedDump` |
| times, counting programs | `Model/Converters, Counting` | `Spec/Converters, Calendar` | `Props/Converters, Counting` |
| directory of a dump | `Model/TocDat, ApidbDirectory` | `Spec/TocStatements, ApidbLoad` | `Props/ApidbDirectory, DirectoryPrograms, ApidbLoad` |
| All doubles | `Model/Ieee, BoxText` | `Spec/Ieee, BoxText` | `Lemmas/Ieee`, `Props/Ieee, IeeeLaws, BoxText` |
| sizes | `Model/OsmData, FileBlock` | `Spec/Size` | `Props/Size, Oversized, SizePrograms` |
| incomplete blocks | `Model/OsmData, FileBlock, Reader` | `Spec/Complete` | `Props/Complete` |
| overflow checks | `Model/Checked` | `Spec/Checked, Format` | `Props/Checked, CheckedWrite` |
| changing files | `Model/ChangingFile` | `Spec/ChangingFile` | `Props/ChangingFile` |
| the two writers compared | (existing models) | `Spec/SameFile` | `Props/SameFile` |
| stable sorting | (existing models) | `Spec/StableSort` | `Props/StableSort` |
| settings | `Model/InfoCalls` | `Spec/InfoCalls` | `Props/InfoCalls` |
| several accumulators | `Model/Accumulators` | `Spec/Accumulators` | `Props/Accumulators` |
| taking fields out | `Model/TakeCalls` | `Spec/TakeCalls` | `Props/TakeCalls` |
| arbitrary bytes | `Model/Wire, Proto, OsmData, FileBlock, Reader` | `Spec/Lenient, LenientFile, Meaning, Frames` | `Props/Lenient, LenientFile, Frames` |
| I/O errors | `Model/FailingDisk, BufWriter, FailingRead, FailingTables, ParallelFailing` | `Spec/BufWriter, FailingRead, FailingTables, AnyDump` | `Props/FailingDisk, BufWriter, FailingRead, FailingTables, AnyDump, ParallelFailing` |
| crashes | `Model/Writer, ParallelWriter, BufWriter` | `Spec/File, DumpCrash, DumpSessions` | `Props/Crash, CutFile, DumpCrash, DumpSessions, DumpRenamed, DumpOrder, DumpLimits` |
| programs (`examples/`) | `Model/Pipelines, DumpParallel, PbfInfo` | `Spec/Pipelines, CopyAgain` | `Props/Pipelines, CopyAgain, Filters, DumpParallel, PbfInfo` |

`Lemmas/*` holds what the proofs need; nothing there has to be read to understand a statement.
`Lemmas/ProtobufRead.lean`, `Lemmas/ProtobufWrite.lean` and `Lemmas/LenientMessages.lean` were written by a script (same proof for each message) and are ordinary checked Lean.

Modelled code: everything in `src/osm/pbf`, `src/osm/model` and `src/osm/apidb_dump` that affects what is read, written, counted or
returned, including errors and panics. Not modelled: logging, `Debug`, the plain accessors and setters, errors in
creating files and in sorting dumps (PBF reading: C80, reading dumps: C88, writing: C78, C79, C82), temporary directories, `FileBlockMetadata` statistics, memory, `src/bin/osmio.rs`, `build.rs`, benches. The
examples are represented by C51 and C70 (`parallel-pbf-io.rs`), C20 and C72 (counting), C71 and C76 (`pbf-info.rs`) and C61-C63.

## Property plan

| id | plan |
|---|---|
| C01-C03 | model builders, reader and the wire format; theorem `parse (serialise es) = ok es` by induction with a string-table-extension invariant and delta decoding lemmas |
| C04, C05 | concrete `rnd`, error bounds on Q; truncated division lemmas |
| C06 | invariant of the builder: index map and table agree |
| C07 | per-message `decode (encode m) = ok m`, by induction over fields |
| C08, C32 | model of seek/read on byte lists; induction on frames; well-founded measure on the remaining length |
| C09, C12-C14, C11, C33 | state machine of accumulator/writer, invariants, composition with C01-C08 |
| C10 | case analysis of the cut position relative to frames |
| C15-C17, C39 | header model |
| C18-C21 | block list model, schedules as permutations/interleavings of a pool of threads |
| C22, C23, C48 | order and lattice lemmas on the model types |
| C24-C28, C34-C36 | pipeline state machines, induction over call histories, permutation lemmas, reorder-buffer invariant |
| C29-C31, C37, C38 | case analysis of block parser |
| C40 | grid cell as a rational floor; bits of the tile number by bit-vector lemmas on `testBit` |
| C41, C42, C50 | rows written to each table as a function of the element list, by induction over the history of calls; current tables by an invariant on the pending object |
| C43, C45 | merge join as a recursive function over sorted lists of records; every element gets the records with its key |
| C44, C52 | association lists; owner of a changeset |
| C46, C53 | composition of writer, sorting relation and reader; the order of members survives iff sorted by the reader's key |
| C47 | civil calendar arithmetic, `days` inverse to `date`, digit strings |
| C49 | permutation of columns with distinct names gives the same record |
| C51 | composition of C19, C28 and C25/C34 |
| C54 | scanner invariant: exactly the COPY statements of the table of contents are found |
| C55, C56 | block meaning as entry-wise integer sums, proved equal to the running sums of reader and writer |
| C57, C58 | per message: every published encoding decodes to the message; every encoding written is a published one; then frames and files |
| C59, C60 | what is in the file at any moment is a sequence of whole blocks; reading is monotone in the file |
| C61-C63 | each program as a relation between input and outcome; composition of the theorems about readers and writers |
| C64 | bytes as numbers: the kernel evaluates the scanner's marks over the real `toc.dat` with big-number arithmetic, then C54 and C53 |
| C65 | rows of each table (C41, C42, C52) against the columns of the statements in `toc.dat` |
| C66 | calendar counted day by day (`Spec/Calendar.lean`) against the cycle arithmetic of `Date.ofDays`: induction over day numbers, injectivity of `toDays` |
| C69 | transition system of caller, bounded queue and threads with failing calls; invariant per blob |
| C68 | transition system of caller, three pools with bounded queues, locks and joins; invariants, refinement to the pools of C24, a decreasing measure |
| C70 | product of the systems of C69 and C68 joined by the call of `write_elements`; lexicographic measure; the blocks are unique given their concatenation |
| C71 | the calendar of C66 turned into RFC 3339 text; text order proved equal to time order by cases on the fields |
| C72 | fold over the elements read (C58) and the shared counters of the thread pool (C20) |
| C73 | composition of C43 and C68; for the panic an invariant about the Sentinel in the buffer |
| C74 | a list of demands per table by column name; a line that fails one makes the record builders panic (inversion of the builders), and an iteration that ends has built a record of every line of its object tables (induction over the iteration). Nothing is demanded of the form of a time, because the model of chrono's parser is stricter than the crate |
| C75 | sequences of calls as a list; induction keeping the blocks written as a merge of the accumulator's own blocks and of those given as such |
| C76 | the lines as groups of a label and values; no label begins another, so that the lines of a label are its group |
| C77 | `Dealt`, a declarative account of the merge joins (own rows, order of the table, greedy), which determines the shares; the iterator yields the objects with these shares, by induction over the objects |
| C78 | the writer over a disk with an arbitrary fault function; a simulation with the writer of C75 per call, then induction over the calls |
| C79 | `BufWriter` over such a disk; invariant: file plus buffer is what was written, the buffer at most 8192 bytes |
| C80 | the iterators with a fault oracle per operation; each step is the fault-free one, the end, or a panic, so a simulation with the fault-free reader |
| C81 | the computations with coordinates once more over all of binary64; a relation "no conversion to an integer can tell them apart" preserved by each operation; rounding is proved to be to a nearest double, with the IEEE 754 overflow threshold; tile numbers by the same relation; the tables of the operations are checked against laws (commutativity, opposites, the order of the extended line) |
| C82 | the system of C68 with steps into an I/O error; a run is one of C68 up to its first error |
| C83 | a cost of a list of fields that bounds its encoding; the cost of the serializer's state grows by at most the weight of the element in each step |
| C84 | each reading function succeeds or panics, and succeeds iff its part of the message is complete (`Decides`), composed along the code |
| C85 | the checked functions beside the wrapping ones; `Decides` gives when each panics, in terms of integer sums and differences; for written blocks the invariant of the builder gives the last values |
| C86 | every decoding function of the wire format is an equivalence with a declarative rule (`decVarint_iff` up to `PrimitiveBlock.decode_iff`), every reading function of a block one with `Spec.Meaning`; composed to a classification of all byte strings as blocks and as files |
| C87 | the frames of any file as an inductive relation (`Spec/Frames.lean`), unique; cycles by pigeonhole over positions; with C86's classification of blobs and the invariants of C69 and C21 |
| C88 | the readers with the results of `read_line` as a list of lines and failures (`Model/FailingTables.lean`), by induction on the rows of the object table, the shares by a rule on rows with gaps (`DealtPast`); related to `Dealt` (C77) for tables that fail from some row on |
| C89 | each read of a table is a row, a stop or a damaged line (`Spec/AnyDump.lean`); the same readers, by induction on the items of the object table; what is given is shown to be determined; the model with failing reads is shown to be the ordinary reader when no read fails (`C89_same`) |
| C90 | the transition system of C68; the bounds of the queues as an invariant, the kept blocks from the refinement to the pools (C24); the schedule in which the first block is encoded last is constructed for every program by induction on its calls; the ordering buffer by induction on the calls (`Props/ParallelMemory.lean`) |
| C91 | a simulation between the writer that gets the elements and the one that gets them rounded, by induction on the elements, with C29 for the blocks; the box by error bounds of `rnd` and descent on nanodegrees (`Spec/CopyAgain.lean`, `Props/CopyAgain.lean`) |
| C92 | what comes back (`Back`, C53) satisfies the hypotheses of the exact round trip C53_exact: coordinates on the grid and still within bounds (error of `rnd`), times whole seconds, one user for each changeset, tags strictly sorted; two lists in strictly ascending order that are permutations of each other are equal (`Props/DumpTwice.lean`, for the programs `Props/DumpTwicePrograms.lean`); that repeated tag keys must be excluded is shown by evaluating the dump of one way, two sorted copies of it and both readings (C92_repeated_keys, `Props/DumpRepeatedKeys.lean`) |
| C93 | `NegativeSize`: the size of the blob or of its data, as `i32`, is negative. One step of the block iterator on such a frame panics; induction over the blocks before. For the parallel reader: the frame after it is looked for at `offset + size - 2^32 < 0`, so the list of blobs ends. Witness: a node with a user name of 2 GiB, whose block's size is between the text's and the bound of C83 |
| C94 | `StoppedUnclosed`: the tables' files after a prefix of any cutting of the writes, on `BufWriter`s with any faults. Nothing is written to users and changesets before `close`, so their files are empty (buffer invariant), so no row joins its owner: invariant over the iterator's steps, with an induction on the pending rows. Within `close`: the operations up to the ways' tables, which are last; their unflushed rows stay in the buffers; the iterator over the tables without ways simulates the one over all tables with the ways left out |
| C95 | `sessions`: `writeAll` and `close` in turn on one writer; `SessionParts` says by dumps of single sessions what each adds. Invariant between sessions (`Between`): no pending current lines, empty buffers, indexes that answer as the last values of all elements so far; the remembered last id has no effect without pending lines. Reading: what the sort keeps does not depend on end markers, so the history tables are sorted copies of one dump of all elements; the indexes answer alike as the rows agree. Two sessions with a renamed user are evaluated: two sorted copies of the same files give two names (C95_renamed, `Props/DumpRenamed.lean`) |
| C96 | the transition system of C68, programs with `write_header` anywhere. Completeness: an invariant saying where the header call is (to come, queued, done); the early header: an invariant that nothing leaves the ordering thread before the call; the late header: a panicking schedule by induction on the calls before it, a lucky one by letting the caller run ahead |
| C97 | bytes that are published files one after another (`Spec/Concat.lean`); the block iterator over any list of frames by induction, then C17, C19, C20, C21 for the list of blocks; a header block ends the element iterator |
| C98 | the iterators with the contents of the file at each read given separately (`Sight`); reading is monotone in the contents, so induction over the blocks; the copy onto itself as a loop whose iterator reads what the writer has written; a witness for a replaced file |
| C99 | both writers cut sorted elements into blocks that are as full as possible (invariants over the calls), such blocks are unique; the additional empty blocks of the sequential writer are computed, so equality of the files is an equivalence |
| C100 | invariant of the ordering thread: for each key, the elements in the blocks and the buffer with that key are those handed over, in order; two stable sorts of one list are equal, by induction |
| C101 | each setter as a step; induction over the calls: a setting is the last value given to it; then C15 |
| C102 | the map of each thread from ids to vectors; induction over the calls: under each id is what the history says is waiting. Different ids (UUIDs) are a hypothesis |
| C103 | the accessors that change an element; induction over the calls: each answer and the rest are given by the set of earlier calls |
| C104 | `Back` (C53) determines what comes back: the objects in key order are unique, times, owners, tags with different keys and members (the order of members is antisymmetric) have one possibility, coordinates by `place`; users and changesets of a permutation have the same last values if consistent (`Props/DumpOrder.lean`). That the order matters otherwise is shown by evaluating two dumps (C104_order_matters) |
| C105 | the column is a 32 bit integer: 215 degrees times 10^7, rounded or saturated, does not fit it, so the row is one that no reader accepts (C74). Repeated id and version and a tab in a name are evaluated (`Props/DumpLimits.lean`) |
| C106 | the simulation of writers of C91 (a writer that gets elements and one that gets them rounded write the same bytes) applied to the elements kept by both conditions; the example uses a file of another program with times in milliseconds |
| C107 | `f64::from_str` written out (`Model/BoxText`) and proved to read exactly the decimal texts and words of `Spec/BoxText`; with that, the reader of boxes as a function of the pieces between commas; a shown box begins with a letter no number begins with. That numbers can be shown faithfully at all is proved by giving a way (an integer and a power of ten) |
| C67 | rows by column names (`Spec/ApidbRow.lean`) against the record builders; then C43 for the elements |

Properties the code does not satisfy as a user would expect are stated as they hold, and accompanied by a theorem exhibiting the
violation: C13 (nodes then relations), C15 (header with nothing in it), C16 (repeated copies drift), C23 (Sentinel), C27 (undetected disorder), C32 (negative
size), C35 (block size 0), C37 (mixed types), C41 (decreasing ids), C43 (orphan rows), C46 (member order), C50 (closing twice), C70 (outcome depends on the schedule), C73 (Sentinels passed to the parallel writer),
C75 (the order of the calls is not the order of the file), C78 (a second `close` after an error), C79 (dropping without `close`), C80 (errors taken for the end of the file), C81 (NaN and infinite coordinates), C83 (no size limit is enforced), C93 (blocks of 2 GiB are written and cannot be read), C94 (a dump cut off within `close` reads well without its ways), C95 (closing twice leaves users twice and old versions in the current tables), C96 (a late `write_header` works or panics as the scheduler likes), C97 (`elements()` stops after the first of several files), C98 (a file replaced during iteration, a file copied onto itself), C92 (a repeated tag key comes back in either order), C95 (a user renamed between sessions comes back under either name), C107 (a printed box is not accepted as a box), C105 (nodes beyond 215 degrees, repeated versions, tabs in names), C90 (nothing bounds the blocks kept for a slow encoding thread, nor the ordering buffer when `write_elements` gets more than a block), C88 (failing reads of a dump are not reported), C85 (elements a release build writes and a checked build refuses).

## Trusted base

* Lean 4.33.0 kernel; axioms of every theorem: at most `propext`, `Classical.choice`, `Quot.sound`. No axioms added, no
  compiled evaluation.
* The faithfulness of the model to the Rust source, by reading (each definition cites its lines), with the modelling
  decisions above. Hypotheses standing for code outside the repository: zlib (`Lossless`, or the relation `inflates`), the
  escaping crates (`Faithful`), `text_file_sort` (`Sorted`), `slice::sort` (`StdSort`: a permutation, sorted when the order is lawful), `f64::from_str` (a parameter), thread pools (each
  command executed once; single-thread pools in order).
* `Faithful`, `Lossless` and `Sorted` are each shown satisfiable by an instance.

## Testing the theorems

`seeded/LOG.jsonl` records wrong programs: an edit of the model, the claim it breaks, and the theorems that stopped proving.
