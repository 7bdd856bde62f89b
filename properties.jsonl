{"id": "C01", "title": "Node blocks survive serialise/parse", "statement": "Serialising a data block of nodes and parsing the bytes back yields exactly the same nodes in the same order: id, version, coordinate, timestamp, changeset, uid, user, visibility and tags (order and duplicates included), provided coordinates are doubles nearest to a multiple of 1e-7 degree, timestamps are whole seconds, and the block is smaller than 2^31 bytes.", "quantifier": "every list of nodes: any length, any i64/i32 field values, any Unicode strings, any tag lists, any grid coordinate up to +-2^45 grid steps", "why_tests_cant": "delta coding, string table indices and varints depend on the whole history of the block; extreme deltas wrap; tests see a few fixtures", "anchors": ["src/osm/pbf/dense_group_builder.rs:DenseGroupBuilder", "src/osm/pbf/osm_data.rs:OsmData::serialize,new,read_dense", "src/osm/pbf/generated/prost-osmpbf.rs"]}
{"id": "C02", "title": "Way blocks survive serialise/parse", "statement": "Serialising a data block of ways and parsing it back yields exactly the same ways, with node references and tags in order, provided timestamps are whole seconds and the block is smaller than 2^31 bytes.", "quantifier": "every list of ways, any refs (any i64 sequence incl. negative and extreme), tags, users, metadata", "why_tests_cant": "unbounded lists and full 64-bit deltas", "anchors": ["src/osm/pbf/ways_group_builder.rs:convert", "src/osm/pbf/osm_data.rs:read_ways,read_info"]}
{"id": "C03", "title": "Relation blocks survive serialise/parse", "statement": "Serialising a data block of relations and parsing it back yields exactly the same relations: members in order with type, id and role, tags in order and all metadata, provided timestamps are whole seconds and the block is smaller than 2^31 bytes.", "quantifier": "every list of relations, members of all three types, any ids and roles", "why_tests_cant": "unbounded nested lists, shared string table, 64-bit deltas", "anchors": ["src/osm/pbf/relations_group_builder.rs:convert", "src/osm/pbf/osm_data.rs:read_relations"]}
{"id": "C04", "title": "Coordinates are quantised to the nearest 1e-7 degree and grid values are exact", "statement": "A coordinate written and read back is the double nearest to some multiple of 1e-7 degree lying within half a step (plus rounding slack below 1e-12 degree) of the original; a coordinate that already is the double nearest to a multiple of 1e-7 comes back bit-identical, despite three roundings of IEEE double arithmetic on the way.", "quantifier": "every finite double coordinate with |c| <= 360 degrees (grid exactness: every grid index up to 2^45)", "why_tests_cant": "2^64 doubles, rounding corner cases", "anchors": ["src/osm/pbf/dense_group_builder.rs:42-44,93-98", "src/osm/pbf/osm_data.rs:148-151"]}
{"id": "C05", "title": "Timestamps are truncated to whole seconds, nothing else", "statement": "A timestamp in milliseconds that is written and read back equals the original rounded toward zero to a multiple of 1000; in particular whole-second timestamps are unchanged, for nodes, ways and relations alike.", "quantifier": "every i64 timestamp (positive and negative)", "why_tests_cant": "2^64 values and sign corner cases", "anchors": ["src/osm/pbf/dense_group_builder.rs:50,102", "src/osm/pbf/ways_group_builder.rs:46", "src/osm/pbf/relations_group_builder.rs:66", "src/osm/pbf/osm_data.rs:117-118,212"]}
{"id": "C06", "title": "String table indices always denote the string that was added", "statement": "Every index handed out while building a block denotes, in the finished table, exactly the string for which it was handed out; equal strings share one index; index 0 is never handed out (it is the dense-node tag terminator); the table has no duplicate user entries.", "quantifier": "every sequence of added strings, including empty strings and repeats", "why_tests_cant": "history dependent: an index must remain valid after all later insertions", "anchors": ["src/osm/pbf/string_table_builder.rs:StringTableBuilder"]}
{"id": "C07", "title": "Protobuf wire encoding is lossless", "statement": "Encoding any OSM PBF message (Blob, BlobHeader, HeaderBlock, PrimitiveBlock with all nested messages) and decoding the bytes gives back the same message; varint and zigzag coding are inverse on all 64-bit and 32-bit values.", "quantifier": "every message value, every u64/i64/i32", "why_tests_cant": "unbounded nested structure and full integer ranges", "anchors": ["src/osm/pbf/generated/prost-osmpbf.rs"]}
{"id": "C08", "title": "File framing is lossless", "statement": "Iterating over the blobs of a file produced by appending (length, blob header, blob) frames yields exactly the written blobs, in order, with the right type, offset, length and consecutive indices from 0, and then ends.", "quantifier": "every sequence of blobs with any content below 2^31 bytes", "why_tests_cant": "offset arithmetic over unbounded files", "anchors": ["src/osm/pbf/blob_iterator.rs:next", "src/osm/pbf/writer.rs:write_blob"]}
{"id": "C09", "title": "A written file reads back as the same element stream", "statement": "Writing a header and then any type-ordered stream of elements with the sequential writer, closing it, opening the file with the reader and iterating gives exactly the written non-sentinel elements in order; this holds for uncompressed and zlib files.", "quantifier": "every type-ordered element sequence (grid coordinates, whole-second timestamps, blocks below 2^31 bytes), every non-empty header, both compression settings", "why_tests_cant": "whole pipeline over unbounded streams: block splits at any position, all type changes", "anchors": ["src/osm/pbf/writer.rs:Writer", "src/osm/pbf/reader.rs:Reader", "src/osm/pbf/element_iterator.rs"]}
{"id": "C10", "title": "A truncated file never yields wrong elements", "statement": "If a written file is cut at any byte offset (crash, disk full, partial copy), iteration over the prefix delivers a prefix of the original element stream and then either ends or fails; it never delivers a wrong, reordered or partial element. Exactly: all elements of the whole blocks before the cut are delivered; if the cut lies inside the size or the header of the next blob, iteration then ends as if the file were whole (the loss is silent), and if it lies inside the blob itself, it panics. A file cut inside its first block cannot be opened.", "quantifier": "every written file and every truncation offset", "why_tests_cant": "one cut point per byte; a crash can occur anywhere", "anchors": ["src/osm/pbf/blob_iterator.rs:next", "src/osm/pbf/file_block.rs:from_blob_desc", "src/osm/pbf/element_iterator.rs"]}
{"id": "C11", "title": "Writer blocks are homogeneous and hold at most 8000 elements", "statement": "Every data block the sequential writer emits contains elements of a single type and at most 8000 of them.", "quantifier": "every accepted sequence of write_element calls followed by close", "why_tests_cant": "block boundaries depend on the whole history", "anchors": ["src/osm/pbf/element_accumulator.rs:add"]}
{"id": "C12", "title": "The writer neither loses, duplicates nor reorders elements", "statement": "The concatenation of the data blocks emitted by write_element calls and close equals the sequence of non-sentinel elements passed in.", "quantifier": "every accepted call sequence of any length", "why_tests_cant": "unbounded histories", "anchors": ["src/osm/pbf/element_accumulator.rs:add,elements", "src/osm/pbf/writer.rs:write_element,close"]}
{"id": "C13", "title": "The writer accepts exactly node-way-relation ordered streams", "statement": "write_element fails (panics) exactly when an element's type is not allowed after the previous ones: the stream must be nodes, then ways, then relations. As implemented, a relation is accepted only after at least one way, so a sorted stream of nodes followed by relations is refused.", "quantifier": "every sequence of elements", "why_tests_cant": "all possible type sequences", "anchors": ["src/osm/pbf/element_accumulator.rs:27-92"]}
{"id": "C14", "title": "Sentinels never reach the file", "statement": "Passing Sentinel elements to the sequential writer has no effect: the emitted blocks are the same as without them; and a Sentinel inside a block is not serialised.", "quantifier": "every element sequence with sentinels inserted anywhere", "why_tests_cant": "all insertion positions", "anchors": ["src/osm/pbf/element_accumulator.rs:48,69,87", "src/osm/pbf/osm_data.rs:356"]}
{"id": "C15", "title": "File metadata survives writing and reading", "statement": "The file header read back equals the one written: required and optional features, writing program, source, replication timestamp, sequence number and base URL; the bounding box is preserved up to C16.", "quantifier": "every FileInfo with at least one field set, both compression settings", "why_tests_cant": "unbounded strings and lists", "anchors": ["src/osm/pbf/osm_header.rs:from_bytes,serialize", "src/osm/pbf/file_info.rs"]}
{"id": "C16", "title": "Header bounding box is preserved to within one nanodegree", "statement": "A bounding box side written to the header and read back differs from the original by less than 1.0001 nanodegree, and never grows in magnitude beyond rounding; because the code truncates instead of rounding, repeated read/write cycles are not idempotent.", "quantifier": "every bounding box within +-180 degrees (any double)", "why_tests_cant": "2^64 doubles; truncation after rounding", "anchors": ["src/osm/pbf/osm_header.rs:header_bbox,from_bytes"]}
{"id": "C17", "title": "A file is opened iff all its required features are supported", "statement": "Opening succeeds exactly when the first block parses as a header block and each required feature is one of OsmSchema-V0.6, DenseNodes, HistoricalInformation, Sort.Type_then_ID. It reports an error exactly when there is no first block, when that block is a data block, or when the header requires an unsupported feature (the missing features reported are exactly the unsupported ones). In the remaining case, a first block that does not parse, it panics.", "quantifier": "every byte string as a file; any list of required features (repeats, any order)", "why_tests_cant": "arbitrary feature lists", "anchors": ["src/osm/pbf/reader.rs:new,find_missing_features,verify_supported_features"]}
{"id": "C18", "title": "Sequential iteration delivers all blocks' elements in file order", "statement": "Element iteration yields the concatenation of the elements of the data blocks following the first block, in file order, skipping empty blocks, up to the first non-data block.", "quantifier": "every sequence of parsed blocks, including empty ones", "why_tests_cant": "unbounded block sequences", "anchors": ["src/osm/pbf/element_iterator.rs"]}
{"id": "C19", "title": "Parallel iteration delivers every element exactly once, for every schedule", "statement": "parallel_for_each calls the function on exactly the elements of all data blocks (as a multiset), each block's elements in order on one task, plus one Sentinel after each data block, whatever the number of tasks and however the scheduler interleaves them.", "quantifier": "every file, every number of tasks, every interleaving of the block tasks", "why_tests_cant": "exponentially many schedules", "anchors": ["src/osm/pbf/reader.rs:parallel_for_each", "src/osm/pbf/parallel_element_iteration_command.rs"]}
{"id": "C20", "title": "count_objects returns the exact numbers of nodes, ways and relations", "statement": "The counts equal the numbers of nodes, ways and relations in the file for every schedule of the concurrent counters.", "quantifier": "every file and every interleaving of atomic increments", "why_tests_cant": "schedule space", "anchors": ["src/osm/pbf/reader.rs:count_objects"]}
{"id": "C21", "title": "The computed bounding box is the tight one, for every schedule", "statement": "BoundingBoxCalculator returns the smallest box containing all node coordinates, independent of the order in which block tasks merge their results, when every block holds nodes first (as written by this library).", "quantifier": "every file with at least one node and every order of task completion", "why_tests_cant": "all merge orders", "anchors": ["src/osm/pbf/bounding_box_calculator.rs:calc", "src/osm/pbf/calc_bounding_box_command.rs:execute", "src/osm/pbf/osm_data.rs:recompute_bounding_box"]}
{"id": "C22", "title": "Bounding box merge is a join", "statement": "Merging points and boxes yields the least box containing both; it is commutative, associative and idempotent on boxes with left<=right and bottom<=top, so results do not depend on merge order.", "quantifier": "all boxes and points", "why_tests_cant": "infinite domain", "anchors": ["src/osm/model/bounding_box.rs:merge_point,merge_bounding_box,from_point"]}
{"id": "C23", "title": "Element ordering is a lawful total order by type, id, version", "statement": "On nodes, ways and relations the ordering is total, transitive, antisymmetric up to equality and consistent with ==: all nodes before ways before relations, then id, then version. With Sentinel involved it is not antisymmetric (both x<Sentinel and Sentinel<x). For all elements, Sentinels included, the comparison says equal exactly when == holds, == is an equivalence relation, and is_node, is_way, is_relation, is_sentinel and same_type tell the kind.", "quantifier": "all pairs and triples of elements", "why_tests_cant": "infinite domain; sort algorithms rely on it", "anchors": ["src/osm/model/element.rs:Ord::cmp,PartialEq"]}
{"id": "C24", "title": "Parallel writer puts blocks into the file in block order", "statement": "Whatever order the encoding threads finish in, the blobs are appended to the file in increasing block index, each exactly once, without gaps, and all are written when the pipeline is drained; at every moment the file is a prefix of the final sequence.", "quantifier": "every permutation of block completions", "why_tests_cant": "n! completion orders", "anchors": ["src/osm/pbf/parallel_writer.rs:WriteBlobCommand::execute"]}
{"id": "C25", "title": "Parallel writer loses and duplicates nothing", "statement": "If the ordering thread panics on no call, the concatenation of all blocks emitted by write_element/write_elements calls and close is a permutation of all elements submitted (sentinels included in the buffer but not serialised).", "quantifier": "every call sequence, buffer size and positive block size", "why_tests_cant": "unbounded histories", "anchors": ["src/osm/pbf/parallel_writer.rs:AddElementCommand,AddElementsCommand,flush_sorted_top,flush_all_sorted"]}
{"id": "C26", "title": "Parallel writer output is sorted when disorder is bounded", "statement": "With a positive block size and no Sentinels, the parallel writer accepts all calls and the blocks written are globally sorted by type, id, version exactly if no element arrives after an element greater than it has already been put into a block. This is so if the input is sorted, or if each element (written one by one) is preceded by at most element_ordering_buffer_size + 1 - file_block_size greater elements.", "quantifier": "every call sequence, buffer size and positive block size", "why_tests_cant": "all bounded permutations", "anchors": ["src/osm/pbf/parallel_writer.rs:flush_sorted_top,flush_all_sorted"]}
{"id": "C27", "title": "Loss of order is detected", "statement": "The ordering thread panics while executing a write_element or write_elements call exactly if the call brings an element smaller than the first element of the last flushed block (or any element when that block starts with a Sentinel). As implemented the check is only against the first element of that block, so an element that falls inside the last flushed block is accepted and the output is silently out of order.", "quantifier": "every call sequence", "why_tests_cant": "needs adversarial arrival orders", "anchors": ["src/osm/pbf/parallel_writer.rs:assert_order,set_current_min_element"]}
{"id": "C28", "title": "Thread-local accumulation loses nothing under any interleaving", "statement": "With every task adding elements to a ThreadLocalAccumulator and draining it when it sees the block's Sentinel, each element is handed to the writer exactly once, for every assignment of blocks to threads and every interleaving.", "quantifier": "every number of threads, assignment and interleaving", "why_tests_cant": "schedule space", "anchors": ["src/osm/pbf/thread_local_accumulator.rs:add,elements", "examples/parallel-pbf-io.rs"]}
{"id": "C29", "title": "Re-encoding is idempotent", "statement": "Parsing a serialised block and serialising it again gives the identical bytes, even when the original coordinates and timestamps were not on the grid.", "quantifier": "every list of same-type elements with |coordinate| <= 360 degrees", "why_tests_cant": "infinite domain", "anchors": ["src/osm/pbf/osm_data.rs:serialize,new"]}
{"id": "C30", "title": "Missing metadata decodes to documented defaults", "statement": "An element without metadata decodes with version 0, changeset -1, uid -1, empty user, visible; missing visible flags mean visible; missing granularity and offsets mean 100, 1000 and 0.", "quantifier": "every primitive block lacking optional parts", "why_tests_cant": "all combinations of absent optional fields", "anchors": ["src/osm/pbf/osm_data.rs:read_info,read_dense", "src/osm/pbf/generated/prost-osmpbf.rs:PrimitiveBlock"]}
{"id": "C31", "title": "Unsupported blobs are refused, never misread", "statement": "A blob with lzma, bzip2, lz4 or zstd data, without data, or with a block type other than OSMHeader/OSMData is reported as an error and produces no elements; so is a blob that breaks off anywhere but between two fields, or that holds a block that does. A block with changesets never yields elements. The blocks before it are delivered first.", "quantifier": "every blob and block type string", "why_tests_cant": "arbitrary strings and contents", "anchors": ["src/osm/pbf/file_block.rs:read_blob_data,new"]}
{"id": "C32", "title": "Blob iteration terminates on every file with non-negative sizes", "statement": "Iteration over any byte string whose blob headers carry non-negative sizes ends after at most length/4 blobs with strictly increasing offsets. With a negative size the iterator can seek backwards and iterate forever.", "quantifier": "every byte string (also garbage)", "why_tests_cant": "arbitrary malformed input; nontermination is not testable", "anchors": ["src/osm/pbf/blob_iterator.rs:next"]}
{"id": "C33", "title": "close is idempotent", "statement": "Calling close again after close writes nothing more to the file.", "quantifier": "every prior call history", "why_tests_cant": "all histories", "anchors": ["src/osm/pbf/writer.rs:close"]}
{"id": "C34", "title": "Parallel writer and sequential reader agree end to end", "statement": "A sorted element stream written through the parallel writer pipeline (any buffer size, any positive block size, any encoder completion order) and read back sequentially yields exactly the same stream.", "quantifier": "every sorted stream, buffer size, block size >= 1, completion order", "why_tests_cant": "pipeline times schedules", "anchors": ["src/osm/pbf/parallel_writer.rs", "src/osm/pbf/reader.rs"]}
{"id": "C35", "title": "Parallel writer blocks are homogeneous and bounded", "statement": "Each block the parallel writer emits holds at least one and at most file_block_size elements of one type; flushing terminates for every positive block size (for block size 0 the close never terminates).", "quantifier": "every buffer content and block size", "why_tests_cant": "all buffers; nontermination", "anchors": ["src/osm/pbf/parallel_writer.rs:split_file_block,flush_all_sorted"]}
{"id": "C36", "title": "Parallel writer buffering is bounded under write_element", "statement": "While only write_element is used and the block size is positive, the ordering buffer never holds more than element_ordering_buffer_size elements after a call.", "quantifier": "every call sequence", "why_tests_cant": "unbounded histories", "anchors": ["src/osm/pbf/parallel_writer.rs:AddElementCommand::execute"]}
{"id": "C37", "title": "A data block stores one element type only", "statement": "Serialising a list that mixes types keeps exactly the nodes if there is any node, otherwise exactly the ways if there is any way, otherwise the relations; other elements are silently dropped. Hence write_elements is faithful exactly on homogeneous lists.", "quantifier": "every element list", "why_tests_cant": "all mixtures", "anchors": ["src/osm/pbf/osm_data.rs:359-366", "src/osm/pbf/writer.rs:write_elements"]}
{"id": "C38", "title": "Decoding never invents strings", "statement": "Every tag key, tag value, user name and member role of a decoded block is an entry of that block's string table, or the empty default user.", "quantifier": "every primitive block, also malformed ones", "why_tests_cant": "arbitrary input", "anchors": ["src/osm/pbf/osm_data.rs:new"]}
{"id": "C39", "title": "Header flags written by Writer::new match the request", "statement": "Writer::new yields a file whose required features contain HistoricalInformation exactly when contains_history is set and which this library's reader accepts.", "quantifier": "all arguments", "why_tests_cant": "all strings/options", "anchors": ["src/osm/pbf/writer.rs:new", "src/osm/pbf/reader.rs:new"]}
{"id": "C40", "title": "Tile numbers are the bit interleaving of grid cell coordinates", "statement": "calculate_tile of a valid coordinate is below 2^32; two points get the same tile exactly when they fall in the same cell of the 65536x65536 grid; bit 2i of the tile is bit i of the y cell and bit 2i+1 bit i of the x cell.", "quantifier": "every coordinate in range", "why_tests_cant": "2^32 cells", "anchors": ["src/osm/apidb_dump/sql.rs:calculate_tile"]}
{"id": "C41", "title": "current_* tables hold the last visible version of each object", "statement": "After writing an id/version-ordered history and closing, the current table of nodes (ways, relations) has exactly one row for each object whose last version is visible, the row of that version, and none for deleted objects.", "quantifier": "every ordered history", "why_tests_cant": "histories of any length with any visibility pattern", "anchors": ["src/osm/apidb_dump/write/current_object.rs", "src/osm/apidb_dump/write/writer.rs:write_node,write_way,write_relation,flush_current_object_lines"]}
{"id": "C42", "title": "History tables hold every written version exactly once", "statement": "Each node, way and relation version written produces exactly one row in the history table, one row for each tag, way node and member with consecutive sequence ids starting at 1, in order.", "quantifier": "every element sequence", "why_tests_cant": "unbounded histories", "anchors": ["src/osm/apidb_dump/write/writer.rs:write_node,write_way,write_relation"]}
{"id": "C43", "title": "The merge join attaches to each object version exactly its own tags, nodes and members", "statement": "Reading sorted tables, each record gets exactly the child rows with the same id and version, in table order, provided both tables are sorted by (id, version) and each child row has a parent.", "quantifier": "all sorted tables satisfying the foreign key", "why_tests_cant": "unbounded tables", "anchors": ["src/osm/apidb_dump/read/node_relations_reader.rs", "src/osm/apidb_dump/read/way_relations_reader.rs", "src/osm/apidb_dump/read/relation_relations_reader.rs"]}
{"id": "C44", "title": "Users and changesets are resolved to the right user", "statement": "Each element read from a dump carries the uid and display name of the user owning its changeset; a missing changeset or user is a failure, never a wrong user.", "quantifier": "all tables", "why_tests_cant": "arbitrary table contents", "anchors": ["src/osm/apidb_dump/read/element_iterator.rs"]}
{"id": "C45", "title": "Dump element iteration is ordered nodes, ways, relations with a Sentinel after each type", "statement": "The element iterator yields all nodes, a Sentinel, all ways, a Sentinel, all relations, a Sentinel and then ends; and it stays ended. If one of the ten tables is missing it cannot be created: an error, or a panic for users and changesets.", "quantifier": "all tables", "why_tests_cant": "unbounded tables", "anchors": ["src/osm/apidb_dump/read/element_iterator.rs"]}
{"id": "C46", "title": "Relation members survive a dump; their order survives exactly when sorted", "statement": "Every member of a relation written to a dump is read back with its type, id and role, as many times as it was written. The members come back in the order written if and only if they were written in ascending order of type, id, role: a relation with members node 5, node 3 comes back with members node 3, node 5, because the reader sorts by type, id and role before sequence_id.", "quantifier": "all sequences of elements, all relations among them, all member lists, every order of strings used by the sort", "why_tests_cant": "needs particular member patterns", "anchors": ["src/osm/apidb_dump/read/table_pkey.rs", "src/osm/apidb_dump/read/reader.rs:sort_tables", "src/osm/apidb_dump/read/relation_relations_reader.rs"]}
{"id": "C47", "title": "SQL value conversions are inverse", "statement": "Booleans and timestamps written to a dump parse back to the same value (timestamps up to the written precision).", "quantifier": "all booleans, all in-range timestamps", "why_tests_cant": "infinite domain", "anchors": ["src/osm/apidb_dump/sql.rs"]}
{"id": "C48", "title": "Bounding box parsing", "statement": "BoundingBox::from_str succeeds exactly on strings with at least four comma separated parts of which the first four parse as numbers, the first and third within +-180 and the second and fourth within +-90; it assigns them to left, bottom, right, top in that order and ignores further parts.", "quantifier": "every string", "why_tests_cant": "all strings", "anchors": ["src/osm/model/bounding_box.rs:FromStr"]}
{"id": "C49", "title": "Column order in a dump is irrelevant", "statement": "A table is interpreted by column names: permuting the columns of a table definition together with the columns of each row changes neither whether the table is accepted, nor the record made of a row, nor the order of rows, nor the elements iteration yields.", "quantifier": "all permutations of columns", "why_tests_cant": "n! permutations", "anchors": ["src/osm/apidb_dump/read/table_fields.rs", "src/osm/apidb_dump/read/table_reader.rs"]}
{"id": "C50", "title": "Table files are terminated exactly once", "statement": "Each table file of a written and once closed dump consists of its rows, one line each in the order of writing, followed by exactly one end marker line, which is what the table reader needs to stop; no row is empty or starts like an end marker; tables without map data hold the end marker only. (Every call of close appends a marker, so a second close breaks this.)", "quantifier": "all write sequences", "why_tests_cant": "all histories", "anchors": ["src/osm/apidb_dump/write/table_data_writer.rs", "src/osm/apidb_dump/write/table_data_writers.rs:close", "src/osm/apidb_dump/read/table_reader.rs:TableIterator::next"]}
{"id": "C51", "title": "The documented parallel filter pipeline loses and duplicates nothing", "statement": "Reading a file with parallel_for_each, collecting the kept elements in a ThreadLocalAccumulator, passing each batch to ParallelWriter::write_elements and closing: if no call panics, the new file consists of the header and homogeneous blocks of bounded size that hold exactly the kept elements of the old file, each as often as before, whatever the schedules of reading and encoding threads.", "quantifier": "every file, filter, number of threads, schedule, buffer size and positive block size", "why_tests_cant": "The interleavings of three thread pools cannot be enumerated by tests.", "anchors": ["src/osm/pbf/reader.rs: Reader::parallel_for_each", "src/osm/pbf/thread_local_accumulator.rs: ThreadLocalAccumulator", "src/osm/pbf/parallel_writer.rs: ParallelWriter", "examples/parallel-pbf-io.rs"]}
{"id": "C52", "title": "Users and changesets of a dump", "statement": "A written dump lists each user id and each changeset id occurring on an element exactly once, in ascending order, with the user name (the changeset's user id) carried by the last element written for it, and two tags for each changeset.", "quantifier": "every element sequence", "why_tests_cant": "histories of any length, any pattern of renames", "anchors": ["src/osm/apidb_dump/write/writer.rs:write_users", "src/osm/apidb_dump/write/writer.rs:write_changesets", "src/osm/apidb_dump/write/table_data_writers.rs:flush_buffers"]}
{"id": "C53", "title": "An apidb dump reads back as the elements written", "statement": "Writing elements to a dump, closing it, sorting its tables and iterating over it yields all nodes, a sentinel, all ways, a sentinel, all relations, a sentinel, then nothing. Each object written comes back exactly once, in ascending order of id and version, with id, version, changeset, visibility and way references unchanged, coordinates rounded to 1e-7 degree, timestamp rounded down to the second, tags permuted into key order, and the user id and name last written for its changeset. Elements that need no rounding and whose tags, members and user names are ordered and consistent come back identical.", "quantifier": "all sequences of elements (in any order) whose (id, version) pairs are distinct per type, whose coordinates are degrees and whose user names contain no tab or newline", "why_tests_cant": "unbounded histories, any text in tags and roles, any order of writing", "anchors": ["src/osm/apidb_dump/write/writer.rs", "src/osm/apidb_dump/read/element_iterator.rs", "src/osm/apidb_dump/read/table_reader.rs", "src/osm/apidb_dump/read/table_pkey.rs"]}
{"id": "C54", "title": "The table of contents of a dump is read completely", "statement": "Opening a dump finds every COPY statement of its table of contents, in order, together with the data file named after it; it registers each table of interest with the positions of its columns and its data file and ignores statements about other tables. A required column that is missing is an error.", "quantifier": "all tables of contents made of COPY statements with arbitrary bytes between them that do not themselves contain the marks looked for", "why_tests_cant": "arbitrary binary data between the statements, any number and order of statements and columns", "anchors": ["src/osm/apidb_dump/read/reader.rs:get_table_def_strings", "src/osm/apidb_dump/read/reader.rs:new", "src/osm/apidb_dump/read/table_def.rs", "src/osm/apidb_dump/read/table_fields.rs"]}
{"id": "C55", "title": "Blocks written by other programs are read as the published format says", "statement": "If the published OSM PBF documentation assigns a list of elements to a data block (string table indices, delta coding, granularity and date granularity, latitude and longitude offsets, plain and dense nodes, optional visible column, any number of groups), then reading the block yields exactly these elements in this order.", "quantifier": "all primitive block messages that have a published meaning, by whatever program they were written", "why_tests_cant": "other programs choose units, offsets, string table layout, grouping and optional columns freely", "anchors": ["src/osm/pbf/osm_data.rs:OsmData::new", "src/osm/pbf/osm_data.rs:read_dense", "src/osm/pbf/osm_data.rs:read_ways", "src/osm/pbf/osm_data.rs:read_relations"]}
{"id": "C56", "title": "Written blocks say what was written by the published format", "statement": "The block written for elements of one kind means, by the published OSM PBF documentation (not merely by this library's own reader), a list of elements equal to those written up to the rounding of coordinates to 1e-7 degree and timestamps to seconds; when nothing needs rounding it means exactly the elements written. The units used are the documented defaults.", "quantifier": "all lists of nodes, of ways or of relations in coordinate range whose differences do not overflow and whose encoding is below 2 GiB", "why_tests_cant": "a round trip through the same library cannot detect an encoding that only it understands", "anchors": ["src/osm/pbf/osm_data.rs:OsmData::serialize", "src/osm/pbf/string_table_builder.rs", "src/osm/pbf/dense_group_builder.rs", "src/osm/pbf/ways_group_builder.rs"]}
{"id": "C57", "title": "Written files are files of the published format", "statement": "A file written element by element and closed is, by the published OSM PBF documentation alone (frames with four byte network order lengths, BlobHeader and Blob messages, protobuf wire format, zlib or raw data), a file with the given header metadata whose data blocks hold, in order, the elements written up to the documented rounding; every block holds at most 8000 elements of one kind.", "quantifier": "all metadata that is not empty with boxes in degrees, all accepted element streams in range, both compressions", "why_tests_cant": "other programs must read the file; a round trip through the same library cannot show that", "anchors": ["src/osm/pbf/writer.rs", "src/osm/pbf/file_block.rs:FileBlock::serialize", "src/osm/pbf/osm_header.rs:OsmHeader::serialize", "src/osm/pbf/osm_data.rs:OsmData::serialize", "src/osm/pbf/generated/prost-osmpbf.rs"]}
{"id": "C58", "title": "Files of the published format are read", "statement": "Whatever program wrote it, a file that by the published documentation has a header and data blocks is opened with that metadata (if its required features are supported), and iterating over it delivers exactly the elements of its blocks in order and ends. This holds for every encoding the protobuf wire format allows: fields in any order, unknown fields (groups too), lists packed, unpacked or split, repeated singular fields, numbers in more bytes than needed.", "quantifier": "all byte strings that are files of the published format (blocks raw or zlib)", "why_tests_cant": "each message has infinitely many encodings and other programs use different ones", "anchors": ["src/osm/pbf/reader.rs", "src/osm/pbf/blob_iterator.rs", "src/osm/pbf/file_block.rs", "src/osm/pbf/element_iterator.rs", "src/osm/pbf/generated/prost-osmpbf.rs"]}
{"id": "C59", "title": "A crash while writing sequentially loses only the tail", "statement": "The sequential writer only ever appends to its file. If the program dies at any moment after some elements have been written, without close, and whatever bytes end up behind what was written, reading the file delivers, before anything else, all elements written except at most the last 7999, unchanged and in order.", "quantifier": "all streams of elements needing no rounding, all crash points between calls, all trailing bytes", "why_tests_cant": "crash points and trailing garbage are unbounded", "anchors": ["src/osm/pbf/writer.rs:Writer::write_element", "src/osm/pbf/element_accumulator.rs", "src/osm/pbf/reader.rs"]}
{"id": "C60", "title": "A crash while writing in parallel leaves a readable beginning", "statement": "With the parallel writer, at every moment of every schedule and for every cut of the file, what can be read is a beginning of the (sorted) elements, whole and in order, and reading ends cleanly or with a panic, never with wrong elements; blocks once written stay whatever is appended; the file only grows.", "quantifier": "all schedules of the encoding threads, all moments, all cut positions, all trailing bytes", "why_tests_cant": "schedules and crash points cannot be enumerated", "anchors": ["src/osm/pbf/parallel_writer.rs", "src/osm/pbf/writer.rs:Writer::write_blob", "src/osm/pbf/reader.rs"]}
{"id": "C61", "title": "Copying and filtering a file", "statement": "The copy program (read, keep elements by a predicate, write with the same metadata and a new program name) ends on every input. On a file of the published format whose kept elements are nodes, then ways, then relations (with a way before the first relation) it produces a file of the published format that holds exactly the kept elements in the same order (rounded; unchanged when nothing needs rounding) in blocks of one kind of at most 8000. Otherwise, for instance when all ways are dropped but relations kept, it panics; so it does when a block is damaged. A file that requires an unsupported feature gives an error.", "quantifier": "all published files, all predicates, both compressions", "why_tests_cant": "the property relates two unbounded files through an arbitrary predicate", "anchors": ["examples/pbf-io.rs", "src/osm/pbf/writer.rs:Writer::from_file_info", "src/osm/pbf/reader.rs"]}
{"id": "C62", "title": "Converting a file into a dump", "statement": "The conversion ends on every input. A file of the published format becomes a dump of exactly its elements if every timestamp can be represented by the calendar library, and panics if one cannot. A file that requires an unsupported feature gives an error.", "quantifier": "all published files, all clocks in range", "why_tests_cant": "unbounded inputs and timestamps", "anchors": ["examples/pbf-to-apidb.rs", "src/osm/apidb_dump/write/writer.rs"]}
{"id": "C63", "title": "Converting a dump into a file, and there and back", "statement": "The conversion of a dump ends on every input. A well-formed dump whose changesets have owners, with a way or without relations, becomes a file that reads back as all its nodes, ways and relations in key order, unchanged but for timestamps truncated to seconds; a dump with relations but no ways, or with an object whose changeset has no owner, makes it panic; a missing table gives an error, or a panic for users and changesets. Converting a published file into a dump and back gives a file that reads back exactly as the elements the dump returns.", "quantifier": "all dumps, all sorted copies, all published files", "why_tests_cant": "two unbounded conversions composed, any sort order", "anchors": ["examples/apidb-to-pbf.rs", "examples/pbf-to-apidb.rs", "src/osm/apidb_dump/read/element_iterator.rs", "src/osm/pbf/writer.rs"]}
{"id": "C64", "title": "The directory of a dump", "statement": "The directory that the dump writer fills holds the table of contents embedded in the crate and one data file per table, whatever was in the directory before; no two tables share a file, and each file is the one that the table of contents names for the table of that name. The dump reader, run on the directory of any dump, accepts that table of contents, finds the ten tables it needs with the right columns and files, and returns what was written (as in C53). So pbf-to-apidb followed by apidb-to-pbf on the directory it left gives a file with the elements that come back from the dump.", "quantifier": "all previous contents of the directory, all dumps, all sorted copies", "why_tests_cant": "the agreement must hold for all 53 tables and all data; a wrong file name shows up only as rows of another table", "anchors": ["src/osm/apidb_dump/write/toc.rs", "src/osm/apidb_dump/write/toc/toc.dat", "src/osm/apidb_dump/write/toc/mapping.json", "src/osm/apidb_dump/write/table_data_writers.rs:TableDataWriters::new", "src/osm/apidb_dump/read/reader.rs:Reader::new", "examples/pbf-to-apidb.rs", "examples/apidb-to-pbf.rs"]}
{"id": "C65", "title": "A dump can be restored, each value in its column", "statement": "Restoring a dump directory by its table of contents (each data file up to its end marker, one value per column of the COPY statement) succeeds for every listed table, whatever elements were written in whatever order, and stores: every version of every node, way and relation with its tags, way nodes and members in the history tables; the last version of each visible object in the current tables when the ids do not decrease; each user and changeset once; nothing in the other tables. Each value is under the name of its column.", "quantifier": "all element sequences, all 53 tables", "why_tests_cant": "ranges over all rows of all tables; two swapped columns of the same type go unnoticed by any row count", "anchors": ["src/osm/apidb_dump/write/writer.rs", "src/osm/apidb_dump/write/toc/toc.dat", "src/osm/apidb_dump/write/table_data_writer.rs"]}
{"id": "C66", "title": "Times in a dump follow the calendar", "statement": "A time of the years 0 to 9999 is written to a dump as the date and time of day (UTC) of the Gregorian calendar, found by counting days one by one from 1 January 1970, with six digits of fraction where microseconds are written; the text of a time, with or without a fraction of up to nine digits, is read as exactly that time. Each day number is one date and each date has one day number.", "quantifier": "all millisecond and microsecond timestamps of the years 0 to 9999, before and after 1970, all texts of times", "why_tests_cant": "calendar rules have exceptions (centuries, 400 years, negative times) that samples miss", "anchors": ["src/osm/apidb_dump/sql.rs:to_sql_time_millis", "src/osm/apidb_dump/sql.rs:to_sql_time_micros", "src/osm/apidb_dump/sql.rs:parse_sql_time"]}
{"id": "C67", "title": "A dump is read by column names", "statement": "Whatever the order of the columns of a table, and whatever further columns it has, a line stands for the record whose id, version, coordinates, time, visibility, redaction, tags, node references, members (kinds written short or long) and owner are the values under those column names; the iterator yields exactly the elements those records describe. A line whose value under such a name is missing or is not a number, boolean or member kind is not accepted.", "quantifier": "all column orders, all lines, all dumps with consistent keys", "why_tests_cant": "ranges over all column orders and all cell texts (signs, leading zeros, fractions)", "anchors": ["src/osm/apidb_dump/read/table_reader.rs", "src/osm/apidb_dump/read/table_fields.rs", "src/osm/apidb_dump/read/relation_member_record.rs", "src/osm/apidb_dump/read/element_iterator.rs"]}
{"id": "C68", "title": "The parallel writer never deadlocks, and close returns only when the file is complete", "statement": "A program that calls write_header, then write_element and write_elements any number of times (and write_header again as often as it likes), then close: however the calling thread, the ordering thread, the encoding threads and the writing thread are scheduled, with bounded queues between them and the locks close holds, some thread can always go on until close returns, no schedule goes on for ever, and when close returns the file consists of the header once and all blocks made from the elements, in order. At every earlier moment the file is a beginning of that. If an element arrives that belongs before the last block, or if write_header was never called and an element was written, close does not return normally: a thread panics.", "quantifier": "all programs, all schedules, all queue lengths and numbers of encoding threads from 1, all buffer sizes and positive block sizes", "why_tests_cant": "a test sees one schedule; deadlock and lost tails depend on the interleaving of the pools with the joins of close", "anchors": ["src/osm/pbf/parallel_writer.rs: ParallelWriter::close, write_header, write_element, write_elements, flush_all_sorted, EncodeFileBlockCommand, WriteBlobCommand"]}
{"id": "C69", "title": "parallel_for_each when calls fail", "statement": "At every moment of parallel_for_each, whichever calls of the user function fail, whichever blobs cannot be read and however the threads are scheduled: the calls made for a data block are its elements and then a Sentinel, in file order, up to some point, all on the same thread, and only the last of them can have failed; for other blobs no call is made; the state shared by the calls is the result of the calls one after the other. When it returns, for each data block either all calls were made and succeeded, or the last one failed; if none failed, every element was passed exactly once. No schedule goes on for ever, and as long as no thread has died some thread or the caller can go on, with a bounded queue of any length.", "quantifier": "all files, all user functions (failing depending on thread, element and shared state), all schedules, all numbers of tasks and queue lengths from 1", "why_tests_cant": "ranges over all schedules and all patterns of failure", "anchors": ["src/osm/pbf/reader.rs: Reader::parallel_for_each", "src/osm/pbf/parallel_element_iteration_command.rs: ParallelElementIterationCommand::execute"]}
{"id": "C70", "title": "The parallel copy program, all its threads together", "statement": "parallel-pbf-io: threads reading a file each collect the elements they keep and, at the end of each block, hand them to a shared parallel writer, whose ordering, encoding and writing threads run at the same time. However all these threads are scheduled: some thread can always go on until the program ends or the writer panics, no schedule goes on for ever, and when the program ends the new file holds exactly the elements kept, each once, in blocks of one type and bounded size. If the kept elements are strictly ascending in the old file and the ordering buffer has room for all of them, the writer never panics and the new file is the same, byte for byte, for every schedule and every number of reading threads: the elements in the old order, in blocks as full as possible; a reader of it gets exactly the kept elements. With a smaller buffer it depends on the schedule whether the program ends or panics.", "quantifier": "all files that can be read, all filters, all schedules of all threads, all queue lengths and numbers of threads from 1, all buffer and positive block sizes", "why_tests_cant": "a test sees one schedule; deadlock between the bounded queues, lost batches and the dependence on the schedule show up only over all interleavings", "anchors": ["examples/parallel-pbf-io.rs: main", "src/osm/pbf/reader.rs: Reader::parallel_for_each", "src/osm/pbf/thread_local_accumulator.rs: ThreadLocalAccumulator", "src/osm/pbf/parallel_writer.rs: ParallelWriter"]}
{"id": "C71", "title": "Times for people", "statement": "timestamp_to_iso8601_seconds turns every time of the years 0 to 9999, in microseconds since 1970, into the text YYYY-MM-DDTHH:MM:SSZ of exactly that date and time of day of the Gregorian calendar, rounded down to a second; texts compare as the times do; it succeeds exactly for the years -262143 to 262142, returns an error for other values and never panics. pbf-info prints the replication timestamp of a header (seconds) as the text of that time; the times in dumps are the same text with a space for the T and without the Z.", "quantifier": "all 64-bit timestamps", "why_tests_cant": "2^64 inputs; leap years, centuries, times before 1970 and the ends of the range each have their own cases", "anchors": ["src/osm/converters/mod.rs: timestamp_to_iso8601_seconds", "examples/pbf-info.rs: main", "src/osm/apidb_dump/sql.rs: to_sql_time_millis"]}
{"id": "C72", "title": "The counting programs", "statement": "On every file that follows the published format, count-pbf-elements reports the numbers of nodes, ways and relations and, for each kind, the number of its tags with the key tourism; parallel-count-pbf-elements reports the same numbers of nodes, ways and relations for every number of threads and every schedule. A file with an unsupported required feature makes both end with an error. If a block is damaged, count-pbf-elements panics and reports nothing.", "quantifier": "all published files, also of other programs, all schedules, all numbers of threads from 1", "why_tests_cant": "ranges over all files and all interleavings of the counting threads", "anchors": ["examples/count-pbf-elements.rs: main", "examples/parallel-count-pbf-elements.rs: main", "src/osm/pbf/reader.rs: Reader::elements, Reader::parallel_for_each"]}
{"id": "C73", "title": "A dump into a file through the parallel writer", "statement": "A program that reads a dump and passes every element it gets, including the Sentinels after each type, to write_element of a parallel writer: whenever close returns, the file holds exactly the elements of the dump, each once, in blocks of one type and bounded size, and a reader of it gets each of them once (timestamps truncated to seconds, in some order). If the ordering buffer has room for all elements and three Sentinels, no thread panics and the program always reaches its end. With a smaller buffer it need not: Sentinels are not in the order of elements, and if sorting puts one first, a dump with more ways or more relations than the buffer holds always makes the writer panic.", "quantifier": "all dumps whose tables can be read and joined, all schedules of the writer's threads, all queue lengths and thread numbers from 1, all buffer and positive block sizes", "why_tests_cant": "the test uses one dump, a buffer larger than it and one schedule", "anchors": ["tests/test_apidb_dump_reader_parallel_pbf_writer_pipe.rs", "src/osm/apidb_dump/read/element_iterator.rs: ElementIterator", "src/osm/pbf/parallel_writer.rs: ParallelWriter::write_element, assert_order", "src/osm/model/element.rs: Ord for Element"]}
{"id": "C74", "title": "A damaged line of a dump is never turned into data", "statement": "A line of a table that lacks one of the columns the table is declared with, or has a value of the wrong form in one of them (not an integer of the size of the field, not t or f, an unknown member type, user status or format), makes the reader panic; no record with invented values is made of it. A dump with such a line in users or changesets cannot be opened for reading; with such a line in nodes, ways or relations, iteration panics after some elements and never ends normally; and apidb-to-pbf on it panics rather than report success.", "quantifier": "all lines, all orders of columns, all tables, all contents of the rest of the dump", "why_tests_cant": "the dump of the tests is well formed", "anchors": ["src/osm/apidb_dump/read/table_reader.rs: create_node .. create_user", "src/osm/apidb_dump/read/element_iterator.rs: index_users, index_changesets, next", "examples/apidb-to-pbf.rs"]}
{"id": "C75", "title": "Any sequence of calls on a sequential writer", "statement": "Whatever sequence of write_header, write_file_block, write_element, write_elements and close is called on a writer, ending with close: the file holds the blocks given as such (the header, the file blocks, one block for each list of elements) in the order of their calls, and the elements given one by one, without Sentinels, in the order of theirs, in blocks of one type of at most 8000; nothing is lost, added or duplicated, and closing more than once adds nothing. The two kinds are merged: a block overtakes the elements still buffered, always fewer than 8000, so that the order of the file is not the order of the calls. Whether a sequence is accepted depends only on the types of the elements given one by one; a sequence not accepted panics. Reading the file back gives these elements in the order of the file. Copying a file block by block is always accepted and gives a file with the same elements in the same order.", "quantifier": "all sequences of calls, all elements and blocks, both compressions", "why_tests_cant": "tests make one kind of call per writer; the interplay of buffered elements and written blocks needs every interleaving", "anchors": ["src/osm/pbf/writer.rs: write_header, write_file_block, write_element, write_elements, close", "src/osm/pbf/element_accumulator.rs: add, elements"]}
{"id": "C76", "title": "pbf-info prints the metadata of the file", "statement": "On a file whose header is as published, with supported required features and a replication timestamp (if any) of the years 0 to 9999, pbf-info prints, for each label, exactly the values of the header in their order: path, bounding box or None, required and optional features, writing program, source, replication timestamp as an ISO 8601 text, sequence number, base URL, and the answers to its three feature queries; it prints no other lines, and succeeds exactly if the three features it asserts are present (it panics otherwise). A timestamp that is no date gives an error after the lines before it. A file that cannot be opened gives no lines, and an error (unsupported features) or a panic (damaged header). Compiled with overflow checks it does the same, except that it panics where the timestamp in microseconds does not fit 64 bits; without, such a timestamp is printed as the time it stands for modulo 2^64 microseconds (stated as it holds).", "quantifier": "all published headers, all file contents after the header, all paths", "why_tests_cant": "the example is run on one file", "anchors": ["examples/pbf-info.rs", "src/osm/pbf/file_info.rs: FileInfo::required, FileInfo::optional", "src/osm/model/bounding_box.rs: Display for BoundingBox", "src/osm/converters/mod.rs: timestamp_to_iso8601_seconds"]}
{"id": "C77", "title": "Which rows an element of any dump gets", "statement": "Whatever the order of the rows of a dump, with orphan rows, missing parts or duplicate objects, reading deals the rows of node_tags, way_tags, way_nodes, relation_tags and relation_members out to the objects in the order of the tables: an element only ever gets rows with its own id and version, no row is given to two elements, the rows keep their order, and an object takes as many of the next rows as it can. A row that belongs to no object loses that row and all rows after it in its table. No row is lost exactly when the table can be cut into one piece of own rows for each object, in the order of the objects.", "quantifier": "all dumps with readable rows whose objects have owners, in any order of columns and rows", "why_tests_cant": "the dump of the tests is sorted and complete; the joins must not mix up rows for any contents", "anchors": ["src/osm/apidb_dump/read/node_relations_reader.rs: NodeRelationsIterator::next", "src/osm/apidb_dump/read/way_relations_reader.rs: WayRelationsIterator::next", "src/osm/apidb_dump/read/relation_relations_reader.rs: RelationRelationsIterator::next", "src/osm/apidb_dump/read/element_iterator.rs: next"]}
{"id": "C78", "title": "I/O errors in writing a pbf file", "statement": "On a device whose writes may fail at any point after any number of bytes: a call on the sequential writer returns an error exactly if one of the writes it made failed, so an error is never hidden by a later call; if no call returned an error or panicked, the file is byte for byte the one written to a device without errors; without I/O errors no accepted call returns an error. At the first error the file holds everything the earlier calls had written plus a beginning of what the failing call writes, and it reads as a beginning of the elements of the complete file. The elements of a block whose write failed are not kept: calling close again after a failed close returns success and writes nothing (stated as it holds).", "quantifier": "all sequences of calls, all elements, all patterns of failing writes (which write fails, after how many bytes)", "why_tests_cant": "tests write to a working disk; the property ranges over every point at which the disk may fill up", "anchors": ["src/osm/pbf/writer.rs: Writer::write_blob, Writer::write_element, Writer::write_elements, Writer::close", "src/osm/pbf/element_accumulator.rs"]}
{"id": "C79", "title": "I/O errors in writing a dump", "statement": "On a device whose writes may fail at any point: if all calls on the apidb writer including close succeed, every table file is complete, so that the directory is the one written to a device without errors; before close each table file lags behind what was written to it by at most 8192 bytes; after the first error, and also when the writer is dropped, each file holds a beginning of what was written to its table. Without close, success of the writes means nothing: all of them may succeed while no byte reaches the file and the error is lost (stated as it holds).", "quantifier": "all dumps, all cuttings of the rows into writes in any order among the tables, all patterns of failing writes", "why_tests_cant": "tests write to a working disk; the property ranges over every point at which the disk may fill up", "anchors": ["src/osm/apidb_dump/write/table_data_writer.rs: TableDataWriter::close", "src/osm/apidb_dump/write/table_data_writers.rs: TableDataWriters::close", "src/osm/apidb_dump/write/writer.rs: Writer::close"]}
{"id": "C80", "title": "I/O errors in reading a file", "statement": "Whatever operations fail while a PBF file is read: the elements handed out by elements() are a beginning of the elements of the file, in their order, and the calls of parallel_for_each are for elements of the file, each at most once; opening a reader gives the file's metadata, an error or a panic, never other metadata. If reading the body of a block fails, the iteration panics after exactly the elements of the blocks before it. If reading a frame header fails, this cannot be told from the end of the file: elements() ends, and parallel_for_each returns Ok, after exactly the blocks before it (stated as it holds).", "quantifier": "all files, all patterns of failing seek, read and open operations, all schedules of the reading threads", "why_tests_cant": "tests read from a working disk; the property ranges over every operation that can fail", "anchors": ["src/osm/pbf/blob_iterator.rs: BlobIterator::next", "src/osm/pbf/file_block.rs: FileBlock::from_blob_desc", "src/osm/pbf/file_block_iterator.rs: FileBlockIterator::next", "src/osm/pbf/element_iterator.rs: ElementIterator", "src/osm/pbf/reader.rs: Reader::new, elements, parallel_for_each"]}
{"id": "C81", "title": "Coordinates that are not ordinary numbers", "statement": "Writing a coordinate to a block, a dump or a header box never fails and never depends on the exponent limits of f64: for every finite f64, however small or large, the integer written is the one computed with unlimited exponents; coordinates of at least 2^40 degrees become the largest or smallest i64. Coordinates and boxes read are always finite, whatever is in the file; within a turn of the globe they are doubles nearest the multiple of 0.0000001 degrees nearest the coordinate. NaN is written as 0 and reads back as 0, infinity reads back as -0.0000001, minus infinity as 0 (stated as it holds). A bounding box that has grown by any points or boxes has on each side the extreme of the values given, infinities included; NaN coordinates do not count, but a side that was NaN at the start stays NaN; from_str refuses NaN and infinite sides. Tile numbers computed for a dump are below 2^32 for all coordinates; NaN and minus infinity are counted into the first cell of their direction, infinity into the last; a longitude beyond 180 degrees is counted into a cell of the far west, one below -180 into the westernmost (stated as it holds).", "quantifier": "all f64 values, including NaN, infinities and subnormals; all integers in files", "why_tests_cant": "there are 2^64 doubles", "anchors": ["src/osm/pbf/dense_group_builder.rs: DenseGroupBuilder::new, add", "src/osm/pbf/osm_data.rs: read_dense, read_nodes", "src/osm/model/coordinate.rs: lat7, lon7", "src/osm/pbf/osm_header.rs: from_bytes, header_bbox", "src/osm/apidb_dump/read/element_iterator.rs", "src/osm/model/bounding_box.rs: merge_point, merge_bounding_box, from_str", "src/osm/apidb_dump/sql.rs: calculate_tile"]}
{"id": "C82", "title": "I/O errors in the parallel writer", "statement": "On a device on which creating the file or writing to it may fail at any point, whatever the schedule of the threads: if close returns there was no error and the file holds the header and all blocks in order; an error makes the writing thread panic, after which close does not return normally; at every moment the file is absent or a beginning of the file written without errors, so that what can be read from it is a beginning of its elements; no run goes on for ever, and one that cannot go on has returned from close or panicked.", "quantifier": "all programs that write a header first, all schedules, all points at which a write may fail", "why_tests_cant": "schedules times failure points", "anchors": ["src/osm/pbf/parallel_writer.rs: ParallelWriter::write_header, close, WriteBlobCommand::execute"]}
{"id": "C83", "title": "How large blocks become", "statement": "The bytes of a block are bounded by what is in its elements: the bytes of their texts plus fixed amounts for each element (256), tag (52), way node (10) and member (46), plus 528. So elements that together stay below 2000000000 by this count fit the 32 bit sizes of the format, compressed or not, and a file written from elements of which no 8000 are heavier reads back; below 32 MiB they also stay within the limit of the published format. The writer does not enforce that limit: it writes blocks of any size.", "quantifier": "all elements, lists of elements and file metadata, compressed or not", "why_tests_cant": "texts, tags, way nodes and members have no upper limit and sizes depend on all of them", "anchors": ["src/osm/pbf/osm_data.rs:OsmData::serialize", "src/osm/pbf/file_block.rs:FileBlock::serialize", "src/osm/pbf/string_table_builder.rs", "src/osm/pbf/osm_header.rs:serialize"]}
{"id": "C84", "title": "Which data blocks are read", "statement": "A well-formed message of a data block is read exactly if it is complete: its strings are UTF-8, every key, value, role and user refers to a string of the table, every column has the entries it needs, member types are known, and there are no changesets. It then yields exactly as many elements as it lists. Otherwise the call panics; it never returns an error, nor elements made from missing data. Iterating over a file delivers all elements of the blocks before the first incomplete one and panics there, or everything if there is none.", "quantifier": "all messages of data blocks, published or not, compressed or not, and all files made of them", "why_tests_cant": "ranges over all messages, including every way a column can be too short or an index wrong", "anchors": ["src/osm/pbf/osm_data.rs:OsmData::new", "src/osm/pbf/osm_data.rs:read_dense", "src/osm/pbf/osm_data.rs:read_relations", "src/osm/pbf/file_block_iterator.rs", "src/osm/pbf/element_iterator.rs"]}
{"id": "C85", "title": "Builds with and without overflow checks", "statement": "A build with overflow checks (cargo's dev and test profiles) writes the same bytes for a block, or panics; it panics exactly if the difference of ids, changesets or user ids of two successive nodes, or of two successive references or member ids, does not fit its type. It reads the same elements from a data block, or panics; it panics exactly if the block is incomplete (C84) or a sum or product the block calls for does not fit. Blocks as the published format describes them, in usual units, never overflow, so both builds read them alike; and what a checked build writes it reads back, up to rounding. Of the blocks a release build writes a checked build reads exactly those it would have written itself. The two builds do differ: elements with numbers more than half the range apart are written and read back by a release build, but panic in a checked one.", "quantifier": "all lists of elements within coordinate range, all messages of data blocks", "why_tests_cant": "tests run in one profile and with small numbers; the claim is about every combination of numbers in both", "anchors": ["src/osm/pbf/dense_group_builder.rs:DenseGroupBuilder::add", "src/osm/pbf/ways_group_builder.rs:convert", "src/osm/pbf/relations_group_builder.rs:convert", "src/osm/pbf/osm_data.rs:OsmData::new", "src/osm/pbf/osm_data.rs:OsmData::serialize"]}
{"id": "C86", "title": "What becomes of any bytes", "statement": "For any byte string whatsoever the outcome of reading it is determined by declarative rules. As a message: fields in any order, unknown fields skipped, numbers in any encoding, repeated fields in packed or separate pieces, later values replacing earlier ones, messages given in parts joined; and no byte string has two readings. As a block: it is a header block or a data block with certain elements exactly if the rules say so (missing metadata, sums beyond the range of their type, flags and tags that end early, superfluous entries included), a panic exactly if it is compressed without a proper size or an incomplete data block, otherwise an error. As a file: iterating over blocks or elements delivers exactly the blocks on the one way through the file, ends where no frame header follows, panics where a frame does not hold a readable block; opening succeeds, fails or panics as the first frame says.", "quantifier": "all byte strings below 2^63 bytes, all decompressors, all block types", "why_tests_cant": "fuzzing samples byte strings and finds crashes at most; the claim says for each byte string which outcome is right", "anchors": ["src/osm/pbf/osm_data.rs:OsmData::new", "src/osm/pbf/file_block.rs:FileBlock::deserialize", "src/osm/pbf/file_block.rs:FileBlock::from_blob_desc", "src/osm/pbf/blob_iterator.rs:BlobIterator::next", "src/osm/pbf/file_block_iterator.rs:FileBlockIterator::next", "src/osm/pbf/element_iterator.rs:ElementIterator::next", "src/osm/pbf/reader.rs:Reader::new"]}
{"id": "C87", "title": "Blobs, parallel iteration, counting and bounding box of any bytes", "statement": "For any file contents: blobs() yields exactly the frames found by going from frame header to frame header (sizes may be negative and lead backwards), then ends, or panics at a header length of 2^31 or more; it ends exactly if that way never comes back to a place it has been at, else it yields blobs for ever. When it ends, at every moment of every run of parallel_for_each the calls made for a frame are, in order, the first of the calls for its data block if it holds a readable one (elements, then a Sentinel), and none otherwise; after it has returned without a failed call all of them have been made. count_objects returns the numbers of the readable data blocks, the bounding box calculator the smallest box containing the nodes at the beginning of each readable data block or a panic if there are none. Data blocks that cannot be read are left out without notice.", "quantifier": "all byte strings below 2^63 bytes, all numbers of threads, schedules, queue lengths, user functions", "why_tests_cant": "which frames a damaged file has and what each schedule delivers of them ranges over all byte strings and all interleavings", "anchors": ["src/osm/pbf/blob_iterator.rs:BlobIterator::next", "src/osm/pbf/reader.rs:Reader::blobs", "src/osm/pbf/reader.rs:Reader::parallel_for_each", "src/osm/pbf/reader.rs:Reader::count_objects", "src/osm/pbf/parallel_element_iteration_command.rs:ParallelElementIterationCommand::execute", "src/osm/pbf/calc_bounding_box_command.rs:CalcBoundingBoxCommand::execute", "src/osm/pbf/bounding_box_calculator.rs:BoundingBoxCalculator::calc"]}
{"id": "C88", "title": "Lines of a dump that cannot be read", "statement": "Whatever reads of the sorted tables of a dump fail (device error or invalid text), wherever: a failing read of the users, changesets, nodes, ways or relations is taken for the end of that table, a failing read of another table ends the share of the object that comes upon it. Every object before the first failure of its table is returned with its user; it gets only rows of its own, each readable row goes to at most one object and in table order, and objects that are done before the first failure of a table get the same rows as without it. No error is reported: the iteration ends as usual, or panics exactly if the user of some returned object's changeset is missing among the users and changesets read. If all reads fail from some row on, the elements are those of a sound dump holding the rows before. apidb-to-pbf then succeeds and writes a file with these elements only.", "quantifier": "all dumps with readable rows, all sets of failing reads in all ten tables, all rows following a failed read", "why_tests_cant": "any subset of the reads of any dump can fail; a test injects a few", "anchors": ["src/osm/apidb_dump/read/table_reader.rs:TableIterator::next", "src/osm/apidb_dump/read/node_relations_reader.rs:NodeRelationsIterator::next", "src/osm/apidb_dump/read/way_relations_reader.rs:WayRelationsIterator::next", "src/osm/apidb_dump/read/relation_relations_reader.rs:RelationRelationsIterator::next", "src/osm/apidb_dump/read/element_iterator.rs:ElementIterator::next", "examples/apidb-to-pbf.rs:main"]}
{"id": "C89", "title": "What becomes of any dump", "statement": "Whatever the lines of the sorted tables of a dump are, and whichever of them cannot be read: an end mark, an empty line or a failing read ends the users, changesets, nodes, ways or relations, and ends the share of the object that comes upon it in the other tables. If a damaged line (a value missing or not of the form its column demands) comes before that among users or changesets, opening the dump panics. Otherwise nodes, ways and relations are returned in this order, each with rows of its own only, in table order and no row twice, until an object has no user, a damaged line is come upon in its table, or a damaged line is come upon while its tags, nodes or members are gathered: then the iteration panics, and otherwise ends as usual. Exactly which elements are returned and whether it panics is determined; a damaged line never becomes data. apidb-to-pbf panics in these cases and otherwise writes a file with exactly these elements. In the tables of tags, way nodes and members every line is a row or damaged.", "quantifier": "all lines of all ten tables (in the five main tables and users/changesets, lines whose only fault is the form of a time are left out), all failing reads, all column orders", "why_tests_cant": "any line can be damaged at any place in any combination with end marks and failing reads; a test has a few", "anchors": ["src/osm/apidb_dump/read/table_reader.rs:TableIterator::next", "src/osm/apidb_dump/read/element_iterator.rs:ElementIterator::new", "src/osm/apidb_dump/read/element_iterator.rs:ElementIterator::next", "src/osm/apidb_dump/read/node_relations_reader.rs:NodeRelationsIterator::next", "src/osm/apidb_dump/read/way_relations_reader.rs:WayRelationsIterator::next", "src/osm/apidb_dump/read/relation_relations_reader.rs:RelationRelationsIterator::next", "examples/apidb-to-pbf.rs:main"]}
{"id": "C90", "title": "What waits inside the parallel writer", "statement": "At every moment each of the three queues of a parallel writer holds at most 256 commands and at most 4 blocks are being encoded. The encoded blocks the writing thread keeps are blocks of the file, each at most once, after the next one to be written; while the file has the first k of n blocks there are at most n-k-1 of them. No smaller bound holds: for every program there is an order of the threads in which the file has only the header and all blocks but the first are kept in memory, so for every number N some program and schedule keep N blocks. The ordering buffer loses at most one block per call, so calls of write_elements with more than file_block_size elements let it grow without bound; elements handed over in the order of the file, at most file_block_size at a time, leave at most element_ordering_buffer_size + 2(file_block_size - 1) elements in it.", "quantifier": "all programs, all schedules of the threads, all queue lengths, numbers of encoding threads (at least two for the schedule that keeps everything), buffer and block sizes", "why_tests_cant": "a bound in every schedule, and a schedule that a test cannot enforce", "anchors": ["src/osm/pbf/parallel_writer.rs:ParallelWriter::from_file_info", "src/osm/pbf/parallel_writer.rs:WriteBlobCommand::execute", "src/osm/pbf/parallel_writer.rs:AddElementsCommand::execute", "src/osm/pbf/parallel_writer.rs:flush_sorted_top"]}
{"id": "C91", "title": "Copying a copy changes nothing", "statement": "Reading a file written by this library and writing what was read with the same settings gives the same file, byte for byte: same blocks, same bytes, although the first writing rounded coordinates and times. A second run of pbf-io on its own output therefore returns its input. The header's bounding box must be settled: a side that is written differently after it has been read back (it loses a nanodegree) makes the second file differ from the first; repeated copying moves a side only finitely often.", "quantifier": "all files pbf-io copies (not only published ones), all selections of elements, coordinates up to 360 degrees, all compression types, blocks and headers below 2 GiB", "why_tests_cant": "bytes must agree for every file; a test compares one", "anchors": ["examples/pbf-io.rs:main", "src/osm/pbf/writer.rs:Writer::write_element", "src/osm/pbf/osm_data.rs:OsmData::serialize", "src/osm/pbf/osm_header.rs:header_bbox"]}
{"id": "C92", "title": "Through a dump twice is as through a dump once", "statement": "What a dump gives back can be written to a dump again, and reading that second dump gives exactly the same: the same elements in the same order with every field the same. Rounding of coordinates, cutting of times, sorting of tags and members and giving each changeset one user happen once and never again. So a file apidb-to-pbf has made from a dump becomes the same file again, byte for byte, when it goes through pbf-to-apidb and apidb-to-pbf. Repeated tag keys are excepted: they can come back in another order from each dump.", "quantifier": "all elements a dump can hold (no two objects of a type with the same id and version, no element with a repeated tag key), all orders of text used for sorting in which equal means the same text, all sorted copies of both dumps, all times of writing", "why_tests_cant": "idempotence over all inputs and all results of sorting", "anchors": ["src/osm/apidb_dump/write/writer.rs:Writer::write_element", "src/osm/apidb_dump/read/element_iterator.rs:ElementIterator::next", "src/osm/apidb_dump/read/table_def.rs:TableDef::new", "examples/pbf-to-apidb.rs:main", "examples/apidb-to-pbf.rs:main"]}
{"id": "C93", "title": "Blocks of two gigabytes or more are written but cannot be read", "statement": "Sizes are stored as signed numbers of 32 bits and nothing checks them: a block whose blob, or whose data before compression, is from 2 to 4 GiB is written without complaint with a negative size. Reading such a file gives exactly the elements of the blocks before and then panics, whatever follows. parallel_for_each, when the blob itself is that large and the file up to its end is shorter than 4 GiB, makes exactly the calls for the blocks before, leaves out the block and all that follows, and returns as if that were all. There is a node, valid in every field, from which the writer makes such a file.", "quantifier": "all lists of blocks before, all such blocks, all bytes after, both compression types, all compressors that do not make data much larger (for the writer's part), all schedules of the parallel reader", "why_tests_cant": "a block of this size needs gigabytes of memory, and the claim is for all contents before and after it", "anchors": ["src/osm/pbf/file_block.rs:FileBlock::serialize", "src/osm/pbf/file_block.rs:FileBlock::from_blob_desc", "src/osm/pbf/blob_iterator.rs:BlobIterator::next", "src/osm/pbf/writer.rs:Writer::write_blob", "src/osm/pbf/reader.rs:Reader::parallel_for_each"]}
{"id": "C94", "title": "A dump whose writing was interrupted", "statement": "When the writer of a dump is stopped before close, at any of its writes and whatever errors the device gave, the users and changesets tables are empty on the disk: opening the dump succeeds, but reading it never gives an element other than the Sentinels, and apidb-to-pbf on it panics, or, when none of the three history tables has a first row, makes a file with only a header. When it is stopped within close, by contrast, the directory can look complete: if the ways' tables are each below the buffer's size of 8 KiB, there is a moment at which every file but theirs is whole and theirs are empty, and that dump reads to its end without an error, giving exactly the dump's nodes and relations and none of its ways.", "quantifier": "all lists of elements, all cuttings of the tables' text into writes, all numbers of operations done, all faults, all column orders of the tables (before close); all storable elements, all sorting orders (within close)", "why_tests_cant": "all crash points of all writes and all faults; a test does not stop the process between two flushes", "anchors": ["src/osm/apidb_dump/write/writer.rs:Writer::close", "src/osm/apidb_dump/write/table_data_writer.rs:TableDataWriter::close", "src/osm/apidb_dump/write/table_data_writers.rs:TableDataWriters::close", "src/osm/apidb_dump/read/element_iterator.rs:ElementIterator::next", "examples/apidb-to-pbf.rs:main"]}
{"id": "C95", "title": "A dump written in several sessions", "statement": "A writer of a dump can be closed and used again, any number of times. The tables are then the parts of the sessions one after the other, each part ended by an end marker: in the tables of users, changesets and changeset tags each close writes all users and changesets since the beginning once more; in every other table a session adds what it would leave behind if it were the only one. So current tables hold an object once for each session with a visible last version of it: two visible versions of a node written in two sessions both remain there. The library's own reader, however, gives for such a dump the same elements as for a dump of all elements written in one session, provided that each changeset has one user and each user one name in all of it; and the tables can always be sorted. Without that, which name comes back for a renamed user, in old versions and new ones alike, is up to the sorting.", "quantifier": "all lists of sessions, all elements in them, all clocks of each close, all escaping functions, all sorting orders", "why_tests_cant": "histories of any number of sessions with any contents; the reader must ignore end markers and repeated rows at any place", "anchors": ["src/osm/apidb_dump/write/writer.rs:Writer::close", "src/osm/apidb_dump/write/writer.rs:Writer::flush_current_object_lines", "src/osm/apidb_dump/write/table_data_writers.rs:TableDataWriters::flush_buffers", "src/osm/apidb_dump/write/table_data_writers.rs:TableDataWriters::close", "src/osm/apidb_dump/read/reader.rs:Reader::sort_tables"]}
{"id": "C96", "title": "When write_header of a parallel writer has to be called", "statement": "A parallel writer creates its file only when write_header is called. The call may come at any time and be repeated: whenever close returns after a program that called it at all, the file is the header once, followed by all blocks made from the elements, including those handed over before. If no block was made before the first call (which is sure as long as at most element_ordering_buffer_size elements were handed over) the time does not matter: if no element arrives out of order no thread panics and close returns. If a block was made before, some order of the threads makes the writing thread panic, and if at most 256 calls came before, another one completes the file: it is up to the scheduler. If write_header is never called no file ever exists; close returns only if there were no elements at all, and otherwise a thread panics.", "quantifier": "all programs, all schedules of the threads, all queue lengths and numbers of encoding threads from 1, all buffer sizes and positive block sizes", "why_tests_cant": "the same program works or panics depending on the schedule; a test sees one", "anchors": ["src/osm/pbf/parallel_writer.rs:ParallelWriter::write_header", "src/osm/pbf/parallel_writer.rs:WriteBlobCommand::execute", "src/osm/pbf/parallel_writer.rs:ParallelWriter::close"]}
{"id": "C97", "title": "Files put one after another", "statement": "If the bytes are those of several complete .osm.pbf files one after another (cat a.osm.pbf b.osm.pbf), opening them gives the information of the first file (refused exactly if it requires an unsupported feature; what the others require does not matter). blocks() gives the blocks of all files. But elements() delivers the elements of the first file only and ends as at the end of a file, while parallel_for_each calls the function with each element of all files once, count_objects counts all files and the bounding box is that of all files. If the header frames of all but the first are left out, the result is one file with all blocks and every way of reading delivers everything.", "quantifier": "any number of files of the published format with any content, every number of threads and schedule", "why_tests_cant": "ranges over all files, their number and all schedules", "anchors": ["src/osm/pbf/element_iterator.rs: ElementIterator::next, create_element_iterator", "src/osm/pbf/file_block_iterator.rs", "src/osm/pbf/reader.rs: Reader::new, elements, blocks, parallel_for_each, count_objects", "src/osm/pbf/blob_iterator.rs"]}
{"id": "C98", "title": "Files that change while they are read", "statement": "A file may be read with elements() while something else still appends to it. Whatever the moments are at which the bytes arrive (also between the reads of the length, the blob header and the body of one block), the elements delivered are a beginning of those of the finished file, unchanged and in order; if the reader stays behind the writer it gets all of them, if it catches up it ends as at the end of a file and what is appended later is not delivered. parallel_for_each calls its function with elements of the finished file only, each at most as often as it is there. This does not hold if another file is put in the place of the file during the iteration: the iterator keeps the opened file for the frames but opens the path anew for each body, so elements of both files can be delivered mixed, with no error. Copying a file onto itself with pbf-io truncates it before anything is read: the program ends well and the file is left with its header and no elements.", "quantifier": "every file, every way and moment it grows, every sequence of reads; for the copy every file that can be opened, every filter and compression", "why_tests_cant": "ranges over all interleavings of reading and appending at every byte, and all files", "anchors": ["src/osm/pbf/blob_iterator.rs: BlobIterator::new, next", "src/osm/pbf/file_block.rs: FileBlock::from_blob_desc", "src/osm/pbf/element_iterator.rs", "src/osm/pbf/writer.rs: Writer::from_file_info, write_blob", "examples/pbf-io.rs", "src/osm/pbf/reader.rs: elements, parallel_for_each"]}
{"id": "C99", "title": "The parallel and the sequential writer make the same file", "statement": "Given the same metadata, compression and nodes, ways and relations sorted by type, id and version, the parallel writer with blocks of 8000 elements (and an ordering buffer of at least 7999) makes the same file as the sequential writer given the elements one by one, whatever the calls they are handed over in and the schedule of its threads: the data blocks have the same elements in the same order and the files are the same byte for byte, unless the number of nodes is a multiple of 8000 (or there is none) and ways follow, or the number of ways is a multiple of 8000 and relations follow. In these cases the file of the sequential writer has an additional empty block at the change of type, and the files differ. The same holds for the files that pbf-io and parallel-pbf-io make of the same input if the ordering buffer has room for the elements kept and these are strictly ascending.", "quantifier": "every sorted sequence of elements of any length, every sequence of calls that hands them over, every schedule; for the programs every readable file, every filter", "why_tests_cant": "byte equality for all inputs and all interleavings, with an exception only at multiples of the block size", "anchors": ["src/osm/pbf/writer.rs: Writer::write_element, close", "src/osm/pbf/element_accumulator.rs: ElementAccumulator::add", "src/osm/pbf/parallel_writer.rs: flush_sorted_top, flush_all_sorted, split_file_block", "examples/pbf-io.rs", "examples/parallel-pbf-io.rs"]}
{"id": "C100", "title": "The parallel writer sorts stably", "statement": "Elements that agree in type, id and version are in the file of a parallel writer in the order in which they were handed over, whatever else was handed over and in whatever order. If nothing arrives too late for the ordering buffer, the file has exactly the elements handed over, stably sorted by type, id and version; there is only one such sequence, so the elements of the file and what a reader gets do not depend on the sizes of buffer and blocks, on how the elements are divided into calls, on the order of elements with different keys, or on the schedule.", "quantifier": "every sequence of calls without Sentinels, all sizes, all schedules", "why_tests_cant": "ranges over all inputs and configurations; stability and uniqueness of the result cannot be sampled", "anchors": ["src/osm/pbf/parallel_writer.rs: flush_sorted_top, flush_all_sorted, split_file_block, AddElementCommand, AddElementsCommand", "src/osm/model/element.rs: Ord for Element"]}
{"id": "C101", "title": "Settings of a file", "statement": "After any sequence of calls of the setters of FileInfo every setting has the last value given to it, and settings not given any keep theirs; the writing program can be set in two ways and the later one counts. So the order in which different settings are made does not matter, and a file written with that metadata is opened with exactly these settings (the sides of a bounding box as in C16).", "quantifier": "all initial metadata, all sequences of calls, all files written with the result", "why_tests_cant": "ranges over all histories of calls", "anchors": ["src/osm/pbf/file_info.rs: with_bounding_box, with_required_features, with_optional_features, with_writingprogram, with_writingprogram_str, with_source, with_osmosis_replication_timestamp, with_osmosis_replication_sequence_number, with_osmosis_replication_base_url", "src/osm/pbf/writer.rs: Writer::from_file_info, write_header", "src/osm/pbf/reader.rs: Reader::new"]}
{"id": "C102", "title": "Thread local accumulators do not disturb each other", "statement": "Any number of ThreadLocalAccumulators may be used by any threads in any order: elements() returns exactly what the calling thread has added to this accumulator since its last elements() on it, in order, and leaves it empty; len() is the number waiting. What a thread has added is what it has got back followed by what is still waiting. Another thread gets nothing of it (so what a thread never takes out itself is lost with it). All this rests on different accumulators having different ids; with the same id they get each other's elements.", "quantifier": "all histories of calls of all threads on all accumulators", "why_tests_cant": "ranges over all interleavings and histories", "anchors": ["src/osm/pbf/thread_local_accumulator.rs: ThreadLocalAccumulator::add, elements, len"]}
{"id": "C103", "title": "Taking the user and the tags out of an element", "statement": "Whatever calls of user, tags, take_user and take_tags are made on a node, way or relation, in any order and number: each answer is what the element had at first, unless a take before it has taken that field out; then it is empty. Afterwards all other fields are unchanged, and the two are empty exactly if taken out. Order, equality and type of the element do not change.", "quantifier": "all elements and all sequences of calls", "why_tests_cant": "ranges over all sequences of calls", "anchors": ["src/osm/model/node.rs: take_user, take_tags", "src/osm/model/way.rs: take_user, take_tags", "src/osm/model/relation.rs: take_user, take_tags"]}
{"id": "C104", "title": "The order of writing a dump does not matter", "statement": "What a dump gives back depends on the elements written, not on the order in which they were written, the number of sessions the writing was split into, the times of writing or the way the tables were sorted, as long as every changeset has one user, every user one name and no element two tags of the same key: the reader gives the same elements in the same order, every field the same. So two pbf files with the same elements in different orders, each converted into a dump and back, give the same file byte for byte. Where elements of a changeset disagree about its user, or elements of a user about the name, the order of writing decides what all of them get.", "quantifier": "all elements a dump can hold, all permutations and splittings of them, all clocks, all sorted copies of the tables, all antisymmetric orders of text, all header settings and compressions of the files written back", "why_tests_cant": "independence of order over all permutations and all results of sorting", "anchors": ["src/osm/apidb_dump/write/writer.rs:Writer::write_element", "src/osm/apidb_dump/write/writer.rs:Writer::close", "src/osm/apidb_dump/read/element_iterator.rs:ElementIterator::next", "src/osm/apidb_dump/read/table_pkey.rs", "examples/pbf-to-apidb.rs:main", "examples/apidb-to-pbf.rs:main"]}
{"id": "C105", "title": "What a dump cannot hold", "statement": "A node with a latitude or longitude of 215 degrees or more, in either direction, is written to a dump without complaint, but the dump cannot be read to its end, whichever way it is sorted: the reader panics at that node, or already on opening, and apidb-to-pbf always panics. If two ways share id and version, the one that comes first in the sorted table gets the nodes and tags of both and the other none. A tab in the name of a user makes opening the dump panic.", "quantifier": "all elements written with such a node among them, all clocks, all sorted copies, all zlib implementations and settings of the output; the other two are shown on an example each", "why_tests_cant": "that no arrangement of the other elements or of the sorted rows lets the reader through", "anchors": ["src/osm/apidb_dump/write/writer.rs:Writer::write_element", "src/osm/apidb_dump/read/table_reader.rs:create_node", "src/osm/apidb_dump/read/element_iterator.rs:ElementIterator::next", "src/osm/model/coordinate.rs:Coordinate::lat7", "examples/apidb-to-pbf.rs:main"]}
{"id": "C106", "title": "Filtering in two steps", "statement": "Filtering a file and filtering the result again gives, byte for byte, the file which one run with both conditions gives, and fails exactly when that run fails, provided that the second condition does not look at what writing rounds (fractions of seconds, digits of coordinates below 1e-7 degrees). So the order of two such filters does not matter where both orders get through their first step; the order can decide whether one does, since relations without ways are refused. A condition on fractions of a second finds nothing in a copy.", "quantifier": "every file that is read to its end, of this library or another, every two conditions, program name and compression, headers and blocks below 2 GiB and header boxes that do not move (C91)", "why_tests_cant": "conditions and files are arbitrary; blocks are cut at other places in the two runs", "anchors": ["examples/pbf-io.rs:main", "src/osm/pbf/writer.rs:Writer::write_element", "src/osm/pbf/element_accumulator.rs", "src/osm/pbf/reader.rs:Reader::elements"]}
{"id": "C107", "title": "Bounding boxes as text", "statement": "A text is read as the box with given sides if it consists of the four numbers left, bottom, right, top, separated by commas, with white space around them or not and anything behind a fourth comma, and the sides are in the range of degrees; otherwise it is an error. Numbers are decimal numbers with a sign or none, at most one point, and an exponent or none, each read as the nearest double; the words for NaN and infinities are numbers but never sides. A box printed with Display (as pbf-info prints it) is never accepted as a box, though different boxes print differently; its sides joined by commas are read back as the same box.", "quantifier": "every text, every box of doubles, every way of showing doubles from which they can be read again (one exists)", "why_tests_cant": "texts and doubles are arbitrary", "anchors": ["src/osm/model/bounding_box.rs:BoundingBox::from_str", "src/osm/model/bounding_box.rs:Display for BoundingBox", "examples/pbf-info.rs:main"]}
