#!/usr/bin/env python3
"""Generates lean/Verif/Model/TocDat.lean, lean/Verif/Spec/TocStatements.lean and lean/Verif/Lemmas/TocEntries.lean from src/osm/apidb_dump/write/toc/{toc.dat,mapping.json} of the repository."""
import json, re, sys
repo, out, spec, lemmas = sys.argv[1:5]
D = repo + '/src/osm/apidb_dump/write/toc/'
b = open(D + 'toc.dat', 'rb').read()
mapping = json.load(open(D + 'mapping.json'))
cuts, i = [], 0
while (j := b.find(b'COPY ', i)) >= 0:
    d = b.find(b'.dat', b.find(b' FROM stdin', j)) + 5
    cuts.append((j, d)); i = d
def piece(x): return f'  ({len(x)}, 0x{x.hex()})'
def chunks(x): return [x[k:k + 256] for k in range(0, len(x), 256)]
head, tail = chunks(b[:cuts[0][0]]), chunks(b[cuts[-1][1]:])
ents, prev = [], cuts[0][0]
for j, d in cuts:
    ents.append(b[prev:d]); prev = d
assert b''.join(head + ents + tail) == b
writers = re.findall(r'(\w+): TableDataWriter::new\("[^"]+"\.to_string\(\), template_mapping\["([^"]+)"\]\.to_string\(\), output_path\)', open(repo + '/src/osm/apidb_dump/write/table_data_writers.rs').read())
assert len(writers) == 53
camel = lambda n: re.sub(r'_(.)', lambda m: m.group(1).upper(), n)
L = ['''import Verif.Model.ApidbWriter
/-!
# The files embedded in the writer

Written by `scripts/gen_toc.py` from `src/osm/apidb_dump/write/toc/toc.dat` and `mapping.json`.
-/
set_option linter.style.longLine false
namespace OsmIo.Apidb
open OsmIo.Text

/-- `len` bytes, given as a hexadecimal number.
(bytes of `src/osm/apidb_dump/write/toc/toc.dat`, embedded by `src/osm/apidb_dump/write/toc.rs:6`) -/
def hex (len n : Nat) : Bytes := go len n []
where
  go : Nat → Nat → Bytes → Bytes
    | 0, _, acc => acc
    | k + 1, n, acc => go k (n / 256) (UInt8.ofNat (n % 256) :: acc)

/-- `toc.dat` before the first `COPY` statement: numbers of bytes and the bytes in hexadecimal.
(bytes of `src/osm/apidb_dump/write/toc/toc.dat`, embedded by `src/osm/apidb_dump/write/toc.rs:6`) -/
def tocHead : List (Nat × Nat) := [
''' + ',\n'.join(map(piece, head)) + ''']

/-- `toc.dat`, the part with the `COPY` statements; each piece ends one byte after the name of a data file.
(bytes of `src/osm/apidb_dump/write/toc/toc.dat`, embedded by `src/osm/apidb_dump/write/toc.rs:6`) -/
def tocCopies : List (Nat × Nat) := [
''' + ',\n'.join(map(piece, ents)) + ''']

/-- `toc.dat`, the rest.
(bytes of `src/osm/apidb_dump/write/toc/toc.dat`, embedded by `src/osm/apidb_dump/write/toc.rs:6`) -/
def tocTail : List (Nat × Nat) := [
''' + ',\n'.join(map(piece, tail)) + ''']

/-- `src/osm/apidb_dump/write/toc/toc.dat` (%d bytes), `src/osm/apidb_dump/write/toc.rs:6`. -/
def tocDat : Bytes := (tocHead ++ tocCopies ++ tocTail).flatMap fun (len, n) => hex len n

/-- `src/osm/apidb_dump/write/toc/mapping.json`, `src/osm/apidb_dump/write/toc.rs:7,15-17`. -/
def templateMapping : List (Text × Text) := [
''' % len(b) + ',\n'.join(f'  ("{n}".toList, "{f}".toList)' for n, f in mapping.items()) + ''']

/-- The names under which `TableDataWriters::new` looks up the data files, `src/osm/apidb_dump/write/table_data_writers.rs:79-131`. -/
def writerName : Table → Text
''' + '\n'.join(f'  | .{camel(t)} => "{n}".toList' for t, n in writers) + '''

end OsmIo.Apidb
''']
open(out, 'w').write(''.join(L))

# the statements, and the entries of the proof
lit = lambda t: json.dumps(t)
S, E = [], []
for e in ents:
    before, rest = e.split(b'COPY ', 1)
    definition, rest = rest.split(b' FROM stdin', 1)
    m = re.fullmatch(rb'(.*?)([0-9]+)\.dat(.)', rest, re.S)
    name, cols = re.fullmatch(rb'([^ ]+) \((.+)\)', definition).groups()
    cols = ', '.join(lit(c.decode()) + '.toList' for c in cols.split(b', '))
    S.append(f'  ⟨{lit(name.decode())}.toList, [{cols}],\n    {lit(m.group(2).decode() + ".dat")}⟩')
    h = lambda x: f'({len(x)}, 0x{x.hex() or 0})'
    E.append(f'  ⟨{h(before)}, {h(definition)},\n    {h(m.group(1))}, {h(m.group(2))}, {m.group(3)[0]}⟩')
open(spec, 'w').write('''import Verif.Spec.ApidbToc
/-!
# The `COPY` statements of the table of contents

Written by `scripts/gen_toc.py` from `src/osm/apidb_dump/write/toc/toc.dat`.
-/
namespace OsmIo.Spec

/-- Table, columns and data file of each statement, in order. -/
def tocStatements : List Statement := [
''' + ',\n'.join(S) + ''']

end OsmIo.Spec
''')
open(lemmas, 'w').write('''import Verif.Model.TocDat
import Verif.Spec.ApidbToc
/-!
# The entries of the table of contents

Written by `scripts/gen_toc.py` from `src/osm/apidb_dump/write/toc/toc.dat`.
-/
set_option linter.style.longLine false
namespace OsmIo.Apidb
open OsmIo.Spec

/-- The parts of an entry as numbers of bytes and hexadecimal numbers. -/
structure HexEntry where
  before : Nat × Nat
  definition : Nat × Nat
  middle : Nat × Nat
  digits : Nat × Nat
  after : Nat

/-- The entry. -/
def HexEntry.entry (e : HexEntry) : TocEntry :=
  ⟨hex e.before.1 e.before.2, hex e.definition.1 e.definition.2, hex e.middle.1 e.middle.2, hex e.digits.1 e.digits.2, UInt8.ofNat e.after⟩

/-- The entries, the first one without the bytes of `tocHead`. -/
def tocEntries : List HexEntry := [
''' + ',\n'.join(E) + ''']

end OsmIo.Apidb
''')
