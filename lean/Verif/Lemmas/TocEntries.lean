import Verif.Model.TocDat
import Verif.Spec.ApidbToc
/-!
# The entries of the table of contents

Written by `scripts/gen_toc.py` from `src/osm/apidb_dump/write/toc/toc.dat`.
-/
set_option linter.style.longLine false
namespace OsmIo.Apidb
open OsmIo.Spec

/-- The parts of an entry as numbers of bytes and hexadecimal numbers. -/
structure HexEntry where
  before : Nat × Nat
  definition : Nat × Nat
  middle : Nat × Nat
  digits : Nat × Nat
  after : Nat

/-- The entry. -/
def HexEntry.entry (e : HexEntry) : TocEntry :=
  ⟨hex e.before.1 e.before.2, hex e.definition.1 e.definition.2, hex e.middle.1 e.middle.2, hex e.digits.1 e.digits.2, UInt8.ofNat e.after⟩

/-- The entries, the first one without the bytes of `tocHead`. -/
def tocEntries : List HexEntry := [
  ⟨(0, 0x0), (43, 0x7075626c69632e61636c73202869642c20616464726573732c206b2c20762c20646f6d61696e2c206d7829),
    (64, 0x3b0a00060000007075626c6963010100000001010000000008000000706f737467726573000500000066616c7365000300000032313501010000000008000000), (4, 0x34323130), 0⟩,
  ⟨(91, 0x74100000000100000000010000003000050000003137313137001a0000006163746976655f73746f726167655f6174746163686d656e7473000a0000005441424c452044415441000300000001010000000101000000006b000000), (89, 0x7075626c69632e6163746976655f73746f726167655f6174746163686d656e7473202869642c206e616d652c207265636f72645f747970652c207265636f72645f69642c20626c6f625f69642c20637265617465645f617429),
    (64, 0x3b0a00060000007075626c6963010100000001010000000008000000706f737467726573000500000066616c7365000300000032313701010000000008000000), (4, 0x34323132), 0⟩,
  ⟨(85, 0x7610000000010000000001000000300005000000313731323300140000006163746976655f73746f726167655f626c6f6273000a0000005441424c4520444154410003000000010100000001010000000088000000), (118, 0x7075626c69632e6163746976655f73746f726167655f626c6f6273202869642c206b65792c2066696c656e616d652c20636f6e74656e745f747970652c206d657461646174612c20627974655f73697a652c20636865636b73756d2c20637265617465645f61742c20736572766963655f6e616d6529),
    (64, 0x3b0a00060000007075626c6963010100000001010000000008000000706f737467726573000500000066616c7365000300000032313901010000000008000000), (4, 0x34323134), 0⟩,
  ⟨(95, 0x78100000000100000000010000003000050000003137313239001e0000006163746976655f73746f726167655f76617269616e745f7265636f726473000a0000005441424c4520444154410003000000010100000001010000000057000000), (69, 0x7075626c69632e6163746976655f73746f726167655f76617269616e745f7265636f726473202869642c20626c6f625f69642c20766172696174696f6e5f64696765737429),
    (64, 0x3b0a00060000007075626c6963010100000001010000000008000000706f737467726573000500000066616c7365000300000032323101010000000008000000), (4, 0x34323136), 0⟩,
  ⟨(85, 0x7a100000000100000000010000003000050000003137313335001400000061725f696e7465726e616c5f6d65746164617461000a0000005441424c4520444154410003000000010100000001010000000052000000), (64, 0x7075626c69632e61725f696e7465726e616c5f6d6574616461746120286b65792c2076616c75652c20637265617465645f61742c20757064617465645f617429),
    (64, 0x3b0a00060000007075626c6963010100000001010000000008000000706f737467726573000500000066616c7365000300000032323301010000000008000000), (4, 0x34323138), 0⟩,
  ⟨(83, 0x7b10000000010000000001000000300005000000313731343000120000006368616e67657365745f636f6d6d656e7473000a0000005441424c4520444154410003000000010100000001010000000064000000), (82, 0x7075626c69632e6368616e67657365745f636f6d6d656e7473202869642c206368616e67657365745f69642c20617574686f725f69642c20626f64792c20637265617465645f61742c2076697369626c6529),
    (64, 0x3b0a00060000007075626c6963010100000001010000000008000000706f737467726573000500000066616c7365000300000032323401010000000008000000), (4, 0x34323139), 0⟩,
  ⟨(79, 0x7d100000000100000000010000003000050000003137313436000e0000006368616e67657365745f74616773000a0000005441424c452044415441000300000001010000000101000000003c000000), (42, 0x7075626c69632e6368616e67657365745f7461677320286368616e67657365745f69642c206b2c207629),
    (64, 0x3b0a00060000007075626c6963010100000001010000000008000000706f737467726573000500000066616c7365000300000032323601010000000008000000), (4, 0x34323231), 0⟩,
  ⟨(75, 0x7e100000000100000000010000003000050000003137313533000a0000006368616e676573657473000a0000005441424c4520444154410003000000010100000001010000000079000000), (103, 0x7075626c69632e6368616e676573657473202869642c20757365725f69642c20637265617465645f61742c206d696e5f6c61742c206d61785f6c61742c206d696e5f6c6f6e2c206d61785f6c6f6e2c20636c6f7365645f61742c206e756d5f6368616e67657329),
    (64, 0x3b0a00060000007075626c6963010100000001010000000008000000706f737467726573000500000066616c7365000300000032323701010000000008000000), (4, 0x34323232), 0⟩,
  ⟨(87, 0x8010000000010000000001000000300005000000313731353800160000006368616e6765736574735f7375627363726962657273000a0000005441424c452044415441000300000001010000000101000000004d000000), (59, 0x7075626c69632e6368616e6765736574735f73756273637269626572732028737562736372696265725f69642c206368616e67657365745f696429),
    (64, 0x3b0a00060000007075626c6963010100000001010000000008000000706f737467726573000500000066616c7365000300000032323901010000000008000000), (4, 0x34323234), 0⟩,
  ⟨(84, 0x811000000001000000000100000030000500000031373136310013000000636c69656e745f6170706c69636174696f6e73000a0000005441424c4520444154410003000000010100000001010000000002010000), (240, 0x7075626c69632e636c69656e745f6170706c69636174696f6e73202869642c206e616d652c2075726c2c20737570706f72745f75726c2c2063616c6c6261636b5f75726c2c206b65792c207365637265742c20757365725f69642c20637265617465645f61742c20757064617465645f61742c20616c6c6f775f726561645f70726566732c20616c6c6f775f77726974655f70726566732c20616c6c6f775f77726974655f64696172792c20616c6c6f775f77726974655f6170692c20616c6c6f775f726561645f6770782c20616c6c6f775f77726974655f6770782c20616c6c6f775f77726974655f6e6f74657329),
    (64, 0x3b0a00060000007075626c6963010100000001010000000008000000706f737467726573000500000066616c7365000300000032333001010000000008000000), (4, 0x34323235), 0⟩,
  ⟨(82, 0x83100000000100000000010000003000050000003137313734001100000063757272656e745f6e6f64655f74616773000a0000005441424c452044415441000300000001010000000101000000003a000000), (40, 0x7075626c69632e63757272656e745f6e6f64655f7461677320286e6f64655f69642c206b2c207629),
    (64, 0x3b0a00060000007075626c6963010100000001010000000008000000706f737467726573000500000066616c7365000300000032333201010000000008000000), (4, 0x34323237), 0⟩,
  ⟨(78, 0x84100000000100000000010000003000050000003137313831000d00000063757272656e745f6e6f646573000a0000005441424c4520444154410003000000010100000001010000000073000000), (97, 0x7075626c69632e63757272656e745f6e6f646573202869642c206c617469747564652c206c6f6e6769747564652c206368616e67657365745f69642c2076697369626c652c202274696d657374616d70222c2074696c652c2076657273696f6e29),
    (64, 0x3b0a00060000007075626c6963010100000001010000000008000000706f737467726573000500000066616c7365000300000032333301010000000008000000), (4, 0x34323238), 0⟩,
  ⟨(89, 0x86100000000100000000010000003000050000003137313835001800000063757272656e745f72656c6174696f6e5f6d656d62657273000a0000005441424c4520444154410003000000010100000001010000000071000000), (95, 0x7075626c69632e63757272656e745f72656c6174696f6e5f6d656d62657273202872656c6174696f6e5f69642c206d656d6265725f747970652c206d656d6265725f69642c206d656d6265725f726f6c652c2073657175656e63655f696429),
    (64, 0x3b0a00060000007075626c6963010100000001010000000008000000706f737467726573000500000066616c7365000300000032333501010000000008000000), (4, 0x34323330), 0⟩,
  ⟨(86, 0x87100000000100000000010000003000050000003137313931001500000063757272656e745f72656c6174696f6e5f74616773000a0000005441424c4520444154410003000000010100000001010000000042000000), (48, 0x7075626c69632e63757272656e745f72656c6174696f6e5f74616773202872656c6174696f6e5f69642c206b2c207629),
    (64, 0x3b0a00060000007075626c6963010100000001010000000008000000706f737467726573000500000066616c7365000300000032333601010000000008000000), (4, 0x34323331), 0⟩,
  ⟨(82, 0x88100000000100000000010000003000050000003137313938001100000063757272656e745f72656c6174696f6e73000a0000005441424c452044415441000300000001010000000101000000005c000000), (74, 0x7075626c69632e63757272656e745f72656c6174696f6e73202869642c206368616e67657365745f69642c202274696d657374616d70222c2076697369626c652c2076657273696f6e29),
    (64, 0x3b0a00060000007075626c6963010100000001010000000008000000706f737467726573000500000066616c7365000300000032333701010000000008000000), (4, 0x34323332), 0⟩,
  ⟨(82, 0x8a100000000100000000010000003000050000003137323032001100000063757272656e745f7761795f6e6f646573000a0000005441424c4520444154410003000000010100000001010000000049000000), (55, 0x7075626c69632e63757272656e745f7761795f6e6f64657320287761795f69642c206e6f64655f69642c2073657175656e63655f696429),
    (64, 0x3b0a00060000007075626c6963010100000001010000000008000000706f737467726573000500000066616c7365000300000032333901010000000008000000), (4, 0x34323334), 0⟩,
  ⟨(81, 0x8b100000000100000000010000003000050000003137323035001000000063757272656e745f7761795f74616773000a0000005441424c4520444154410003000000010100000001010000000038000000), (38, 0x7075626c69632e63757272656e745f7761795f7461677320287761795f69642c206b2c207629),
    (64, 0x3b0a00060000007075626c6963010100000001010000000008000000706f737467726573000500000066616c7365000300000032343001010000000008000000), (4, 0x34323335), 0⟩,
  ⟨(77, 0x8c100000000100000000010000003000050000003137323132000c00000063757272656e745f77617973000a0000005441424c4520444154410003000000010100000001010000000057000000), (69, 0x7075626c69632e63757272656e745f77617973202869642c206368616e67657365745f69642c202274696d657374616d70222c2076697369626c652c2076657273696f6e29),
    (64, 0x3b0a00060000007075626c6963010100000001010000000008000000706f737467726573000500000066616c7365000300000032343101010000000008000000), (4, 0x34323336), 0⟩,
  ⟨(77, 0x8e100000000100000000010000003000050000003137323136000c00000064656c617965645f6a6f6273000a0000005441424c452044415441000300000001010000000101000000009b000000), (137, 0x7075626c69632e64656c617965645f6a6f6273202869642c207072696f726974792c20617474656d7074732c2068616e646c65722c206c6173745f6572726f722c2072756e5f61742c206c6f636b65645f61742c206661696c65645f61742c206c6f636b65645f62792c2071756575652c20637265617465645f61742c20757064617465645f617429),
    (64, 0x3b0a00060000007075626c6963010100000001010000000008000000706f737467726573000500000066616c7365000300000032343301010000000008000000), (4, 0x34323338), 0⟩,
  ⟨(79, 0x90100000000100000000010000003000050000003137323234000e00000064696172795f636f6d6d656e7473000a0000005441424c4520444154410003000000010100000001010000000079000000), (103, 0x7075626c69632e64696172795f636f6d6d656e7473202869642c2064696172795f656e7472795f69642c20757365725f69642c20626f64792c20637265617465645f61742c20757064617465645f61742c2076697369626c652c20626f64795f666f726d617429),
    (64, 0x3b0a00060000007075626c6963010100000001010000000008000000706f737467726573000500000066616c7365000300000032343501010000000008000000), (4, 0x34323430), 0⟩,
  ⟨(78, 0x92100000000100000000010000003000050000003137323332000d00000064696172795f656e7472696573000a0000005441424c4520444154410003000000010100000001010000000093000000), (129, 0x7075626c69632e64696172795f656e7472696573202869642c20757365725f69642c207469746c652c20626f64792c20637265617465645f61742c20757064617465645f61742c206c617469747564652c206c6f6e6769747564652c206c616e67756167655f636f64652c2076697369626c652c20626f64795f666f726d617429),
    (64, 0x3b0a00060000007075626c6963010100000001010000000008000000706f737467726573000500000066616c7365000300000032343701010000000008000000), (4, 0x34323432), 0⟩,
  ⟨(90, 0x94100000000100000000010000003000050000003137323431001900000064696172795f656e7472795f737562736372697074696f6e73000a0000005441424c452044415441000300000001010000000101000000004c000000), (58, 0x7075626c69632e64696172795f656e7472795f737562736372697074696f6e732028757365725f69642c2064696172795f656e7472795f696429),
    (64, 0x3b0a00060000007075626c6963010100000001010000000008000000706f737467726573000500000066616c7365000300000032343901010000000008000000), (4, 0x34323434), 0⟩,
  ⟨(72, 0x951000000001000000000100000030000500000031373234340007000000667269656e6473000a0000005441424c452044415441000300000001010000000101000000004a000000), (56, 0x7075626c69632e667269656e6473202869642c20757365725f69642c20667269656e645f757365725f69642c20637265617465645f617429),
    (64, 0x3b0a00060000007075626c6963010100000001010000000008000000706f737467726573000500000066616c7365000300000032353001010000000008000000), (4, 0x34323435), 0⟩,
  ⟨(75, 0x97100000000100000000010000003000050000003137323438000a0000006770735f706f696e7473000a0000005441424c4520444154410003000000010100000001010000000067000000), (85, 0x7075626c69632e6770735f706f696e74732028616c7469747564652c20747261636b69642c206c617469747564652c206c6f6e6769747564652c206770785f69642c202274696d657374616d70222c2074696c6529),
    (64, 0x3b0a00060000007075626c6963010100000001010000000008000000706f737467726573000500000066616c7365000300000032353201010000000008000000), (4, 0x34323437), 0⟩,
  ⟨(78, 0x98100000000100000000010000003000050000003137323531000d0000006770785f66696c655f74616773000a0000005441424c4520444154410003000000010100000001010000000038000000), (38, 0x7075626c69632e6770785f66696c655f7461677320286770785f69642c207461672c20696429),
    (64, 0x3b0a00060000007075626c6963010100000001010000000008000000706f737467726573000500000066616c7365000300000032353301010000000008000000), (4, 0x34323438), 0⟩,
  ⟨(74, 0x9a10000000010000000001000000300005000000313732353700090000006770785f66696c6573000a0000005441424c452044415441000300000001010000000101000000008a000000), (120, 0x7075626c69632e6770785f66696c6573202869642c20757365725f69642c2076697369626c652c206e616d652c2073697a652c206c617469747564652c206c6f6e6769747564652c202274696d657374616d70222c206465736372697074696f6e2c20696e7365727465642c207669736962696c69747929),
    (64, 0x3b0a00060000007075626c6963010100000001010000000008000000706f737467726573000500000066616c7365000300000032353501010000000008000000), (4, 0x34323530), 0⟩,
  ⟨(79, 0x9c100000000100000000010000003000050000003137323637000e00000069737375655f636f6d6d656e7473000a0000005441424c452044415441000300000001010000000101000000005d000000), (75, 0x7075626c69632e69737375655f636f6d6d656e7473202869642c2069737375655f69642c20757365725f69642c20626f64792c20637265617465645f61742c20757064617465645f617429),
    (64, 0x3b0a00060000007075626c6963010100000001010000000008000000706f737467726573000500000066616c7365000300000032353701010000000008000000), (4, 0x34323532), 0⟩,
  ⟨(71, 0x9e1000000001000000000100000030000500000031373237330006000000697373756573000a0000005441424c45204441544100030000000101000000010100000000ba000000), (168, 0x7075626c69632e697373756573202869642c207265706f727461626c655f747970652c207265706f727461626c655f69642c207265706f727465645f757365725f69642c207374617475732c2061737369676e65645f726f6c652c207265736f6c7665645f61742c207265736f6c7665645f62792c20757064617465645f62792c207265706f7274735f636f756e742c20637265617465645f61742c20757064617465645f617429),
    (64, 0x3b0a00060000007075626c6963010100000001010000000008000000706f737467726573000500000066616c7365000300000032353901010000000008000000), (4, 0x34323534), 0⟩,
  ⟨(74, 0xa010000000010000000001000000300005000000313732383100090000006c616e677561676573000a0000005441424c4520444154410003000000010100000001010000000044000000), (50, 0x7075626c69632e6c616e6775616765732028636f64652c20656e676c6973685f6e616d652c206e61746976655f6e616d6529),
    (64, 0x3b0a00060000007075626c6963010100000001010000000008000000706f737467726573000500000066616c7365000300000032363101010000000008000000), (4, 0x34323536), 0⟩,
  ⟨(73, 0xa110000000010000000001000000300005000000313732383600080000006d65737361676573000a0000005441424c4520444154410003000000010100000001010000000095000000), (131, 0x7075626c69632e6d65737361676573202869642c2066726f6d5f757365725f69642c207469746c652c20626f64792c2073656e745f6f6e2c206d6573736167655f726561642c20746f5f757365725f69642c20746f5f757365725f76697369626c652c2066726f6d5f757365725f76697369626c652c20626f64795f666f726d617429),
    (64, 0x3b0a00060000007075626c6963010100000001010000000008000000706f737467726573000500000066616c7365000300000032363201010000000008000000), (4, 0x34323537), 0⟩,
  ⟨(74, 0xa310000000010000000001000000300005000000313732393600090000006e6f64655f74616773000a0000005441424c452044415441000300000001010000000101000000003b000000), (41, 0x7075626c69632e6e6f64655f7461677320286e6f64655f69642c2076657273696f6e2c206b2c207629),
    (64, 0x3b0a00060000007075626c6963010100000001010000000008000000706f737467726573000500000066616c7365000300000032363401010000000008000000), (4, 0x34323539), 0⟩,
  ⟨(70, 0xa410000000010000000001000000300005000000313733303300050000006e6f646573000a0000005441424c452044415441000300000001010000000101000000007e000000), (108, 0x7075626c69632e6e6f64657320286e6f64655f69642c206c617469747564652c206c6f6e6769747564652c206368616e67657365745f69642c2076697369626c652c202274696d657374616d70222c2074696c652c2076657273696f6e2c20726564616374696f6e5f696429),
    (64, 0x3b0a00060000007075626c6963010100000001010000000008000000706f737467726573000500000066616c7365000300000032363501010000000008000000), (4, 0x34323630), 0⟩,
  ⟨(78, 0xa5100000000100000000010000003000050000003137333036000d0000006e6f74655f636f6d6d656e7473000a0000005441424c452044415441000300000001010000000101000000006c000000), (90, 0x7075626c69632e6e6f74655f636f6d6d656e7473202869642c206e6f74655f69642c2076697369626c652c20637265617465645f61742c20617574686f725f69702c20617574686f725f69642c20626f64792c206576656e7429),
    (64, 0x3b0a00060000007075626c6963010100000001010000000008000000706f737467726573000500000066616c7365000300000032363601010000000008000000), (4, 0x34323631), 0⟩,
  ⟨(70, 0xa710000000010000000001000000300005000000313733313200050000006e6f746573000a0000005441424c4520444154410003000000010100000001010000000069000000), (87, 0x7075626c69632e6e6f746573202869642c206c617469747564652c206c6f6e6769747564652c2074696c652c20757064617465645f61742c20637265617465645f61742c207374617475732c20636c6f7365645f617429),
    (64, 0x3b0a00060000007075626c6963010100000001010000000008000000706f737467726573000500000066616c7365000300000032363801010000000008000000), (4, 0x34323633), 0⟩,
  ⟨(84, 0xa910000000010000000001000000300005000000313733313600130000006f617574685f6163636573735f6772616e7473000a0000005441424c45204441544100030000000101000000010100000000bc000000), (170, 0x7075626c69632e6f617574685f6163636573735f6772616e7473202869642c207265736f757263655f6f776e65725f69642c206170706c69636174696f6e5f69642c20746f6b656e2c20657870697265735f696e2c2072656469726563745f7572692c20637265617465645f61742c207265766f6b65645f61742c2073636f7065732c20636f64655f6368616c6c656e67652c20636f64655f6368616c6c656e67655f6d6574686f6429),
    (64, 0x3b0a00060000007075626c6963010100000001010000000008000000706f737467726573000500000066616c7365000300000032373001010000000008000000), (4, 0x34323635), 0⟩,
  ⟨(84, 0xab10000000010000000001000000300005000000313733323300130000006f617574685f6163636573735f746f6b656e73000a0000005441424c45204441544100030000000101000000010100000000ae000000), (156, 0x7075626c69632e6f617574685f6163636573735f746f6b656e73202869642c207265736f757263655f6f776e65725f69642c206170706c69636174696f6e5f69642c20746f6b656e2c20726566726573685f746f6b656e2c20657870697265735f696e2c207265766f6b65645f61742c20637265617465645f61742c2073636f7065732c2070726576696f75735f726566726573685f746f6b656e29),
    (64, 0x3b0a00060000007075626c6963010100000001010000000008000000706f737467726573000500000066616c7365000300000032373201010000000008000000), (4, 0x34323637), 0⟩,
  ⟨(83, 0xad10000000010000000001000000300005000000313733333000120000006f617574685f6170706c69636174696f6e73000a0000005441424c4520444154410003000000010100000001010000000095000000), (131, 0x7075626c69632e6f617574685f6170706c69636174696f6e73202869642c206f776e65725f747970652c206f776e65725f69642c206e616d652c207569642c207365637265742c2072656469726563745f7572692c2073636f7065732c20636f6e666964656e7469616c2c20637265617465645f61742c20757064617465645f617429),
    (64, 0x3b0a00060000007075626c6963010100000001010000000008000000706f737467726573000500000066616c7365000300000032373401010000000008000000), (4, 0x34323639), 0⟩,
  ⟨(77, 0xaf100000000100000000010000003000050000003137333338000c0000006f617574685f6e6f6e636573000a0000005441424c4520444154410003000000010100000001010000000056000000), (68, 0x7075626c69632e6f617574685f6e6f6e636573202869642c206e6f6e63652c202274696d657374616d70222c20637265617465645f61742c20757064617465645f617429),
    (64, 0x3b0a00060000007075626c6963010100000001010000000008000000706f737467726573000500000066616c7365000300000032373601010000000008000000), (4, 0x34323731), 0⟩,
  ⟨(77, 0xb1100000000100000000010000003000050000003137333434000c0000006f617574685f746f6b656e73000a0000005441424c452044415441000300000001010000000101000000003c010000), (298, 0x7075626c69632e6f617574685f746f6b656e73202869642c20757365725f69642c20747970652c20636c69656e745f6170706c69636174696f6e5f69642c20746f6b656e2c207365637265742c20617574686f72697a65645f61742c20696e76616c6964617465645f61742c20637265617465645f61742c20757064617465645f61742c20616c6c6f775f726561645f70726566732c20616c6c6f775f77726974655f70726566732c20616c6c6f775f77726974655f64696172792c20616c6c6f775f77726974655f6170692c20616c6c6f775f726561645f6770782c20616c6c6f775f77726974655f6770782c2063616c6c6261636b5f75726c2c2076657269666965722c2073636f70652c2076616c69645f746f2c20616c6c6f775f77726974655f6e6f74657329),
    (64, 0x3b0a00060000007075626c6963010100000001010000000008000000706f737467726573000500000066616c7365000300000032373801010000000008000000), (4, 0x34323733), 0⟩,
  ⟨(75, 0xb3100000000100000000010000003000050000003137333537000a000000726564616374696f6e73000a0000005441424c4520444154410003000000010100000001010000000071000000), (95, 0x7075626c69632e726564616374696f6e73202869642c207469746c652c206465736372697074696f6e2c20637265617465645f61742c20757064617465645f61742c20757365725f69642c206465736372697074696f6e5f666f726d617429),
    (64, 0x3b0a00060000007075626c6963010100000001010000000008000000706f737467726573000500000066616c7365000300000032383001010000000008000000), (4, 0x34323735), 0⟩,
  ⟨(81, 0xb5100000000100000000010000003000050000003137333634001000000072656c6174696f6e5f6d656d62657273000a0000005441424c4520444154410003000000010100000001010000000072000000), (96, 0x7075626c69632e72656c6174696f6e5f6d656d62657273202872656c6174696f6e5f69642c206d656d6265725f747970652c206d656d6265725f69642c206d656d6265725f726f6c652c2076657273696f6e2c2073657175656e63655f696429),
    (64, 0x3b0a00060000007075626c6963010100000001010000000008000000706f737467726573000500000066616c7365000300000032383201010000000008000000), (4, 0x34323737), 0⟩,
  ⟨(78, 0xb6100000000100000000010000003000050000003137333731000d00000072656c6174696f6e5f74616773000a0000005441424c4520444154410003000000010100000001010000000043000000), (49, 0x7075626c69632e72656c6174696f6e5f74616773202872656c6174696f6e5f69642c206b2c20762c2076657273696f6e29),
    (64, 0x3b0a00060000007075626c6963010100000001010000000008000000706f737467726573000500000066616c7365000300000032383301010000000008000000), (4, 0x34323738), 0⟩,
  ⟨(74, 0xb7100000000100000000010000003000050000003137333738000900000072656c6174696f6e73000a0000005441424c452044415441000300000001010000000101000000006b000000), (89, 0x7075626c69632e72656c6174696f6e73202872656c6174696f6e5f69642c206368616e67657365745f69642c202274696d657374616d70222c2076657273696f6e2c2076697369626c652c20726564616374696f6e5f696429),
    (64, 0x3b0a00060000007075626c6963010100000001010000000008000000706f737467726573000500000066616c7365000300000032383401010000000008000000), (4, 0x34323739), 0⟩,
  ⟨(72, 0xb810000000010000000001000000300005000000313733383200070000007265706f727473000a0000005441424c4520444154410003000000010100000001010000000063000000), (81, 0x7075626c69632e7265706f727473202869642c2069737375655f69642c20757365725f69642c2064657461696c732c2063617465676f72792c20637265617465645f61742c20757064617465645f617429),
    (64, 0x3b0a00060000007075626c6963010100000001010000000008000000706f737467726573000500000066616c7365000300000032383501010000000008000000), (4, 0x34323830), 0⟩,
  ⟨(82, 0xba1000000001000000000100000030000500000031373338380011000000736368656d615f6d6967726174696f6e73000a0000005441424c4520444154410003000000010100000001010000000034000000), (34, 0x7075626c69632e736368656d615f6d6967726174696f6e73202876657273696f6e29),
    (64, 0x3b0a00060000007075626c6963010100000001010000000008000000706f737467726573000500000066616c7365000300000032383701010000000008000000), (4, 0x34323832), 0⟩,
  ⟨(76, 0xbb100000000100000000010000003000050000003137333933000b000000757365725f626c6f636b73000a0000005441424c452044415441000300000001010000000101000000008e000000), (124, 0x7075626c69632e757365725f626c6f636b73202869642c20757365725f69642c2063726561746f725f69642c20726561736f6e2c20656e64735f61742c206e656564735f766965772c207265766f6b65725f69642c20637265617465645f61742c20757064617465645f61742c20726561736f6e5f666f726d617429),
    (64, 0x3b0a00060000007075626c6963010100000001010000000008000000706f737467726573000500000066616c7365000300000032383801010000000008000000), (4, 0x34323833), 0⟩,
  ⟨(81, 0xbd1000000001000000000100000030000500000031373430310010000000757365725f707265666572656e636573000a0000005441424c4520444154410003000000010100000001010000000039000000), (39, 0x7075626c69632e757365725f707265666572656e6365732028757365725f69642c206b2c207629),
    (64, 0x3b0a00060000007075626c6963010100000001010000000008000000706f737467726573000500000066616c7365000300000032393001010000000008000000), (4, 0x34323835), 0⟩,
  ⟨(75, 0xbe100000000100000000010000003000050000003137343036000a000000757365725f726f6c6573000a0000005441424c452044415441000300000001010000000101000000005b000000), (73, 0x7075626c69632e757365725f726f6c6573202869642c20757365725f69642c20726f6c652c20637265617465645f61742c20757064617465645f61742c206772616e7465725f696429),
    (64, 0x3b0a00060000007075626c6963010100000001010000000008000000706f737467726573000500000066616c7365000300000032393101010000000008000000), (4, 0x34323836), 0⟩,
  ⟨(76, 0xc0100000000100000000010000003000050000003137343130000b000000757365725f746f6b656e73000a0000005441424c452044415441000300000001010000000101000000004a000000), (56, 0x7075626c69632e757365725f746f6b656e73202869642c20757365725f69642c20746f6b656e2c206578706972792c207265666572657229),
    (64, 0x3b0a00060000007075626c6963010100000001010000000008000000706f737467726573000500000066616c7365000300000032393301010000000008000000), (4, 0x34323838), 0⟩,
  ⟨(70, 0xc210000000010000000001000000300005000000313734313600050000007573657273000a0000005441424c4520444154410003000000010100000001010000000095010000), (387, 0x7075626c69632e75736572732028656d61696c2c2069642c20706173735f63727970742c206372656174696f6e5f74696d652c20646973706c61795f6e616d652c20646174615f7075626c69632c206465736372697074696f6e2c20686f6d655f6c61742c20686f6d655f6c6f6e2c20686f6d655f7a6f6f6d2c20706173735f73616c742c20656d61696c5f76616c69642c206e65775f656d61696c2c206372656174696f6e5f69702c206c616e6775616765732c207374617475732c207465726d735f6167726565642c20636f6e73696465725f70642c20617574685f7569642c207072656665727265645f656469746f722c207465726d735f7365656e2c206465736372697074696f6e5f666f726d61742c206368616e6765736574735f636f756e742c207472616365735f636f756e742c2064696172795f656e74726965735f636f756e742c20696d6167655f7573655f67726176617461722c20617574685f70726f76696465722c20686f6d655f74696c652c20746f755f61677265656429),
    (64, 0x3b0a00060000007075626c6963010100000001010000000008000000706f737467726573000500000066616c7365000300000032393501010000000008000000), (4, 0x34323930), 0⟩,
  ⟨(74, 0xc410000000010000000001000000300005000000313734333500090000007761795f6e6f646573000a0000005441424c452044415441000300000001010000000101000000004a000000), (56, 0x7075626c69632e7761795f6e6f64657320287761795f69642c206e6f64655f69642c2076657273696f6e2c2073657175656e63655f696429),
    (64, 0x3b0a00060000007075626c6963010100000001010000000008000000706f737467726573000500000066616c7365000300000032393701010000000008000000), (4, 0x34323932), 0⟩,
  ⟨(73, 0xc510000000010000000001000000300005000000313734333800080000007761795f74616773000a0000005441424c4520444154410003000000010100000001010000000039000000), (39, 0x7075626c69632e7761795f7461677320287761795f69642c206b2c20762c2076657273696f6e29),
    (64, 0x3b0a00060000007075626c6963010100000001010000000008000000706f737467726573000500000066616c7365000300000032393801010000000008000000), (4, 0x34323933), 0⟩,
  ⟨(69, 0xc6100000000100000000010000003000050000003137343433000400000077617973000a0000005441424c4520444154410003000000010100000001010000000061000000), (79, 0x7075626c69632e7761797320287761795f69642c206368616e67657365745f69642c202274696d657374616d70222c2076657273696f6e2c2076697369626c652c20726564616374696f6e5f696429),
    (64, 0x3b0a00060000007075626c6963010100000001010000000008000000706f737467726573000500000066616c7365000300000032393901010000000008000000), (4, 0x34323934), 0⟩]

end OsmIo.Apidb
