"""Compares sample-graphs/ca-HepPh.gphrx with sample-graphs/ca-HepPh.cgphrx.

The compressed file has an old header (version 1, 49 bytes), but the same 24-byte entries as today.  Reading both with
the offsets of Spec/Format.lean: the entries are exactly the 8x8 blocks with at least two edges, with bit
8 * (to % 8) + from % 8 for the edge (from, to) of block (from / 8, to / 8).
"""
import collections
import struct
import sys

base = sys.argv[1] if len(sys.argv) > 1 else "/repo/sample-graphs"
graph = open(base + "/ca-HepPh.gphrx", "rb").read()
compressed = open(base + "/ca-HepPh.cgphrx", "rb").read()

edges = struct.unpack_from(">Q", graph, 16)[0]
assert len(graph) == 26 + 16 * edges
blocks = collections.defaultdict(int)
for i in range(edges):
    u, v = struct.unpack_from(">QQ", graph, 26 + 16 * i)
    blocks[u // 8, v // 8] |= 1 << (8 * (v % 8) + u % 8)
expected = {k: w for k, w in blocks.items() if bin(w).count("1") >= 2}

count = struct.unpack_from(">Q", compressed, 16)[0]
assert len(compressed) == 49 + 24 * count
found = {}
for i in range(count):
    word, col, row = struct.unpack_from(">QQQ", compressed, 49 + 24 * i)
    found[col, row] = word

assert found == expected
print(len(found), "blocks,", sum(bin(w).count("1") for w in found.values()), "edges agree")
