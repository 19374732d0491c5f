#!/usr/bin/env python3
"""Transcribes the data files of /repo into generated Lean modules (text only, nothing of the project is run)."""
import json, struct, os
R = "/repo/ababe/stru/"
OUT = os.path.join(os.path.dirname(os.path.abspath(__file__)), "..", "lean", "Verif", "Model")
pt = json.load(open(R + "pt.json"))
with open(OUT + "/PtData.lean", "w") as f:
    f.write("/-! Generated by tools/gen_data.py from /repo/ababe/stru/pt.json (in file order). Do not edit. -/\n\n")
    f.write("namespace Verif\n\n")
    f.write("/-- `_pt_db` (ababe/stru/element.py:10-12, data ababe/stru/pt.json): symbol and \"Atomic no\", in file order.\n")
    f.write("The two other columns (mass, radius) are read but never used by any other code and are left out. -/\n")
    f.write("def ptDb : List (String × Int) := [\n")
    f.write(",\n".join('  ("%s", %d)' % (k, v["Atomic no"]) for k, v in pt.items()))
    f.write("]\n\nend Verif\n")
b = open(R + "bucky_permu_table.npy", "rb").read()
hl = struct.unpack("<H", b[8:10])[0]
hdr = b[10:10 + hl].decode()
assert "'descr': '<i8', 'fortran_order': True, 'shape': (120, 60)" in hdr
d = struct.unpack("<7200q", b[10 + hl:])
T = [[d[i + 120 * j] for j in range(60)] for i in range(120)]
with open(OUT + "/BuckyData.lean", "w") as f:
    f.write("/-! Generated by tools/gen_data.py from /repo/ababe/stru/bucky_permu_table.npy and buckyball.json. Do not edit. -/\n\n")
    f.write("namespace Verif\n\n")
    for k in range(0, len(T), 10):
        f.write("/-- rows %d-%d of ababe/stru/bucky_permu_table.npy -/\n" % (k, k + 9))
        f.write("def buckyRows%d : List (List Nat) := [\n" % (k // 10))
        f.write(",\n".join("  [" + ",".join(map(str, r)) + "]" for r in T[k:k + 10]))
        f.write("]\n\n")
    f.write("/-- `_perm_table` (ababe/stru/buckyball.py:18-20, data ababe/stru/bucky_permu_table.npy, shape (120,60)), row by row. -/\n")
    f.write("def buckyPermTable : List (List Nat) :=\n  " + " ++ ".join("buckyRows%d" % k for k in range(len(T) // 10)) + "\n\n")
    raw = open(R + "buckyball.json").read()
    bb = json.loads(raw, parse_float=lambda s: s)
    conv = lambda s: int(round(float(s) * 10**9))
    for row in bb["positions"]:
        for s in row:
            assert "%.9f" % (conv(s) / 1e9) == s, s
    f.write("/-- `_buckyball[\"positions\"]` (ababe/stru/buckyball.py:13-16, data ababe/stru/buckyball.json), in file order,\nin units of 1e-9 (all entries have nine decimals). -/\n")
    f.write("def buckyPositionsNano : List (Nat × Nat × Nat) := [\n")
    f.write(",\n".join("  (%d, %d, %d)" % tuple(conv(s) for s in r) for r in bb["positions"]))
    f.write("]\n\nend Verif\n")
