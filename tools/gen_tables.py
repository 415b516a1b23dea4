#!/usr/bin/env python3
"""Copies lookup tables of /repo/strtk.hpp into Lean list literals (lean/Verif/Codec/Tables.lean)."""
import re
SRC = open("/repo/strtk.hpp").read().split("\n")
def table(first, last):
    txt = " ".join(re.sub(r"//.*", "", l) for l in SRC[first - 1:last])
    txt = txt[txt.index("{") + 1:txt.index("}")]
    return [int(x, 0) for x in re.findall(r"0x[0-9A-Fa-f]+|\d+", txt)]
def emit(name, w, first, last, doc, n=256):
    t = table(first, last)
    assert len(t) == n, (name, len(t))
    rows = [", ".join(map(str, t[i:i + 16])) for i in range(0, len(t), 16)]
    return f"/-- {doc} ({first}-{last}). -/\ndef {name} : List (BitVec {w}) := [\n  " + ",\n  ".join(rows) + "]\n"
out = ["/-!\n# Lookup tables copied from strtk.hpp by tools/gen_tables.py\n-/\n\nnamespace Strtk.Codec\n"]
out.append(emit("hexLut", 16, 4386, 4420, "`hex_lut`: two characters per byte, as a little-endian 16-bit store"))
out.append(emit("hexToBin", 8, 4476, 4510, "`hex_to_bin`"))
out.append(emit("base64ToBin", 8, 4630, 4664, "`base64_to_bin`"))
out.append(emit("printable", 8, 4734, 4768, "`printable_char_table`"))
out.append(emit("interleaveTable", 16, 4868, 4902, "`interleave_table`"))
out.append(emit("highBits", 64, 5014, 5032, "`high_bits_in_char`"))
line = [l for l in SRC if "bin_to_base64 []" in l][0]
s = re.search(r'"(.*)"', line).group(1)
assert len(s) == 64
out.append("/-- `bin_to_base64` (4565). -/\ndef binToBase64 : List (BitVec 8) := [\n  " + ", ".join(str(ord(c)) for c in s) + "]\n")
out.append("end Strtk.Codec\n")
open("/verif/lean/Verif/Codec/Tables.lean", "w").write("\n".join(out))
# the decimal digit tables of the integer-to-text conversion
def chars(first, last):
    txt = "".join(re.findall(r'"([^"]*)"', "\n".join(SRC[first - 1:last])))
    n = txt.count("\\0")
    return [ord(c) for c in txt.replace("\\0", "")] + [0] * (n + 1)
def lut(name, first, last, n):
    t = chars(first, last)
    assert len(t) == n + 17, (name, len(t))
    step, parts, res = 75, [], []
    for k, i in enumerate(range(0, len(t), step)):
        res.append(f"/-- Part {k} of `{name}`. -/\ndef {name}_{k} : List (BitVec 8) := [" + ", ".join(map(str, t[i:i + step])) + "]\n")
        parts.append(f"{name}_{k}")
    res.append(f"/-- The C string literal ({first}-{last}) with its terminating zero. -/\ndef {name} : List (BitVec 8) := [\n  " + ", ".join(parts) + "].flatten\n")
    return "\n".join(res)
out = ["/-!\n# Digit tables copied from strtk.hpp by tools/gen_tables.py\n-/\n\nnamespace Strtk.Number\n"]
out.append(lut("rev3Digit", 16726, 16769, 3000))
out.append(lut("rev2Digit", 16771, 16779, 200))
out.append("end Strtk.Number\n")
import os
os.makedirs("/verif/lean/Verif/Number", exist_ok=True)
open("/verif/lean/Verif/Number/Tables.lean", "w").write("\n".join(out))
# predefined salts of the bloom filter
def salts(first, last):
    t = [int(x, 16) for x in re.findall(r"0x[0-9A-Fa-f]+", "\n".join(SRC[first - 1:last]))]
    assert len(t) == 128, len(t)
    rows = [", ".join(f"0x{x:08X}" for x in t[i:i + 8]) for i in range(0, 128, 8)]
    return f"/-- `predef_salt` ({first}-{last}). -/\ndef predefSalt : List UInt32 := [\n  " + ",\n  ".join(rows) + "]\n"
open("/verif/lean/Verif/Bloom/Tables.lean", "w").write(
    "/-! # Predefined salts of the bloom filter, copied from strtk.hpp by tools/gen_tables.py -/\n\nnamespace Strtk.Bloom\n\n" + salts(20454, 20487) + "\nend Strtk.Bloom\n")
