"""Generate lean/Verif/Ucode/FieldTables.lean from ucodefields.py and microcode.asm (read as text)."""
import re
SRC = "/repo/src/sentinel/"
def nm(s):
    return "[" + ", ".join("'%s'" % c for c in s) + "]"
def lean_ctor(cls, member):
    sp = {("RegRSel", "INSN_RS1"): "rs1", ("RegRSel", "INSN_RS2"): "rs2", ("RegWSel", "INSN_RD"): "rd",
          ("CondTest", "TRUE"): "true_"}
    if (cls, member) in sp:
        return sp[cls, member]
    p = member.lower().split("_")
    return p[0] + "".join(x.capitalize() for x in p[1:])
# --- ucodefields.py
lines = open(SRC + "ucodefields.py").read().split("\n")
classes, order, cur = {}, [], None
for i, l in enumerate(lines, 1):
    m = re.match(r"class (\w+)\(enum\.Enum(?:, shape=(\d+))?\)", l)
    if m:
        cur = m[1]; classes[cur] = dict(kind="enum", shape=m[2] and int(m[2]), mem=[], line=i); order.append(cur); continue
    m = re.match(r"(\w+) = unsigned\((\d+)\)", l)
    if m:
        cur = None; classes[m[1]] = dict(kind="unsigned", w=int(m[2]), line=i); order.append(m[1]); continue
    m = re.match(r"    ([A-Z][A-Z0-9_]*) = (\d+)$", l)
    if m and cur:
        classes[cur]["mem"].append((m[1], int(m[2])))
# --- field_map
rom = open(SRC + "ucoderom.py").read()
fm = re.findall(r'^        "(\w+)": (\w+),?$', rom, re.M)
# --- microcode.asm fields block
asm = open(SRC + "microcode.asm").read()
blk = asm[asm.index("fields block_ram: {"):]
blk = blk[blk.index("{") + 1:blk.index("};")]
blk = re.sub(r"//.*", "", blk).replace("\\\n", " ")
# split on ; outside braces
out, depth, buf = [], 0, ""
for c in blk:
    if c == "{": depth += 1
    if c == "}": depth -= 1
    if c == ";" and depth == 0:
        out.append(" ".join(buf.split())); buf = ""
    else:
        buf += c
decls = []
for d in out:
    name, rest = [x.strip() for x in d.split(":", 1)]
    default = re.search(r"default (\w+)$", rest)[1]
    if rest.startswith("bool"):
        decls.append((name, ".bool", default))
    elif rest.startswith("enum"):
        items = [x.strip() for x in rest[rest.index("{") + 1:rest.index("}")].split(";") if x.strip()]
        its = []
        for it in items:
            if "=" in it:
                k, v = [x.strip() for x in it.split("=")]; its.append((k, "some %s" % v))
            else:
                its.append((it, "none"))
        decls.append((name, ".enum [" + ", ".join("(%s, %s)" % (nm(k), v) for k, v in its) + "]", default))
    else:
        w = re.search(r"width (\d+)", rest)[1]
        decls.append((name, ".num %s" % w, default))
o = []
o.append('''import Verif.Ucode.Layout
import Verif.Ucode.Fields
/-!
# Field declarations and Amaranth classes of the default microcode

Generated by `tools/gen_fields.py` from the text of `src/sentinel/microcode.asm` (`fields block_ram`,
lines 14-91), `src/sentinel/ucodefields.py` and `UCodeROM.field_map` (`src/sentinel/ucoderom.py`
113-140).
-/

namespace Sentinel.Ucode

/-- Type of a field declaration of the microcode source; an enum item has an optional value. -/
inductive FieldType
  | num (width : Nat)
  | bool
  | enum (items : List (Name × Option Nat))

/-- `microcode.asm` 14-91: the fields in order. -/
def fieldDecls : List (Name × FieldType) := [''')
o.append(",\n".join("  (%s, %s)" % (nm(n), t) for n, t, _ in decls) + "]\n")
for c in order:
    d = classes[c]
    if d["kind"] == "enum":
        w = d["shape"] if d["shape"] else max(max(v for _, v in d["mem"]).bit_length(), 1)
        o.append("/-- `ucodefields.py` %d `%s`: the members in order, and the width%s. -/" % (
            d["line"], c, "" if d["shape"] else " Amaranth gives an enum with these values"))
        o.append("def py%s : FShape := .enum %d [%s]\n" % (c, w, ", ".join("(%s, %d)" % (nm(k), v) for k, v in d["mem"])))
    else:
        o.append("/-- `ucodefields.py` %d. -/" % d["line"])
        o.append("def py%s : FShape := .unsigned %d\n" % (c, d["w"]))
o.append("/-- `ucoderom.py` 113-140 `field_map`. -/")
o.append("def fieldMap : List (Name × FShape) := [")
o.append(",\n".join("  (%s, py%s)" % (nm(a), b) for a, b in fm) + "]\n")
for c in order:
    d = classes[c]
    if d["kind"] != "enum": continue
    mem = [(k, v) for k, v in d["mem"] if k != "NOP"]
    o.append("/-- Member name and value of each constructor of `%s`. -/" % c)
    o.append("def code%s : Sentinel.%s → Name × Nat" % (c, c))
    for k, v in mem:
        o.append("  | .%s => (%s, %d)" % (lean_ctor(c, k), nm(k), v))
    o.append("")
o.append("end Sentinel.Ucode")
open("/verif/lean/Verif/Ucode/FieldTables.lean", "w").write("\n".join(o) + "\n")
