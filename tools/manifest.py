#!/usr/bin/env python3
"""Write /verif/MANIFEST.json from the table below."""
import json, os
S = "Sentinel."
U = "Sentinel.Ucode."
O = "Sentinel.Soc."
T = [
 ("C01", "partial", S, "C01_trace C01_isa_partial C01_full_false",
  "C01_trace is the complete trace refinement against the ISA machine `Isa.machine .asBuilt`, i.e. RV32I_Zicsr with the two deviations D1 (sticky interrupt bit in mcause) and D2 (0x70..0x72 report cause 11) written into the specification. Against the unmodified ISA the claim is false (C01_full_false, a concrete run); C01_isa_partial proves it for every run that does not meet a deviation."),
 ("C02", "proved", S, "C02_op C02_opImm", ""),
 ("C03", "proved", S, "C03_op C03_opImm", ""),
 ("C04", "proved", S, "C04_load C04_sel C04_adr C04_value", ""),
 ("C05", "proved", S, "C05_store C05_value C04_sel C04_adr", ""),
 ("C06", "proved", S, "C06_taken C06_notTaken C06_cond", ""),
 ("C07", "proved", S, "C07_jal C07_jalr", ""),
 ("C08", "proved", S, "C08_lui C08_auipc", ""),
 ("C09", "proved", S, "C09_nop", ""),
 ("C10", "proved", S, "C10_write", ""),
 ("C11", "proved", S, "C11_read C11_writes", ""),
 ("C12", "proved", S, "C12_illegal C12_zero", ""),
 ("C13", "partial", S, "C13_illegal_partial C13_d2 C13_full_false",
  "The full statement C13_full is false of the code: the words 0x70, 0x71 and 0x72 (deviation D2) report cause 11 (C13_d2, C13_full_false). Every other illegal word is covered by C13_illegal_partial."),
 ("C14", "proved", S, "C14_ecall C14_ebreak", ""),
 ("C15", "proved", S, "C15_load C15_store", ""),
 ("C16", "proved", S, "C16_branch C16_jal C16_jalr C06_notTaken", ""),
 ("C17", "proved", S, "C17_exception C17_none C19_csr", ""),
 ("C18", "partial", S, "C18_partial C18_full_false",
  "C18_full is false of the code: once an interrupt has been taken, later synchronous exceptions report bit 31 (C18_full_false, concrete run). C18_partial: true until the first interrupt."),
 ("C19", "proved", S, "C19_taken C19_csr C19_iff", ""),
 ("C20", "proved", S, "C20_mret", ""),
 ("C21", "proved", S, "C21_x0_zero", ""),
 ("C22", "proved", S, "C22_reset C22_keep C22_any C22_mstatus C22_held C22_mepc Soc.C22_mret Soc.C22_trap",
  "Soc.C22_mret and Soc.C22_trap: concrete runs in which a one-cycle reset leaves MPIE set, or clears mepc."),
 ("C23", "proved", S, "C23_stable", ""),
 ("C24", "proved", S, "C24_cyc_stb C24_drop", ""),
 ("C25", "proved", S, "C25_shape C25_request C25_first", ""),
 ("C26", "proved", S, "C26_no_panic", ""),
 ("C27", "proved", S, "C27_progress", ""),
 ("C28", "proved", S, "C28_cycles Soc.C28_soc Soc.C28_doc Soc.C28_bound", ""),
 ("C29", "partial", S, "C29_state C29_isa_partial",
  "C29_state is the full refinement against the as-built specification; against the unmodified ISA it holds for runs without deviations D1, D2 (C29_isa_partial)."),
 ("C30", "proved", S, "C30_same_cycle_ack", "A negative property: the concrete run is the proof."),
 ("C31", "proved", S, "C31_readback C31_aligned", ""),
 ("C32", "proved", S, "C32_mip", ""),
 ("C33", "proved", S, "C33_forward C33_pair", ""),
 ("C34", "proved", U, "C34_layout C34_roundtrip C34_injective C34_codes C34_rom", "m5meta's placement of values is modelled, not verified."),
 ("C35", "partial", U, "C35_layout_partial C35_full_false",
  "False of the code with two or more gaps (C35_full_false, deviation D4); C35_layout_partial proves that the layout is right exactly when there is at most one gap."),
 ("C36", "proved", U, "C36_accepted C36_default C36_default_agrees", ""),
 ("C38", "proved", O, "C38_trace C38_flat", ""),
 ("C44", "proved", S, "C44_roundtrip", ""),
 ("C45", "proved", S, "C45_enable C45_outputs", ""),
]
extra = os.path.join(os.path.dirname(__file__), "manifest_extra.py")
if os.path.exists(extra):
    exec(open(extra).read())
T.sort()
claims = []
for pid, status, ns, names, note in T:
    ths = []
    for n in names.split():
        ths.append(n if n.startswith("Sentinel.") else ns + n)
    claims.append({"property": pid, "status": status, "theorems": ths, "note": note})
json.dump({"claims": claims}, open("/verif/MANIFEST.json", "w"), indent=1)
have = {c["property"] for c in claims}
for l in open("/verif/properties.jsonl"):
    i = json.loads(l)["id"]
    if i not in have:
        print("missing", i)
