{
 "claims": [
  {
   "property": "C01",
   "status": "partial",
   "theorems": [
    "Sentinel.C01_trace",
    "Sentinel.C01_isa_partial",
    "Sentinel.C01_full_false"
   ],
   "note": "C01_trace is the complete trace refinement against the ISA machine `Isa.machine .asBuilt`, i.e. RV32I_Zicsr with the two deviations D1 (sticky interrupt bit in mcause) and D2 (0x70..0x72 report cause 11) written into the specification. Against the unmodified ISA the claim is false (C01_full_false, a concrete run); C01_isa_partial proves it for every run that does not meet a deviation."
  },
  {
   "property": "C02",
   "status": "proved",
   "theorems": [
    "Sentinel.C02_op",
    "Sentinel.C02_opImm"
   ],
   "note": ""
  },
  {
   "property": "C03",
   "status": "proved",
   "theorems": [
    "Sentinel.C03_op",
    "Sentinel.C03_opImm"
   ],
   "note": ""
  },
  {
   "property": "C04",
   "status": "proved",
   "theorems": [
    "Sentinel.C04_load",
    "Sentinel.C04_sel",
    "Sentinel.C04_adr",
    "Sentinel.C04_value"
   ],
   "note": ""
  },
  {
   "property": "C05",
   "status": "proved",
   "theorems": [
    "Sentinel.C05_store",
    "Sentinel.C05_value",
    "Sentinel.C04_sel",
    "Sentinel.C04_adr"
   ],
   "note": ""
  },
  {
   "property": "C06",
   "status": "proved",
   "theorems": [
    "Sentinel.C06_taken",
    "Sentinel.C06_notTaken",
    "Sentinel.C06_cond"
   ],
   "note": ""
  },
  {
   "property": "C07",
   "status": "proved",
   "theorems": [
    "Sentinel.C07_jal",
    "Sentinel.C07_jalr"
   ],
   "note": ""
  },
  {
   "property": "C08",
   "status": "proved",
   "theorems": [
    "Sentinel.C08_lui",
    "Sentinel.C08_auipc"
   ],
   "note": ""
  },
  {
   "property": "C09",
   "status": "proved",
   "theorems": [
    "Sentinel.C09_nop"
   ],
   "note": ""
  },
  {
   "property": "C10",
   "status": "proved",
   "theorems": [
    "Sentinel.C10_write"
   ],
   "note": ""
  },
  {
   "property": "C100",
   "status": "proved",
   "theorems": [
    "Sentinel.C100_receive",
    "Sentinel.C100_quick",
    "Sentinel.C100_wave",
    "Sentinel.C100_boards",
    "Sentinel.C100_wb",
    "Sentinel.C100_csr"
   ],
   "note": "The line is what the receiver's two-state logic samples: metastability of the unsynchronised input (attosoc.py has no synchroniser on rx) is outside the model. An example shows that the bound on late edges is sharp."
  },
  {
   "property": "C101",
   "status": "proved",
   "theorems": [
    "Sentinel.C101_order",
    "Sentinel.C101_keeps_up",
    "Sentinel.C101_stored"
   ],
   "note": "As C64, C67: the firmware's actions at the level of the source (Soc/Firmware), the peripherals by cycle. As in C100 the line is what the receiver samples."
  },
  {
   "property": "C102",
   "status": "proved",
   "theorems": [
    "Sentinel.C102_waits",
    "Sentinel.C102_dialogue",
    "Sentinel.C102_possible"
   ],
   "note": "As C76-C78, for a line with its own clock; an example types ctrl-c, 9, 0 and return with bits 4 % too long."
  },
  {
   "property": "C103",
   "status": "proved",
   "theorems": [
    "Sentinel.C103_stored",
    "Sentinel.C103_waits",
    "Sentinel.C103_dialogue",
    "Sentinel.C103_possible"
   ],
   "note": "As C79-C83 and C100."
  },
  {
   "property": "C104",
   "status": "proved",
   "theorems": [
    "Sentinel.C104_rest",
    "Sentinel.C104_settles",
    "Sentinel.C104_resync",
    "Sentinel.C104_firmware",
    "Sentinel.C104_firmware_csr"
   ],
   "note": "As C100: the line is what the receiver samples."
  },
  {
   "property": "C105",
   "status": "proved",
   "theorems": [
    "Sentinel.C105_shows",
    "Sentinel.C105_says",
    "Sentinel.C105_csr",
    "Sentinel.C105_unattended",
    "Sentinel.C105_unattended_csr",
    "Sentinel.C105_dialogue",
    "Sentinel.C105_dialogue_csr"
   ],
   "note": "The terminal is a receiver like the UART of attosoc.py; the levels it samples are those of the output in the board's cycle that contains the sampling instant."
  },
  {
   "property": "C106",
   "status": "proved",
   "theorems": [
    "Sentinel.C106_dialogue",
    "Sentinel.C106_dialogue_csr",
    "Sentinel.C106_possible",
    "Sentinel.C106_possible_csr"
   ],
   "note": "Watched (Spec/Terminal) is the condition on the person; the gap of 33*K+31 cycles and the waiting that C102 and C105 assume are proved from it."
  },
  {
   "property": "C107",
   "status": "proved",
   "theorems": [
    "Sentinel.Atto.C107_wb",
    "Sentinel.Atto.C107_wb_safe",
    "Sentinel.Atto.C107_wb_thread",
    "Sentinel.Atto.C107_wb_return",
    "Sentinel.Atto.C107_wb_progress",
    "Sentinel.AttoCsr.C107_csr",
    "Sentinel.AttoCsr.C107_csr_safe",
    "Sentinel.AttoCsr.C107_csr_thread",
    "Sentinel.AttoCsr.C107_csr_return",
    "Sentinel.AttoCsr.C107_csr_progress",
    "Sentinel.Atto.C107_wb_count",
    "Sentinel.AttoCsr.C107_csr_count"
   ],
   "note": "SetupSoc (Spec/InterruptsSoc) is the condition on handler and program; C107_wb_count and C107_csr_count are a concrete handler (it reads the interrupt register of the serial port, counts, and writes the LEDs) and a concrete program, for all pins."
  },
  {
   "property": "C108",
   "status": "proved",
   "theorems": [
    "Sentinel.AttoCsr.C108_echo",
    "Sentinel.AttoCsr.C108_demo",
    "Sentinel.AttoCsr.C108_terminal"
   ],
   "note": "The program (Soc/Echo) is not of /repo; it uses the serial port as the firmware does. Line.Levels (Spec/Line) says what levels a line has; C108_demo is the case of a character every 25000 cycles with 1250 cycles per bit."
  },
  {
   "property": "C11",
   "status": "proved",
   "theorems": [
    "Sentinel.C11_read",
    "Sentinel.C11_writes"
   ],
   "note": ""
  },
  {
   "property": "C12",
   "status": "proved",
   "theorems": [
    "Sentinel.C12_illegal",
    "Sentinel.C12_zero"
   ],
   "note": ""
  },
  {
   "property": "C13",
   "status": "partial",
   "theorems": [
    "Sentinel.C13_illegal_partial",
    "Sentinel.C13_d2",
    "Sentinel.C13_full_false"
   ],
   "note": "The full statement C13_full is false of the code: the words 0x70, 0x71 and 0x72 (deviation D2) report cause 11 (C13_d2, C13_full_false). Every other illegal word is covered by C13_illegal_partial."
  },
  {
   "property": "C14",
   "status": "proved",
   "theorems": [
    "Sentinel.C14_ecall",
    "Sentinel.C14_ebreak"
   ],
   "note": ""
  },
  {
   "property": "C15",
   "status": "proved",
   "theorems": [
    "Sentinel.C15_load",
    "Sentinel.C15_store"
   ],
   "note": ""
  },
  {
   "property": "C16",
   "status": "proved",
   "theorems": [
    "Sentinel.C16_branch",
    "Sentinel.C16_jal",
    "Sentinel.C16_jalr",
    "Sentinel.C06_notTaken"
   ],
   "note": ""
  },
  {
   "property": "C17",
   "status": "proved",
   "theorems": [
    "Sentinel.C17_exception",
    "Sentinel.C17_none",
    "Sentinel.C19_csr"
   ],
   "note": ""
  },
  {
   "property": "C18",
   "status": "partial",
   "theorems": [
    "Sentinel.C18_partial",
    "Sentinel.C18_full_false"
   ],
   "note": "C18_full is false of the code: once an interrupt has been taken, later synchronous exceptions report bit 31 (C18_full_false, concrete run). C18_partial: true until the first interrupt."
  },
  {
   "property": "C19",
   "status": "proved",
   "theorems": [
    "Sentinel.C19_taken",
    "Sentinel.C19_csr",
    "Sentinel.C19_iff"
   ],
   "note": ""
  },
  {
   "property": "C20",
   "status": "proved",
   "theorems": [
    "Sentinel.C20_mret"
   ],
   "note": ""
  },
  {
   "property": "C21",
   "status": "proved",
   "theorems": [
    "Sentinel.C21_x0_zero"
   ],
   "note": ""
  },
  {
   "property": "C22",
   "status": "proved",
   "theorems": [
    "Sentinel.C22_reset",
    "Sentinel.C22_keep",
    "Sentinel.C22_any",
    "Sentinel.C22_mstatus",
    "Sentinel.C22_held",
    "Sentinel.C22_mepc",
    "Sentinel.Soc.C22_mret",
    "Sentinel.Soc.C22_trap"
   ],
   "note": "Soc.C22_mret and Soc.C22_trap: concrete runs in which a one-cycle reset leaves MPIE set, or clears mepc."
  },
  {
   "property": "C23",
   "status": "proved",
   "theorems": [
    "Sentinel.C23_stable"
   ],
   "note": ""
  },
  {
   "property": "C24",
   "status": "proved",
   "theorems": [
    "Sentinel.C24_cyc_stb",
    "Sentinel.C24_drop"
   ],
   "note": ""
  },
  {
   "property": "C25",
   "status": "proved",
   "theorems": [
    "Sentinel.C25_shape",
    "Sentinel.C25_request",
    "Sentinel.C25_first"
   ],
   "note": ""
  },
  {
   "property": "C26",
   "status": "proved",
   "theorems": [
    "Sentinel.C26_no_panic"
   ],
   "note": ""
  },
  {
   "property": "C27",
   "status": "proved",
   "theorems": [
    "Sentinel.C27_progress"
   ],
   "note": ""
  },
  {
   "property": "C28",
   "status": "proved",
   "theorems": [
    "Sentinel.C28_cycles",
    "Sentinel.Soc.C28_soc",
    "Sentinel.Soc.C28_doc",
    "Sentinel.Soc.C28_bound"
   ],
   "note": ""
  },
  {
   "property": "C29",
   "status": "partial",
   "theorems": [
    "Sentinel.C29_state",
    "Sentinel.C29_isa_partial"
   ],
   "note": "C29_state is the full refinement against the as-built specification; against the unmodified ISA it holds for runs without deviations D1, D2 (C29_isa_partial)."
  },
  {
   "property": "C30",
   "status": "proved",
   "theorems": [
    "Sentinel.C30_same_cycle_ack"
   ],
   "note": "A negative property: the concrete run is the proof."
  },
  {
   "property": "C31",
   "status": "proved",
   "theorems": [
    "Sentinel.C31_readback",
    "Sentinel.C31_aligned"
   ],
   "note": ""
  },
  {
   "property": "C32",
   "status": "proved",
   "theorems": [
    "Sentinel.C32_mip"
   ],
   "note": ""
  },
  {
   "property": "C33",
   "status": "proved",
   "theorems": [
    "Sentinel.C33_forward",
    "Sentinel.C33_pair"
   ],
   "note": ""
  },
  {
   "property": "C34",
   "status": "proved",
   "theorems": [
    "Sentinel.Ucode.C34_layout",
    "Sentinel.Ucode.C34_roundtrip",
    "Sentinel.Ucode.C34_injective",
    "Sentinel.Ucode.C34_codes",
    "Sentinel.Ucode.C34_rom"
   ],
   "note": "m5meta's placement of values is modelled, not verified."
  },
  {
   "property": "C35",
   "status": "partial",
   "theorems": [
    "Sentinel.Ucode.C35_layout_partial",
    "Sentinel.Ucode.C35_full_false"
   ],
   "note": "False of the code with two or more gaps (C35_full_false, deviation D4); C35_layout_partial proves that the layout is right exactly when there is at most one gap."
  },
  {
   "property": "C36",
   "status": "proved",
   "theorems": [
    "Sentinel.Ucode.C36_accepted",
    "Sentinel.Ucode.C36_default",
    "Sentinel.Ucode.C36_default_agrees"
   ],
   "note": ""
  },
  {
   "property": "C37",
   "status": "proved",
   "theorems": [
    "Sentinel.C37_table",
    "Sentinel.C37_exception",
    "Sentinel.C12_illegal",
    "Sentinel.C12_zero"
   ],
   "note": ""
  },
  {
   "property": "C38",
   "status": "proved",
   "theorems": [
    "Sentinel.Soc.C38_trace",
    "Sentinel.Soc.C38_flat"
   ],
   "note": ""
  },
  {
   "property": "C39",
   "status": "partial",
   "theorems": [
    "Sentinel.C39_next",
    "Sentinel.C39_period",
    "Sentinel.C39_read",
    "Sentinel.C39_no_loss_partial",
    "Sentinel.C39_race",
    "Sentinel.C39_full_false",
    "Sentinel.C39_csr"
   ],
   "note": "The exact law of the interrupt line is proved for every history. The full no-loss statement C39_full is false of the Wishbone timer (race D6, exhibited in C39_race); C39_no_loss_partial excludes exactly an interrupt raised in the acknowledge cycle of a read. For the CSR-bus timer the statement holds without exception (C39_csr)."
  },
  {
   "property": "C40",
   "status": "proved",
   "theorems": [
    "Sentinel.C40_transmit",
    "Sentinel.C40_receive",
    "Sentinel.C40_tolerance",
    "Sentinel.C40_stream",
    "Sentinel.C40_overflow"
   ],
   "note": ""
  },
  {
   "property": "C41",
   "status": "proved",
   "theorems": [
    "Sentinel.C41_immediate"
   ],
   "note": ""
  },
  {
   "property": "C42",
   "status": "proved",
   "theorems": [
    "Sentinel.C42_dispatch",
    "Sentinel.C42_csr",
    "Sentinel.C42_distinct",
    "Sentinel.C42_flagged"
   ],
   "note": ""
  },
  {
   "property": "C43",
   "status": "proved",
   "theorems": [
    "Sentinel.C43_ops",
    "Sentinel.C43_mods",
    "Sentinel.C43_zero"
   ],
   "note": ""
  },
  {
   "property": "C44",
   "status": "proved",
   "theorems": [
    "Sentinel.C44_roundtrip"
   ],
   "note": ""
  },
  {
   "property": "C45",
   "status": "proved",
   "theorems": [
    "Sentinel.C45_enable",
    "Sentinel.C45_outputs"
   ],
   "note": ""
  },
  {
   "property": "C46",
   "status": "proved",
   "theorems": [
    "Sentinel.C46_irq",
    "Sentinel.C46_reset",
    "Sentinel.C46_csr"
   ],
   "note": ""
  },
  {
   "property": "C47",
   "status": "proved",
   "theorems": [
    "Sentinel.C47_write",
    "Sentinel.C47_start",
    "Sentinel.C47_read",
    "Sentinel.C47_receive",
    "Sentinel.C47_race",
    "Sentinel.C47_csr"
   ],
   "note": "C47_race shows that a read already under way when the character becomes available takes it without returning it (deviation D8)."
  },
  {
   "property": "C48",
   "status": "proved",
   "theorems": [
    "Sentinel.C48_leds",
    "Sentinel.C48_write",
    "Sentinel.C48_csr"
   ],
   "note": ""
  },
  {
   "property": "C49",
   "status": "proved",
   "theorems": [
    "Sentinel.C49_valid",
    "Sentinel.C49_insn",
    "Sentinel.C49_order"
   ],
   "note": ""
  },
  {
   "property": "C50",
   "status": "proved",
   "theorems": [
    "Sentinel.C50_pc",
    "Sentinel.C50_rs"
   ],
   "note": ""
  },
  {
   "property": "C51",
   "status": "proved",
   "theorems": [
    "Sentinel.C51_mem",
    "Sentinel.C51_load",
    "Sentinel.C51_store",
    "Sentinel.C51_none"
   ],
   "note": ""
  },
  {
   "property": "C52",
   "status": "proved",
   "theorems": [
    "Sentinel.C52_trap",
    "Sentinel.C52_intr",
    "Sentinel.C52_first"
   ],
   "note": ""
  },
  {
   "property": "C53",
   "status": "partial",
   "theorems": [
    "Sentinel.C53_rd_partial",
    "Sentinel.C53_csr",
    "Sentinel.C53_none",
    "Sentinel.C53_stale",
    "Sentinel.C53_d9",
    "Sentinel.C53_full_false"
   ],
   "note": "Proved for every instruction that completes and for CSR instructions that trap. The full statement is false of the code: any other instruction that traps reports its destination register with the value last written by an earlier instruction (deviation D9, C53_stale in general, C53_d9 on a run)."
  },
  {
   "property": "C54",
   "status": "proved",
   "theorems": [
    "Sentinel.C54_rdata",
    "Sentinel.C54_mip",
    "Sentinel.C54_wdata",
    "Sentinel.C54_always",
    "Sentinel.C54_mie",
    "Sentinel.C54_mstatus_trap",
    "Sentinel.C54_mstatus_mret",
    "Sentinel.C54_mip_line",
    "Sentinel.C54_d15"
   ],
   "note": "mstatus around traps and MRET: deviation D15."
  },
  {
   "property": "C55",
   "status": "proved",
   "theorems": [
    "Sentinel.C55_wdata",
    "Sentinel.C55_zero",
    "Sentinel.C55_wmask",
    "Sentinel.C55_keep",
    "Sentinel.C55_next"
   ],
   "note": ""
  },
  {
   "property": "C56",
   "status": "proved",
   "theorems": [
    "Sentinel.Atto.C56_trace",
    "Sentinel.Atto.C56_progress",
    "Sentinel.Atto.C56_safe",
    "Sentinel.Atto.C56_hang"
   ],
   "note": "The behaviour of amaranth-soc's wishbone.Decoder is an assumption of the model (Soc/Atto.lean)."
  },
  {
   "property": "C57",
   "status": "proved",
   "theorems": [
    "Sentinel.Atto.C57_devices",
    "Sentinel.Atto.C57_read",
    "Sentinel.Atto.C57_send"
   ],
   "note": ""
  },
  {
   "property": "C58",
   "status": "proved",
   "theorems": [
    "Sentinel.Atto.C58_latency",
    "Sentinel.Atto.C58_taken"
   ],
   "note": ""
  },
  {
   "property": "C59",
   "status": "proved",
   "theorems": [
    "Sentinel.Atto.C59_wishbone",
    "Sentinel.Atto.C59_mip",
    "Sentinel.C59_csr"
   ],
   "note": ""
  },
  {
   "property": "C60",
   "status": "proved",
   "theorems": [
    "Sentinel.C60_fits",
    "Sentinel.C60_bytes",
    "Sentinel.C60_words",
    "Sentinel.C60_boot",
    "Sentinel.C60_elf",
    "Sentinel.C60_elf_gap"
   ],
   "note": "C60_elf_gap shows that the condition on the segments is needed: with a gap between them, or with a third segment, the image is wrong."
  },
  {
   "property": "C61",
   "status": "proved",
   "theorems": [
    "Sentinel.Atto.C61_leds",
    "Sentinel.Atto.C61_safe",
    "Sentinel.Atto.C61_shown",
    "Sentinel.Atto.C61_requests",
    "Sentinel.C61_loaded"
   ],
   "note": "About the machine words of the firmware (Soc/Primes.lean); the assembler that makes them of the source text is external."
  },
  {
   "property": "C62",
   "status": "proved",
   "theorems": [
    "Sentinel.C62_order",
    "Sentinel.C62_backlog",
    "Sentinel.C62_ready",
    "Sentinel.C62_line",
    "Sentinel.C62_terminal"
   ],
   "note": "heapless' Queue (a FIFO of 63 bytes) and critical_section (interrupts off) are assumptions of the model (Soc/Firmware.lean)."
  },
  {
   "property": "C63",
   "status": "proved",
   "theorems": [
    "Sentinel.C63_drain",
    "Sentinel.C63_return",
    "Sentinel.C63_stuck"
   ],
   "note": ""
  },
  {
   "property": "C64",
   "status": "proved",
   "theorems": [
    "Sentinel.C64_order",
    "Sentinel.C64_progress",
    "Sentinel.C64_mailbox",
    "Sentinel.C64_atomic",
    "Sentinel.C64_take",
    "Sentinel.C64_keyboard"
   ],
   "note": ""
  },
  {
   "property": "C65",
   "status": "proved",
   "theorems": [
    "Sentinel.C65_wait",
    "Sentinel.C65_drain",
    "Sentinel.C65_nested",
    "Sentinel.C65_nested_time"
   ],
   "note": ""
  },
  {
   "property": "C66",
   "status": "proved",
   "theorems": [
    "Sentinel.C66_session",
    "Sentinel.C66_terminal"
   ],
   "note": "The crates atoi and bitvec are assumptions of the model (Soc/App.lean)."
  },
  {
   "property": "C67",
   "status": "proved",
   "theorems": [
    "Sentinel.C67_enabled",
    "Sentinel.C67_flow"
   ],
   "note": ""
  },
  {
   "property": "C68",
   "status": "proved",
   "theorems": [
    "Sentinel.C68_main",
    "Sentinel.C68_write"
   ],
   "note": ""
  },
  {
   "property": "C69",
   "status": "proved",
   "theorems": [
    "Sentinel.C69_goes_on",
    "Sentinel.C69_unattended"
   ],
   "note": "That the next line is drawn needs the receive line to stay idle: a timer tick is lost if it comes while the handler is reading the timer (D6)."
  },
  {
   "property": "C70",
   "status": "proved",
   "theorems": [
    "Sentinel.C70_keeps_up",
    "Sentinel.C70_typed",
    "Sentinel.C70_full_speed"
   ],
   "note": ""
  },
  {
   "property": "C71",
   "status": "proved",
   "theorems": [
    "Sentinel.C71_waits",
    "Sentinel.C71_dialogue",
    "Sentinel.C71_possible"
   ],
   "note": ""
  },
  {
   "property": "C72",
   "status": "proved",
   "theorems": [
    "Sentinel.AttoCsr.C72_trace",
    "Sentinel.AttoCsr.C72_cycles",
    "Sentinel.AttoCsr.C72_progress",
    "Sentinel.AttoCsr.C72_hang",
    "Sentinel.AttoCsr.C72_safe"
   ],
   "note": "The behaviour of amaranth-soc's wishbone.Decoder, WishboneCSRBridge, csr.Decoder and csr.Bridge is an assumption of the model (Soc/AttoCsr.lean)."
  },
  {
   "property": "C73",
   "status": "proved",
   "theorems": [
    "Sentinel.AttoCsr.C73_access",
    "Sentinel.AttoCsr.C73_strobes",
    "Sentinel.AttoCsr.C73_read",
    "Sentinel.AttoCsr.C73_devices",
    "Sentinel.AttoCsr.C73_send",
    "Sentinel.AttoCsr.C73_receive",
    "Sentinel.AttoCsr.C73_timer"
   ],
   "note": "As C72."
  },
  {
   "property": "C74",
   "status": "proved",
   "theorems": [
    "Sentinel.AttoCsr.C74_latency",
    "Sentinel.AttoCsr.C74_taken",
    "Sentinel.AttoCsr.C74_quiet",
    "Sentinel.AttoCsr.C74_mip"
   ],
   "note": "As C72."
  },
  {
   "property": "C75",
   "status": "proved",
   "theorems": [
    "Sentinel.AttoCsr.C75_leds",
    "Sentinel.AttoCsr.C75_safe",
    "Sentinel.AttoCsr.C75_requests"
   ],
   "note": "As C72 and C61."
  },
  {
   "property": "C76",
   "status": "proved",
   "theorems": [
    "Sentinel.C76_steps",
    "Sentinel.C76_steps_csr",
    "Sentinel.C76_speed",
    "Sentinel.C76_terminal",
    "Sentinel.C76_send",
    "Sentinel.C76_send_csr",
    "Sentinel.C76_keyboard",
    "Sentinel.C76_keyboard_csr"
   ],
   "note": "EnableInserter is external: all registers and memory ports of the SoC keep their contents when it is disabled. The clock is 3.8% slower than the serial port assumes (D12)."
  },
  {
   "property": "C77",
   "status": "proved",
   "theorems": [
    "Sentinel.C77_hex",
    "Sentinel.C77_arty"
   ],
   "note": "The exception for the Arty A7 is deviation D11."
  },
  {
   "property": "C78",
   "status": "proved",
   "theorems": [
    "Sentinel.C78_regs",
    "Sentinel.C78_csrs",
    "Sentinel.C78_trap",
    "Sentinel.C78_pc",
    "Sentinel.C78_bus"
   ],
   "note": "For the destination register and the CSR written see C02-C10, for traps C17."
  },
  {
   "property": "C79",
   "status": "proved",
   "theorems": [
    "Sentinel.C79_pc",
    "Sentinel.C79_regs",
    "Sentinel.C79_csrs"
   ],
   "note": "Reports with a trap are left out of the register check: they may name a register that is not written (C53, D9)."
  },
  {
   "property": "C80",
   "status": "proved",
   "theorems": [
    "Sentinel.C80_order",
    "Sentinel.C80_backlog",
    "Sentinel.C80_ready",
    "Sentinel.C80_line",
    "Sentinel.C80_terminal",
    "Sentinel.C80_drain",
    "Sentinel.C80_drain_time",
    "Sentinel.C80_main",
    "Sentinel.C80_write",
    "Sentinel.C80_nested",
    "Sentinel.C80_stuck"
   ],
   "note": "As C62, C63, C65 and C68, on the CSR bus."
  },
  {
   "property": "C81",
   "status": "proved",
   "theorems": [
    "Sentinel.C81_order",
    "Sentinel.C81_progress",
    "Sentinel.C81_mailbox",
    "Sentinel.C81_atomic",
    "Sentinel.C81_take",
    "Sentinel.C81_keyboard"
   ],
   "note": "As C64, on the CSR bus."
  },
  {
   "property": "C82",
   "status": "proved",
   "theorems": [
    "Sentinel.C82_session",
    "Sentinel.C82_terminal",
    "Sentinel.C82_enabled",
    "Sentinel.C82_flow",
    "Sentinel.C82_goes_on",
    "Sentinel.C82_unattended"
   ],
   "note": "As C66, C67 and C69, on the CSR bus."
  },
  {
   "property": "C83",
   "status": "proved",
   "theorems": [
    "Sentinel.C83_keeps_up",
    "Sentinel.C83_typed",
    "Sentinel.C83_full_speed",
    "Sentinel.C83_waits",
    "Sentinel.C83_dialogue",
    "Sentinel.C83_possible"
   ],
   "note": "As C70 and C71, on the CSR bus."
  },
  {
   "property": "C84",
   "status": "proved",
   "theorems": [
    "Sentinel.Soc.C84_transparent",
    "Sentinel.Soc.C84_thread",
    "Sentinel.Soc.C84_return",
    "Sentinel.Soc.C84_progress",
    "Sentinel.Soc.C84_count"
   ],
   "note": "C84_count applies it to a concrete program and handler."
  },
  {
   "property": "C85",
   "status": "proved",
   "theorems": [
    "Sentinel.C85_insn",
    "Sentinel.C85_quiet",
    "Sentinel.C85_csrw",
    "Sentinel.C85_csr_trap",
    "Sentinel.C85_ill",
    "Sentinel.C85_zero",
    "Sentinel.C85_csrw_zero",
    "Sentinel.C85_const",
    "Sentinel.C85_liveness",
    "Sentinel.C85_mpie",
    "Sentinel.C85_cover"
   ],
   "note": "The checks pc_fwd and reg (of reports without trap) are C79, unique and causal C49. mip: only the parts that do not depend on when the line is sampled, as in checks.cfg. C85_mpie is deviation D13. Of the two assumptions of wrapper.sv (no acknowledgement in the first cycle, trap_nest < 2) only the first is needed."
  },
  {
   "property": "C86",
   "status": "proved",
   "theorems": [
    "Sentinel.C86_bound",
    "Sentinel.C86_sharp",
    "Sentinel.C86_dispatch",
    "Sentinel.C86_entry",
    "Sentinel.C86_latency",
    "Sentinel.C86_reports"
   ],
   "note": "C86_sharp: the bound is reached for every W."
  },
  {
   "property": "C87",
   "status": "proved",
   "theorems": [
    "Sentinel.C87_script",
    "Sentinel.C87_boot",
    "Sentinel.C87_contract",
    "Sentinel.Soc.C87_soc",
    "Sentinel.Soc.C87_flat",
    "Sentinel.Soc.C87_vault",
    "Sentinel.Soc.C87_leaky"
   ],
   "note": "C87_script: from dispatch to dispatch the bus follows the script of the specification. C87_contract: two executions on any bus; C87_soc, C87_flat: with a memory. C87_vault: a program for which the hypothesis holds for all secrets; C87_leaky: one for which it does not, and whose traffic really differs."
  },
  {
   "property": "C88",
   "status": "proved",
   "theorems": [
    "Sentinel.C88_tx",
    "Sentinel.C88_rx"
   ],
   "note": "The bit-level UART is Soc/UartBits; C40, C46-C48 and the claims about the SoC are stated with the UART of Soc/Uart, and so hold for the circuit."
  },
  {
   "property": "C89",
   "status": "proved",
   "theorems": [
    "Sentinel.Soc.C89_boundary",
    "Sentinel.C89_any",
    "Sentinel.Soc.C89_flat",
    "Sentinel.Soc.C89_history",
    "Sentinel.Soc.C89_shift"
   ],
   "note": "C89_shift proves that the exception for shifts is needed. The history is for runs with the interrupt line constant in each; C89_boundary is for any waveform. CSRs other than mie, meie and mcause (which are reset) are not part of the claim."
  },
  {
   "property": "C90",
   "status": "proved",
   "theorems": [
    "Sentinel.C90_events",
    "Sentinel.C90_state",
    "Sentinel.C90_flat",
    "Sentinel.Slow.C90_slow"
   ],
   "note": "Needs a registered ACK, as everything (C30). Data on the lines to the core when a write is answered may differ and is left out of the comparison (seen). C90_slow: a memory with arbitrary wait states meets the assumptions of C90_flat."
  },
  {
   "property": "C91",
   "status": "proved",
   "theorems": [
    "Sentinel.Soc.C91_code"
   ],
   "note": "With WBMemory. Corollary of C38; stated on its own because programs rely on it."
  },
  {
   "property": "C92",
   "status": "proved",
   "theorems": [
    "Sentinel.C92_encoding",
    "Sentinel.C92_table",
    "Sentinel.C92_unique",
    "Sentinel.C92_illegal",
    "Sentinel.C92_imm",
    "Sentinel.C92_shift",
    "Sentinel.C92_upper",
    "Sentinel.C92_load",
    "Sentinel.C92_store",
    "Sentinel.C92_branch",
    "Sentinel.C92_jal",
    "Sentinel.C92_jalr"
   ],
   "note": "The decoder of the specification against two other descriptions of the encoding, and the core against these; the three words of D2 trap with cause 11 (C13)."
  },
  {
   "property": "C93",
   "status": "proved",
   "theorems": [
    "Sentinel.AttoN.C93_same",
    "Sentinel.AttoN.C93_program",
    "Sentinel.AttoN.C93_until",
    "Sentinel.AttoN.C93_primes",
    "Sentinel.AttoCsrN.C93_same",
    "Sentinel.AttoCsrN.C93_program",
    "Sentinel.AttoCsrN.C93_until",
    "Sentinel.AttoCsrN.C93_primes"
   ],
   "note": "Removes the simplification that the depth of WBMemory is a power of two; a row that does not exist reads as an arbitrary word, a write to it is ignored."
  },
  {
   "property": "C94",
   "status": "proved",
   "theorems": [
    "Sentinel.Atto.C94_reset",
    "Sentinel.Atto.C94_memory",
    "Sentinel.Atto.C94_any",
    "Sentinel.Atto.C94_primes",
    "Sentinel.AttoCsr.C94_reset",
    "Sentinel.AttoCsr.C94_memory",
    "Sentinel.AttoCsr.C94_any",
    "Sentinel.AttoCsr.C94_primes"
   ],
   "note": "The synchronizer between button and reset is external; a reset held for several cycles is as many resets."
  },
  {
   "property": "C95",
   "status": "proved",
   "theorems": [
    "Sentinel.AttoCsr.C95_count",
    "Sentinel.AttoCsr.C95_prompt",
    "Sentinel.AttoCsr.C95_clock",
    "Sentinel.AttoCsr.C95_exact"
   ],
   "note": "The clock is a program of 16 words written for this theorem; /repo has none that counts (the handler of attosoc.rs counts, but its main loop resets the count). The bound on the delay is not tight. The Wishbone SoC can lose an interrupt (deviation D6), so there the claim is false in general."
  },
  {
   "property": "C96",
   "status": "proved",
   "theorems": [
    "Sentinel.Atto.C96_wb",
    "Sentinel.Atto.C96_wb_pins",
    "Sentinel.AttoCsr.C96_csr",
    "Sentinel.AttoCsr.C96_csr_pins",
    "Sentinel.Atto.C96_wb_cycles",
    "Sentinel.AttoCsr.C96_csr_cycles",
    "Sentinel.Atto.C96_wb_tx",
    "Sentinel.AttoCsr.C96_csr_tx",
    "Sentinel.C96_same",
    "Sentinel.C96_primes"
   ],
   "note": "Portable is defined by a machine of its own (Spec/Portable.lean) that gives up at the first thing that could depend on the SoC or the environment. What is compared is the state at the dispatches, not in the cycles between. The cycles on the two SoCs differ: an access to a register takes 2 cycles on Wishbone and 6 on the CSR bus (C28, C72)."
  },
  {
   "property": "C97",
   "status": "proved",
   "theorems": [
    "Sentinel.C97_stays",
    "Sentinel.C97_enter",
    "Sentinel.C97_trap",
    "Sentinel.C97_section",
    "Sentinel.Soc.C97_soc"
   ],
   "note": "The instructions allowed in the section are all but MRET and CSR instructions on mstatus, mie and mip. An instruction that traps in the section goes to the handler with interrupts still off, and the section goes on there. C97_section compares two histories with the same answers on the bus (on a bus whose answers depend on the interrupt line, that line would be a data input); C97_soc has the memory of the SoC in the loop. This is the assumption about critical_section::with made in Soc/Firmware."
  },
  {
   "property": "C98",
   "status": "proved",
   "theorems": [
    "Sentinel.C98_reg",
    "Sentinel.C98_csr",
    "Sentinel.C98_trap",
    "Sentinel.C98_mcause",
    "Sentinel.C98_exceptions",
    "Sentinel.C98_mepc"
   ],
   "note": "Bit 31 of mcause can be set with any of the codes once an interrupt has been taken (D1, C18), so C98_mcause leaves it open; C98_exceptions has it clear as long as interrupts have been off."
  },
  {
   "property": "C99",
   "status": "proved",
   "theorems": [
    "Sentinel.WbMem.C99_ack",
    "Sentinel.WbMem.C99_write",
    "Sentinel.WbMem.C99_read",
    "Sentinel.WbMem.C99_idle",
    "Sentinel.WbTimer.C99_ack",
    "Sentinel.WbTimer.C99_quiet",
    "Sentinel.WbLeds.C99_ack",
    "Sentinel.WbLeds.C99_write",
    "Sentinel.WbLeds.C99_idle",
    "Sentinel.WbSerial.C99_ack",
    "Sentinel.WbSerial.C99_once",
    "Sentinel.WbCsr.C99_ack",
    "Sentinel.C99_core"
   ],
   "note": "Reading the timer or the data register of the serial port acts in both cycles of the access (D6), so there is no once for them. The CSR bridge is external; what is proved is about the model of its documented behaviour."
  }
 ]
}