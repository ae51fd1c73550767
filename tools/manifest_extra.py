T += [
 ("C37", "proved", S, "C37_table C37_exception C12_illegal C12_zero", ""),
 ("C41", "proved", S, "C41_immediate", ""),
 ("C42", "proved", S, "C42_dispatch C42_csr C42_distinct C42_flagged", ""),
 ("C43", "proved", S, "C43_ops C43_mods C43_zero", ""),
]
T += [
 ("C39", "partial", S, "C39_next C39_period C39_read C39_no_loss_partial C39_race C39_full_false C39_csr",
  "The exact law of the interrupt line is proved for every history. The full no-loss statement C39_full is false of the Wishbone timer (race D6, exhibited in C39_race); C39_no_loss_partial excludes exactly an interrupt raised in the acknowledge cycle of a read. For the CSR-bus timer the statement holds without exception (C39_csr)."),
 ("C40", "proved", S, "C40_transmit C40_receive C40_tolerance C40_stream C40_overflow", ""),
]
T += [
 ("C46", "proved", S, "C46_irq C46_reset C46_csr", ""),
 ("C47", "proved", S, "C47_write C47_start C47_read C47_receive C47_race C47_csr", "C47_race shows that a read already under way when the character becomes available takes it without returning it (deviation D8)."),
 ("C48", "proved", S, "C48_leds C48_write C48_csr", ""),
]
T += [
 ("C49", "proved", S, "C49_valid C49_insn C49_order", ""),
 ("C50", "proved", S, "C50_pc C50_rs", ""),
 ("C51", "proved", S, "C51_mem C51_load C51_store C51_none", ""),
 ("C52", "proved", S, "C52_trap C52_intr C52_first", ""),
 ("C53", "partial", S, "C53_rd_partial C53_csr C53_none C53_stale C53_d9 C53_full_false", "Proved for every instruction that completes and for CSR instructions that trap. The full statement is false of the code: any other instruction that traps reports its destination register with the value last written by an earlier instruction (deviation D9, C53_stale in general, C53_d9 on a run)."),
 ("C54", "proved", S, "C54_rdata C54_mip C54_wdata C54_always C54_mie C54_mstatus_trap C54_mstatus_mret C54_mip_line C54_d15", "mstatus around traps and MRET: deviation D15."),
 ("C55", "proved", S, "C55_wdata C55_zero C55_wmask C55_keep C55_next", ""),
]
T += [
 ("C56", "proved", S + "Atto.", "C56_trace C56_progress C56_safe C56_hang", "The behaviour of amaranth-soc's wishbone.Decoder is an assumption of the model (Soc/Atto.lean)."),
 ("C57", "proved", S + "Atto.", "C57_devices C57_read C57_send", ""),
 ("C58", "proved", S + "Atto.", "C58_latency C58_taken", ""),
 ("C59", "proved", S + "Atto.", "C59_wishbone C59_mip Sentinel.C59_csr", ""),
]
T += [
 ("C60", "proved", S, "C60_fits C60_bytes C60_words C60_boot C60_elf C60_elf_gap", "C60_elf_gap shows that the condition on the segments is needed: with a gap between them, or with a third segment, the image is wrong."),
 ("C61", "proved", S + "Atto.", "C61_leds C61_safe C61_shown C61_requests Sentinel.C61_loaded", "About the machine words of the firmware (Soc/Primes.lean); the assembler that makes them of the source text is external."),
]
T += [
 ("C62", "proved", S, "C62_order C62_backlog C62_ready C62_line C62_terminal", "heapless' Queue (a FIFO of 63 bytes) and critical_section (interrupts off) are assumptions of the model (Soc/Firmware.lean)."),
 ("C63", "proved", S, "C63_drain C63_return C63_stuck", ""),
 ("C64", "proved", S, "C64_order C64_progress C64_mailbox C64_atomic C64_take C64_keyboard", ""),
 ("C65", "proved", S, "C65_wait C65_drain C65_nested C65_nested_time", ""),
 ("C66", "proved", S, "C66_session C66_terminal", "The crates atoi and bitvec are assumptions of the model (Soc/App.lean)."),
 ("C67", "proved", S, "C67_enabled C67_flow", ""),
 ("C68", "proved", S, "C68_main C68_write", ""),
 ("C69", "proved", S, "C69_goes_on C69_unattended", "That the next line is drawn needs the receive line to stay idle: a timer tick is lost if it comes while the handler is reading the timer (D6)."),
 ("C70", "proved", S, "C70_keeps_up C70_typed C70_full_speed", ""),
 ("C71", "proved", S, "C71_waits C71_dialogue C71_possible", ""),
 ("C72", "proved", S + "AttoCsr.", "C72_trace C72_cycles C72_progress C72_hang C72_safe", "The behaviour of amaranth-soc's wishbone.Decoder, WishboneCSRBridge, csr.Decoder and csr.Bridge is an assumption of the model (Soc/AttoCsr.lean)."),
 ("C73", "proved", S + "AttoCsr.", "C73_access C73_strobes C73_read C73_devices C73_send C73_receive C73_timer", "As C72."),
 ("C74", "proved", S + "AttoCsr.", "C74_latency C74_taken C74_quiet C74_mip", "As C72."),
 ("C75", "proved", S + "AttoCsr.", "C75_leds C75_safe C75_requests", "As C72 and C61."),
 ("C76", "proved", S, "C76_steps C76_steps_csr C76_speed C76_terminal C76_send C76_send_csr C76_keyboard C76_keyboard_csr", "EnableInserter is external: all registers and memory ports of the SoC keep their contents when it is disabled. The clock is 3.8% slower than the serial port assumes (D12)."),
 ("C77", "proved", S, "C77_hex C77_arty", "The exception for the Arty A7 is deviation D11."),
 ("C78", "proved", S, "C78_regs C78_csrs C78_trap C78_pc C78_bus", "For the destination register and the CSR written see C02-C10, for traps C17."),
 ("C79", "proved", S, "C79_pc C79_regs C79_csrs", "Reports with a trap are left out of the register check: they may name a register that is not written (C53, D9)."),
 ("C80", "proved", S, "C80_order C80_backlog C80_ready C80_line C80_terminal C80_drain C80_drain_time C80_main C80_write C80_nested C80_stuck", "As C62, C63, C65 and C68, on the CSR bus."),
 ("C81", "proved", S, "C81_order C81_progress C81_mailbox C81_atomic C81_take C81_keyboard", "As C64, on the CSR bus."),
 ("C82", "proved", S, "C82_session C82_terminal C82_enabled C82_flow C82_goes_on C82_unattended", "As C66, C67 and C69, on the CSR bus."),
 ("C83", "proved", S, "C83_keeps_up C83_typed C83_full_speed C83_waits C83_dialogue C83_possible", "As C70 and C71, on the CSR bus."),
 ("C84", "proved", S + "Soc.", "C84_transparent C84_thread C84_return C84_progress C84_count", "C84_count applies it to a concrete program and handler."),
 ("C85", "proved", S, "C85_insn C85_quiet C85_csrw C85_csr_trap C85_ill C85_zero C85_csrw_zero C85_const C85_liveness C85_mpie C85_cover", "The checks pc_fwd and reg (of reports without trap) are C79, unique and causal C49. mip: only the parts that do not depend on when the line is sampled, as in checks.cfg. C85_mpie is deviation D13. Of the two assumptions of wrapper.sv (no acknowledgement in the first cycle, trap_nest < 2) only the first is needed."),
 ("C86", "proved", S, "C86_bound C86_sharp C86_dispatch C86_entry C86_latency C86_reports", "C86_sharp: the bound is reached for every W."),
 ("C87", "proved", S, "C87_script C87_boot C87_contract Soc.C87_soc Soc.C87_flat Soc.C87_vault Soc.C87_leaky", "C87_script: from dispatch to dispatch the bus follows the script of the specification. C87_contract: two executions on any bus; C87_soc, C87_flat: with a memory. C87_vault: a program for which the hypothesis holds for all secrets; C87_leaky: one for which it does not, and whose traffic really differs."),
 ("C88", "proved", S, "C88_tx C88_rx", "The bit-level UART is Soc/UartBits; C40, C46-C48 and the claims about the SoC are stated with the UART of Soc/Uart, and so hold for the circuit."),
 ("C89", "proved", S, "Soc.C89_boundary C89_any Soc.C89_flat Soc.C89_history Soc.C89_shift", "C89_shift proves that the exception for shifts is needed. The history is for runs with the interrupt line constant in each; C89_boundary is for any waveform. CSRs other than mie, meie and mcause (which are reset) are not part of the claim."),
 ("C90", "proved", S, "C90_events C90_state C90_flat Slow.C90_slow", "Needs a registered ACK, as everything (C30). Data on the lines to the core when a write is answered may differ and is left out of the comparison (seen). C90_slow: a memory with arbitrary wait states meets the assumptions of C90_flat."),
 ("C91", "proved", S, "Soc.C91_code", "With WBMemory. Corollary of C38; stated on its own because programs rely on it."),
 ("C92", "proved", S, "C92_encoding C92_table C92_unique C92_illegal C92_imm C92_shift C92_upper C92_load C92_store C92_branch C92_jal C92_jalr", "The decoder of the specification against two other descriptions of the encoding, and the core against these; the three words of D2 trap with cause 11 (C13)."),
 ("C93", "proved", S, "AttoN.C93_same AttoN.C93_program AttoN.C93_until AttoN.C93_primes AttoCsrN.C93_same AttoCsrN.C93_program AttoCsrN.C93_until AttoCsrN.C93_primes", "Removes the simplification that the depth of WBMemory is a power of two; a row that does not exist reads as an arbitrary word, a write to it is ignored."),
 ("C94", "proved", S, "Atto.C94_reset Atto.C94_memory Atto.C94_any Atto.C94_primes AttoCsr.C94_reset AttoCsr.C94_memory AttoCsr.C94_any AttoCsr.C94_primes", "The synchronizer between button and reset is external; a reset held for several cycles is as many resets."),
 ("C95", "proved", S, "AttoCsr.C95_count AttoCsr.C95_prompt AttoCsr.C95_clock AttoCsr.C95_exact", "The clock is a program of 16 words written for this theorem; /repo has none that counts (the handler of attosoc.rs counts, but its main loop resets the count). The bound on the delay is not tight. The Wishbone SoC can lose an interrupt (deviation D6), so there the claim is false in general."),
 ("C96", "proved", S, "Atto.C96_wb Atto.C96_wb_pins AttoCsr.C96_csr AttoCsr.C96_csr_pins Atto.C96_wb_cycles AttoCsr.C96_csr_cycles Atto.C96_wb_tx AttoCsr.C96_csr_tx C96_same C96_primes", "Portable is defined by a machine of its own (Spec/Portable.lean) that gives up at the first thing that could depend on the SoC or the environment. What is compared is the state at the dispatches, not in the cycles between. The cycles on the two SoCs differ: an access to a register takes 2 cycles on Wishbone and 6 on the CSR bus (C28, C72)."),
 ("C97", "proved", S, "C97_stays C97_enter C97_trap C97_section Soc.C97_soc", "The instructions allowed in the section are all but MRET and CSR instructions on mstatus, mie and mip. An instruction that traps in the section goes to the handler with interrupts still off, and the section goes on there. C97_section compares two histories with the same answers on the bus (on a bus whose answers depend on the interrupt line, that line would be a data input); C97_soc has the memory of the SoC in the loop. This is the assumption about critical_section::with made in Soc/Firmware."),
 ("C98", "proved", S, "C98_reg C98_csr C98_trap C98_mcause C98_exceptions C98_mepc", "Bit 31 of mcause can be set with any of the codes once an interrupt has been taken (D1, C18), so C98_mcause leaves it open; C98_exceptions has it clear as long as interrupts have been off."),
 ("C99", "proved", S, "WbMem.C99_ack WbMem.C99_write WbMem.C99_read WbMem.C99_idle WbTimer.C99_ack WbTimer.C99_quiet WbLeds.C99_ack WbLeds.C99_write WbLeds.C99_idle WbSerial.C99_ack WbSerial.C99_once WbCsr.C99_ack C99_core", "Reading the timer or the data register of the serial port acts in both cycles of the access (D6), so there is no once for them. The CSR bridge is external; what is proved is about the model of its documented behaviour."),
 ("C100", "proved", S, "C100_receive C100_quick C100_wave C100_boards C100_wb C100_csr", "The line is what the receiver's two-state logic samples: metastability of the unsynchronised input (attosoc.py has no synchroniser on rx) is outside the model. An example shows that the bound on late edges is sharp."),
 ("C101", "proved", S, "C101_order C101_keeps_up C101_stored", "As C64, C67: the firmware's actions at the level of the source (Soc/Firmware), the peripherals by cycle. As in C100 the line is what the receiver samples."),
 ("C102", "proved", S, "C102_waits C102_dialogue C102_possible", "As C76-C78, for a line with its own clock; an example types ctrl-c, 9, 0 and return with bits 4 % too long."),
 ("C103", "proved", S, "C103_stored C103_waits C103_dialogue C103_possible", "As C79-C83 and C100."),
 ("C104", "proved", S, "C104_rest C104_settles C104_resync C104_firmware C104_firmware_csr", "As C100: the line is what the receiver samples."),
 ("C105", "proved", S, "C105_shows C105_says C105_csr C105_unattended C105_unattended_csr C105_dialogue C105_dialogue_csr", "The terminal is a receiver like the UART of attosoc.py; the levels it samples are those of the output in the board's cycle that contains the sampling instant."),
 ("C106", "proved", S, "C106_dialogue C106_dialogue_csr C106_possible C106_possible_csr", "Watched (Spec/Terminal) is the condition on the person; the gap of 33*K+31 cycles and the waiting that C102 and C105 assume are proved from it."),
 ("C107", "proved", S, "Atto.C107_wb Atto.C107_wb_safe Atto.C107_wb_thread Atto.C107_wb_return Atto.C107_wb_progress AttoCsr.C107_csr AttoCsr.C107_csr_safe AttoCsr.C107_csr_thread AttoCsr.C107_csr_return AttoCsr.C107_csr_progress Atto.C107_wb_count AttoCsr.C107_csr_count", "SetupSoc (Spec/InterruptsSoc) is the condition on handler and program; C107_wb_count and C107_csr_count are a concrete handler (it reads the interrupt register of the serial port, counts, and writes the LEDs) and a concrete program, for all pins."),
 ("C108", "proved", S, "AttoCsr.C108_echo AttoCsr.C108_demo AttoCsr.C108_terminal", "The program (Soc/Echo) is not of /repo; it uses the serial port as the firmware does. Line.Levels (Spec/Line) says what levels a line has; C108_demo is the case of a character every 25000 cycles with 1250 cycles per bit."),
]
