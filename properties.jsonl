{"id": "C01", "title": "The core executes RV32I_Zicsr: every trace is an ISA trace", "statement": "From the first fetch after reset, the sequence of completed Wishbone transactions (fetch address, load address/byte lanes, store address/byte lanes/data) is exactly the sequence an RV32I_Zicsr machine-mode hart produces when given the same fetched words, load data and interrupt-line samples.", "quantifier": "all input streams (DAT_I, ACK, IRQ on every cycle, ACK not given in the first cycle of a request), all lengths of execution, all programs", "why_tests_cant": "The set of programs, bus latencies and interrupt arrival times is infinite; tests run a few programs with a few latencies.", "anchors": ["src/sentinel/top.py:Top", "src/sentinel/microcode.asm", "src/sentinel/control.py:Control", "src/sentinel/decode.py:Decode"]}
{"id": "C02", "title": "Register/immediate arithmetic, logic and compare results", "statement": "ADD/SUB/AND/OR/XOR/SLT/SLTU and ADDI/ANDI/ORI/XORI/SLTI/SLTIU write rd with the RV32I result, advance the PC by 4, change nothing else, and make no data access.", "quantifier": "all instruction words of these forms, all register values, all bus latencies, all IRQ patterns that do not cause an interrupt", "why_tests_cant": "2^64 operand pairs per operation, and any latency.", "anchors": ["src/sentinel/alu.py:ALU.elaborate", "src/sentinel/microcode.asm:addi_1..and_1"]}
{"id": "C03", "title": "Shift results for every shift amount", "statement": "SLL/SRL/SRA/SLLI/SRLI/SRAI write rd with the source shifted by the low five bits of the shift amount, including amount 0, any aliasing of rd/rs1/rs2, and advance the PC by 4.", "quantifier": "all instruction words of these forms, all register values, all latencies", "why_tests_cant": "The microcode loops once per bit: correctness is an induction over the shift amount for all operand values.", "anchors": ["src/sentinel/microcode.asm:slli,srli,srai,sll_loop,srl_loop,sra_loop,shift_zero,sll,srl,sra"]}
{"id": "C04", "title": "Loads read the right lanes and extend them", "statement": "LB/LBU/LH/LHU/LW perform exactly one read at the word address of rs1+imm with SEL selecting exactly the accessed bytes, and write rd with the selected bytes sign- or zero-extended.", "quantifier": "all load words, base registers, offsets, returned data, latencies", "why_tests_cant": "All alignments x data x latencies.", "anchors": ["src/sentinel/align.py:AddressAlign", "src/sentinel/align.py:ReadDataAlign", "src/sentinel/microcode.asm:lb,lh,lw,lbu,lhu"]}
{"id": "C05", "title": "Stores write exactly the right bytes", "statement": "SB/SH/SW perform exactly one write at the word address of rs1+imm, with SEL selecting exactly the accessed bytes and the selected DAT_O lanes equal to the low bytes of rs2; no register changes.", "quantifier": "all store words, register values, latencies", "why_tests_cant": "All alignments x data x latencies.", "anchors": ["src/sentinel/align.py:WriteDataAlign", "src/sentinel/microcode.asm:sb,sh,sw"]}
{"id": "C06", "title": "Branches", "statement": "BEQ/BNE/BLT/BGE/BLTU/BGEU go to PC+imm exactly when the comparison of rs1 and rs2 holds, else PC+4, and write no register.", "quantifier": "all branch words and register values", "why_tests_cant": "2^64 operand pairs per comparison.", "anchors": ["src/sentinel/microcode.asm:branch_ops,branch_epilog,taken,not_taken"]}
{"id": "C07", "title": "JAL and JALR", "statement": "JAL writes rd with PC+4 and jumps to PC+imm; JALR writes rd with PC+4 and jumps to (rs1+imm) with bit 0 cleared, including rd=rs1.", "quantifier": "all jump words, PCs and register values", "why_tests_cant": "All operand values and register aliasings.", "anchors": ["src/sentinel/microcode.asm:jal,jalr"]}
{"id": "C08", "title": "LUI and AUIPC", "statement": "LUI writes rd with imm<<12; AUIPC writes rd with PC+(imm<<12); PC advances by 4.", "quantifier": "all words of these forms, all PCs", "why_tests_cant": "All immediates and PCs.", "anchors": ["src/sentinel/microcode.asm:lui,auipc", "src/sentinel/decode.py:ImmediateGenerator"]}
{"id": "C09", "title": "FENCE and WFI are no-ops", "statement": "FENCE (MISC-MEM funct3 0) and WFI only advance the PC by 4.", "quantifier": "all words of these forms, all states", "why_tests_cant": "All encodings and states.", "anchors": ["src/sentinel/microcode.asm:misc_mem", "src/sentinel/control.py:MappingROM"]}
{"id": "C10", "title": "CSR instructions atomically return the old value and write the new one", "statement": "CSRRW/CSRRS/CSRRC and the immediate forms on an implemented CSR write rd with the CSR's value before the instruction and the CSR with respectively the operand, old|operand, old&~operand, subject to the CSR's writable bits, including rd=rs1.", "quantifier": "all CSR instruction words to implemented CSRs, all register and CSR values", "why_tests_cant": "All operand values, CSRs and aliasings.", "anchors": ["src/sentinel/microcode.asm:csrw_1..csrrci_1,csrrs_2,csrrc_2", "src/sentinel/datapath.py:CSRFile"]}
{"id": "C11", "title": "CSR writes are suppressed for CSRRS/CSRRC with rs1=x0 or uimm=0", "statement": "CSRRS/CSRRC(I) with source field 0 read the CSR, write rd, and leave every CSR unchanged; they are legal on read-only CSRs.", "quantifier": "all such instruction words, all states", "why_tests_cant": "All CSRs and states.", "anchors": ["src/sentinel/control.py:MappingROM.elaborate", "src/sentinel/microcode.asm:csrr"]}
{"id": "C12", "title": "Unimplemented, read-only and non-machine CSR accesses", "statement": "Access to a CSR address that is not implemented, a write to a read-only-space CSR, or access to a non-machine-mode CSR traps with an illegal-instruction exception and changes no register or CSR other than the trap CSRs; accesses to read-only-zero CSRs return 0 and ignore writes.", "quantifier": "all 4096 CSR addresses, all six CSR instructions, all states", "why_tests_cant": "4096 addresses x forms x states, and the lookup table ignores two address bits.", "anchors": ["src/sentinel/decode.py:CSRAttributes", "src/sentinel/decode.py:ExceptionControl"]}
{"id": "C13", "title": "Every illegal instruction word traps as illegal instruction", "statement": "A fetched word that is not an instruction of RV32I_Zicsr/MRET/WFI enters the trap handler with mcause 2, mepc = its address, no register or memory change.", "quantifier": "all 2^32 instruction words, all states", "why_tests_cant": "2^32 words in every state. (False in the code for 0x70, 0x71, 0x72: reported.)", "anchors": ["src/sentinel/decode.py:ExceptionControl.elaborate"]}
{"id": "C14", "title": "ECALL and EBREAK", "statement": "ECALL traps with mcause 11, EBREAK with mcause 3, mepc = address of the instruction.", "quantifier": "all states", "why_tests_cant": "All states.", "anchors": ["src/sentinel/decode.py:ExceptionControl.elaborate"]}
{"id": "C15", "title": "Misaligned loads and stores trap with no bus access", "statement": "LH/LHU/LW/SH/SW at a misaligned address make no data bus request, change no register, and trap with mcause 4 (load) or 6 (store) and mepc = address of the instruction.", "quantifier": "all load/store words and register values", "why_tests_cant": "All addresses and latencies.", "anchors": ["src/sentinel/exception.py:ExceptionRouter", "src/sentinel/microcode.asm:lh,lw,sh,sw"]}
{"id": "C16", "title": "Misaligned jump targets trap before any effect", "statement": "JAL, JALR and taken branches to a target that is not 4-byte aligned trap with mcause 0 and mepc = address of the jump, leaving rd unchanged; not-taken branches never trap.", "quantifier": "all such words, PCs and register values", "why_tests_cant": "All targets.", "anchors": ["src/sentinel/exception.py:ExceptionRouter", "src/sentinel/microcode.asm:taken,jal,jalr"]}
{"id": "C17", "title": "Trap entry", "statement": "On any trap: mepc = PC of the trapped instruction, mcause = cause, mstatus.MPIE = old MIE, MIE = 0, next fetch at mtvec base, and x1..x31, mtvec, mscratch, mie are unchanged.", "quantifier": "all traps, all states", "why_tests_cant": "All states and causes.", "anchors": ["src/sentinel/microcode.asm:save_pc", "src/sentinel/datapath.py:CSRFile"]}
{"id": "C18", "title": "A synchronous exception never reports the interrupt bit in mcause", "statement": "The mcause value written on a synchronous exception has bit 31 clear.", "quantifier": "all executions and histories of interrupts", "why_tests_cant": "Depends on the whole history of interrupts. (False in the code once any interrupt has been taken: reported.)", "anchors": ["src/sentinel/exception.py:ExceptionRouter.elaborate"]}
{"id": "C19", "title": "Interrupts are taken exactly when enabled and pending, at instruction boundaries", "statement": "At dispatch, the external interrupt is taken (mcause 0x8000000B) if and only if IRQ, mstatus.MIE and mie.MEIE are all set, in preference to the exception of the fetched instruction, and the instruction has no effect.", "quantifier": "all IRQ waveforms and all states", "why_tests_cant": "IRQ can arrive on any cycle of any instruction.", "anchors": ["src/sentinel/exception.py:ExceptionRouter.elaborate", "src/sentinel/microcode.asm:check_int"]}
{"id": "C20", "title": "MRET", "statement": "MRET sets PC=mepc, MIE=MPIE, MPIE=1 and changes nothing else.", "quantifier": "all states", "why_tests_cant": "All states.", "anchors": ["src/sentinel/microcode.asm:mret", "src/sentinel/datapath.py:CSRFile"]}
{"id": "C21", "title": "x0 reads as zero for ever", "statement": "After the reset sequence the storage behind x0 holds 0 on every cycle, whatever instructions execute and whatever the bus answers (even if ACK timing is arbitrary).", "quantifier": "all input streams without restriction, all times after reset", "why_tests_cant": "Any microinstruction of any program might write it.", "anchors": ["src/sentinel/datapath.py:RegFile.elaborate", "src/sentinel/microcode.asm:reset"]}
{"id": "C22", "title": "Reset from any state", "statement": "Asserting reset for one or more cycles from any state whatsoever leads, with any inputs, to a first fetch at address 0 with MIE=0, MEIE=0, mcause=0, x0=0, having made no bus request in between, and with x1-x31, mtvec and mscratch unchanged (a register write in the cycle in which reset comes is completed). mepc is unchanged or 0, and mstatus is 0x1800 or (if a one-cycle reset falls in MRET) 0x1880; if reset is held for two cycles mstatus is 0x1800.", "quantifier": "all states (including every stale microinstruction), all inputs during and after reset, all reset lengths", "why_tests_cant": "The code relies on what a stale microinstruction can do for one cycle; the source says this was never characterised.", "anchors": ["src/sentinel/control.py:Sequencer", "src/sentinel/top.py:Top.elaborate", "src/sentinel/microcode.asm:reset"]}
{"id": "C23", "title": "Wishbone requests are held stable until ACK", "statement": "While CYC/STB are asserted and ACK is not, ADR, SEL, WE, CYC, STB and (for writes) DAT_W stay the same on the next cycle.", "quantifier": "all input streams, all times after reset", "why_tests_cant": "Any latency at any transaction.", "anchors": ["src/sentinel/top.py:Top.elaborate", "src/sentinel/microcode.asm"]}
{"id": "C24", "title": "CYC and STB drop on the cycle after ACK", "statement": "On the cycle after an ACKed request of a registered-ACK bus, CYC and STB are low; CYC and STB are always equal.", "quantifier": "all input streams, all times after reset", "why_tests_cant": "Any transaction.", "anchors": ["src/sentinel/top.py:Top.elaborate", "src/sentinel/microcode.asm"]}
{"id": "C25", "title": "Request shape", "statement": "Fetches use SEL=1111 and WE=0; data requests use SEL in {1,2,4,8,3,12,15}; WE is asserted only for stores; no request has SEL=0.", "quantifier": "all times after reset, all inputs", "why_tests_cant": "Any request of any program.", "anchors": ["src/sentinel/align.py:AddressAlign"]}
{"id": "C26", "title": "Microcode never reaches a panic, halt or empty location", "statement": "In every execution from reset the microprogram address is always one of a fixed set of written microinstructions, never panic, halt, or a hole in the ROM.", "quantifier": "all input streams without restriction, all times", "why_tests_cant": "Control flow depends on all decoded words.", "anchors": ["src/sentinel/microcode.asm", "src/sentinel/control.py:MappingROM"]}
{"id": "C27", "title": "Progress", "statement": "If the bus eventually acknowledges every request, the core completes infinitely many instructions.", "quantifier": "all fair input streams, all programs", "why_tests_cant": "Liveness over infinite executions.", "anchors": ["src/sentinel/microcode.asm", "src/sentinel/top.py:Top"]}
{"id": "C28", "title": "Exact instruction timing", "statement": "Every instruction takes exactly the cycle count given by its class (and shift amount) plus the bus wait states.", "quantifier": "all instruction words, all states, all latencies", "why_tests_cant": "All latencies and operands.", "anchors": ["doc/development/internals.md", "src/sentinel/microcode.asm"]}
{"id": "C29", "title": "Architectural state refinement", "statement": "At every dispatch the PC, x1..x31 and every CSR equal those of the ISA machine that consumed the same fetches, loads and interrupt samples.", "quantifier": "all input streams, all numbers of instructions", "why_tests_cant": "Inductive over the whole execution.", "anchors": ["src/sentinel/top.py:Top"]}
{"id": "C30", "title": "Same-cycle ACK is not safe", "statement": "(Negative) With a bus that acknowledges in the first cycle of a request the core writes a result to the wrong register; the no-first-cycle-ACK precondition of the other properties cannot be dropped.", "quantifier": "existence of an execution", "why_tests_cant": "Needs the interaction of prefetch and ACK timing.", "anchors": ["src/sentinel/microcode.asm:addi", "src/sentinel/decode.py:Decode.elaborate", "src/sentinel/top.py:Top"]}
{"id": "C31", "title": "WARL fields of CSRs", "statement": "Reading back: mtvec and mepc have bits 1:0 clear; mstatus only has MIE, MPIE variable and MPP=3; mie has only MEIE variable; mscratch and mcause keep all 32 bits.", "quantifier": "all written values, all histories", "why_tests_cant": "All 2^32 values and all histories.", "anchors": ["src/sentinel/datapath.py:CSRFile.elaborate", "src/sentinel/csr.py"]}
{"id": "C32", "title": "mip mirrors the IRQ line", "statement": "A read of mip returns only MEIP=the IRQ input in the cycle of the read (the third clock cycle of the instruction, counted from the cycle its fetch is acknowledged); writes to mip have no effect.", "quantifier": "all IRQ waveforms and writes", "why_tests_cant": "All waveforms.", "anchors": ["src/sentinel/datapath.py:CSRFile.elaborate"]}
{"id": "C33", "title": "A value written by an instruction is seen by the very next instruction", "statement": "With the eager register read during write-back, the next instruction's operands are the updated register values whatever its latency.", "quantifier": "all pairs of instructions, all latencies", "why_tests_cant": "Depends on the relative timing of write and read ports.", "anchors": ["src/sentinel/datapath.py:RegFile.elaborate", "src/sentinel/microcode.asm:fast_epilog"]}
{"id": "C34", "title": "Microcode words round-trip through the 48-bit ROM encoding", "statement": "Each field read from the ROM output equals the field assembled; fields do not overlap and cover all 48 bits.", "quantifier": "all microinstructions", "why_tests_cant": "All field combinations.", "anchors": ["src/sentinel/ucoderom.py:UCodeROM", "src/sentinel/microcode.asm:fields"]}
{"id": "C35", "title": "Field layout of a microcode ROM places every field at its declared origin", "statement": "The layout built from a list of fields with padding gives each field its declared offset and width.", "quantifier": "all lists of fields sorted by origin, non-overlapping", "why_tests_cant": "All possible microcode sources. (False for two or more gaps: reported.)", "anchors": ["src/sentinel/ucoderom.py:UCodeROM._create_field_layout"]}
{"id": "C36", "title": "Field and enum validation against the hardware definitions", "statement": "Assembly is accepted only if every enum member of the microcode source has the same value as the hardware enum and the widths agree.", "quantifier": "all field definitions and hardware enums", "why_tests_cant": "All sources.", "anchors": ["src/sentinel/ucoderom.py:UCodeROM._check_and_convert_dynamic_enum"]}
{"id": "C37", "title": "CSR attribute table for the whole address space", "statement": "The (reduced-width) CSR lookup combined with the quadrant check classifies each of the 4096 addresses as implemented, read-only zero, or illegal exactly as documented.", "quantifier": "all 4096 CSR addresses", "why_tests_cant": "Aliasing in the reduced index.", "anchors": ["src/sentinel/decode.py:CSRAttributes"]}
{"id": "C38", "title": "Core plus Wishbone memory executes programs on flat memory", "statement": "With the example SoC's synchronous RAM attached, every program runs as on an ISA machine with a flat word memory, with no assumption on the bus.", "quantifier": "all memory contents, all times", "why_tests_cant": "All programs.", "anchors": ["examples/attosoc.py:WBMemory", "src/sentinel/top.py:Top"]}
{"id": "C39", "title": "Example SoC timer", "statement": "The timer raises IRQ exactly according to its count/prescaler registers and write-to-clear semantics.", "quantifier": "all write histories", "why_tests_cant": "All histories.", "anchors": ["examples/attosoc.py:WBTimer"]}
{"id": "C40", "title": "Example SoC UART loopback", "statement": "A byte written by the transmitter is received unchanged by a receiver on the same line, for all bytes, divisors.", "quantifier": "all bytes, all divisors, all start times", "why_tests_cant": "All bytes and phases.", "anchors": ["examples/attosoc.py:UART"]}
{"id": "C41", "title": "Immediate generation", "statement": "The decoded immediate equals the RV32I I/S/B/U/J immediate of the word.", "quantifier": "all 2^32 words", "why_tests_cant": "All words.", "anchors": ["src/sentinel/insn.py:Insn.Imm", "src/sentinel/decode.py:ImmediateGenerator"]}
{"id": "C42", "title": "Dispatch table", "statement": "Each legal instruction word is dispatched to the microroutine of that instruction and to no other.", "quantifier": "all 2^32 words", "why_tests_cant": "All words.", "anchors": ["src/sentinel/control.py:MappingROM"]}
{"id": "C43", "title": "ALU unit correctness", "statement": "Each ALU operation with its modifiers computes the specified 32-bit function; the zero flag is exact.", "quantifier": "all operands", "why_tests_cant": "2^64 operand pairs.", "anchors": ["src/sentinel/alu.py:ALU"]}
{"id": "C44", "title": "Alignment units", "statement": "AddressAlign, ReadDataAlign and WriteDataAlign compose: a store followed by a load of the same width/address over any byte-lane memory returns the (extended) stored value and touches no other byte.", "quantifier": "all addresses, widths, data, memories", "why_tests_cant": "All combinations.", "anchors": ["src/sentinel/align.py"]}
{"id": "C45", "title": "Clock enable freezes the core", "statement": "With the clock enable low no state element changes, and the outputs stay the same; interleaving arbitrary disabled cycles does not change the sequence of states.", "quantifier": "all en/input interleavings", "why_tests_cant": "All interleavings.", "anchors": ["src/sentinel/top.py:Top"]}
{"id": "C46", "title": "Serial port interrupt register", "statement": "Bit 0 of the IRQ register is set exactly if a received character became available since (or in the cycle of) the last read of the register, bit 1 likewise for the transmitter becoming ready; the interrupt line is the OR of the bits; a read returns exactly the bits it clears, so no event is lost or reported twice. After reset the Wishbone version raises an interrupt at once and the CSR version raises none.", "quantifier": "all bus request histories, all line histories, all divisors, from reset", "why_tests_cant": "The bits depend on the whole history and on coincidences of an event with a read.", "anchors": ["examples/attosoc.py:WBSerial", "examples/attosoc.py:CSRSerial"]}
{"id": "C47", "title": "Serial port data register", "statement": "An acknowledged write of a byte while the transmitter is ready sends exactly the frame of this byte, whatever else happens; nothing else starts a transmission, and writes while busy are dropped; a byte received from the line is returned by the first read of the data register that begins when it has been received, however late, with an interrupt raised, unless (Wishbone version only) an earlier read is in its last cycle just then.", "quantifier": "all bytes, divisors, bus and line histories, all delays of the read", "why_tests_cant": "All interleavings of bus accesses with bits on the line.", "anchors": ["examples/attosoc.py:WBSerial", "examples/attosoc.py:UART"]}
{"id": "C48", "title": "LED and GPIO registers", "statement": "The LEDs, output pins and output enables always equal the last byte written to their register (0 before the first write); nothing else changes them; a read of the in/out register returns the input pins as they were when the read began.", "quantifier": "all bus request histories and pin histories, from reset", "why_tests_cant": "All histories.", "anchors": ["examples/attosoc.py:WBLeds", "examples/attosoc.py:CSRLeds"]}
{"id": "C49", "title": "RVFI: every retired instruction is reported exactly once", "statement": "The harness raises `valid` exactly in the last cycle of each executed instruction (never otherwise), with the instruction word that was executed, and `order` numbers the reports consecutively from 0.", "quantifier": "all programs, bus timings, interrupt histories and cycles, from reset of core and harness", "why_tests_cant": "Unbounded executions; the harness infers retirement from microcode addresses.", "anchors": ["src/sentinel/formal.py:FormalTop.elaborate", "src/sentinel/top.py:Top"]}
{"id": "C50", "title": "RVFI: program counter and source registers", "statement": "The report of an instruction gives its address, the address of the instruction executed next (also for jumps and traps), the register numbers in its rs1 and rs2 fields, and the values these registers had before it.", "quantifier": "all executed instructions in all executions", "why_tests_cant": "Depends on pipelining of fetch and read ports with arbitrary wait states.", "anchors": ["src/sentinel/formal.py:FormalTop.elaborate"]}
{"id": "C51", "title": "RVFI: memory accesses", "statement": "The report of an instruction gives address, byte lanes and data of its data access exactly as on the bus; an instruction that traps or is no load or store reports empty masks; the value of a load is the value extracted from the reported word.", "quantifier": "all executed instructions in all executions", "why_tests_cant": "All addresses, lanes, wait states and preceding accesses.", "anchors": ["src/sentinel/formal.py:FormalTop.elaborate", "src/sentinel/align.py"]}
{"id": "C52", "title": "RVFI: traps", "statement": "`trap` is reported exactly for instructions that end in an exception or are replaced by an interrupt; `intr` exactly for an instruction whose predecessor trapped, and not for the first one.", "quantifier": "all executed instructions in all executions, all interrupt histories", "why_tests_cant": "Interrupts can arrive in every cycle, CSR instructions sample twice.", "anchors": ["src/sentinel/formal.py:FormalTop.elaborate", "src/sentinel/exception.py"]}
{"id": "C53", "title": "RVFI: destination register", "statement": "`rd_addr` is the register an instruction writes, 0 if it writes none (also because it traps), and `rd_wdata` the value written, 0 for x0.", "quantifier": "all executed instructions in all executions", "why_tests_cant": "Register writes overlap the fetch of the next instruction.", "anchors": ["src/sentinel/formal.py:FormalTop.elaborate", "src/sentinel/decode.py:Decode"]}
{"id": "C54", "title": "RVFI: CSR reports", "statement": "For each instruction `rdata` of a CSR other than mip and mstatus is its value before the instruction; so is that of mstatus if the instruction neither traps nor is MRET; if it traps, `rdata` of mstatus is the value after the trap, and for MRET it is the value before if the next fetch has no wait states and else the value after (deviation D15); `rdata` of mip is the interrupt line in one of the cycles of the instruction, the last but one unless it is a CSR instruction that names mip or a CSR that reads zero; after an instruction that writes a CSR the CSR holds the reported `wdata`; from power-on every CSR other than mstatus holds the reported `wdata` after every instruction, also after traps.", "quantifier": "all executed instructions in all executions, all CSRs", "why_tests_cant": "The ports are sampled every cycle with hold logic; all write/trap interleavings.", "anchors": ["src/sentinel/formal.py:FormalTop.elaborate", "src/sentinel/csr.py"]}
{"id": "C55", "title": "RVFI: read-only-zero CSRs", "statement": "For a CSR instruction that names one of the reported read-only-zero CSRs `wdata` is the value it would have written to a CSR that reads 0; no other instruction changes that report. The write mask of a 64-bit counter selects the half the instruction names.", "quantifier": "all CSR instructions and all executions", "why_tests_cant": "Reconstructed from shadow registers instead of the datapath.", "anchors": ["src/sentinel/formal.py:FormalTop.elaborate"]}
{"id": "C56", "title": "Example SoC: programs see the documented platform", "statement": "For the SoC with Wishbone peripherals and any program and pin activity: the bus trace is a behaviour of the instruction-set machine on a platform with RAM, LEDs/GPIO, timer and serial port at their documented addresses; reads of RAM return what was written last; LEDs and GPIO outputs always show the last write; a program that stays on mapped addresses executes for ever, and an access to an unmapped address is never answered and hangs the core.", "quantifier": "all programs, RAM contents, RAM sizes that are powers of two, pin histories, numbers of cycles", "why_tests_cant": "Needs all programs and all interleavings of core, decoder and four subordinates.", "anchors": ["examples/attosoc.py:AttoSoC", "examples/attosoc.py:WBMemory", "src/sentinel/top.py:Top"]}
{"id": "C57", "title": "Example SoC: device accesses through the decoder", "statement": "In the SoC each device behaves as on its own and is selected exactly when the core addresses it; loads from device registers return GPIO pins, timer and serial interrupt flags and received characters as of the first cycle of the access; a byte stored to the serial data register while the transmitter is ready appears as exactly its frame on the TX pin.", "quantifier": "all programs, pin histories and access times", "why_tests_cant": "Depends on decoding, acknowledgement and the timing of each device, for all addresses.", "anchors": ["examples/attosoc.py:AttoSoC", "examples/attosoc.py:WBSerial", "examples/attosoc.py:WBTimer", "examples/attosoc.py:WBLeds"]}
{"id": "C58", "title": "Example SoC: interrupt latency", "statement": "From any cycle after the first dispatch, the next instruction boundary comes within 70 cycles, and a pending timer or serial interrupt that the program does not itself clear in between is taken there if interrupts are enabled (for the timer: unless its period ends meanwhile).", "quantifier": "all programs that stay on mapped addresses, all cycles", "why_tests_cant": "Worst case over all instructions, shift amounts and arrival times.", "anchors": ["examples/attosoc.py:AttoSoC", "src/sentinel/control.py:Control"]}
{"id": "C59", "title": "Example SoC: bus type detection", "statement": "With Wishbone peripherals, mip reads 0x800 from reset until the program reads the serial interrupt register, whatever happens on the pins; with CSR peripherals the interrupt line is low during the first 2^14 cycles if nothing is sent and the line is idle. Firmware uses this to tell the two apart.", "quantifier": "all programs, pin histories, read times", "why_tests_cant": "Holds for all programs and pin histories, not only for the shipped firmware.", "anchors": ["examples/attosoc.py:WBSerial", "examples/attosoc.py:CSRSerial", "sentinel-rt/examples/attosoc.rs"]}
{"id": "C60", "title": "Example SoC: loading a program", "statement": "Assigning an image of bytes to AttoSoC.rom succeeds exactly if it fits into the memory; then the byte at each address of the memory is the byte of the image at that offset, the rest of the last word is zero and the memory behind it is unchanged. A list of words is put at the start of the memory word by word. After reset the core fetches the first word of it first. An ELF file with two adjacent segments from address 0 on is laid out as its segments say.", "quantifier": "all images of all lengths, all memory sizes that are powers of two, all previous contents, all pairs of adjacent segments", "why_tests_cant": "Tests use a few images; the length not a multiple of four, the exact fit and the byte order matter for every byte.", "anchors": ["examples/attosoc.py:AttoSoC.rom", "examples/attosoc.py:WBMemory.init", "examples/attosoc.py:demo"]}
{"id": "C61", "title": "Example SoC: the demo firmware lights up the primes", "statement": "With the built-in prime number firmware in RAM, whatever happens on the pins, the LEDs are off at first and then show the primes below 256 one after the other, starting with 3 and starting over with 2 after 251, for ever: no prime is skipped, nothing else is ever shown, and no access is made to an address where nothing is. The firmware only reads its own words and only writes the LED register; RAM never changes.", "quantifier": "all cycles, all pin histories, all initial register contents, all memory sizes of at least 32 words", "why_tests_cant": "A simulation can only watch a prefix; the delay loop alone takes 720000 instructions per prime, and the claim is about an infinite run and any pin activity.", "anchors": ["examples/attosoc.py:demo", "doc/usage/quickstart.md"]}
{"id": "C62", "title": "Rust firmware: serial output arrives in order", "statement": "Whatever the main program of the AttoSoC firmware writes with write_char, whenever interrupts come, whatever arrives on the receive line and however long any instruction takes, the bytes on the serial line are the bytes written, in order, from the first on: none is lost, repeated, changed or overtaken; no byte is written to the transmitter while it is busy; at most 63 bytes whose call has returned are not on the line yet; each frame is a proper 8N1 frame and the line is high in between, so that a terminal with the same divisor that keeps up shows exactly those bytes.", "quantifier": "all sequences of operations of the main program, all schedules of interrupts and delays, all receive-line histories, all divisors, all times", "why_tests_cant": "The main program and the interrupt handler race for the queue, the busy flag and the transmitter; a lost wake-up or a dropped byte depends on the cycle in which the transmitter becomes ready.", "anchors": ["sentinel-rt/examples/attosoc.rs:write_char", "sentinel-rt/examples/attosoc.rs:MachineExternal", "examples/attosoc.py:WBSerial"]}
{"id": "C63", "title": "Rust firmware: serial output makes progress", "statement": "As long as the processor goes on executing and the main program does not stay in a critical section for ever, every byte whose write_char has returned gets onto the line, and as long as the main program gets to run between interrupts every write_char from outside a critical section returns. From inside a critical section write_char never returns if the queue is full.", "quantifier": "all infinite runs that are fair in the stated sense; all divisors", "why_tests_cant": "Liveness: absence of a lost wake-up over infinite runs and arbitrary timing cannot be seen in finite simulations.", "anchors": ["sentinel-rt/examples/attosoc.rs:write_char", "sentinel-rt/examples/attosoc.rs:MachineExternal", "sentinel-rt/examples/attosoc.rs:read_num"]}
{"id": "C64", "title": "Rust firmware: serial input arrives in order", "statement": "Whatever the main program does, whenever interrupts come and however long any instruction takes, the characters that the interrupt handler of the AttoSoC firmware stores in RX are the characters received by the serial port, in order, from the first on, with at most two on the way, and as long as the processor goes on executing and the main program does not stay in a critical section for ever each one is stored. RX holds the last character stored until the main program empties it; inside a critical section nothing but the main program changes RX, so the character it saw is the one it removes. The characters the main program takes are among those stored, in order and none twice, and all of them if RX is always emptied in time. What a keyboard with the same divisor sends is what is received as long as each character has been read when the next one begins.", "quantifier": "all sequences of operations of the main program, all schedules of interrupts and delays, all receive-line histories, all divisors (at least 4 for the keyboard), all times; fair infinite runs for progress", "why_tests_cant": "The receiver, its edge-triggered interrupt flag, the two reads of the handler and the critical sections of the main program race; a lost or doubled character depends on the cycle in which it arrives.", "anchors": ["sentinel-rt/examples/attosoc.rs:MachineExternal", "sentinel-rt/examples/attosoc.rs:RX", "sentinel-rt/examples/attosoc.rs:read_num", "examples/attosoc.py:WBSerial"]}
{"id": "C65", "title": "Rust firmware: timing", "statement": "Whatever happens, COUNT, once set to 0, does not reach c before (c - 2) * 2^14 clock cycles have passed, so that the wait for 144 counts between two rows takes more than 2.3 million cycles. If the processor does an action at least every K cycles, then all that the main program has written is on the line at the latest 63 * (10 * D + 15 * K + 19) cycles after it has stopped writing, if it stays out of critical sections; and write_char called inside a critical section returns, within 3 * K + 3 cycles, if at most 63 bytes, with its own, are not on the line yet.", "quantifier": "all sequences of operations of the main program, all schedules of interrupts and delays (delays of at most K for the second part), all receive-line histories, all divisors, all times", "why_tests_cant": "Worst-case times over all interleavings of timer, serial interrupts, handler and main program.", "anchors": ["sentinel-rt/examples/attosoc.rs:COUNT", "sentinel-rt/examples/attosoc.rs:MachineExternal", "sentinel-rt/examples/attosoc.rs:write_char", "examples/attosoc.py:WBTimer"]}
{"id": "C66", "title": "Rust firmware: the demo prints the cellular automaton", "statement": "Whatever is typed, however the button is pressed, whenever interrupts come and however long any instruction takes: what the firmware writes to the serial port is, in UTF-8, the text of a session: a first line, then one line for each generation of the elementary cellular automaton (80 cells between dead cells, the last cell alive at first, rule 110 at first) drawn in the current one of four styles, the style changing after a wait in which the button was found pressed each time it was looked at; a control-C found at the end of a wait leads to the prompt, where three characters are echoed and the number that their leading digits make, modulo 256 (or 110 if there is none), is shown on the LEDs and is the rule of a new demo. Nothing about an input is said before everything about the inputs before has been said, each character found is removed from RX and used once, and a line stays the last one for more than 142 * 2^14 cycles. So a terminal that keeps up shows just this text.", "quantifier": "all schedules, delays, interrupts, receive-line histories and button signals; all divisors (at least 4 for the terminal); all times", "why_tests_cant": "The application runs for ever, its text depends on an unbounded history of inputs, and the row is updated in place while interrupts use the same processor and memory.", "anchors": ["sentinel-rt/examples/attosoc.rs:do_demo", "sentinel-rt/examples/attosoc.rs:set_rule", "sentinel-rt/examples/attosoc.rs:read_num", "sentinel-rt/examples/attosoc.rs:main"]}
{"id": "C67", "title": "Rust firmware does not get stuck", "statement": "If the processor does an action of the firmware at least every K cycles and 63 * (10 * divisor + 15 * K + 19) <= 142 * 2^14 (K up to 1627 for 9600 baud at 12 MHz), then whatever is typed and however the button is pressed: interrupts are never off for more than 11 * K + 4 cycles, so each critical section ends, including those in which a character is echoed (an echo into a full queue would hang for ever, but the queue has drained by then); everything that was written gets onto the line; and everything the serial port received gets stored in RX.", "quantifier": "all divisors and K that satisfy the condition, all schedules with an action every K cycles, all receive-line histories and button signals; all times", "why_tests_cant": "Deadlock freedom is about all infinite runs; the bad state is reached only by particular timings of interrupts and typing.", "anchors": ["sentinel-rt/examples/attosoc.rs:read_num", "sentinel-rt/examples/attosoc.rs:do_demo", "sentinel-rt/examples/attosoc.rs:write_char", "sentinel-rt/examples/attosoc.rs:MachineExternal"]}
{"id": "C68", "title": "Interrupts leave time for the Rust firmware's main", "statement": "If the processor does an action of the firmware at least every K cycles, 32 * K + 36 <= 9 * divisor and 32 * K + 36 <= 2^14 (K up to 350 for 9600 baud at 12 MHz), then whatever arrives on the receive line and whatever is sent, main does an action in each period of 40 * K + 44 cycles; so each write_char from outside critical sections returns.", "quantifier": "all divisors and K that satisfy the conditions, all schedules with an action every K cycles, all receive-line histories and programs of main; all times", "why_tests_cant": "Starvation by interrupts is about all infinite interleavings of the handler, the serial port, the timer and main.", "anchors": ["sentinel-rt/examples/attosoc.rs:read_num", "sentinel-rt/examples/attosoc.rs:do_demo", "sentinel-rt/examples/attosoc.rs:write_char", "sentinel-rt/examples/attosoc.rs:MachineExternal", "sentinel-rt/examples/attosoc.rs:main"]}
{"id": "C69", "title": "The session of the Rust firmware goes on", "statement": "If the processor is fast enough (action every K cycles; K up to 350 for 9600 baud at 12 MHz), then after each input everything the session is to say is said and the character is taken out of RX, before the next input; in a demonstration, if the receive line stays idle, the next line is drawn; at the prompt, a character in RX is read. Unattended (idle line, button not pressed), for each N the bytes on the line begin, at some time, with the first N generations of rule 110.", "quantifier": "all divisors and K that satisfy the conditions, all schedules with an action every K cycles, all receive-line histories (idle ones where said) and button signals; all times, all N", "why_tests_cant": "Liveness of an interrupt-driven program over unboundedly many generations and all schedules.", "anchors": ["sentinel-rt/examples/attosoc.rs:read_num", "sentinel-rt/examples/attosoc.rs:do_demo", "sentinel-rt/examples/attosoc.rs:write_char", "sentinel-rt/examples/attosoc.rs:MachineExternal", "sentinel-rt/examples/attosoc.rs:main"]}
{"id": "C70", "title": "No character typed at the Rust firmware is lost on its way to RX", "statement": "Let a keyboard with the same divisor (>= 4) begin its characters at least P cycles apart and let the processor do an action at least every K cycles, with 63 * (10 * divisor + 15 * K + 19) <= 142 * 2^14 and 33 * K + 33 + divisor / 2 + 9 * divisor <= P. Then the interrupt handler has read each character before the next one begins, and it stores in RX exactly the characters typed, in that order, each sooner or later. With K up to 17 (9600 baud at 12 MHz) that holds even for characters sent without a pause.", "quantifier": "all divisors, K and P that satisfy the conditions, all schedules with an action every K cycles, all characters and times of typing P apart, all button signals; all times", "why_tests_cant": "A receiver overrun needs the worst-case coincidence of a critical section, a timer interrupt and the transmitter's interrupt with the end of a character.", "anchors": ["sentinel-rt/examples/attosoc.rs:read_num", "sentinel-rt/examples/attosoc.rs:do_demo", "sentinel-rt/examples/attosoc.rs:write_char", "sentinel-rt/examples/attosoc.rs:MachineExternal", "sentinel-rt/examples/attosoc.rs:main"]}
{"id": "C71", "title": "The Rust firmware understands a typist who waits", "statement": "Under the speed conditions of C69 and C70, if no character is typed before the application has taken the one before, then the application takes all the characters typed, in that order, none of them lost or doubled, and when the typing ends everything the session specified has to answer gets onto the line. In particular, after ctrl-c and three characters the line shows some lines of rule 110, the prompt, the three characters and any number of lines of the demonstration of the rule they make, which is then on the LEDs. For each list of characters there is a way to type it like that.", "quantifier": "all divisors, K and P that satisfy the conditions, all schedules with an action every K cycles, all characters and all typing times that meet the condition, all button signals", "why_tests_cant": "About all timings of typing relative to the generations, the interrupts and the critical sections, over unbounded runs.", "anchors": ["sentinel-rt/examples/attosoc.rs:read_num", "sentinel-rt/examples/attosoc.rs:do_demo", "sentinel-rt/examples/attosoc.rs:write_char", "sentinel-rt/examples/attosoc.rs:MachineExternal", "sentinel-rt/examples/attosoc.rs:main"]}
{"id": "C72", "title": "The SoC with the CSR bus runs programs as specified", "statement": "From reset on, the SoC with its peripherals on the CSR bus executes the program in RAM as the instruction set manual says, with RAM at 0 and the peripherals at 0x02000000 on: each access is answered as the memory map says, and the contents of RAM and LEDs are what the writes made so far have put there. An instruction takes its idle cycles plus 2 for each access to RAM and 6 for each access to the peripherals: 4 to 73 cycles, at most 69 if the next instruction is in RAM. A program that never accesses an address outside the memory map runs for ever; such an access stays on the bus for ever.", "quantifier": "all RAM sizes and contents, all programs, all pin signals, all numbers of cycles", "why_tests_cant": "Unbounded executions of all programs.", "anchors": ["examples/attosoc.py:AttoSoC", "examples/attosoc.py:CSRLeds", "examples/attosoc.py:CSRTimer", "examples/attosoc.py:CSRSerial", "examples/attosoc.py:WBMemory"]}
{"id": "C73", "title": "On the CSR bus each access strobes its register once", "statement": "An access to the peripherals is on the bus for exactly 6 cycles; if it selects the lowest byte of a register, the register gets exactly one read strobe in the first of them, or one write strobe with the byte written in the second; no register gets a strobe otherwise. A read returns the value the register had in the cycle of its strobe, and 0 for an address without a register. LEDs, timer and serial port behave as on their own under these strobes; a byte written to the serial port while it is ready appears on the TX pin, and nothing else does; a byte received on the RX pin is returned by the first later read of the serial port, however late, with an interrupt raised; an interrupt of the timer is raised at the ends of its periods only and removed only by a read that returns it or at the end of the next period.", "quantifier": "all RAM sizes and contents, all programs, all pin signals, all cycles", "why_tests_cant": "About all programs and all interleavings of accesses with the peripherals' own events.", "anchors": ["examples/attosoc.py:AttoSoC", "examples/attosoc.py:CSRLeds", "examples/attosoc.py:CSRTimer", "examples/attosoc.py:CSRSerial", "examples/attosoc.py:WBMemory"]}
{"id": "C74", "title": "Interrupts of the SoC with the CSR bus", "statement": "If the program does not access addresses outside the memory map, there is an instruction boundary within 74 cycles of any cycle; an interrupt of the timer or the serial port that is pending is taken there if it has not been acknowledged meanwhile by a read of its register and interrupts are enabled. In the first 2^14 cycles after reset no interrupt is pending if nothing has been sent or received, so an instruction that reads mip gets 0: this is how the Rust firmware tells the CSR bus from the Wishbone bus.", "quantifier": "all programs that access only mapped addresses, all pin signals, all cycles", "why_tests_cant": "About all alignments of interrupts with instructions.", "anchors": ["examples/attosoc.py:AttoSoC", "examples/attosoc.py:CSRLeds", "examples/attosoc.py:CSRTimer", "examples/attosoc.py:CSRSerial", "examples/attosoc.py:WBMemory", "sentinel-rt/examples/attosoc.rs:get_bases"]}
{"id": "C75", "title": "The prime number firmware on the SoC with the CSR bus", "statement": "With the prime number firmware in RAM and the peripherals on the CSR bus the LEDs show 3, 5, 7, ..., 251, 2, 3, ... for ever, in that order without omission, and nothing else (off before the first); the firmware never accesses an address outside the memory map. The firmware only reads its own words and only writes the LED register; RAM never changes.", "quantifier": "all RAM sizes that hold it, all pin signals, all cycles", "why_tests_cant": "An unbounded run with arbitrary input signals.", "anchors": ["examples/attosoc.py:AttoSoC", "examples/attosoc.py:CSRLeds", "examples/attosoc.py:CSRTimer", "examples/attosoc.py:CSRSerial", "examples/attosoc.py:WBMemory", "examples/attosoc.py:demo"]}
{"id": "C76", "title": "The example SoC on the Arty A7", "statement": "With the clock divider for the Arty A7, whatever happens on the pins, the SoC (with either bus) goes through the same states as without it, exactly three cycles for each 26 cycles of the board's 100 MHz clock and at most 9 apart. Although that is 11.54 MHz instead of the 12 MHz the serial port is made for, a byte stored to the serial port while it is ready is shown unchanged by an idle terminal whose bit time is 10270 to 11400 cycles of the board's clock (9600 baud: 10417), and a byte from a keyboard with a bit time of 10310 to 11400 cycles is received unchanged.", "quantifier": "all programs, pin signals, times, bytes, and all bit times in the ranges", "why_tests_cant": "About all phases of the two clocks and all programs and bytes.", "anchors": ["examples/attosoc.py:demo", "examples/attosoc.py:UART"]}
{"id": "C77", "title": "The hex file of the firmware", "statement": "For each board but the Arty A7 option -x writes a file with one line for each word of the memory, in order, each of exactly 8 hexadecimal digits that mean this word, so that a tool that patches the bitstream with it puts in the same contents. For the Arty A7 the generator stops with an exception instead.", "quantifier": "all memory contents and sizes, all boards", "why_tests_cant": "About all memory contents.", "anchors": ["examples/attosoc.py:demo", "examples/attosoc.py:AttoSoC.rom"]}
{"id": "C78", "title": "An instruction leaves everything else alone", "statement": "Whatever the word fetched and whatever the bus and the interrupt line do, an instruction changes no general-purpose register but its destination register, and none at all if it traps or is replaced by an interrupt; no CSR but the one it writes (MRET: mstatus; a trap: mstatus, mepc and mcause); goes on at the next word unless it is a jump, branch or MRET or traps; and makes no bus access but the fetch of the next instruction unless it is a load or store that completes.", "quantifier": "all instruction words, all reachable states, all bus timings and interrupt signals, all registers and CSRs", "why_tests_cant": "A test sees the registers it looks at after the instructions it runs; this is about all of them, for all words in all states.", "anchors": ["src/sentinel/microcode.asm", "src/sentinel/top.py:Top", "src/sentinel/datapath.py:RegFile", "src/sentinel/datapath.py:CSRFile"]}
{"id": "C79", "title": "RVFI: the reports agree with each other", "statement": "Along every execution the reports are consistent: each begins at the address at which the one before it said that the program would go on; the values reported for the source registers are those that the last report without a trap to write them has given as written; from power-on, the value reported for a CSR (other than mstatus and mip) before an instruction is the value that the report before gave as written, in the bits that exist.", "quantifier": "all executions of any length, all pairs of consecutive reports, all registers", "why_tests_cant": "The formal checks shipped with the core (reg, pc_fwd, pc_bwd, csrc) look at runs of at most 30 cycles; this is about all runs.", "anchors": ["src/sentinel/formal.py:FormalTop", "tests/formal/checks.cfg"]}
{"id": "C80", "title": "Rust firmware on the CSR bus: serial output", "statement": "With the peripherals on the CSR bus, too, where an access takes six cycles, a write takes effect a cycle after its strobe and reading the interrupt register clears it in the middle of the access: the bytes on the serial line are the bytes that the main program writes, in order, none lost, repeated or changed; none is written to a busy transmitter; at most 63 written bytes are not on the line yet; a terminal that keeps up shows them; as long as the processor goes on they all get out, in bounded time if it is fast enough; write_char called outside a critical section returns, and inside one if there is room in the queue, and never if the queue is full.", "quantifier": "all sequences of operations of the main program, all schedules of interrupts and delays, all receive-line and pin histories, all divisors, all times", "why_tests_cant": "Races between the main program, the handler and the peripherals depend on the cycle, and the CSR bus moves the cycles.", "anchors": ["sentinel-rt/examples/attosoc.rs:write_char", "sentinel-rt/examples/attosoc.rs", "examples/attosoc.py:CSRSerial", "examples/attosoc.py:CSRTimer", "examples/attosoc.py:CSRLeds", "examples/attosoc.py:AttoSoC"]}
{"id": "C81", "title": "Rust firmware on the CSR bus: serial input", "statement": "With the peripherals on the CSR bus, the handler stores the received characters in RX, in order, each one once and with at most two on the way; all of them as long as the processor goes on; RX keeps the last one until the main program empties it, and does not change in a critical section otherwise; the main program takes them in order and none twice; with a keyboard connected, and if the firmware keeps up, they are the characters typed.", "quantifier": "all schedules of interrupts and delays, all operations of the main program, all receive-line histories, all times", "why_tests_cant": "A character can arrive in any cycle of an access to the register that it changes.", "anchors": ["sentinel-rt/examples/attosoc.rs:MachineExternal", "sentinel-rt/examples/attosoc.rs", "examples/attosoc.py:CSRSerial", "examples/attosoc.py:CSRTimer", "examples/attosoc.py:CSRLeds", "examples/attosoc.py:AttoSoC"]}
{"id": "C82", "title": "Rust firmware on the CSR bus: the demonstration", "statement": "With the peripherals on the CSR bus, the demonstration says what it is to say: what it writes is a function of the characters typed and the presses of the button it has seen, as for C66, and the LEDs show the last rule; it does not deadlock and goes on for ever if the processor is fast enough for the divisor (an action at least every 344 cycles at 9600 baud and 12 MHz).", "quantifier": "all schedules, all receive-line and button histories, all divisors and speeds that meet the inequalities, all times", "why_tests_cant": "Unbounded runs of an interactive program.", "anchors": ["sentinel-rt/examples/attosoc.rs:main", "sentinel-rt/examples/attosoc.rs:do_demo", "sentinel-rt/examples/attosoc.rs:set_rule", "sentinel-rt/examples/attosoc.rs", "examples/attosoc.py:CSRSerial", "examples/attosoc.py:CSRTimer", "examples/attosoc.py:CSRLeds", "examples/attosoc.py:AttoSoC"]}
{"id": "C83", "title": "Rust firmware on the CSR bus: typing", "statement": "With the peripherals on the CSR bus, whatever is typed is received and stored if the processor is fast enough (at full line speed, too: an action at least every 11 cycles at 9600 baud and 12 MHz); somebody who waits until a character has been taken before typing the next one loses none, and gets all the answers: ctrl-c and three characters are answered by the prompt, their echo and the demonstration of that rule. Any text can be typed in this way.", "quantifier": "all texts, all ways of typing that meet the conditions, all schedules, divisors and speeds that meet the inequalities", "why_tests_cant": "Unbounded runs of an interactive program with a user at the other end.", "anchors": ["sentinel-rt/examples/attosoc.rs:read_num", "sentinel-rt/examples/attosoc.rs:MachineExternal", "sentinel-rt/examples/attosoc.rs", "examples/attosoc.py:CSRSerial", "examples/attosoc.py:CSRTimer", "examples/attosoc.py:CSRLeds", "examples/attosoc.py:AttoSoC"]}
{"id": "C84", "title": "Interrupts are transparent to the interrupted program", "statement": "Let a handler at the trap vector, whatever it interrupts, return with MRET having restored all registers and changed no memory but its own, and let a program, run without interrupts, keep apart from it (no access to its memory, no use of mepc and mcause, no exceptions, no MRET). Then in every execution of the core with a memory, whenever the interrupt line rises and falls, the program does exactly what it does without interrupts: after n of its instructions all registers, CSRs (but mepc, mcause and mstatus.MPIE) and all memory outside of that of the handler are the same, and so is the instruction that comes next; no instruction is lost, repeated or half done. Every instruction executed belongs to the program or to the handler, the handler always returns, its memory is as it is to be after the number of interrupts there were, and the program goes on once the line is low.", "quantifier": "all programs and handlers that meet the conditions, all memory contents, all interrupt waveforms, all times", "why_tests_cant": "An interrupt may come in any cycle of any instruction of any program.", "anchors": ["src/sentinel/top.py:Top", "src/sentinel/exception.py:ExceptionRouter", "src/sentinel/microcode.asm:check_int", "src/sentinel/microcode.asm:save_pc"]}
{"id": "C85", "title": "The reports pass the checks of RISC-V Formal, at any depth", "statement": "The formal tests of the repo run RISC-V Formal's checks on the RVFI port to a depth of some 20 to 150 cycles. They hold at every depth. Whenever the port says valid: for a word that is one of the 37 instructions of RV32I, trap, source registers, destination register and its value, next program counter, and memory address, masks and data are what RISC-V Formal's model of the instruction computes from the reported word, operands and program counter, unless an interrupt replaced the instruction (then the report is a trap). A CSR instruction on a CSR that holds state, without trap, reports the old value as the value of the destination, and a written value that has the bits it has to set set and those it has to clear cleared; one on a read-only-zero CSR reports 0, and if the port has a report about that CSR, its value is 0 and the written value has exactly the bits to be set; with a trap, an interrupt replaced it. A CSR instruction on a CSR that does not exist, or that writes a read-only one, reports a trap and no register write. The bits that a CSR does not have are reported with their constant value. On a bus that answers, there is always another report.", "quantifier": "all programs, all bus behaviour with a registered acknowledge, all interrupt waveforms, all reports", "why_tests_cant": "The checks of the repo are bounded: they say nothing about what happens after a few instructions, and the configured depth is shorter than a shift instruction may take.", "anchors": ["src/sentinel/formal.py:FormalTop", "tests/formal/checks.cfg", "tests/formal/wrapper.sv"]}
{"id": "C86", "title": "Worst-case times on any bus", "statement": "On every bus with a registered acknowledge an instruction, a trap or the entry of an interrupt takes at least 4 cycles; if the bus answers every request within W cycles, it takes at most max(67 + W, 6 + 2W) cycles, and for every W of at least 2 some instruction on some such bus takes exactly that long. From any cycle after the first dispatch the next dispatch comes within that time. If the interrupt line is high from cycle t on and interrupts are enabled at the next dispatch, then the interrupt is taken at that dispatch, within that time, and the first instruction of the handler is dispatched at most 5 + W (and at least 7) cycles later. The RVFI port reports an instruction at least that often.", "quantifier": "all programs, all bus behaviour (arbitrary and varying wait states), all interrupt waveforms, all W, all times", "why_tests_cant": "The worst case over all instructions, operands and wait states cannot be enumerated.", "anchors": ["src/sentinel/top.py:Top", "src/sentinel/control.py:Control", "src/sentinel/microcode.asm", "src/sentinel/formal.py:FormalTop", "doc/development/internals.md"]}
{"id": "C87", "title": "What the bus gives away", "statement": "Cycle by cycle, what is on the bus but for the data (whether there is a request, its address, byte lanes and direction) is fixed by the times of the answers, the interrupt line, and, for each instruction executed, its address, the instruction word, whether interrupts are enabled, the trap vector, and one detail: whether a branch is taken, the address of a load or store, the target of JALR or MRET, or the amount of a shift by a register. Nothing else about the values in registers and memory can be told from it: two executions that agree on these have the same bus traffic in every cycle, and dispatch instructions in the same cycles. Hence a program whose branches, addresses and shift amounts do not depend on its secrets (a constant-time program) does not give them away.", "quantifier": "all programs, all initial registers and memories, all bus behaviour, all interrupt waveforms, all cycles", "why_tests_cant": "It is a statement about pairs of executions for all values of the secrets and all wait states.", "anchors": ["src/sentinel/top.py:Top", "src/sentinel/control.py:Control", "src/sentinel/datapath.py:DataPath", "src/sentinel/microcode.asm", "doc/development/internals.md"]}
{"id": "C88", "title": "The registers of the UART are wide enough", "statement": "For every divisor of at least 4 and every number of data bits, no counter of the UART ever overflows its declared width and no bit of a frame is lost: transmitter and receiver, with registers as wide as declared and arithmetic cut off at that width, do in every cycle the same (line, acknowledgement, character, ready, error and overflow flags) as with unbounded counters.", "quantifier": "all divisors >= 4, all numbers of data bits, all sequences of characters, line levels and acknowledgements, all cycles", "why_tests_cant": "Widths are functions of the parameters; a test covers a few parameters and finite waveforms.", "anchors": ["examples/attosoc.py:UART"]}
{"id": "C89", "title": "A reset at any moment leaves the state of an instruction boundary", "statement": "Whenever reset is asserted - in the middle of a fetch, a load, a store, a trap - registers and memory survive, and together they are what they were between two instructions: no store is half done, done without the instructions before it, or done twice with a different effect, and no register is half updated. The one exception is a shift, whose destination register may hold an intermediate result. So after any number of resets at arbitrary times memory and registers are those left by as many runs of the program from address 0, each stopped after some number of instructions. For the registers that holds on any bus, also one that stops answering.", "quantifier": "all programs, all memory and register contents, all cycles of the reset, all interrupt waveforms (the boundary), all sequences of resets (the history)", "why_tests_cant": "Crash points: every cycle of every instruction in every program, and every sequence of such resets.", "anchors": ["src/sentinel/datapath.py:RegFile", "src/sentinel/top.py:Top", "src/sentinel/microcode.asm", "examples/attosoc.py:WBMemory"]}
{"id": "C90", "title": "Wait states do not matter", "statement": "How long the bus takes to answer, access by access, changes only the times: two executions from the same state on the same memory contents, with whatever wait states each, make the same transactions in the same order as long as the interrupt line is the same at each sample, and after the same transactions they execute the same instruction in the same architectural state. With a constant interrupt line and any wait states (all finite) the program runs as on flat memory.", "quantifier": "all programs, all memory contents, all sequences of wait states, all interrupt samples", "why_tests_cant": "Unbounded executions and arbitrary wait states, compared pairwise.", "anchors": ["src/sentinel/top.py:Top", "src/sentinel/microcode.asm", "src/sentinel/control.py:Sequencer"]}
{"id": "C91", "title": "The instruction executed is the one memory holds", "statement": "The word executed is what the memory holds at the program counter at the time of its dispatch, even if the instruction before it has just stored it: self-modifying code and loaders need no fence.", "quantifier": "all programs, all memory contents, all interrupt waveforms, all dispatches", "why_tests_cant": "All programs and all times.", "anchors": ["src/sentinel/microcode.asm:fetch", "examples/attosoc.py:WBMemory"]}
{"id": "C92", "title": "The words that an assembler emits", "statement": "The words the core takes as RV32I_Zicsr instructions are exactly those that the instruction formats of the manual give for an instruction with operands in range (and FENCE with anything in its reserved fields); equivalently, those that match a row of the riscv-opcodes table, and no word matches two rows. Every other word traps. The instruction is executed with the immediate or offset written in the assembly, as an integer: e.g. a branch to . + off goes to pc + off, a load off(rs1) reads at rs1 + off, modulo 2^32.", "quantifier": "all 2^32 words, all instructions and operands, all states", "why_tests_cant": "2^32 words, and immediates scattered over the word.", "anchors": ["src/sentinel/insn.py:Insn", "src/sentinel/decode.py:Decode", "src/sentinel/decode.py:ImmediateGenerator"]}
{"id": "C93", "title": "Example SoC: RAM of any size", "statement": "AttoSoC(num_bytes=n) with any n and either kind of peripherals: a program that only accesses addresses where something is and only RAM below n (on the instruction-set machine) runs as specified: every read of RAM returns what was written last, and instructions are executed for ever. The SoC then does in each cycle what the SoC with the next power of two of RAM does, whatever words that do not exist would read as. The prime number firmware runs in any RAM of at least 28 words.", "quantifier": "all RAM sizes, both kinds of peripherals, all programs that fit, all contents, all inputs, all times", "why_tests_cant": "All sizes and all programs.", "anchors": ["examples/attosoc.py:WBMemory", "examples/attosoc.py:AttoSoC"]}
{"id": "C94", "title": "Example SoC: the reset button", "statement": "On boards where the button is the reset, pressing it in any cycle, even while the core hangs on an address where nothing is or a store or a CSR access is under way, puts the SoC into the state after reset: LEDs and GPIO off, nothing being sent, no interrupt pending. Registers and RAM survive, and hold what they held between two instructions (but for the destination register of a shift), also if the program hangs on an address where nothing is: as before the instruction that hangs, or as it leaves them if it is the fetch after it that hangs. With the prime number firmware, after any number of presses at any times the LEDs show the primes from the first on.", "quantifier": "all cycles and numbers of resets, all programs (also those that hang on an address where nothing is), all inputs, both kinds of peripherals", "why_tests_cant": "Every cycle of every run of every program is a possible reset point.", "anchors": ["examples/attosoc.py:AttoSoC", "examples/attosoc.py:main", "examples/attosoc.py:WBMemory"]}
{"id": "C95", "title": "Example SoC: counting timer interrupts tells the time", "statement": "On the SoC with the CSR bus, for any program that begins a read of the timer's register after every timer interrupt and before the next one is due, the number of reads that returned 1, plus the interrupt that may be pending, is exactly the number of timer periods since reset, for ever: no tick is lost or counted twice. A program that counts the interrupts in a handler and shows the count on the LEDs is such a program, whatever happens on the serial and GPIO pins: it reads each interrupt within 1027 cycles, and the LEDs always show the number of periods up to a moment at most 1241 cycles ago, modulo 256.", "quantifier": "all programs that read in time; for the clock, all inputs on all pins, all cycles for ever", "why_tests_cant": "Drift or a lost tick would show only after arbitrarily long runs and particular coincidences of serial and timer interrupts.", "anchors": ["examples/attosoc.py:CSRTimer", "examples/attosoc.py:CSRSerial", "examples/attosoc.py:AttoSoC", "sentinel-rt/examples/attosoc.rs:MachineExternal"]}
{"id": "C96", "title": "Example SoC: portable programs", "statement": "A program that only accesses RAM and only writes the LED, GPIO output and GPIO output-enable registers at their documented addresses, and neither enables interrupts nor uses mip, runs the same on the example SoC with Wishbone peripherals and with the CSR bus: instruction by instruction the same registers, CSRs, RAM, LEDs and GPIO outputs, for ever, whatever happens on the serial, GPIO input and interrupt lines of either and whatever the divisors. On one SoC even the requests on the bus and all output pins are the same in every single cycle in every environment, and the serial output never moves. The prime number firmware is such a program.", "quantifier": "all programs that keep to this subset when run on a machine with nothing but RAM and the output registers, all contents of RAM and registers, all histories of the pins, all divisors, all instructions and cycles", "why_tests_cant": "A test runs one program with one history of the pins for a finite time on each SoC", "anchors": ["examples/attosoc.py:AttoSoC", "examples/attosoc.py:BusType", "examples/attosoc.py:WBLeds", "examples/attosoc.py:CSRLeds", "examples/attosoc.py:WBMemory", "sentinel-rt/examples/attosoc.rs", "src/sentinel/microcode.asm"]}
{"id": "C97", "title": "Critical sections", "statement": "After CSRRC/CSRRCI on mstatus with bit 3 set in the operand, or after a trap, interrupts are off, and they stay off until MRET or a CSR instruction on mstatus, mie or mip. While they are off nothing the interrupt line does has any effect: no interrupt is taken, and in every cycle the core (and, with the memory of the SoC, the whole system including the memory contents) is in the same state as with any other behaviour of the interrupt line. In particular a read-modify-write of memory in a critical section is atomic.", "quantifier": "all programs, all states after a reset, all timings of the bus, all lengths of the critical section, all histories of the interrupt line", "why_tests_cant": "A test raises the interrupt line at a few moments of one program; a window of one cycle in which an interrupt slips into a critical section, or delays it, shows up in one in a million runs", "anchors": ["src/sentinel/exception.py: ExceptionRouter", "src/sentinel/datapath.py: CSRFile", "src/sentinel/microcode.asm: wait_for_ack, check_int, csr_trampoline", "src/sentinel/top.py: Top", "sentinel-rt/examples/attosoc.rs (critical_section::with)"]}
{"id": "C98", "title": "What is in a register was put there", "statement": "Over any stretch of an execution, through any number of instructions, traps and interrupts: a register x1-x31 changes only at an instruction with that destination register, mie, mtvec and mscratch only at a CSR instruction that writes them, mepc and mcause only at such an instruction or a trap. At every instruction since a reset mcause is one of the documented causes (codes 0, 2, 3, 4, 6 and 11), without bit 31 if interrupts have not been enabled, and mepc is the address of an instruction that was dispatched before (or what it was after the reset), unless the program has written them.", "quantifier": "all programs, all states after a reset, all timings of the bus, all histories of the interrupt line, all lengths of the stretch", "why_tests_cant": "Histories are unbounded; a handler relies on the set of causes being complete and on registers surviving every sequence of traps", "anchors": ["src/sentinel/exception.py: ExceptionRouter", "src/sentinel/csr.py: MCause", "src/sentinel/datapath.py: RegFile, CSRFile", "src/sentinel/microcode.asm", "doc/development/internals.md: CSRs"]}
{"id": "C99", "title": "Example SoC: subordinates that follow the Wishbone rules with any master", "statement": "With any master, one that breaks the rules included, the memory and the Wishbone peripherals of the example assert ACK only in the cycle after a request, for one cycle, and within one cycle of it (the CSR bridge: five). A write held until its ACK is carried out as one write of the selected bytes of one word, or of the addressed register and no other; a read returns the word the memory held in its first cycle and changes nothing; the serial port transmits the byte of one write once. Conversely the core works with any subordinate whose ACKs follow these rules.", "quantifier": "all sequences of request signals, all contents, for the core all programs, inputs and numbers of wait states", "why_tests_cant": "The tests drive the peripherals with the few sequences of the core or of a simulation; another master may make requests in any pattern", "anchors": ["examples/attosoc.py: WBMemory, WBLeds, WBTimer, WBSerial", "src/sentinel/top.py: Top"]}
{"id": "C100", "title": "Serial receiver on a line with another clock", "statement": "On a line whose edges are less than half a bit of the receiver off (whatever drives it, jitter included), and whose characters are taken before the next one begins, the receiver gets exactly the characters sent, in order, each at a known cycle, without error, and never raises the overflow flag. In particular two UARTs on boards with independent clocks communicate as long as their bits differ, over a frame, by less than half a bit less three cycles: at 1250 cycles per bit and 8 data bits, nearly 5 %. Both serial ports of the example hand these characters to the software that reads each in time.", "quantifier": "all streams of characters, all divisors and character sizes, all phases, frequencies and edge times within the bound, all times of the reads", "why_tests_cant": "The tests send a few characters from the same clock", "anchors": ["examples/attosoc.py:UART", "examples/attosoc.py:WBSerial", "examples/attosoc.py:CSRSerial"]}
{"id": "C101", "title": "Firmware and a keyboard with its own clock", "statement": "When characters come to the board over a line that is not synchronous with its clock (edges less than half a bit off), each beginning at least 33K+31 cycles after the one before has been received, where K bounds the cycles between two steps of the processor, the Rust firmware reads each before the next begins and its interrupt handler stores exactly the characters sent, in order, each sooner or later.", "quantifier": "all streams of characters, all divisors, all edge times within the bound, all speeds of the processor within the bound, all behaviours of timer, button and peripherals", "why_tests_cant": "A test on hardware tries one keyboard; a simulation uses the clock of the board", "anchors": ["sentinel-rt/examples/attosoc.rs:MachineExternal", "sentinel-rt/examples/attosoc.rs:RX", "examples/attosoc.py:UART", "examples/attosoc.py:WBSerial"]}
{"id": "C102", "title": "Typing at the demo with another clock", "statement": "Someone who types at such a keyboard and waits until the application has taken each character before the next one has all of them taken, in order, and the application's answers (prompt, echo, the demonstration of the rule) get onto the line, for ever; in particular ctrl-c and three characters give the rule they spell, on the line and on the LEDs. Whatever the characters are, they can be typed like that.", "quantifier": "all texts, divisors, edge times and speeds within the bound", "why_tests_cant": "Needs a liveness argument over unbounded runs of hardware and firmware together", "anchors": ["sentinel-rt/examples/attosoc.rs:read_num", "sentinel-rt/examples/attosoc.rs:do_demo", "sentinel-rt/examples/attosoc.rs:write_char", "sentinel-rt/examples/attosoc.rs:MachineExternal", "examples/attosoc.py:UART", "examples/attosoc.py:WBSerial"]}
{"id": "C103", "title": "Firmware on the CSR bus and a keyboard with another clock", "statement": "As C101 and C102, for the demo board built with the CSR bus: nothing that comes over a line with its own clock is lost if the processor is fast enough, a typist who waits has each character taken and answered, ctrl-c and three characters give the rule they spell, and every text can be typed like that.", "quantifier": "all streams of characters, divisors, edge times and speeds of the processor within the bound", "why_tests_cant": "Needs a liveness argument over unbounded runs of hardware and firmware together", "anchors": ["sentinel-rt/examples/attosoc.rs:read_num", "sentinel-rt/examples/attosoc.rs:do_demo", "sentinel-rt/examples/attosoc.rs:MachineExternal", "examples/attosoc.py:UART", "examples/attosoc.py:CSRSerial"]}
{"id": "C104", "title": "Serial receiver after noise", "statement": "Whatever came over the line and whatever the reader did (noise, a break, the wrong speed, characters that found no room), once the line has been high for the length of a frame and the reader has then read once, the receiver gets exactly the characters sent from then on, in order and without error, as after reset. With the Rust firmware: after ten bits and 33K+31 cycles at rest every character that is sent from then on is received and stored by the interrupt handler, in order, after what was received by then.", "quantifier": "all histories of line and reader, all later streams of characters, all divisors and edge times within the bound, all speeds of the processor within the bound", "why_tests_cant": "All states that a line can bring the receiver into", "anchors": ["examples/attosoc.py:UART", "sentinel-rt/examples/attosoc.rs:MachineExternal"]}
{"id": "C105", "title": "A terminal with its own clock", "statement": "A terminal whose clock has nothing to do with the board's (any ratio and phase, its own number of cycles per bit, so long as ten of its bits are within half a bit less W+3 cycles of the board's, and what is behind it takes each character within W cycles) shows exactly the bytes of the frames on the board's serial output, in order: never one before most of its frame has been on the line (so nothing that main has not written), and each by the end of its frame. So with nobody at the board it shows the demonstration of rule 110 for ever and nothing else; and if somebody at a keyboard with a third clock types ctrl-c and three characters, it shows the prompt, their echo and the demonstration of the rule that they make. The same with the CSR bus.", "quantifier": "all clock ratios, phases and divisors within the bound, all programs' outputs and environments of the board, all speeds of the processor within the bound, all texts typed", "why_tests_cant": "Real-valued clock ratios and phases, unbounded runs", "anchors": ["examples/attosoc.py:UART", "sentinel-rt/examples/attosoc.rs:main", "sentinel-rt/examples/attosoc.rs:write_char"]}
{"id": "C106", "title": "Somebody who looks at the screen is understood", "statement": "The board, the keyboard and the terminal have three different clocks, and the processor is fast enough. Somebody types ctrl-c and three more characters, each of these only when the terminal shows the prompt followed by the echo of those typed after ctrl-c so far; there is no other condition on when the keys are pressed. Then no character is lost or overwritten, the application has taken each before the next one begins, the terminal shows the prompt, all the echoes and the demonstration of the rule that the characters make, for as many lines as one likes, and the rule is on the LEDs. It is possible to type any characters in that way. The same with the CSR bus.", "quantifier": "all characters, all times at which the keys are pressed that obey the screen, all clock ratios and phases within the bounds, all speeds of the processor within the bound", "why_tests_cant": "Real-valued clock ratios and phases, unbounded waiting times between the keys, unbounded runs", "anchors": ["examples/attosoc.py:UART", "sentinel-rt/examples/attosoc.rs:main", "sentinel-rt/examples/attosoc.rs:read_num", "sentinel-rt/examples/attosoc.rs:write_char"]}
{"id": "C107", "title": "On the example SoC, a program does not notice that it is interrupted by the peripherals", "statement": "On the example SoC with Wishbone peripherals, let a handler at the trap vector, whatever it interrupts and whatever the peripherals answer it, fetch from RAM, access only addresses where something is, and return with MRET having restored all registers and changed nothing in RAM and the output registers (LEDs, GPIO outputs, GPIO output enables) but what is its own; it may use the timer, the serial port and the GPIO inputs. Let a program, run without interrupts, keep to RAM and the output registers and apart from the handler. Then, whatever happens on the pins and whenever the timer and the serial port interrupt: nothing hangs; after n instructions of the program all registers, CSRs (but mepc, mcause and mstatus.MPIE), all RAM and all outputs but those of the handler are the same as without interrupts, and so is the instruction that comes next; what belongs to the handler is as it is to be after the number of interrupts there were; every instruction executed belongs to the program or to the handler; the handler always returns; and the program goes on once the interrupt line is low. The same on the CSR bus.", "quantifier": "all programs and handlers that meet the conditions, all memory contents and sizes, all baud divisors, all waveforms on the pins, all times, both kinds of peripherals", "why_tests_cant": "An interrupt of a peripheral may come in any cycle of any instruction of any program, and what it is depends on what the handler read before.", "anchors": ["examples/attosoc.py:AttoSoC", "examples/attosoc.py:WBTimer", "examples/attosoc.py:WBSerial", "src/sentinel/top.py:Top", "src/sentinel/exception.py:ExceptionRouter", "src/sentinel/microcode.asm:check_int"]}
{"id": "C108", "title": "An echo program sends back every character, from pin to pin", "statement": "On the example SoC with the CSR bus, from reset and with a seven-instruction echo program in RAM (it polls the interrupt register of the serial port, reads the character, writes it to the data register), if characters arrive on the RX pin in frames the receiver can follow (C100) and each frame begins at least 600 cycles after the end of the one before, then the levels of the TX pin are exactly those of frames of the same characters, in the same order and nothing else, with bits of exactly the baud divisor in cycles, each frame beginning within 584 cycles of the moment the receiver has the character; and the receiver never overflows. So a terminal connected to the TX pin, with its own clock, shows exactly the characters that come on the RX pin, in order and nothing else.", "quantifier": "all sequences of characters, finite or not, all times at which they come, all tolerable bit timings, all baud divisors from 2 on, all RAM sizes and other memory contents, all levels of the other pins", "why_tests_cant": "Characters may come in any cycle of the polling loop, and reading the interrupt register clears it: that none is ever lost or repeated depends on all alignments and all histories.", "anchors": ["examples/attosoc.py:AttoSoC", "examples/attosoc.py:CSRSerial", "examples/attosoc.py:UART", "src/sentinel/top.py:Top", "sentinel-rt/examples/attosoc.rs:read_serial_int"]}
