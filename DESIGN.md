# Formal model of cr1901/sentinel in Lean 4

Sentinel is a microcoded RV32I_Zicsr core written in Amaranth. The model is a
cycle-accurate Mealy/Moore machine in Lean: `State`, `Input`, `step : State → Input → State`,
and the Wishbone outputs as functions of `State`.

## Layers

| layer | Lean | models |
|---|---|---|
| microcode word | `Verif/Ucode/Fields.lean` | `ucodefields.py`, `microcode.asm` `fields` block |
| microcode source + assembler | `Verif/Ucode/Source.lean`, `Asm.lean` | `microcode.asm`, the part of m5meta used by `ucoderom.py` |
| ROM table lemmas | `Verif/Ucode/Rom.lean` (generated from the assembler by evaluation, each line re-proved) | `UCodeROM.assemble` |
| datapath | `Verif/Core/*.lean` | `alu.py`, `align.py`, `datapath.py`, `csr.py`, `decode.py`, `insn.py`, `exception.py`, `control.py`, `top.py` |
| ISA | `Verif/Spec/*.lean` | **not the code**: RV32I_Zicsr + M-mode traps, from the RISC-V manual, written as a tree of observable events |
| proofs | `Verif/Proof/*.lean` | |
| property theorems | `Verif/Props/*.lean` | one theorem (or a few) per property, with a non-vacuity `example` beside it |

## Specification style

The ISA is an *interaction tree* `Isa.exec : Arch → Word → Tree Arch` whose nodes are
"sample the interrupt line", "perform this bus request and continue with the data".
A finite trace of observable events is allowed iff it is a path of the tree
(`Behaves`). The core's trace is computed from its outputs and inputs only
(`obs s i`: request completed this cycle / interrupt line sampled this cycle).

The refinement theorem says: for every input stream with no ACK in the first cycle of a
request, after reset the trace of the core is a path of the ISA tree, and at each dispatch the
architectural registers agree. It is proved with an inductive predicate `Impl`
(a state implements a tree, with a cycle count) whose rules cover quiet cycles, prefetch cycles,
interrupt polls and bus waits with arbitrarily many wait states; from it safety, liveness under
fair ACK, and exact cycle counts follow generically.

## Plan per property

| id | how |
|---|---|
| C01, C29 | trace refinement of the tree machine, by induction over instructions; arch relation at dispatch |
| C02–C17, C19, C20, C31–C33 | symbolic execution of each microroutine on an arbitrary state at dispatch (shift loop: induction), giving `Impl`; then specialised statements per class |
| C18 | false: `mcause_latch.interrupt` is never cleared. Negation proved on a concrete run; `_partial`: holds while no interrupt has been taken |
| C13 | false for 0x70/0x71/0x72; all other words proved (`_partial`) |
| C21, C23–C26 | inductive invariants over all reachable states of the microprogram |
| C22 | symbolic execution of the reset routine from an arbitrary state/stale microword; what the stale microword can do to mstatus and mepc (`Props/Reset`) |
| C27, C28 | from `Impl` |
| C30 | concrete run |
| C34–C36 | model of ROM layout code; bit-vector proofs |
| C37, C41–C44 | stand-alone component theorems for all inputs |
| C38 | closed system with `WBMemory` as an instance of C01 |
| C39, C40, C46, C47, C48 | models of the example peripherals, induction over cycles |
| C49–C55 | model of the RVFI harness next to the core; induction over the cycles of one instruction, with counts of exceptions, register and CSR writes carried along `Impl` |
| C56–C59 | model of the whole example SoC (core, decoder, RAM, devices); the bus trace against a platform specification by an invariant over cycles; latency from the cycle bounds of C28 |
| C60 | model of the loader functions on lists; arithmetic of little-endian bytes |
| C61 | invariant and measure for each of the 28 instructions of the firmware on the instruction-set machine, carried to the hardware by C56; statement about the LED pins in every cycle |
| C62 | system of `main` (any sequence of operations), the interrupt handler (statement by statement) and the serial port, clock by clock; invariant: while a transmission is in progress there is exactly one token (transmitter busy, just ready, interrupt pending, or noted by the handler); bytes written = bytes on the line ++ bytes held; the terminal by C40 |
| C63 | by contradiction: if nothing is sent any more the transmitter becomes idle, the token is the pending interrupt, the handler is entered and cannot leave without sending; the handler always leaves by a rank |
| C64 | the receive path in the system of C62; invariant: exactly one token (edge not seen yet, interrupt pending, noted by the handler) while the receiver holds a character; characters received = characters stored ++ at most two on the way; progress as for C63; the keyboard by C40 |
| C65 | the number of interrupts of the timer in k cycles is at most k / 2^14 + 1, each one counted at most once; for the drain, the argument of C63 with a bound on each of its steps |
| C66 | the application as a program that chooses the operations of the system of C62; the text as a function of the inputs (`Spec/App`), with its own automaton and characters; invariant: written ++ about to be written ++ due at this place = text of the inputs so far; the loop over the columns by induction |
| C67 | at the end of a wait everything is on the line (C65); invariant: written + about to be written ≤ sent + 31 + 2 per character echoed, so there is room for an echo (C65); induction over the rest of the critical section |
| C68 | counting: each entry of the handler consumes an event (end of a character sent or received, timer tick), which are at least `10 D` resp. `2^14` cycles apart; a run of the handler has a bounded length |
| C69 | ranking functions over the places of the application; in the wait the serial port comes to rest, then each timer tick is counted, so `COUNT` reaches 144 |
| C70 | C67 with a bound: interrupts are off for at most `11 K + 4` cycles; so a character is read at most `33 K + 31` cycles after it has been received; induction over the characters (the keyboard cut off after each one) and C40 |
| C71 | by C64 nothing is overwritten in `RX` if the typist waits; when nothing is typed any more the line is idle and C69 gives another input for the last character; for the dialogue, induction over the inputs; existence of such typing by causality (what is typed later does not change what was taken before) |
| C72 | as C56, with the bridge as a state machine that keeps the core waiting 5 cycles; invariant on request, bridge counter and platform; cycles from C28 |
| C73 | an access is followed backwards and forwards through the bridge's six cycles; the components' own theorems (C39, C46-C48) for the strobes of the SoC |
| C74 | C72 gives an instruction boundary; the interrupt line is kept by the components until the register is read |
| C75 | the invariant of C61 (it is about the instruction-set machine), with C72 in place of C56 |
| C76 | counter of the divider is the cycle number modulo 26, so the SoC's state is its own run at `artyTicks`; linear bounds between the two clocks place the sampling points inside the bits, then C40, C57 |
| C77 | the digits mean the number (induction on it), padding is to exactly 8 characters below 2^32; induction on the memory |
| C78 | case analysis of the specification's `exec`, which the core follows (C01): a completed instruction keeps the rest, a trap is `Arch.trap` |
| C79 | consecutive reports are consecutive instructions (C49); strong induction along the reports with C50, C52, C53, C54, C78 |
| C80 | simulation: the system on the CSR bus does what the one of C62 does if the latter is given actions only between accesses (`Proof/FirmwareCsr`); in the middle of an access (after its strobe) the software of the latter is ahead by the result of the access. The observations are the same, an action every `K` cycles becomes one every `K + 6` |
| C81 | the same simulation |
| C82 | the simulation with the application (`Proof/AppCsr`); the button is read 5 cycles before the read ends instead of 1 |
| C83 | the same; the existence of typing again by causality |
| C84 | `Spec/Interrupts` says what a handler and a program have to do; induction over the dispatches: between interrupts one instruction of the core is one of the program (C01, C38), in two states that differ in nothing the program may look at; in the handler the hypothesis (an inductive predicate over all interrupt samples) is followed step by step |
| C85 | `Spec/RiscvFormal` has RISC-V Formal's models of the 37 instructions and its checks, written from bit fields and word operations, independent of `Spec/Isa`; C49–C54 say what a report is in terms of the states before and after; C02–C12 say what these are; the rest is that decoder and arithmetic of `Spec/Isa` agree with the models. RISC-V Formal is not in /repo: the models are from its documentation and from memory |
| C86 | C28 says how many cycles an instruction spends without a request; a potential function (the age of the request on the bus) bounds the cycles with one from both sides; the bound is reached on a bus that answers every request in its W-th cycle with one and the same word |
| C87 | `Spec/Leak` says what an instruction gives away (`leak`) and what the bus does from its dispatch to the next one (`script`); the script depends on the leak only, by cases on the instruction; that the core follows the script is read off the simulation of each microcode routine (the request comes after exactly the idle cycles of C28, stays until it is answered, and the dispatch comes in the cycle after); two executions that follow the same scripts stay in step, by induction on time |
| C88 | a second model of the UART, in `BitVec` of the declared widths with truncating arithmetic and assignments in the order of the source; a step commutes with the map to the model with numbers and lists, because the counters stay below the bounds they are declared with; induction on time |
| C89 | graph of the microcode (kernel evaluation over all microaddresses): outside the shift routines a register is written at most once between two dispatches; only the destination register is; memory between two dispatches is the memory after a prefix of the events of the instruction (invariant of C38), of which at most one is a write, and then no register changes; resets chained by induction against `Spec.Restarted` |
| C90 | the machine of C01 is deterministic given the memory, the samples and the answers to reads, and does not look at the answers to writes (`Tree.Blind`): induction on `Behaves` and `Runs`; the flat-memory machine as in C38, but for any bus; a memory with arbitrary wait states as an instance |
| C91 | the last event before a dispatch is the fetch at the program counter (C29), and reads return what the memory holds (C38) |
| C92 | the formats as concatenations of fields, `decode` of them and the converse; match and mask as equations of fields; the theorems about single instructions (C02-C08, C13) for the words so given |
| C93 | `WBMemory` with a list of rows; lockstep with the power-of-two RAM while the rows asked for exist; a program that fits never asks for others |
| C94 | a clock edge with reset asserted, for both SoCs; the RAM between two dispatches is as after some of the bus events of the instruction, of which at most one is a write; the firmware never writes RAM; for programs that hang, the cycles so far are those of a run in which the bus answers any given word from then on |
| C95 | the prescaler is the cycle number less a period for each read that returned 1, as long as each interrupt is read before the next; weakest preconditions for programs with interrupts (`Proof/WpCsr`), an invariant of the 16-word program relating LEDs, x8 and the sum of what the timer returned, and a measure that falls while the interrupt line is high |
| C96 | `Spec/Portable`: a deterministic machine with RAM and output registers only; computations that look neither at answers to writes nor at samples of the interrupt line have one path on it; both platforms (C56, C72) answer portable requests as it does; equal requests give equal cycle counts (C28, C72) Cycle by cycle (`Proof/PortableCycle`): equal scripts (C87) in lockstep, the times of the answers depending on the requests only. |
| C97 | a step of the core depends on the interrupt line only in cycles with `latchDecoder` or a read of mip (`Proof/Critical`); the routine trees with interrupts off have no node that polls it (`NoPoll`), so only a dispatch does, and there the sample is masked; induction over the dispatches of the section |
| C98 | induction over the dispatches since the reset (`Proof/History`: `along`, `from_reset`); per instruction C78 and a property of all leaves of the specification's computations (`exec_cause`) |
| C99 | `Spec/Wishbone`: rules for ACK as a property of two signals; each peripheral with arbitrary request signals; a write acts twice with the same data (`lanes_twice`), the others are gated by ACK; for the core the rules imply `RegisteredAck` and a bound on the wait states |
| C100 | `Spec/Line`: a stream of frames by the times of its edges, in cycles or in real time; induction over the frames with `C40_receive`; the transmitter of one UART, run by a clock of any period and phase, drives such a line |
| C101 | `C100_receive` gives the characters received on a line with its own clock; the bound of C67 on the time for which a character is held gives `Taken` (`C100_quick`); the rest follows from C64 and C67 |
| C102 | the arguments of C76-C78 abstracted over what has been received (`waits_abs`, `dialogue_abs`), instantiated with the line; the typist is built by induction over the text |
| C103 | C101 and C102 by the simulation of C79-C83, at the cost of six cycles per action; the construction of the line of C102 is shared |
| C104 | a bisimulation between a receiver at rest and one that has been reset (`UartRx.Sync`): they agree on everything that can be seen from the next frame on; a receiver on a line that is high comes to rest by a measure; then C100 and C101 |
| C105 | the transmitter of the board is a `Sender` of C100, whose frames fit a receiver with its own clock; the lemma `line_list` of C101 on the terminal; then C62, C69, C102, C103 |
| C106 | induction on the keys, each time with the line cut before the next key (causality): the beginning of the session says the prompt only after ctrl-c and an echo only after its key (`said_after`), and what is shown was called 9 D cycles before (C105), so the key had been stored, and is taken in time; then C102, C103, C105 |
| C107 | as C84, on a kind of peripherals (what it may answer, what a request does, where something is) of which both SoCs are instances; the run without interrupts is that of the portable machine of C96; nothing hangs since every computation of program and handler has only requests for addresses where something is (C56, C72); the transparency from the traces of the SoC, instruction by instruction |
| C108 | an invariant of the echo over its instructions, with what each does to the serial port in which cycle (C73); by it, and C100 for the receiver, a character is fetched within 512 cycles, so that C100 applies to the next; the history of the writes to the transmitter by induction over the instructions; the line from C47, each write finding the transmitter ready; a terminal with its own clock samples that line (C100) |
| C45 | lift of `step` with `en`/`rst` |

## Modules

| Lean module(s) | what it models / proves |
|---|---|
| `Ucode/Fields`, `Ucode/FieldTables`, `Ucode/Source`, `Ucode/Asm`, `Ucode/Rom` | `microcode.asm` 1-517 and `ucodefields.py`; the assembler; the resulting 256-word ROM |
| `Ucode/Layout`, `Ucode/Encode` | `ucoderom.py` (`field_layout`, field/enum validation), the 48-bit word encoding |
| `Core/Alu`, `Align`, `Insn`, `Decode`, `Datapath`, `Exception`, `Control` | one file per Python file, component by component |
| `Core/Top` | `top.py`: wiring, `State.step`, Wishbone outputs, reset, clock enable |
| `Core/Run`, `Core/Reach` | runs over infinite input streams; the vocabulary of the theorem statements (`Reach`, `AfterReset`, `Dispatches`, `Executes`, `State.arch`, `State.events`) |
| `Soc/Memory`, `Soc/Timer`, `Soc/Uart`, `Soc/Serial` | `examples/attosoc.py`: `WBMemory`, `WBTimer`, `CSRTimer`, `WBLeds`, `CSRLeds`, `UART`, `WBSerial`, `CSRSerial` (the CSR versions from their register strobes on) |
| `Soc/UartBits` | `UART` again, bit by bit with the declared widths (C88) |
| `Soc/Atto` | `AttoSoC` with Wishbone peripherals: core, decoder, RAM, LEDs/GPIO, timer, serial port, interrupt wiring |
| `Soc/RamSize`, `Soc/RamSizeCsr` | `WBMemory` of any depth and `AttoSoC` with it, with either kind of peripherals (C93) |
| `Soc/Reset` | clock edges of the SoCs with reset asserted (C94) |
| `Soc/Clock` | a program, not in /repo, that shows the time (C95) |
| `Soc/AttoCsr` | `AttoSoC` with the peripherals on the CSR bus: core, RAM, Wishbone-to-CSR bridge, CSR bus, peripherals (the counter of the bridge is a natural number that stays below 5); `Spec/PlatformCsr`: its memory map |
| `Soc/Arty` | clock divider for the Arty A7 around the SoC, hex file of the firmware |
| `Soc/Loader` | `AttoSoC.rom` and `WBMemory.init` setters, image of an ELF file in `demo` (concatenation of segments; the ELF parser and the assembler are external) |
| `Soc/Primes` | the firmware in `demo`, as machine words |
| `Soc/Firmware` | the serial driver of the Rust firmware (`sentinel-rt/examples/attosoc.rs`) and its peripherals; `Spec/Firmware`: what is observed of a run |
| `Soc/App` | the application of the Rust firmware: `main`, `do_demo`, `set_rule`, `read_num`; `Spec/App`: what it is to say |
| `Soc/FirmwareCsr` | the Rust firmware with the peripherals on the CSR bus; `Spec/FirmwareCsr`: what is observed of a run |
| `Spec/Interrupts` | interrupt handlers and programs that keep apart from them (no code of /repo; used by C84) |
| `Spec/InterruptsSoc` | the same on a platform with peripherals (no code of /repo; used by C107) |
| `Soc/Echo` | an echo program for the example SoC (no code of /repo; used by C108) |
| `Core/Rvfi` | `formal.py`: `FormalTop` |
| `Core/RvfiPort` | `formal.py`: the RVFI port with its constant outputs |
| `Spec/RiscvFormal` | the checks of RISC-V Formal that `tests/formal/checks.cfg` configures (no code of /repo; used by C85) |
| `Spec/Leak` | what an instruction gives away, and the bus script of an instruction (no code of /repo; used by C87) |
| `Spec/Crash` | what registers and memory may be like after a reset at any time (C89) |
| `Spec/Assembler` | the instruction formats, with integers as operands, and the riscv-opcodes table (C92) |
| `Spec/Latency`, `Soc/Slow` | what is seen of a run but for its times; a memory with arbitrary wait states (no code of /repo; used by C90) |
| `Core/Traffic` | what is visible of the bus but for the data, and what it means to follow a script (`top.py` 254-261) |
| `Spec/Line`, `Spec/Terminal` | what is sent over a serial line, in cycles or in real time; a receiver with its own clock at the other end of the cable (no code of /repo but the UART; used by C100–C106) |
| `Spec/Isa`, `Spec/Tree`, `Spec/Retire`, `Spec/Traps`, `Spec/Timing`, `Spec/Memory`, `Spec/Platform` | specification, independent of the core |
| `Proof/*` | proofs |
| `Props/*` | the theorems named in `MANIFEST.json` |

## Trusted base

* Lean 4.33.0's kernel. No theorem uses `native_decide`, `bv_decide` or any axiom beyond Lean's
  three standard ones: every theorem of the manifest depends on a subset of `propext`,
  `Classical.choice`, `Quot.sound`. Closed facts about finite tables (the ROM, instruction words of a
  demo) are evaluated by `decide` / `decide +kernel`, i.e. by the kernel's reduction.
* The model is a transcription by hand of the Python sources, each definition carrying the lines it
  models. What has to be believed is that the transcription is faithful, including the semantics of
  Amaranth: last assignment in a domain wins, conditional assignments hold the old value, memory
  read ports are synchronous with the declared transparency, `Signal`s reset to their `init`.
* `Spec/*` has to be read as being RV32I_Zicsr with machine mode, and the definitions of
  `Core/Reach.lean` as saying what they say.

### Modelled
`alu.py`, `align.py`, `csr.py`, `datapath.py`, `decode.py`, `insn.py`, `exception.py`, `control.py`,
`top.py`, `ucodefields.py`, `ucoderom.py` (layout, validation, encoding), `microcode.asm` in full;
`formal.py` (`FormalTop`); from `examples/attosoc.py` the components listed above.

### Not modelled
* `m5meta` (external assembler). Its language as used by `microcode.asm` is modelled in
  `Ucode/Asm.lean`: labels, `org`, defaults, fall-through of the jump target, padding by zero words.
* Amaranth itself, and Verilog generation (`gen.py`), which only calls Amaranth's back end.
* amaranth-soc is external. `wishbone.Decoder` is modelled from its
  documented behaviour in `Soc/Atto.lean`: combinational, `cyc` only to the addressed subordinate, 0 outside
  all windows; windows at 0x0, 0x02000000, 0x40000000 and 0x80000000 (the addresses that
  `sentinel-rt/examples/attosoc.rs` 83-90 uses). C56-C59 rest on it. `WishboneCSRBridge`, `csr.Decoder` and `csr.Bridge`
  are modelled from their documented behaviour in `Soc/AttoCsr.lean` (its head lists what is assumed); C72-C75 and C80-C83 rest on it.
* `bronzebeard` (external assembler of the firmware). `Soc/Primes.lean` has the words for the usual expansion of
  the pseudo-instructions (`call` as `auipc` and `jalr`, `li` as `addi`, or `lui` and `addi`); C61 rests on it.
* `heapless::spsc::Queue<u8, 64>` (external): modelled as a FIFO that holds 63 bytes. `critical_section::with` (external):
  interrupts are off inside (what this means for the core is C97), and as before afterwards. The Rust compiler and the start-up code of `sentinel-rt` and
  `riscv-rt`: `Soc/Firmware.lean` models the source, statement by statement, with arbitrary delays in between.
* `atoi`'s `from_radix_10` (external): the leading decimal digits, modulo 256. `bitvec`'s arrays (external): lists of booleans.
* Command-line handling and pin assignments of the example (`attosoc.py` 920-1181, but for the clock divider and the hex file), the build tools.

### Simplifications
* Signals of Python enums whose encodings leave gaps are Lean inductive types; encodings that no
  member has are unrepresentable. `C34_rom` shows that the ROM contains none.
* Memory depth of `WBMemory` is a power of two in `Soc/Memory`; `Soc/RamSize` and `Soc/RamSizeCsr` have any depth, and by C93 that makes no difference to programs that fit.
* The UART's counters are natural numbers in `Soc/Uart`; by C88 that makes no difference.
* The register file is `BitVec 6 → Word`; at power-on it is 0 (register 0: 0xdeadbeef), and it keeps its contents in a reset.

### Evidence that the model is the program

Tests, not proofs, kept apart from the theorems: `tools/conformance/run.sh` compiles the model of the core
(`State.step` from `powerOn`) and runs the repo's own test data on it with the repo's memory process. All 53
riscv-tests binaries of `tests/upstream/binaries` give the result `tests/upstream/test_upstream.py` expects
(49 pass, the four marked xfail fail); the 72 register/CSR/memory checks of `test_seq` in `tests/sim/test_top.py`
and the cycle-exact stimulus of `tests/sim/test_witness.py` agree. `ucode.py` is a second assembler, written from
`microcode.asm` alone; its 256 object words are those of `rom`. Last output: `tools/conformance/RESULTS.txt`.

## Deviations of the code found
| id | what | theorem |
|---|---|---|
| D1 | the interrupt bit latched for `mcause` is never cleared: after the first interrupt, synchronous exceptions report bit 31 set | `C18_full_false` |
| D2 | the (illegal) words 0x00000070, 0x00000071 and 0x00000072 are reported as environment calls (cause 11) instead of cause 2 | `C13_d2`, `C13_full_false` |
| D3 | an ACK in the first cycle of a request (a combinational ACK) corrupts a destination register | `C30_same_cycle_ack` |
| D4 | the layout generator never increments its padding number, so a second gap overwrites the first | `C35_full_false` |
| D5 | the documentation says MRET has throughput 8; it is 7 | `Soc.C28_doc` |
| D6 | Wishbone timer: an interrupt raised in the acknowledge cycle of a read is removed without having been reported | `C39_race` |
| D7 | the layout generator does not pad a gap before the first field | `C35_layout_partial` |
| D8 | a read of the serial data register that is in its second cycle when a character becomes available acknowledges the character without returning it; the next frame overwrites it without overflow flag | `C47_race` |
| D9 | RVFI harness: an instruction that traps reports its destination register with a stale value, i.e. a register write that does not happen | `C53_stale`, `C53_d9` |
| D10 | Rust firmware: `write_char` inside a critical section (as in `read_num`) never returns if the queue is full (C67: the demo is never in that state, if the processor is fast enough) | `C63_stuck` |
| D11 | option `-x` (hex file) fails with an exception for the Arty A7: `asoc` has been replaced by the module around it | `C77_arty` |
| D12 | the clock divider for the Arty A7 makes 100 MHz * 3/26 = 11.54 MHz, not the 12 MHz of the comment (gaps of 9, 9 and 8 cycles), so 9600 baud are 3.8% slow; it still works with a terminal at exactly 9600 baud | `C76_speed`, `C76_terminal` |
| D13 | `tests/formal/checks.cfg` says that all bits of mstatus but MIE are constant (`const="32'h0001800"`, mask `FFFFFFF7`); MPIE can be written and then reads as 1 | `C85_mpie` |
| D14 | the read latch of the microcode ROM is not reset (`control.py` 569-594), so a microinstruction is executed once after a one-cycle reset: MPIE is left set if it belongs to MRET (mstatus 0x1880), mepc is cleared if it is the one that saves mepc. `tests/riscof/sentinel/sentinel_isa.yaml` 14-15 gives 0x18000 as the reset value of mstatus, which it never is (`C22_mstatus`) | `Soc.C22_mret`, `Soc.C22_trap`; with two cycles of reset: `C22_held` |
| D15 | RVFI harness: `formal.py` 443-479 hold the value of a CSR from before the instruction only when the CSR is written by `write_csr`; a trap and MRET change mstatus otherwise, so `mstatus.rdata` is the value after the trap, and the value before or after MRET depending on the wait states of the next fetch | `C54_mstatus_trap`, `C54_mstatus_mret`, `C54_d15` |
