import Verif.Soc.Memory
import Verif.Soc.Serial
import Verif.Soc.Atto
import Verif.Spec.PlatformCsr
/-!
# The example SoC with peripherals on the CSR bus — `AttoSoC(bus_type=BusType.CSR)`, `examples/attosoc.py` 766-922

The core and `WBMemory` as in `Soc/Atto.lean`, and behind amaranth-soc's `WishboneCSRBridge` and `csr.Decoder` the peripherals
`CSRLeds`, `CSRTimer` and `CSRSerial`, each with its `csr.Bridge`.

These parts of amaranth-soc are external.  What is assumed of them:

* `WishboneCSRBridge(data_width=32)`: the four bytes of the word, one per cycle, the lowest first, each with a read or a write strobe if its
  bit of `sel` is set; the data of a read comes in the cycle after the strobe and is put into its byte of `dat_r` (a register); after the last one
  it acknowledges, for one cycle (`ack` is a register).
* `csr.Decoder` and `csr.Bridge`: a register that is one byte wide gets its read strobe in the cycle of the bus's, and the bus has
  its data in the next cycle (0 if nothing was read); it gets its write strobe, with the data, in the cycle after the bus's.
  There are three `csr.Bridge`s; here, they are one: each returns 0 when not read, and the decoder returns the disjunction.
* Addresses: `csr.Decoder(addr_width=25, alignment=23)` has the LEDs at 0, the timer at 0x800000 and the serial port at 0x1000000
  (880-886), their registers being where `builder.add` puts them; other addresses read as 0.  `wishbone.Decoder` puts all that at 0x02000000
  (891; these are the addresses that `sentinel-rt/examples/attosoc.rs` 91-95 uses).
-/

namespace Sentinel

open Spec (Word Mem)

/-- The registers (`attosoc.py` 273-294, 399-420, 668-689). -/
inductive CsrReg | leds | inout | oe | timer | txrx | irq
  deriving DecidableEq

/-- The register at an address of the CSR bus (`attosoc.py` 287-290, 419-420, 685-687, 880-886). -/
def csrReg (addr : BitVec 25) : Option CsrReg :=
  if addr = 0x0#25 then some .leds
  else if addr = 0x4#25 then some .inout
  else if addr = 0x8#25 then some .oe
  else if addr = 0x800000#25 then some .timer
  else if addr = 0x1000000#25 then some .txrx
  else if addr = 0x1000004#25 then some .irq
  else none

/-- A cycle of the CSR bus (`csr.Decoder` of amaranth-soc, `attosoc.py` 876-881). -/
structure CsrReq where
  addr : BitVec 25
  rStb : Bool
  wStb : Bool
  wData : BitVec 8

/-- State of `WishboneCSRBridge` (`attosoc.py` 890): which byte it is at (4: all done), `ack`, and the bytes of `dat_r`. -/
structure WbCsr where
  cycle : Nat := 0
  ack : Bool := false
  b0 : BitVec 8 := 0
  b1 : BitVec 8 := 0
  b2 : BitVec 8 := 0
  b3 : BitVec 8 := 0

namespace WbCsr

/-- `dat_r` (`attosoc.py` 890). -/
def datR (b : WbCsr) : Word := b.b3 ++ b.b2 ++ b.b1 ++ b.b0

/-- The CSR bus (`attosoc.py` 890); `active` is `cyc & stb`. -/
def req (b : WbCsr) (active we : Bool) (adr : BitVec 30) (sel : BitVec 4) (datW : Word) : CsrReq :=
  { addr := adr.setWidth 23 ++ BitVec.ofNat 2 b.cycle
    rStb := active && b.cycle < 4 && sel.getLsbD b.cycle && !we
    wStb := active && b.cycle < 4 && sel.getLsbD b.cycle && we
    wData := datW.extractLsb' (8 * b.cycle) 8 }

/-- One clock (`attosoc.py` 890); `rData` is the read data of the CSR bus. -/
def step (b : WbCsr) (active : Bool) (rData : BitVec 8) : WbCsr :=
  { cycle := if b.ack then 0 else if active && b.cycle < 4 then b.cycle + 1 else b.cycle
    ack := !b.ack && active && !decide (b.cycle < 4)
    b0 := if active && b.cycle = 1 then rData else b.b0
    b1 := if active && b.cycle = 2 then rData else b.b1
    b2 := if active && b.cycle = 3 then rData else b.b2
    b3 := if active && !decide (b.cycle < 4) then rData else b.b3 }

end WbCsr

/-- State of the three `csr.Bridge`s (`attosoc.py` 293, 423, 691): the read data on the bus, and the register that gets a write strobe
in this cycle, with its data. -/
structure CsrBus where
  rData : BitVec 8 := 0
  w : Option (CsrReg × BitVec 8) := none

/-- The subordinates of the Wishbone bus (`attosoc.py` 863 and 887). -/
inductive CsrDev | ram | periph
  deriving DecidableEq

/-- `wishbone.Decoder` (`attosoc.py` 800, 863, 891): the subordinate whose window contains the word address. -/
def csrSocDecode (adr : BitVec 30) : Option CsrDev :=
  if adr.extractLsb' 23 7 = 0b0000000#7 then some .ram
  else if adr.extractLsb' 23 7 = 0b0000001#7 then some .periph
  else none

/-- State of `AttoSoC(bus_type=BusType.CSR)` (`attosoc.py` 797-816). -/
structure AttoCsr (k : Nat) where
  cpu : State
  ram : WbMem k
  bridge : WbCsr
  bus : CsrBus
  leds : CsrLeds
  timer : CsrTimer
  ser : CsrSerial

namespace AttoCsr
variable {k : Nat}

/-- `attosoc.py` 898: `cpu.irq`. -/
def irq (s : AttoCsr k) : Bool := s.timer.irq || s.ser.irq

/-- The subordinate addressed by the core (`attosoc.py` 917). -/
def dev (s : AttoCsr k) : Option CsrDev := csrSocDecode s.cpu.adr

/-- `dat_r` of the decoder (`attosoc.py` 863, 887 and 917). -/
def datR (s : AttoCsr k) : Word :=
  match s.dev with
  | some .ram => s.ram.rdata
  | some .periph => s.bridge.datR
  | none => 0

/-- `ack` of the decoder (`attosoc.py` 863, 887 and 917). -/
def ack (s : AttoCsr k) : Bool :=
  match s.dev with
  | some .ram => s.ram.ack
  | some .periph => s.bridge.ack
  | none => false

/-- `cyc` of a subordinate (`attosoc.py` 863, 887 and 917). -/
def devCyc (s : AttoCsr k) (d : CsrDev) : Bool := s.cpu.cyc && s.dev = some d

/-- The CSR bus (`attosoc.py` 876-890). -/
def req (s : AttoCsr k) : CsrReq :=
  s.bridge.req (s.devCyc .periph && s.cpu.stb) s.cpu.we s.cpu.adr s.cpu.sel s.cpu.datW

/-- The register with a read strobe in this cycle (`attosoc.py` 876-881). -/
def reads (s : AttoCsr k) : Option CsrReg := if s.req.rStb then csrReg s.req.addr else none

/-- The data of a register (`attosoc.py` 322-323, 437, 730-732; registers that are write-only have none). -/
def value (s : AttoCsr k) (gpioI : BitVec 8) : CsrReg → BitVec 8
  | .inout => CsrLeds.inoutData gpioI
  | .timer => if s.timer.irq then 1 else 0
  | .txrx => s.ser.data
  | .irq => s.ser.irqData.setWidth 8
  | .leds | .oe => 0

/-- The data of the write strobe of a register, if it has one (`attosoc.py` 876-881). -/
def written (s : AttoCsr k) (r : CsrReg) : Option (BitVec 8) :=
  match s.bus.w with
  | some (r', d) => if r' = r then some d else none
  | none => none

/-- Strobes of the LEDs and GPIO (`attosoc.py` 264-330 and 878). -/
def ledStb (s : AttoCsr k) : LedStb := { leds := s.written .leds, inout := s.written .inout, oe := s.written .oe }

/-- Read strobe of the timer (`attosoc.py` 415-422 and 880). -/
def timerStb (s : AttoCsr k) : Bool := s.reads = some .timer

/-- Strobes of the serial port (`attosoc.py` 682-691 and 881). -/
def serStb (s : AttoCsr k) : SerialStb :=
  { wStb := (s.written .txrx).isSome, wData := (s.written .txrx).getD 0
    rStb := s.reads = some .txrx, irqStb := s.reads = some .irq }

/-- What the core sees (`attosoc.py` 898, 917). -/
def input (s : AttoCsr k) : Input := ⟨s.datR, s.ack, s.irq⟩

/-- One clock edge (`attosoc.py` 876-898); `D` is the divisor of the serial port. -/
def step (D : Nat) (s : AttoCsr k) (p : AttoIn) : AttoCsr k :=
  { cpu := s.cpu.step s.input
    ram := s.ram.step (s.devCyc .ram) s.cpu.stb s.cpu.we s.cpu.adr s.cpu.sel s.cpu.datW
    bridge := s.bridge.step (s.devCyc .periph && s.cpu.stb) s.bus.rData
    bus :=
      { rData := match s.reads with
          | some r => s.value p.gpioI r
          | none => 0
        w := if s.req.wStb then (csrReg s.req.addr).map fun r => (r, s.req.wData) else none }
    leds := s.leds.step s.ledStb
    timer := s.timer.step s.timerStb
    ser := s.ser.step D s.serStb p.rx }

/-- The SoC after `n` cycles with pins `p` (iterates `attosoc.py` 833-919). -/
def run (D : Nat) (s : AttoCsr k) (p : Nat → AttoIn) : Nat → AttoCsr k
  | 0 => s
  | n + 1 => (run D s p n).step D (p n)

/-- The inputs of the core in each cycle (`attosoc.py` 898 and 917). -/
def inputs (D : Nat) (s : AttoCsr k) (p : Nat → AttoIn) (n : Nat) : Input := (s.run D p n).input

/-- The SoC has just been reset; the memory contents and its read data are arbitrary (the reset of the `sync` domain of `attosoc.py` 833-919). -/
structure AfterReset (s : AttoCsr k) : Prop where
  cpu : Sentinel.AfterReset s.cpu
  ram : s.ram.ack = false
  bridge : s.bridge = {}
  bus : s.bus = {}
  leds : s.leds = {}
  timer : s.timer = {}
  ser : s.ser = CsrSerial.reset

/-- The part of the state that only programs change, as the specification of the platform sees it (a view of `attosoc.py` 833-919 for the theorems). -/
def plat (s : AttoCsr k) : Spec.Plat k := ⟨s.ram.mem, s.leds.leds, s.leds.gpioO, s.leds.gpioOe⟩

end AttoCsr

end Sentinel
