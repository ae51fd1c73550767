import Verif.Soc.Primes
/-!
# An echo (C108)

A program for the example SoC with the CSR bus, not part of /repo: it waits for a character and sends it back.  The addresses are those of
`sentinel-rt/examples/attosoc.rs` 91-95; bit 0 of the register at `0x03000004` says that a character has come (`examples/attosoc.py` 728-749).
-/

namespace Sentinel
open Spec (Word)

/-- The program (no code of /repo; it uses the serial port as `sentinel-rt/examples/attosoc.rs` 91-147 does). -/
def echoProgram : List Word :=
  [0x030003B7#32,  -- 00 lui x7, 0x3000
   0x0043A083#32,  -- 04 lw x1, 4(x7)
   0x0010F093#32,  -- 08 andi x1, x1, 1
   0xFE008CE3#32,  -- 0c beq x1, x0, -8
   0x0003A103#32,  -- 10 lw x2, 0(x7)
   0x00238023#32,  -- 14 sb x2, 0(x7)
   0xFEDFF06F#32]  -- 18 jal x0, -20

end Sentinel
