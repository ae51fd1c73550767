import Verif.Soc.Primes
/-!
# A clock (C95)

A program for the example SoC with the CSR bus, not part of /repo: it counts the timer's interrupts and shows the count on the LEDs.  The addresses
are those of `sentinel-rt/examples/attosoc.rs` 91-95; the handler reads the interrupt registers of the serial port and of the timer, as
that of `attosoc.rs` 133-147 does.
-/

namespace Sentinel
open Spec (Word)

/-- The program (no code of /repo; the handler reads what `sentinel-rt/examples/attosoc.rs` 141-148 reads). -/
def clockProgram : List Word :=
  [0x020002B7#32,  -- 00 lui x5, 0x2000
   0x02800337#32,  -- 04 lui x6, 0x2800
   0x030003B7#32,  -- 08 lui x7, 0x3000
   0x00000413#32,  -- 0c addi x8, x0, 0
   0x02C00093#32,  -- 10 addi x1, x0, 0x2c
   0x30509073#32,  -- 14 csrrw x0, mtvec, x1
   0x000010B7#32,  -- 18 lui x1, 1
   0x80008093#32,  -- 1c addi x1, x1, -2048
   0x3040A073#32,  -- 20 csrrs x0, mie, x1
   0x30046073#32,  -- 24 csrrsi x0, mstatus, 8
   0x0000006F#32,  -- 28 jal x0, 0
   0x0043A083#32,  -- 2c lw x1, 4(x7)
   0x00032103#32,  -- 30 lw x2, 0(x6)
   0x00240433#32,  -- 34 add x8, x8, x2
   0x00828023#32,  -- 38 sb x8, 0(x5)
   0x30200073#32]  -- 3c mret

end Sentinel
