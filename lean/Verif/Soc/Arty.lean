import Verif.Soc.AttoCsr
import Verif.Soc.Loader
/-!
# The rest of the generator of the example SoC — `examples/attosoc.py` 920-1181

The clock divider for the Arty A7 board and the hex file of the firmware.  Not modelled: the assignment of
pins, the external build tools, remote builds.
-/

namespace Sentinel

open Spec (Word)

/-- The design built for the Arty A7 (`attosoc.py` 1070-1084): the counter `div_8` (`Signal(range(26))`, 5 bits) and the SoC. `σ` is the state of the SoC,
with either bus. -/
structure Arty (σ : Type) where
  div : BitVec 5 := 0
  soc : σ

namespace Arty
variable {σ : Type}

/-- `soc_ce` (`attosoc.py` 1080-1081). -/
def ce (s : Arty σ) : Bool := s.div == 8 || s.div == 17 || s.div == 25

/-- One cycle of the 100 MHz clock of the board (`attosoc.py` 1075-1082): the counter goes from 0 to 25 (the assignment of 0 comes later in the source, so it wins);
`EnableInserter` (external) makes all registers and memory ports of the SoC keep their contents in a cycle in which `soc_ce` is low. `step` is a cycle of the SoC. -/
def step (step : σ → AttoIn → σ) (s : Arty σ) (p : AttoIn) : Arty σ :=
  { div := if s.div = 25 then 0 else s.div + 1
    soc := if s.ce then step s.soc p else s.soc }

/-- The design after `n` cycles with pins `p` (iterates `attosoc.py` 1070-1084). -/
def run (step : σ → AttoIn → σ) (s : Arty σ) (p : Nat → AttoIn) : Nat → Arty σ
  | 0 => s
  | n + 1 => (run step s p n).step step (p n)

end Arty

/-- A digit of Python's `x` format (Python; used by `attosoc.py` 1149). -/
def hexDigit (n : Nat) : Char := (['0', '1', '2', '3', '4', '5', '6', '7', '8', '9', 'a', 'b', 'c', 'd', 'e', 'f'] : List Char).getD n '0'

/-- `f"{n:x}"`: the digits of a number without leading zeros, `0` for 0 (Python; used by `attosoc.py` 1149). -/
def hexDigits (n : Nat) : List Char :=
  if n < 16 then [hexDigit n] else hexDigits (n / 16) ++ [hexDigit (n % 16)]

/-- `f"{n:08x}"`: filled up with zeros to 8 characters (Python; used by `attosoc.py` 1149). -/
def hex08 (n : Nat) : List Char := List.replicate (8 - (hexDigits n).length) '0' ++ hexDigits n

/-- `args.p` (`attosoc.py` 989-1084). -/
inductive Board | cmod_s7 | icebreaker | ice40_hx8k_b_evn | icestick | arty_a7
  deriving DecidableEq

/-- What `asoc` is when the hex file is written: the SoC, with its initial memory contents, or (Arty A7) the module around it (`attosoc.py` 1084, `asoc = m`). -/
inductive Design | soc (init : List Word) | module

/-- `attosoc.py` 986-1084. -/
def design (b : Board) (init : List Word) : Design :=
  match b with
  | .arty_a7 => .module
  | _ => .soc init

/-- `asoc.rom` (`attosoc.py` 814-817): the initial memory contents.  An Amaranth `Module` has no such attribute: `AttributeError`. -/
def Design.rom : Design → Option (List Word)
  | .soc init => some init
  | .module => none

/-- The hex file of option `-x` (`attosoc.py` 1144-1149); `none` if the program stops with an exception. -/
def hexFile (b : Board) (init : List Word) : Option (List Char) :=
  (design b init).rom.map fun rom => rom.flatMap fun i => hex08 i.toNat ++ ['\n']

end Sentinel
