import Verif.Ucode.Encode
open Sentinel Sentinel.Ucode

/-- prints `encode` of the 256 words of the ROM of the model -/
def main : IO Unit := do
  for a in [0 : 256] do
    IO.println (toString (encode (rom (BitVec.ofNat 8 a))))
