import Verif.Spec.Memory
/-!
# Putting a program into the RAM of the example SoC — `examples/attosoc.py`

Not modelled: the assembler that turns source text into bytes (external), and reading ELF files.  The
initial contents of a memory are a list as long as the memory is deep.
-/

namespace Sentinel

open Spec (Word Mem)

/-- `int.from_bytes(b, byteorder="little")` (Python; `attosoc.py` 823-829). -/
def fromBytesLE : List (BitVec 8) → Nat
  | [] => 0
  | b :: l => b.toNat + 256 * fromBytesLE l

/-- The words made of an image (`attosoc.py` 821-829): one for each address 0, 4, 8, ... below the length
of the image, made of the slice `[adr:adr + 4]`. -/
def imageWords (img : List (BitVec 8)) : List Word :=
  (List.range ((img.length + 3) / 4)).map fun i => BitVec.ofNat 32 (fromBytesLE ((img.drop (4 * i)).take 4))

/-- `WBMemory.init = mem` (`attosoc.py` 77-78): assignment to the first elements of the initial contents;
Amaranth refuses with an exception to change the length. -/
def assignInit (init mem : List Word) : Option (List Word) :=
  if mem.length ≤ init.length then some (mem ++ init.drop mem.length) else none

/-- `AttoSoC.rom = image` for a bytes image (`attosoc.py` 826-829), and for what the assembler returns
(821-825). -/
def loadImage (init : List Word) (img : List (BitVec 8)) : Option (List Word) := assignInit init (imageWords img)

/-- `AttoSoC.rom = words` for a list (`attosoc.py` 830-831). -/
def loadWords (init ws : List Word) : Option (List Word) := assignInit init ws

/-- Initial contents of a new memory of `2 ^ k` words (`attosoc.py` 67, `init=[]`). -/
def blankInit (k : Nat) : List Word := List.replicate (2 ^ k) 0

/-- The memory at power-on (`attosoc.py` 67 and 77-78). -/
def memOf {k : Nat} (init : List Word) : Mem k := fun a => init.getD a.toNat 0

/-- A segment of an ELF file: the address it is to be loaded at, and its data (pyelftools; `attosoc.py` 932-944). -/
structure Segment where
  paddr : Nat
  data : List (BitVec 8)

/-- The image of an ELF file (`attosoc.py` 932-944): the data of the first two segments, one after the
other. -/
def elfImage (segs : List Segment) : List (BitVec 8) := ((segs.take 2).map Segment.data).foldl (· ++ ·) []

end Sentinel
