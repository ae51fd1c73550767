import Verif.Spec.Platform
/-!
# The prime number firmware of the example SoC — `examples/attosoc.py` 949-984

The words that the assembler (external) makes of the source, with the usual expansions of the
pseudo-instructions: `li` is `addi` or `lui` and `addi`, `call` is `auipc` and `jalr`.
-/

namespace Sentinel

open Spec (Word Mem)

/-- The firmware (`attosoc.py` 950-983). -/
def primesProgram : List Word :=
  [0x00200413#32,  --   0  li s0,2
   0x020004B7#32,  --   4  lui s1,0x2000
   0x10000993#32,  --   8  li s3,256
   0x00140413#32,  --  12  outer: addi s0,s0,1
   0x01344463#32,  --  16  blt s0,s3,noinit
   0x00200413#32,  --  20  li s0,2
   0x00200913#32,  --  24  noinit: li s2,2
   0x02895063#32,  --  28  next_int: bge s2,s0,write_io
   0x00040513#32,  --  32  mv a0,s0
   0x00090593#32,  --  36  mv a1,s2
   0x00000097#32,  --  40  call prime?
   0x024080E7#32,  --  44  
   0x00050C63#32,  --  48  beqz a0,not_prime
   0x00190913#32,  --  52  addi s2,s2,1
   0xFE5FF06F#32,  --  56  j next_int
   0x0084A023#32,  --  60  write_io: sw s0,0(s1)
   0x00000097#32,  --  64  call delay
   0x01C080E7#32,  --  68  
   0xFC5FF06F#32,  --  72  not_prime: j outer
   0x00100293#32,  --  76  prime?: li t0,1
   0x40B50533#32,  --  80  submore: sub a0,a0,a1
   0xFE555EE3#32,  --  84  bge a0,t0,submore
   0x00008067#32,  --  88  ret
   0x000582B7#32,  --  92  delay: li t0,360000
   0xE4028293#32,  --  96  
   0xFFF28293#32,  -- 100  countdown: addi t0,t0,-1
   0xFE029EE3#32,  -- 104  bnez t0,countdown
   0x00008067#32]  -- 108  ret

/-- RAM of `2 ^ k` words holds the program `l` from address 0 on (what `attosoc.py` 949-984 is loaded to). -/
def HoldsProgram {k : Nat} (M : Mem k) (l : List Word) : Prop :=
  ∀ i, (h : i < l.length) → M (BitVec.ofNat k i) = l[i]

end Sentinel
