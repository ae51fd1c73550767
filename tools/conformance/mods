Verif.Ucode.Fields
Verif.Ucode.Source
Verif.Ucode.Asm
Verif.Ucode.Rom
Verif.Core.Align
Verif.Core.Alu
Verif.Core.Insn
Verif.Core.Decode
Verif.Core.Datapath
Verif.Core.Exception
Verif.Core.Control
Verif.Core.Top
