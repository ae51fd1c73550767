import Verif.Ucode.Asm
/-!
# The microcode ROM

Generated by evaluating the assembler on the source and printing the result; the theorem
`assembled_eq` re-proves in the kernel that the assembler produces exactly these words, so this file
adds nothing to the trusted base.  `u_xx` is the word at address `0xxx`.
-/

namespace Sentinel
namespace Ucode

/-- `microcode.asm` 123-125. -/
def u_00 : UInsn := { jmpType := .direct, condTest := .memValid, invertTest := true, regRead := true, memReq := true, insnFetch := true }
/-- `microcode.asm` 127-129. -/
def u_01 : UInsn := { target := 240#8, jmpType := .map, condTest := .exception, latchA := true, regRead := true, regRSel := .rs2, exceptCtl := .latchDecoder }
/-- `microcode.asm` 146. -/
def u_02 : UInsn := { latchA := true, latchB := true, aSrc := .zero, bSrc := .one }
/-- `microcode.asm` 147. -/
def u_03 : UInsn := { aluOp := .and }
/-- `microcode.asm` 148. -/
def u_04 : UInsn := { aluOp := .and, regWrite := true, regWSel := .zero }
/-- `microcode.asm` 149-151. -/
def u_05 : UInsn := { target := 10#8, jmpType := .directZero, invertTest := true, pcAction := .loadAluO, csrOp := .writeCsr, csrSel := .trgCsr }
/-- `microcode.asm` 154-155. -/
def u_08 : UInsn := { target := 14#8, jmpType := .direct, pcAction := .inc, latchB := true, bSrc := .imm }
/-- `microcode.asm` 156. -/
def u_09 : UInsn := { target := 18#8, jmpType := .direct, latchB := true, bSrc := .imm }
/-- `microcode.asm` 157. -/
def u_0a : UInsn := { target := 22#8, jmpType := .direct, latchB := true, bSrc := .imm }
/-- `microcode.asm` 158. -/
def u_0b : UInsn := { target := 255#8, jmpType := .direct }
/-- `microcode.asm` 159-160. -/
def u_0c : UInsn := { target := 26#8, jmpType := .direct, pcAction := .inc, latchB := true, bSrc := .imm }
/-- `microcode.asm` 161. -/
def u_0d : UInsn := { target := 30#8, jmpType := .direct, latchB := true, bSrc := .imm }
/-- `microcode.asm` 163. -/
def u_0e : UInsn := {  }
/-- `microcode.asm` 164. -/
def u_0f : UInsn := { latchAdr := true }
/-- `microcode.asm` 165-167. -/
def u_10 : UInsn := { target := 16#8, jmpType := .direct, condTest := .memValid, invertTest := true, latchA := true, latchB := true, aSrc := .zero, bSrc := .datR, memReq := true, memSel := .byte, memExtend := .sign }
/-- `microcode.asm` 168. -/
def u_11 : UInsn := { target := 181#8, jmpType := .direct }
/-- `microcode.asm` 170. -/
def u_12 : UInsn := {  }
/-- `microcode.asm` 171-172. -/
def u_13 : UInsn := { target := 240#8, jmpType := .direct, condTest := .exception, memSel := .hword, latchAdr := true, exceptCtl := .latchLoadAdr }
/-- `microcode.asm` 173-175. -/
def u_14 : UInsn := { target := 20#8, jmpType := .direct, condTest := .memValid, invertTest := true, latchA := true, latchB := true, aSrc := .zero, bSrc := .datR, memReq := true, memSel := .hword, memExtend := .sign }
/-- `microcode.asm` 176. -/
def u_15 : UInsn := { target := 181#8, jmpType := .direct, pcAction := .inc }
/-- `microcode.asm` 178. -/
def u_16 : UInsn := {  }
/-- `microcode.asm` 179-180. -/
def u_17 : UInsn := { target := 240#8, jmpType := .direct, condTest := .exception, memSel := .word, latchAdr := true, exceptCtl := .latchLoadAdr }
/-- `microcode.asm` 181-183. -/
def u_18 : UInsn := { target := 24#8, jmpType := .direct, condTest := .memValid, invertTest := true, latchA := true, latchB := true, aSrc := .zero, bSrc := .datR, memReq := true, memSel := .word }
/-- `microcode.asm` 184. -/
def u_19 : UInsn := { target := 181#8, jmpType := .direct, pcAction := .inc }
/-- `microcode.asm` 186. -/
def u_1a : UInsn := {  }
/-- `microcode.asm` 187. -/
def u_1b : UInsn := { latchAdr := true }
/-- `microcode.asm` 188-190. -/
def u_1c : UInsn := { target := 28#8, jmpType := .direct, condTest := .memValid, invertTest := true, latchA := true, latchB := true, aSrc := .zero, bSrc := .datR, memReq := true, memSel := .byte }
/-- `microcode.asm` 191. -/
def u_1d : UInsn := { target := 181#8, jmpType := .direct }
/-- `microcode.asm` 193. -/
def u_1e : UInsn := {  }
/-- `microcode.asm` 194-195. -/
def u_1f : UInsn := { target := 240#8, jmpType := .direct, condTest := .exception, memSel := .hword, latchAdr := true, exceptCtl := .latchLoadAdr }
/-- `microcode.asm` 196-198. -/
def u_20 : UInsn := { target := 32#8, jmpType := .direct, condTest := .memValid, invertTest := true, latchA := true, latchB := true, aSrc := .zero, bSrc := .datR, memReq := true, memSel := .hword }
/-- `microcode.asm` 199. -/
def u_21 : UInsn := { target := 181#8, jmpType := .direct, pcAction := .inc }
/-- `microcode.asm` 204-205. -/
def u_24 : UInsn := { target := 240#8, jmpType := .map, condTest := .exception, regRead := true, exceptCtl := .latchDecoder }
/-- `microcode.asm` 206-207. -/
def u_25 : UInsn := { target := 49#8, jmpType := .direct, pcAction := .inc, latchA := true, latchB := true, aSrc := .zero, bSrc := .one }
/-- `microcode.asm` 208-209. -/
def u_26 : UInsn := { target := 52#8, jmpType := .direct, pcAction := .inc, latchA := true, latchB := true, aSrc := .zero }
/-- `microcode.asm` 210-212. -/
def u_27 : UInsn := { target := 53#8, jmpType := .direct, pcAction := .inc, latchA := true, latchB := true, aSrc := .zero, csrOp := .readCsr }
/-- `microcode.asm` 213-214. -/
def u_28 : UInsn := { target := 50#8, jmpType := .direct, pcAction := .inc, latchA := true, aSrc := .zero, csrOp := .readCsr }
/-- `microcode.asm` 215-216. -/
def u_29 : UInsn := { target := 73#8, jmpType := .direct, pcAction := .inc, latchA := true, aSrc := .zero, csrOp := .readCsr }
/-- `microcode.asm` 217-218. -/
def u_2a : UInsn := { target := 75#8, jmpType := .direct, pcAction := .inc, latchA := true, aSrc := .zero, csrOp := .readCsr }
/-- `microcode.asm` 219-220. -/
def u_2b : UInsn := { target := 52#8, jmpType := .direct, pcAction := .inc, latchA := true, latchB := true, aSrc := .zero, bSrc := .csrImm }
/-- `microcode.asm` 221-223. -/
def u_2c : UInsn := { target := 53#8, jmpType := .direct, pcAction := .inc, latchA := true, latchB := true, aSrc := .zero, bSrc := .csrImm, csrOp := .readCsr }
/-- `microcode.asm` 224-225. -/
def u_2d : UInsn := { target := 55#8, jmpType := .direct, pcAction := .inc, latchA := true, aSrc := .zero, csrOp := .readCsr }
/-- `microcode.asm` 226-227. -/
def u_2e : UInsn := { target := 59#8, jmpType := .direct, pcAction := .inc, latchA := true, aSrc := .zero, csrOp := .readCsr }
/-- `microcode.asm` 230. -/
def u_30 : UInsn := { jmpType := .direct, pcAction := .inc }
/-- `microcode.asm` 232. -/
def u_31 : UInsn := { target := 181#8, jmpType := .direct, aluOp := .and }
/-- `microcode.asm` 233. -/
def u_32 : UInsn := { latchB := true, bSrc := .csr }
/-- `microcode.asm` 234. -/
def u_33 : UInsn := { target := 181#8, jmpType := .direct }
/-- `microcode.asm` 235. -/
def u_34 : UInsn := { target := 182#8, jmpType := .direct }
/-- `microcode.asm` 236. -/
def u_35 : UInsn := { latchB := true, bSrc := .csr }
/-- `microcode.asm` 237. -/
def u_36 : UInsn := { target := 181#8, jmpType := .direct, csrOp := .writeCsr }
/-- `microcode.asm` 239. -/
def u_37 : UInsn := { latchB := true, bSrc := .csr }
/-- `microcode.asm` 240. -/
def u_38 : UInsn := { latchB := true, bSrc := .csrImm }
/-- `microcode.asm` 241. -/
def u_39 : UInsn := { latchA := true, aSrc := .aluO, regWrite := true }
/-- `microcode.asm` 242. -/
def u_3a : UInsn := { target := 182#8, jmpType := .direct, aluOp := .or }
/-- `microcode.asm` 244. -/
def u_3b : UInsn := { latchB := true, bSrc := .csr }
/-- `microcode.asm` 246-247. -/
def u_3c : UInsn := { latchA := true, latchB := true, aSrc := .negOne, bSrc := .csrImm, csrOp := .readCsr }
/-- `microcode.asm` 248. -/
def u_3d : UInsn := { latchB := true, bSrc := .csr, aluOp := .xor, regWrite := true }
/-- `microcode.asm` 249. -/
def u_3e : UInsn := { latchA := true, aSrc := .aluO }
/-- `microcode.asm` 250. -/
def u_3f : UInsn := { target := 182#8, jmpType := .direct, aluOp := .and }
/-- `microcode.asm` 253-254. -/
def u_40 : UInsn := { target := 83#8, jmpType := .direct, pcAction := .inc, latchB := true, bSrc := .imm }
/-- `microcode.asm` 255-256. -/
def u_41 : UInsn := { target := 89#8, jmpType := .direct, pcAction := .inc, latchB := true, bSrc := .imm }
/-- `microcode.asm` 257-258. -/
def u_42 : UInsn := { target := 84#8, jmpType := .direct, pcAction := .inc, latchB := true, bSrc := .imm }
/-- `microcode.asm` 259-260. -/
def u_43 : UInsn := { target := 85#8, jmpType := .direct, pcAction := .inc, latchB := true, bSrc := .imm }
/-- `microcode.asm` 261-262. -/
def u_44 : UInsn := { target := 86#8, jmpType := .direct, pcAction := .inc, latchB := true, bSrc := .imm }
/-- `microcode.asm` 263-264. -/
def u_45 : UInsn := { target := 94#8, jmpType := .direct, pcAction := .inc, latchB := true, bSrc := .imm }
/-- `microcode.asm` 265-266. -/
def u_46 : UInsn := { target := 87#8, jmpType := .direct, pcAction := .inc, latchB := true, bSrc := .imm }
/-- `microcode.asm` 267-268. -/
def u_47 : UInsn := { target := 88#8, jmpType := .direct, pcAction := .inc, latchB := true, bSrc := .imm }
/-- `microcode.asm` 269. -/
def u_48 : UInsn := { target := 255#8, jmpType := .direct }
/-- `microcode.asm` 270. -/
def u_49 : UInsn := { latchB := true, bSrc := .csr, regRead := true }
/-- `microcode.asm` 271-272. -/
def u_4a : UInsn := { target := 57#8, jmpType := .direct, latchB := true }
/-- `microcode.asm` 273. -/
def u_4b : UInsn := { latchB := true, bSrc := .csr, regRead := true }
/-- `microcode.asm` 274-275. -/
def u_4c : UInsn := { target := 61#8, jmpType := .direct, latchA := true, latchB := true, aSrc := .negOne, csrOp := .readCsr }
/-- `microcode.asm` 276-277. -/
def u_4d : UInsn := { target := 99#8, jmpType := .direct, pcAction := .inc, latchB := true, bSrc := .imm }
/-- `microcode.asm` 280. -/
def u_50 : UInsn := { latchA := true, latchB := true, aSrc := .imm, bSrc := .pc }
/-- `microcode.asm` 281. -/
def u_51 : UInsn := { pcAction := .inc }
/-- `microcode.asm` 282. -/
def u_52 : UInsn := { jmpType := .direct, regWrite := true }
/-- `microcode.asm` 284. -/
def u_53 : UInsn := { target := 181#8, jmpType := .direct, memReq := true, insnFetch := true }
/-- `microcode.asm` 285. -/
def u_54 : UInsn := { target := 181#8, jmpType := .direct, aluOp := .cmpLtu, aluIMod := .invMsbAB, memReq := true, insnFetch := true }
/-- `microcode.asm` 286. -/
def u_55 : UInsn := { target := 181#8, jmpType := .direct, aluOp := .cmpLtu, memReq := true, insnFetch := true }
/-- `microcode.asm` 287. -/
def u_56 : UInsn := { target := 181#8, jmpType := .direct, aluOp := .xor, memReq := true, insnFetch := true }
/-- `microcode.asm` 288. -/
def u_57 : UInsn := { target := 181#8, jmpType := .direct, aluOp := .or, memReq := true, insnFetch := true }
/-- `microcode.asm` 289. -/
def u_58 : UInsn := { target := 181#8, jmpType := .direct, aluOp := .and, memReq := true, insnFetch := true }
/-- `microcode.asm` 292-298. -/
def u_59 : UInsn := { latchA := true, aSrc := .zero, regRead := true }
/-- `microcode.asm` 300. -/
def u_5a : UInsn := { latchA := true, latchB := true, bSrc := .imm }
/-- `microcode.asm` 301-302. -/
def u_5b : UInsn := { target := 104#8, jmpType := .direct, condTest := .cmpAluOZero, latchA := true, latchB := true, aSrc := .imm, bSrc := .one, aluOp := .sll, regRead := true }
/-- `microcode.asm` 303-309. -/
def u_5c : UInsn := { latchA := true, aSrc := .aluO, aluOp := .sub, regWrite := true }
/-- `microcode.asm` 311-312. -/
def u_5d : UInsn := { target := 92#8, jmpType := .directZero, condTest := .cmpAluOZero, invertTest := true, latchA := true, latchB := true, aSrc := .aluO, bSrc := .one, aluOp := .sll }
/-- `microcode.asm` 314-316. -/
def u_5e : UInsn := { latchA := true, aSrc := .zero, regRead := true }
/-- `microcode.asm` 317. -/
def u_5f : UInsn := { latchA := true, latchB := true, bSrc := .imm }
/-- `microcode.asm` 318-319. -/
def u_60 : UInsn := { target := 104#8, jmpType := .direct, condTest := .cmpAluOZero, latchA := true, latchB := true, aSrc := .imm, bSrc := .one, aluOp := .srl, regRead := true }
/-- `microcode.asm` 320-321. -/
def u_61 : UInsn := { latchA := true, aSrc := .aluO, aluOp := .sub, regWrite := true }
/-- `microcode.asm` 322-323. -/
def u_62 : UInsn := { target := 97#8, jmpType := .directZero, condTest := .cmpAluOZero, invertTest := true, latchA := true, latchB := true, aSrc := .aluO, bSrc := .one, aluOp := .srl }
/-- `microcode.asm` 325-329. -/
def u_63 : UInsn := { latchA := true, aSrc := .thirtyOne, regRead := true }
/-- `microcode.asm` 330. -/
def u_64 : UInsn := { latchA := true, aluOp := .and }
/-- `microcode.asm` 331-332. -/
def u_65 : UInsn := { target := 104#8, jmpType := .direct, condTest := .cmpAluOZero, latchA := true, latchB := true, aSrc := .aluO, bSrc := .one, aluOp := .sra, regRead := true }
/-- `microcode.asm` 333-334. -/
def u_66 : UInsn := { latchA := true, aSrc := .aluO, aluOp := .sub, regWrite := true }
/-- `microcode.asm` 336-337. -/
def u_67 : UInsn := { target := 102#8, jmpType := .directZero, condTest := .cmpAluOZero, invertTest := true, latchA := true, latchB := true, aSrc := .aluO, bSrc := .one, aluOp := .sra }
/-- `microcode.asm` 339. -/
def u_68 : UInsn := { latchA := true, latchB := true, aSrc := .zero }
/-- `microcode.asm` 340. -/
def u_69 : UInsn := { target := 181#8, jmpType := .direct }
/-- `microcode.asm` 343-344. -/
def u_80 : UInsn := { target := 157#8, jmpType := .direct, pcAction := .inc, latchB := true, bSrc := .imm, regRead := true, regRSel := .rs2 }
/-- `microcode.asm` 345. -/
def u_81 : UInsn := { target := 162#8, jmpType := .direct, latchB := true, bSrc := .imm, regRead := true, regRSel := .rs2 }
/-- `microcode.asm` 346. -/
def u_82 : UInsn := { target := 167#8, jmpType := .direct, latchB := true, bSrc := .imm, regRead := true, regRSel := .rs2 }
/-- `microcode.asm` 348-349. -/
def u_83 : UInsn := { target := 148#8, jmpType := .direct, latchA := true, latchB := true, aSrc := .imm, bSrc := .pc, aluOp := .sub }
/-- `microcode.asm` 351. -/
def u_84 : UInsn := { latchA := true, latchB := true, aSrc := .imm, bSrc := .pc, aluOp := .sub }
/-- `microcode.asm` 352-353. -/
def u_85 : UInsn := { target := 151#8, jmpType := .direct, condTest := .cmpAluOZero, invertTest := true }
/-- `microcode.asm` 354. -/
def u_86 : UInsn := { target := 240#8, jmpType := .direct, condTest := .exception, exceptCtl := .latchJal }
/-- `microcode.asm` 355. -/
def u_87 : UInsn := { jmpType := .direct, pcAction := .loadAluO }
/-- `microcode.asm` 358-359. -/
def u_88 : UInsn := { target := 132#8, jmpType := .direct, latchB := true }
/-- `microcode.asm` 361. -/
def u_89 : UInsn := { target := 131#8, jmpType := .direct, latchB := true }
/-- `microcode.asm` 362. -/
def u_8a : UInsn := { target := 255#8, jmpType := .direct }
/-- `microcode.asm` 363. -/
def u_8b : UInsn := { target := 255#8, jmpType := .direct }
/-- `microcode.asm` 364. -/
def u_8c : UInsn := { target := 144#8, jmpType := .direct, latchB := true }
/-- `microcode.asm` 365. -/
def u_8d : UInsn := { target := 145#8, jmpType := .direct, latchB := true }
/-- `microcode.asm` 366. -/
def u_8e : UInsn := { target := 146#8, jmpType := .direct, latchB := true }
/-- `microcode.asm` 367. -/
def u_8f : UInsn := { target := 147#8, jmpType := .direct, latchB := true }
/-- `microcode.asm` 369-370. -/
def u_90 : UInsn := { target := 148#8, jmpType := .direct, latchA := true, latchB := true, aSrc := .imm, bSrc := .pc, aluOp := .cmpLtu, aluIMod := .invMsbAB }
/-- `microcode.asm` 371-372. -/
def u_91 : UInsn := { target := 148#8, jmpType := .direct, latchA := true, latchB := true, aSrc := .imm, bSrc := .pc, aluOp := .cmpLtu, aluIMod := .invMsbAB, aluOMod := .invLsbO }
/-- `microcode.asm` 373-374. -/
def u_92 : UInsn := { target := 148#8, jmpType := .direct, latchA := true, latchB := true, aSrc := .imm, bSrc := .pc, aluOp := .cmpLtu }
/-- `microcode.asm` 375-376. -/
def u_93 : UInsn := { target := 148#8, jmpType := .direct, latchA := true, latchB := true, aSrc := .imm, bSrc := .pc, aluOp := .cmpLtu, aluOMod := .invLsbO }
/-- `microcode.asm` 378. -/
def u_94 : UInsn := { target := 151#8, jmpType := .direct, condTest := .cmpAluOZero }
/-- `microcode.asm` 379. -/
def u_95 : UInsn := { target := 240#8, jmpType := .direct, condTest := .exception, exceptCtl := .latchJal }
/-- `microcode.asm` 380. -/
def u_96 : UInsn := { jmpType := .direct, pcAction := .loadAluO }
/-- `microcode.asm` 381. -/
def u_97 : UInsn := { jmpType := .direct, pcAction := .inc }
/-- `microcode.asm` 384. -/
def u_98 : UInsn := { latchB := true, bSrc := .imm }
/-- `microcode.asm` 385. -/
def u_99 : UInsn := { aluOMod := .clearLsbO }
/-- `microcode.asm` 386-387. -/
def u_9a : UInsn := { target := 240#8, jmpType := .direct, condTest := .exception, latchA := true, latchB := true, aSrc := .four, bSrc := .pc, exceptCtl := .latchJal }
/-- `microcode.asm` 388. -/
def u_9b : UInsn := { pcAction := .loadAluO }
/-- `microcode.asm` 389. -/
def u_9c : UInsn := { target := 181#8, jmpType := .direct, memReq := true, insnFetch := true }
/-- `microcode.asm` 391. -/
def u_9d : UInsn := { latchA := true, latchB := true, aSrc := .zero }
/-- `microcode.asm` 392. -/
def u_9e : UInsn := { latchAdr := true }
/-- `microcode.asm` 393. -/
def u_9f : UInsn := { memSel := .byte, latchData := true }
/-- `microcode.asm` 394-395. -/
def u_a0 : UInsn := { target := 160#8, jmpType := .direct, condTest := .memValid, invertTest := true, memReq := true, memSel := .byte, writeMem := true }
/-- `microcode.asm` 396. -/
def u_a1 : UInsn := { jmpType := .directZero, invertTest := true }
/-- `microcode.asm` 398. -/
def u_a2 : UInsn := { latchA := true, latchB := true, aSrc := .zero }
/-- `microcode.asm` 399-400. -/
def u_a3 : UInsn := { target := 240#8, jmpType := .direct, condTest := .exception, memSel := .hword, latchAdr := true, exceptCtl := .latchStoreAdr }
/-- `microcode.asm` 401. -/
def u_a4 : UInsn := { pcAction := .inc, memSel := .hword, latchData := true }
/-- `microcode.asm` 402-403. -/
def u_a5 : UInsn := { target := 165#8, jmpType := .direct, condTest := .memValid, invertTest := true, memReq := true, memSel := .hword, writeMem := true }
/-- `microcode.asm` 404. -/
def u_a6 : UInsn := { jmpType := .directZero, invertTest := true }
/-- `microcode.asm` 406. -/
def u_a7 : UInsn := { latchA := true, latchB := true, aSrc := .zero }
/-- `microcode.asm` 407-408. -/
def u_a8 : UInsn := { target := 240#8, jmpType := .direct, condTest := .exception, memSel := .word, latchAdr := true, exceptCtl := .latchStoreAdr }
/-- `microcode.asm` 409. -/
def u_a9 : UInsn := { pcAction := .inc, memSel := .word, latchData := true }
/-- `microcode.asm` 410-411. -/
def u_aa : UInsn := { target := 170#8, jmpType := .direct, condTest := .memValid, invertTest := true, memReq := true, memSel := .word, writeMem := true }
/-- `microcode.asm` 412. -/
def u_ab : UInsn := { jmpType := .directZero, invertTest := true }
/-- `microcode.asm` 415. -/
def u_b0 : UInsn := { latchA := true, latchB := true, aSrc := .imm, bSrc := .pc }
/-- `microcode.asm` 416. -/
def u_b1 : UInsn := {  }
/-- `microcode.asm` 417. -/
def u_b2 : UInsn := { target := 240#8, jmpType := .direct, condTest := .exception, exceptCtl := .latchJal }
/-- `microcode.asm` 418. -/
def u_b3 : UInsn := { pcAction := .loadAluO, latchA := true, latchB := true, aSrc := .four, bSrc := .pc }
/-- `microcode.asm` 419. -/
def u_b4 : UInsn := { target := 181#8, jmpType := .direct, memReq := true, insnFetch := true }
/-- `microcode.asm` 421. -/
def u_b5 : UInsn := { target := 1#8, jmpType := .directZero, condTest := .memValid, regRead := true, regWrite := true, memReq := true, insnFetch := true }
/-- `microcode.asm` 422. -/
def u_b6 : UInsn := { target := 1#8, jmpType := .directZero, condTest := .memValid, regRead := true, csrOp := .writeCsr, memReq := true, insnFetch := true }
/-- `microcode.asm` 425-426. -/
def u_c0 : UInsn := { target := 209#8, jmpType := .direct, pcAction := .inc, latchB := true }
/-- `microcode.asm` 427-428. -/
def u_c1 : UInsn := { target := 216#8, jmpType := .direct, pcAction := .inc, latchB := true }
/-- `microcode.asm` 429-430. -/
def u_c2 : UInsn := { target := 210#8, jmpType := .direct, pcAction := .inc, latchB := true }
/-- `microcode.asm` 431-432. -/
def u_c3 : UInsn := { target := 211#8, jmpType := .direct, pcAction := .inc, latchB := true }
/-- `microcode.asm` 433-434. -/
def u_c4 : UInsn := { target := 212#8, jmpType := .direct, pcAction := .inc, latchB := true }
/-- `microcode.asm` 435-436. -/
def u_c5 : UInsn := { target := 220#8, jmpType := .direct, pcAction := .inc, latchB := true }
/-- `microcode.asm` 437-438. -/
def u_c6 : UInsn := { target := 213#8, jmpType := .direct, pcAction := .inc, latchB := true }
/-- `microcode.asm` 439-440. -/
def u_c7 : UInsn := { target := 214#8, jmpType := .direct, pcAction := .inc, latchB := true }
/-- `microcode.asm` 441-442. -/
def u_c8 : UInsn := { target := 215#8, jmpType := .direct, pcAction := .inc, latchB := true }
/-- `microcode.asm` 443. -/
def u_c9 : UInsn := { target := 255#8, jmpType := .direct }
/-- `microcode.asm` 444. -/
def u_ca : UInsn := { target := 255#8, jmpType := .direct }
/-- `microcode.asm` 445. -/
def u_cb : UInsn := { target := 255#8, jmpType := .direct }
/-- `microcode.asm` 446. -/
def u_cc : UInsn := { target := 255#8, jmpType := .direct }
/-- `microcode.asm` 447-448. -/
def u_cd : UInsn := { target := 224#8, jmpType := .direct, pcAction := .inc, latchB := true }
/-- `microcode.asm` 451-452. -/
def u_d0 : UInsn := { target := 83#8, jmpType := .direct, pcAction := .inc, latchA := true, latchB := true, aSrc := .zero, bSrc := .imm }
/-- `microcode.asm` 455. -/
def u_d1 : UInsn := { target := 181#8, jmpType := .direct, memReq := true, insnFetch := true }
/-- `microcode.asm` 456. -/
def u_d2 : UInsn := { target := 181#8, jmpType := .direct, aluOp := .cmpLtu, aluIMod := .invMsbAB, memReq := true, insnFetch := true }
/-- `microcode.asm` 457. -/
def u_d3 : UInsn := { target := 181#8, jmpType := .direct, aluOp := .cmpLtu, memReq := true, insnFetch := true }
/-- `microcode.asm` 458. -/
def u_d4 : UInsn := { target := 181#8, jmpType := .direct, aluOp := .xor, memReq := true, insnFetch := true }
/-- `microcode.asm` 459. -/
def u_d5 : UInsn := { target := 181#8, jmpType := .direct, aluOp := .or, memReq := true, insnFetch := true }
/-- `microcode.asm` 460. -/
def u_d6 : UInsn := { target := 181#8, jmpType := .direct, aluOp := .and, memReq := true, insnFetch := true }
/-- `microcode.asm` 461. -/
def u_d7 : UInsn := { target := 181#8, jmpType := .direct, aluOp := .sub, memReq := true, insnFetch := true }
/-- `microcode.asm` 466-467. -/
def u_d8 : UInsn := { latchA := true, aSrc := .thirtyOne, regRead := true }
/-- `microcode.asm` 468. -/
def u_d9 : UInsn := { latchA := true, aluOp := .and, regRead := true, regRSel := .rs2 }
/-- `microcode.asm` 469-470. -/
def u_da : UInsn := { target := 92#8, jmpType := .direct, condTest := .cmpAluOZero, invertTest := true, latchA := true, latchB := true, aSrc := .aluO, bSrc := .one, aluOp := .sll }
/-- `microcode.asm` 471. -/
def u_db : UInsn := { target := 104#8, jmpType := .direct, regRead := true }
/-- `microcode.asm` 473-474. -/
def u_dc : UInsn := { latchA := true, aSrc := .thirtyOne, regRead := true }
/-- `microcode.asm` 475. -/
def u_dd : UInsn := { latchA := true, aluOp := .and, regRead := true, regRSel := .rs2 }
/-- `microcode.asm` 476-477. -/
def u_de : UInsn := { target := 97#8, jmpType := .direct, condTest := .cmpAluOZero, invertTest := true, latchA := true, latchB := true, aSrc := .aluO, bSrc := .one, aluOp := .srl }
/-- `microcode.asm` 478. -/
def u_df : UInsn := { target := 104#8, jmpType := .direct, regRead := true }
/-- `microcode.asm` 480-481. -/
def u_e0 : UInsn := { latchA := true, aSrc := .thirtyOne, regRead := true }
/-- `microcode.asm` 482. -/
def u_e1 : UInsn := { latchA := true, aluOp := .and, regRead := true, regRSel := .rs2 }
/-- `microcode.asm` 483-484. -/
def u_e2 : UInsn := { target := 102#8, jmpType := .direct, condTest := .cmpAluOZero, invertTest := true, latchA := true, latchB := true, aSrc := .aluO, bSrc := .one, aluOp := .sra }
/-- `microcode.asm` 485. -/
def u_e3 : UInsn := { target := 104#8, jmpType := .direct, regRead := true }
/-- `microcode.asm` 489-490. -/
def u_f0 : UInsn := { target := 5#8, latchA := true, latchB := true, aSrc := .zero, bSrc := .pc, csrOp := .readCsr, csrSel := .trgCsr, exceptCtl := .enterInt }
/-- `microcode.asm` 492. -/
def u_f1 : UInsn := { latchB := true, bSrc := .csr }
/-- `microcode.asm` 494-495. -/
def u_f2 : UInsn := { target := 9#8, latchB := true, bSrc := .mcauseLatch, csrOp := .writeCsr, csrSel := .trgCsr }
/-- `microcode.asm` 497. -/
def u_f3 : UInsn := { pcAction := .loadAluO }
/-- `microcode.asm` 499-500. -/
def u_f4 : UInsn := { target := 10#8, jmpType := .directZero, invertTest := true, csrOp := .writeCsr, csrSel := .trgCsr, memReq := true, insnFetch := true }
/-- `microcode.asm` 504. -/
def u_f8 : UInsn := { target := 9#8, latchA := true, aSrc := .zero, csrOp := .readCsr, csrSel := .trgCsr }
/-- `microcode.asm` 506. -/
def u_f9 : UInsn := { latchB := true, bSrc := .csr }
/-- `microcode.asm` 508. -/
def u_fa : UInsn := {  }
/-- `microcode.asm` 510. -/
def u_fb : UInsn := { pcAction := .loadAluO }
/-- `microcode.asm` 511. -/
def u_fc : UInsn := { jmpType := .direct, memReq := true, insnFetch := true, exceptCtl := .leaveInt }
/-- `microcode.asm` 515. -/
def u_fe : UInsn := { target := 254#8, jmpType := .direct }
/-- `microcode.asm` 517. -/
def u_ff : UInsn := { target := 255#8, jmpType := .direct }

/-- The words the assembler produces from `microcode.asm`, with their addresses (`ucoderom.py` 224-238). -/
def table : List (Nat × UInsn) := [
  (0x00, u_00),
  (0x01, u_01),
  (0x02, u_02),
  (0x03, u_03),
  (0x04, u_04),
  (0x05, u_05),
  (0x08, u_08),
  (0x09, u_09),
  (0x0a, u_0a),
  (0x0b, u_0b),
  (0x0c, u_0c),
  (0x0d, u_0d),
  (0x0e, u_0e),
  (0x0f, u_0f),
  (0x10, u_10),
  (0x11, u_11),
  (0x12, u_12),
  (0x13, u_13),
  (0x14, u_14),
  (0x15, u_15),
  (0x16, u_16),
  (0x17, u_17),
  (0x18, u_18),
  (0x19, u_19),
  (0x1a, u_1a),
  (0x1b, u_1b),
  (0x1c, u_1c),
  (0x1d, u_1d),
  (0x1e, u_1e),
  (0x1f, u_1f),
  (0x20, u_20),
  (0x21, u_21),
  (0x24, u_24),
  (0x25, u_25),
  (0x26, u_26),
  (0x27, u_27),
  (0x28, u_28),
  (0x29, u_29),
  (0x2a, u_2a),
  (0x2b, u_2b),
  (0x2c, u_2c),
  (0x2d, u_2d),
  (0x2e, u_2e),
  (0x30, u_30),
  (0x31, u_31),
  (0x32, u_32),
  (0x33, u_33),
  (0x34, u_34),
  (0x35, u_35),
  (0x36, u_36),
  (0x37, u_37),
  (0x38, u_38),
  (0x39, u_39),
  (0x3a, u_3a),
  (0x3b, u_3b),
  (0x3c, u_3c),
  (0x3d, u_3d),
  (0x3e, u_3e),
  (0x3f, u_3f),
  (0x40, u_40),
  (0x41, u_41),
  (0x42, u_42),
  (0x43, u_43),
  (0x44, u_44),
  (0x45, u_45),
  (0x46, u_46),
  (0x47, u_47),
  (0x48, u_48),
  (0x49, u_49),
  (0x4a, u_4a),
  (0x4b, u_4b),
  (0x4c, u_4c),
  (0x4d, u_4d),
  (0x50, u_50),
  (0x51, u_51),
  (0x52, u_52),
  (0x53, u_53),
  (0x54, u_54),
  (0x55, u_55),
  (0x56, u_56),
  (0x57, u_57),
  (0x58, u_58),
  (0x59, u_59),
  (0x5a, u_5a),
  (0x5b, u_5b),
  (0x5c, u_5c),
  (0x5d, u_5d),
  (0x5e, u_5e),
  (0x5f, u_5f),
  (0x60, u_60),
  (0x61, u_61),
  (0x62, u_62),
  (0x63, u_63),
  (0x64, u_64),
  (0x65, u_65),
  (0x66, u_66),
  (0x67, u_67),
  (0x68, u_68),
  (0x69, u_69),
  (0x80, u_80),
  (0x81, u_81),
  (0x82, u_82),
  (0x83, u_83),
  (0x84, u_84),
  (0x85, u_85),
  (0x86, u_86),
  (0x87, u_87),
  (0x88, u_88),
  (0x89, u_89),
  (0x8a, u_8a),
  (0x8b, u_8b),
  (0x8c, u_8c),
  (0x8d, u_8d),
  (0x8e, u_8e),
  (0x8f, u_8f),
  (0x90, u_90),
  (0x91, u_91),
  (0x92, u_92),
  (0x93, u_93),
  (0x94, u_94),
  (0x95, u_95),
  (0x96, u_96),
  (0x97, u_97),
  (0x98, u_98),
  (0x99, u_99),
  (0x9a, u_9a),
  (0x9b, u_9b),
  (0x9c, u_9c),
  (0x9d, u_9d),
  (0x9e, u_9e),
  (0x9f, u_9f),
  (0xa0, u_a0),
  (0xa1, u_a1),
  (0xa2, u_a2),
  (0xa3, u_a3),
  (0xa4, u_a4),
  (0xa5, u_a5),
  (0xa6, u_a6),
  (0xa7, u_a7),
  (0xa8, u_a8),
  (0xa9, u_a9),
  (0xaa, u_aa),
  (0xab, u_ab),
  (0xb0, u_b0),
  (0xb1, u_b1),
  (0xb2, u_b2),
  (0xb3, u_b3),
  (0xb4, u_b4),
  (0xb5, u_b5),
  (0xb6, u_b6),
  (0xc0, u_c0),
  (0xc1, u_c1),
  (0xc2, u_c2),
  (0xc3, u_c3),
  (0xc4, u_c4),
  (0xc5, u_c5),
  (0xc6, u_c6),
  (0xc7, u_c7),
  (0xc8, u_c8),
  (0xc9, u_c9),
  (0xca, u_ca),
  (0xcb, u_cb),
  (0xcc, u_cc),
  (0xcd, u_cd),
  (0xd0, u_d0),
  (0xd1, u_d1),
  (0xd2, u_d2),
  (0xd3, u_d3),
  (0xd4, u_d4),
  (0xd5, u_d5),
  (0xd6, u_d6),
  (0xd7, u_d7),
  (0xd8, u_d8),
  (0xd9, u_d9),
  (0xda, u_da),
  (0xdb, u_db),
  (0xdc, u_dc),
  (0xdd, u_dd),
  (0xde, u_de),
  (0xdf, u_df),
  (0xe0, u_e0),
  (0xe1, u_e1),
  (0xe2, u_e2),
  (0xe3, u_e3),
  (0xf0, u_f0),
  (0xf1, u_f1),
  (0xf2, u_f2),
  (0xf3, u_f3),
  (0xf4, u_f4),
  (0xf8, u_f8),
  (0xf9, u_f9),
  (0xfa, u_fa),
  (0xfb, u_fb),
  (0xfc, u_fc),
  (0xfe, u_fe),
  (0xff, u_ff) ]

theorem assembled_eq : assembled = some table := by decide +kernel

end Ucode

open Ucode

/-- The microcode ROM read at address `a`: `ucoderom.py` 180-193, 243-252. -/
def rom (a : BitVec 8) : UInsn := (memInit (assembled.getD [])).getD a.toNat UInsn.hole

/-- The addresses of the ROM that hold a microinstruction (`microcode.asm` 93-517). -/
def used : List Nat := table.map Prod.fst

theorem rom_lookup (a : BitVec 8) : rom a = (table.lookup a.toNat).getD UInsn.hole := by
  have h := a.isLt
  unfold rom memInit
  rw [assembled_eq]
  simp only [Option.getD_some, List.getD_eq_getElem?_getD, List.getElem?_map]
  rw [List.getElem?_range (by omega)]
  simp

/-- A location the source does not fill reads as zero. -/
theorem rom_hole (a : BitVec 8) (h : a.toNat ∉ used) : rom a = UInsn.hole := by
  rw [rom_lookup]
  have : table.lookup a.toNat = none := by
    rw [List.lookup_eq_none_iff]
    intro p hp
    simp only [bne_iff_ne, ne_eq]
    intro he
    exact h (he ▸ List.mem_map_of_mem hp)
  rw [this]; rfl

theorem rom_00 : rom 0#8 = u_00 := by rw [rom_lookup]; rfl
theorem rom_01 : rom 1#8 = u_01 := by rw [rom_lookup]; rfl
theorem rom_02 : rom 2#8 = u_02 := by rw [rom_lookup]; rfl
theorem rom_03 : rom 3#8 = u_03 := by rw [rom_lookup]; rfl
theorem rom_04 : rom 4#8 = u_04 := by rw [rom_lookup]; rfl
theorem rom_05 : rom 5#8 = u_05 := by rw [rom_lookup]; rfl
theorem rom_08 : rom 8#8 = u_08 := by rw [rom_lookup]; rfl
theorem rom_09 : rom 9#8 = u_09 := by rw [rom_lookup]; rfl
theorem rom_0a : rom 10#8 = u_0a := by rw [rom_lookup]; rfl
theorem rom_0b : rom 11#8 = u_0b := by rw [rom_lookup]; rfl
theorem rom_0c : rom 12#8 = u_0c := by rw [rom_lookup]; rfl
theorem rom_0d : rom 13#8 = u_0d := by rw [rom_lookup]; rfl
theorem rom_0e : rom 14#8 = u_0e := by rw [rom_lookup]; rfl
theorem rom_0f : rom 15#8 = u_0f := by rw [rom_lookup]; rfl
theorem rom_10 : rom 16#8 = u_10 := by rw [rom_lookup]; rfl
theorem rom_11 : rom 17#8 = u_11 := by rw [rom_lookup]; rfl
theorem rom_12 : rom 18#8 = u_12 := by rw [rom_lookup]; rfl
theorem rom_13 : rom 19#8 = u_13 := by rw [rom_lookup]; rfl
theorem rom_14 : rom 20#8 = u_14 := by rw [rom_lookup]; rfl
theorem rom_15 : rom 21#8 = u_15 := by rw [rom_lookup]; rfl
theorem rom_16 : rom 22#8 = u_16 := by rw [rom_lookup]; rfl
theorem rom_17 : rom 23#8 = u_17 := by rw [rom_lookup]; rfl
theorem rom_18 : rom 24#8 = u_18 := by rw [rom_lookup]; rfl
theorem rom_19 : rom 25#8 = u_19 := by rw [rom_lookup]; rfl
theorem rom_1a : rom 26#8 = u_1a := by rw [rom_lookup]; rfl
theorem rom_1b : rom 27#8 = u_1b := by rw [rom_lookup]; rfl
theorem rom_1c : rom 28#8 = u_1c := by rw [rom_lookup]; rfl
theorem rom_1d : rom 29#8 = u_1d := by rw [rom_lookup]; rfl
theorem rom_1e : rom 30#8 = u_1e := by rw [rom_lookup]; rfl
theorem rom_1f : rom 31#8 = u_1f := by rw [rom_lookup]; rfl
theorem rom_20 : rom 32#8 = u_20 := by rw [rom_lookup]; rfl
theorem rom_21 : rom 33#8 = u_21 := by rw [rom_lookup]; rfl
theorem rom_24 : rom 36#8 = u_24 := by rw [rom_lookup]; rfl
theorem rom_25 : rom 37#8 = u_25 := by rw [rom_lookup]; rfl
theorem rom_26 : rom 38#8 = u_26 := by rw [rom_lookup]; rfl
theorem rom_27 : rom 39#8 = u_27 := by rw [rom_lookup]; rfl
theorem rom_28 : rom 40#8 = u_28 := by rw [rom_lookup]; rfl
theorem rom_29 : rom 41#8 = u_29 := by rw [rom_lookup]; rfl
theorem rom_2a : rom 42#8 = u_2a := by rw [rom_lookup]; rfl
theorem rom_2b : rom 43#8 = u_2b := by rw [rom_lookup]; rfl
theorem rom_2c : rom 44#8 = u_2c := by rw [rom_lookup]; rfl
theorem rom_2d : rom 45#8 = u_2d := by rw [rom_lookup]; rfl
theorem rom_2e : rom 46#8 = u_2e := by rw [rom_lookup]; rfl
theorem rom_30 : rom 48#8 = u_30 := by rw [rom_lookup]; rfl
theorem rom_31 : rom 49#8 = u_31 := by rw [rom_lookup]; rfl
theorem rom_32 : rom 50#8 = u_32 := by rw [rom_lookup]; rfl
theorem rom_33 : rom 51#8 = u_33 := by rw [rom_lookup]; rfl
theorem rom_34 : rom 52#8 = u_34 := by rw [rom_lookup]; rfl
theorem rom_35 : rom 53#8 = u_35 := by rw [rom_lookup]; rfl
theorem rom_36 : rom 54#8 = u_36 := by rw [rom_lookup]; rfl
theorem rom_37 : rom 55#8 = u_37 := by rw [rom_lookup]; rfl
theorem rom_38 : rom 56#8 = u_38 := by rw [rom_lookup]; rfl
theorem rom_39 : rom 57#8 = u_39 := by rw [rom_lookup]; rfl
theorem rom_3a : rom 58#8 = u_3a := by rw [rom_lookup]; rfl
theorem rom_3b : rom 59#8 = u_3b := by rw [rom_lookup]; rfl
theorem rom_3c : rom 60#8 = u_3c := by rw [rom_lookup]; rfl
theorem rom_3d : rom 61#8 = u_3d := by rw [rom_lookup]; rfl
theorem rom_3e : rom 62#8 = u_3e := by rw [rom_lookup]; rfl
theorem rom_3f : rom 63#8 = u_3f := by rw [rom_lookup]; rfl
theorem rom_40 : rom 64#8 = u_40 := by rw [rom_lookup]; rfl
theorem rom_41 : rom 65#8 = u_41 := by rw [rom_lookup]; rfl
theorem rom_42 : rom 66#8 = u_42 := by rw [rom_lookup]; rfl
theorem rom_43 : rom 67#8 = u_43 := by rw [rom_lookup]; rfl
theorem rom_44 : rom 68#8 = u_44 := by rw [rom_lookup]; rfl
theorem rom_45 : rom 69#8 = u_45 := by rw [rom_lookup]; rfl
theorem rom_46 : rom 70#8 = u_46 := by rw [rom_lookup]; rfl
theorem rom_47 : rom 71#8 = u_47 := by rw [rom_lookup]; rfl
theorem rom_48 : rom 72#8 = u_48 := by rw [rom_lookup]; rfl
theorem rom_49 : rom 73#8 = u_49 := by rw [rom_lookup]; rfl
theorem rom_4a : rom 74#8 = u_4a := by rw [rom_lookup]; rfl
theorem rom_4b : rom 75#8 = u_4b := by rw [rom_lookup]; rfl
theorem rom_4c : rom 76#8 = u_4c := by rw [rom_lookup]; rfl
theorem rom_4d : rom 77#8 = u_4d := by rw [rom_lookup]; rfl
theorem rom_50 : rom 80#8 = u_50 := by rw [rom_lookup]; rfl
theorem rom_51 : rom 81#8 = u_51 := by rw [rom_lookup]; rfl
theorem rom_52 : rom 82#8 = u_52 := by rw [rom_lookup]; rfl
theorem rom_53 : rom 83#8 = u_53 := by rw [rom_lookup]; rfl
theorem rom_54 : rom 84#8 = u_54 := by rw [rom_lookup]; rfl
theorem rom_55 : rom 85#8 = u_55 := by rw [rom_lookup]; rfl
theorem rom_56 : rom 86#8 = u_56 := by rw [rom_lookup]; rfl
theorem rom_57 : rom 87#8 = u_57 := by rw [rom_lookup]; rfl
theorem rom_58 : rom 88#8 = u_58 := by rw [rom_lookup]; rfl
theorem rom_59 : rom 89#8 = u_59 := by rw [rom_lookup]; rfl
theorem rom_5a : rom 90#8 = u_5a := by rw [rom_lookup]; rfl
theorem rom_5b : rom 91#8 = u_5b := by rw [rom_lookup]; rfl
theorem rom_5c : rom 92#8 = u_5c := by rw [rom_lookup]; rfl
theorem rom_5d : rom 93#8 = u_5d := by rw [rom_lookup]; rfl
theorem rom_5e : rom 94#8 = u_5e := by rw [rom_lookup]; rfl
theorem rom_5f : rom 95#8 = u_5f := by rw [rom_lookup]; rfl
theorem rom_60 : rom 96#8 = u_60 := by rw [rom_lookup]; rfl
theorem rom_61 : rom 97#8 = u_61 := by rw [rom_lookup]; rfl
theorem rom_62 : rom 98#8 = u_62 := by rw [rom_lookup]; rfl
theorem rom_63 : rom 99#8 = u_63 := by rw [rom_lookup]; rfl
theorem rom_64 : rom 100#8 = u_64 := by rw [rom_lookup]; rfl
theorem rom_65 : rom 101#8 = u_65 := by rw [rom_lookup]; rfl
theorem rom_66 : rom 102#8 = u_66 := by rw [rom_lookup]; rfl
theorem rom_67 : rom 103#8 = u_67 := by rw [rom_lookup]; rfl
theorem rom_68 : rom 104#8 = u_68 := by rw [rom_lookup]; rfl
theorem rom_69 : rom 105#8 = u_69 := by rw [rom_lookup]; rfl
theorem rom_80 : rom 128#8 = u_80 := by rw [rom_lookup]; rfl
theorem rom_81 : rom 129#8 = u_81 := by rw [rom_lookup]; rfl
theorem rom_82 : rom 130#8 = u_82 := by rw [rom_lookup]; rfl
theorem rom_83 : rom 131#8 = u_83 := by rw [rom_lookup]; rfl
theorem rom_84 : rom 132#8 = u_84 := by rw [rom_lookup]; rfl
theorem rom_85 : rom 133#8 = u_85 := by rw [rom_lookup]; rfl
theorem rom_86 : rom 134#8 = u_86 := by rw [rom_lookup]; rfl
theorem rom_87 : rom 135#8 = u_87 := by rw [rom_lookup]; rfl
theorem rom_88 : rom 136#8 = u_88 := by rw [rom_lookup]; rfl
theorem rom_89 : rom 137#8 = u_89 := by rw [rom_lookup]; rfl
theorem rom_8a : rom 138#8 = u_8a := by rw [rom_lookup]; rfl
theorem rom_8b : rom 139#8 = u_8b := by rw [rom_lookup]; rfl
theorem rom_8c : rom 140#8 = u_8c := by rw [rom_lookup]; rfl
theorem rom_8d : rom 141#8 = u_8d := by rw [rom_lookup]; rfl
theorem rom_8e : rom 142#8 = u_8e := by rw [rom_lookup]; rfl
theorem rom_8f : rom 143#8 = u_8f := by rw [rom_lookup]; rfl
theorem rom_90 : rom 144#8 = u_90 := by rw [rom_lookup]; rfl
theorem rom_91 : rom 145#8 = u_91 := by rw [rom_lookup]; rfl
theorem rom_92 : rom 146#8 = u_92 := by rw [rom_lookup]; rfl
theorem rom_93 : rom 147#8 = u_93 := by rw [rom_lookup]; rfl
theorem rom_94 : rom 148#8 = u_94 := by rw [rom_lookup]; rfl
theorem rom_95 : rom 149#8 = u_95 := by rw [rom_lookup]; rfl
theorem rom_96 : rom 150#8 = u_96 := by rw [rom_lookup]; rfl
theorem rom_97 : rom 151#8 = u_97 := by rw [rom_lookup]; rfl
theorem rom_98 : rom 152#8 = u_98 := by rw [rom_lookup]; rfl
theorem rom_99 : rom 153#8 = u_99 := by rw [rom_lookup]; rfl
theorem rom_9a : rom 154#8 = u_9a := by rw [rom_lookup]; rfl
theorem rom_9b : rom 155#8 = u_9b := by rw [rom_lookup]; rfl
theorem rom_9c : rom 156#8 = u_9c := by rw [rom_lookup]; rfl
theorem rom_9d : rom 157#8 = u_9d := by rw [rom_lookup]; rfl
theorem rom_9e : rom 158#8 = u_9e := by rw [rom_lookup]; rfl
theorem rom_9f : rom 159#8 = u_9f := by rw [rom_lookup]; rfl
theorem rom_a0 : rom 160#8 = u_a0 := by rw [rom_lookup]; rfl
theorem rom_a1 : rom 161#8 = u_a1 := by rw [rom_lookup]; rfl
theorem rom_a2 : rom 162#8 = u_a2 := by rw [rom_lookup]; rfl
theorem rom_a3 : rom 163#8 = u_a3 := by rw [rom_lookup]; rfl
theorem rom_a4 : rom 164#8 = u_a4 := by rw [rom_lookup]; rfl
theorem rom_a5 : rom 165#8 = u_a5 := by rw [rom_lookup]; rfl
theorem rom_a6 : rom 166#8 = u_a6 := by rw [rom_lookup]; rfl
theorem rom_a7 : rom 167#8 = u_a7 := by rw [rom_lookup]; rfl
theorem rom_a8 : rom 168#8 = u_a8 := by rw [rom_lookup]; rfl
theorem rom_a9 : rom 169#8 = u_a9 := by rw [rom_lookup]; rfl
theorem rom_aa : rom 170#8 = u_aa := by rw [rom_lookup]; rfl
theorem rom_ab : rom 171#8 = u_ab := by rw [rom_lookup]; rfl
theorem rom_b0 : rom 176#8 = u_b0 := by rw [rom_lookup]; rfl
theorem rom_b1 : rom 177#8 = u_b1 := by rw [rom_lookup]; rfl
theorem rom_b2 : rom 178#8 = u_b2 := by rw [rom_lookup]; rfl
theorem rom_b3 : rom 179#8 = u_b3 := by rw [rom_lookup]; rfl
theorem rom_b4 : rom 180#8 = u_b4 := by rw [rom_lookup]; rfl
theorem rom_b5 : rom 181#8 = u_b5 := by rw [rom_lookup]; rfl
theorem rom_b6 : rom 182#8 = u_b6 := by rw [rom_lookup]; rfl
theorem rom_c0 : rom 192#8 = u_c0 := by rw [rom_lookup]; rfl
theorem rom_c1 : rom 193#8 = u_c1 := by rw [rom_lookup]; rfl
theorem rom_c2 : rom 194#8 = u_c2 := by rw [rom_lookup]; rfl
theorem rom_c3 : rom 195#8 = u_c3 := by rw [rom_lookup]; rfl
theorem rom_c4 : rom 196#8 = u_c4 := by rw [rom_lookup]; rfl
theorem rom_c5 : rom 197#8 = u_c5 := by rw [rom_lookup]; rfl
theorem rom_c6 : rom 198#8 = u_c6 := by rw [rom_lookup]; rfl
theorem rom_c7 : rom 199#8 = u_c7 := by rw [rom_lookup]; rfl
theorem rom_c8 : rom 200#8 = u_c8 := by rw [rom_lookup]; rfl
theorem rom_c9 : rom 201#8 = u_c9 := by rw [rom_lookup]; rfl
theorem rom_ca : rom 202#8 = u_ca := by rw [rom_lookup]; rfl
theorem rom_cb : rom 203#8 = u_cb := by rw [rom_lookup]; rfl
theorem rom_cc : rom 204#8 = u_cc := by rw [rom_lookup]; rfl
theorem rom_cd : rom 205#8 = u_cd := by rw [rom_lookup]; rfl
theorem rom_d0 : rom 208#8 = u_d0 := by rw [rom_lookup]; rfl
theorem rom_d1 : rom 209#8 = u_d1 := by rw [rom_lookup]; rfl
theorem rom_d2 : rom 210#8 = u_d2 := by rw [rom_lookup]; rfl
theorem rom_d3 : rom 211#8 = u_d3 := by rw [rom_lookup]; rfl
theorem rom_d4 : rom 212#8 = u_d4 := by rw [rom_lookup]; rfl
theorem rom_d5 : rom 213#8 = u_d5 := by rw [rom_lookup]; rfl
theorem rom_d6 : rom 214#8 = u_d6 := by rw [rom_lookup]; rfl
theorem rom_d7 : rom 215#8 = u_d7 := by rw [rom_lookup]; rfl
theorem rom_d8 : rom 216#8 = u_d8 := by rw [rom_lookup]; rfl
theorem rom_d9 : rom 217#8 = u_d9 := by rw [rom_lookup]; rfl
theorem rom_da : rom 218#8 = u_da := by rw [rom_lookup]; rfl
theorem rom_db : rom 219#8 = u_db := by rw [rom_lookup]; rfl
theorem rom_dc : rom 220#8 = u_dc := by rw [rom_lookup]; rfl
theorem rom_dd : rom 221#8 = u_dd := by rw [rom_lookup]; rfl
theorem rom_de : rom 222#8 = u_de := by rw [rom_lookup]; rfl
theorem rom_df : rom 223#8 = u_df := by rw [rom_lookup]; rfl
theorem rom_e0 : rom 224#8 = u_e0 := by rw [rom_lookup]; rfl
theorem rom_e1 : rom 225#8 = u_e1 := by rw [rom_lookup]; rfl
theorem rom_e2 : rom 226#8 = u_e2 := by rw [rom_lookup]; rfl
theorem rom_e3 : rom 227#8 = u_e3 := by rw [rom_lookup]; rfl
theorem rom_f0 : rom 240#8 = u_f0 := by rw [rom_lookup]; rfl
theorem rom_f1 : rom 241#8 = u_f1 := by rw [rom_lookup]; rfl
theorem rom_f2 : rom 242#8 = u_f2 := by rw [rom_lookup]; rfl
theorem rom_f3 : rom 243#8 = u_f3 := by rw [rom_lookup]; rfl
theorem rom_f4 : rom 244#8 = u_f4 := by rw [rom_lookup]; rfl
theorem rom_f8 : rom 248#8 = u_f8 := by rw [rom_lookup]; rfl
theorem rom_f9 : rom 249#8 = u_f9 := by rw [rom_lookup]; rfl
theorem rom_fa : rom 250#8 = u_fa := by rw [rom_lookup]; rfl
theorem rom_fb : rom 251#8 = u_fb := by rw [rom_lookup]; rfl
theorem rom_fc : rom 252#8 = u_fc := by rw [rom_lookup]; rfl
theorem rom_fe : rom 254#8 = u_fe := by rw [rom_lookup]; rfl
theorem rom_ff : rom 255#8 = u_ff := by rw [rom_lookup]; rfl

end Sentinel
