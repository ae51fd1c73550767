#!/usr/bin/env python3
"""Generate Verif/Proof/Steps.lean: one lemma per microinstruction that makes no bus request
(and one per branch outcome), from the words in Verif/Ucode/Rom.lean."""
import re
rom = {}
for l in open('Verif/Ucode/Rom.lean'):
    m = re.match(r'def u_(..) : UInsn := \{(.*)\}', l)
    if m:
        f = {}
        for part in m.group(2).split(','):
            part = part.strip()
            if part:
                k, v = part.split(':=')
                f[k.strip()] = v.strip()
        rom[int(m.group(1), 16)] = f

out = []
w = out.append
w('''import Verif.Proof.Dec
/-!
# One lemma per microinstruction

Generated by `tools/gensteps.py` from `Verif/Ucode/Rom.lean`.  `q_xx` executes the microinstruction
at address `0xxx`, which makes no bus request and does not use the interrupt line; `_t`/`_f` are the
two outcomes of its test; `p_xx` is the case that reads MIP.  `f_xx` executes a microinstruction that
starts an instruction fetch.
-/

set_option linter.unusedSimpArgs false

namespace Sentinel
open Ucode Spec

theorem subUnit_low (a b : BitVec 32) : (subUnit a b).setWidth 32 = a - b := by
  apply BitVec.eq_of_toNat_eq
  simp [subUnit, BitVec.toNat_sub]
  have := a.isLt; have := b.isLt
  omega

variable {α : Type} {F : α → State → Cnt → Prop} {pv : Bool} {T : Tree α} {n : Cnt} {k : Keep}
  {a b o rd rb da wd : BitVec 32} {pc : BitVec 30} {mem : BitVec 6 → BitVec 32}
  {mie mpie meie : Bool} {pa : BitVec 4} {d : DecState} {c : CauseLatch}
''')

SKIP = {0x00, 0x01, 0x24, 0x02, 0x03, 0x04, 0x05, 0xfe, 0xff,
        0x0b, 0x48, 0x8a, 0x8b, 0xc9, 0xca, 0xcb, 0xcc}

SIMP = ('-BitVec.getLsbD_eq_getElem, gpRamAdr_ne_csr, csrRamAdr_inj, State.step, State.romAdr, State.test, State.exception, State.pending, testOut, rawTest, '
        'seqAdr, State.ram, ramCtl, RamCtl.memNext, RamCtl.rdataNext, State.regRAdr, State.regWAdr, '
        'State.allowZeroWr, State.csrAdr, CsrState.step, CsrState.datR, csrView, rbNext, '
        'State.doDecode, aNext, bNext, aluNext, oMux, modIn, modOut, pcNext, CauseLatch.step, exceptionOut, '
        'aluZero, gpSet, gpRamAdr_eq_zero, subUnit_low, hd.srcA, hd.srcB, hd.dst, hd.imm, hd.op, hd.enc')

def get(f, k, dflt):
    return f.get(k, dflt)

for x in sorted(rom):
    if x in SKIP: continue
    f = rom[x]
    B = lambda k: f.get(k) == 'true'
    memreq = B('memReq')
    fetch = B('insnFetch')
    if memreq and not fetch: continue
    if x in (0xb5, 0xb6): continue
    tgt = int(re.match(r'(\d+)', f.get('target', '0')).group(1))
    # operands
    A = 'a'
    if B('latchA'):
        A = {'.gp':'rd','.imm':'k.imm','.zero':'0#32','.aluO':'o','.four':'4#32',
             '.negOne':'0xFFFFFFFF#32','.thirtyOne':'31#32'}[f.get('aSrc','.gp')]
    Bv = 'b'
    if B('latchB'):
        Bv = {'.gp':'rd','.imm':'k.imm','.one':'1#32','.pc':'(pc ++ 0#2)','.csrImm':'(k.srcA.setWidth 32)',
              '.csr':'(csrView pa rb rd)','.mcauseLatch':'c.word'}[f.get('bSrc','.gp')]
    op = f.get('aluOp','.add'); im=f.get('aluIMod','.none'); om=f.get('aluOMod','.none')
    if op == '.cmpLtu' or om != '.none':
        O = f'(aluNext {op} {im} {om} a b)'
    else:
        O = {'.add':'(a + b)','.sub':'(a - b)','.and':'(a &&& b)','.or':'(a ||| b)','.xor':'(a ^^^ b)',
             '.sll':'(a <<< 1)','.srl':'(a >>> 1)','.sra':'(a.sshiftRight 1)'}[op]
    PC = {'.hold':'pc','.inc':'(pc + 1#30)','.loadAluO':"(o.extractLsb' 2 30)"}[f.get('pcAction','.hold')]
    csrop = f.get('csrOp','.none')
    insnsel = f.get('csrSel','.insnCsr') == '.insnCsr'
    ADR = 'k.enc' if insnsel else f'{tgt % 16}#4'
    MEM = 'mem'; RD = 'rd'; RB = 'rb'
    mieN, mpieN, meieN = 'mie','mpie','meie'
    if csrop == '.none':
        if B('regWrite'):
            assert f.get('regWSel','.rd') == '.rd' and not B('regRead')
            MEM = '(gpSet mem k.dst o)'
        if B('regRead'):
            RD = '(mem (gpRamAdr %s))' % ('k.srcB' if f.get('regRSel') == '.rs2' else 'k.srcA')
    elif csrop == '.readCsr':
        RD = f'(mem (csrRamAdr {ADR}))'
        RB = f'(rbNext {ADR} mie mpie meie false rb)'
    else:
        MEM = f'(memSet mem (csrRamAdr {ADR}) (csrWriteData {ADR} o))'
        RD = '(mem (gpRamAdr k.srcA))' if not fetch else None
        if insnsel:
            mieN = '(if k.enc = CSR_MSTATUS then o.getLsbD 3 else mie)'
            mpieN = '(if k.enc = CSR_MSTATUS then o.getLsbD 7 else mpie)'
            meieN = '(if k.enc = CSR_MIE then o.getLsbD 11 else meie)'
    ex = f.get('exceptCtl','.none')
    if ex == '.enterInt': mieN, mpieN = 'false','mie'
    if ex == '.leaveInt': mieN, mpieN = 'mpie','true'
    DA = 'o' if B('latchAdr') else 'da'
    WD = f"(writeDataAlign {f.get('memSel','.auto')} da o)" if B('latchData') else 'wd'
    # next address
    jt = f.get('jmpType','.cont'); ct = f.get('condTest','.true_'); inv = B('invertTest')
    nxt = x + 1
    def outcomes():
        if jt == '.cont': return [('', None, nxt, 'c')]
        assert jt in ('.direct','.directZero')
        other = nxt if jt == '.direct' else 0
        if ct == '.true_':
            return [('', None, other if inv else tgt, 'c')]
        if ct == '.cmpAluOZero':
            # test true iff o = 0 (xor inv)
            z, nz = (other, tgt) if inv else (tgt, other)
            return [('_z', 'o = 0#32', z, 'c'), ('_nz', '¬ o = 0#32', nz, 'c')]
        if ct == '.exception':
            assert not inv
            sel = f.get('memSel','.auto')
            cond = {'.latchJal':'o.getLsbD 1', '.latchLoadAdr':f'dataMisaligned {sel} o',
                    '.latchStoreAdr':f'dataMisaligned {sel} o'}[ex]
            num = {'.latchJal':0,'.latchLoadAdr':4,'.latchStoreAdr':6}[ex]
            return [('_t', cond+' = true', tgt, '{ c with cause := %d }' % num), ('_f', cond+' = false', other, 'c')]
        raise Exception((hex(x), ct))
    for suf, cond, na, cc in outcomes():
        gw = B('regWrite') and csrop != '.writeCsr'; cw = csrop == '.writeCsr' and insnsel; st = ex in ('.enterInt', '.leaveInt')
        assert not (st and (gw or cw or suf))
        assert not (gw and cw) and not (suf == '_t' and (gw or cw))
        assert ex in ('.none', '.enterInt', '.leaveInt') or suf in ('_t', '_f'), (hex(x), ex)
        Q = '.x' if suf == '_t' else '.w' if gw else '.c' if cw else '(.stk 1)' if st else '1'
        if fetch: Q = {'.w': '.w0', '.c': '.c0', '1': '0', '(.stk 1)': '(.stk 0)'}[Q]
        hq = '(fun _ => rfl)'
        if suf in ('_t', '_f'):
            hq = '(by intro i; simp [-BitVec.getLsbD_eq_getElem, State.tally, State.cyc, State.exception, exceptionOut, u_%02x, hc%s)' % (x, ', Cnt.x]' if Q == '.x' else ']; rfl')
        hyp = f' (hc : {cond})' if cond else ''
        mip = csrop == '.readCsr' and insnsel
        s0 = f'⟨u_{x:02x}, {x+1}#8, false, false, a, b, o, pc, mem, rd, ⟨mie, mpie, meie, rb, pa⟩, d, c, da, wd⟩'
        def s1(RBx, dec='d'):
            rdx = RD if RD else 'rd'
            return (f'⟨u_{na:02x}, {na+1}#8, false, false, {A}, {Bv}, {O}, {PC}, {MEM}, {rdx},\n'
                    f'      ⟨{mieN}, {mpieN}, {meieN}, {RBx}, {ADR}⟩, {dec}, {cc}, {DA}, {WD}⟩')
        rdq = '' if RD else ' rd'
        extra = f', rom_{na:02x}, u_{x:02x}'
        if cond: extra += ', hc'
        if csrop == '.writeCsr': pass
        def proof(rule, ihyp, RBx, tail):
            return None
        if not fetch:
            if mip:
                hyp += ' (hp : k.enc ≠ CSR_MIP)'
            w(f'theorem q_{x:02x}{suf} (hd : Dec k d){hyp}')
            w(f'    (h : ∀ d{rdq}, Dec k d → Impl F false {s1(RB)} T (n + {Q})) :')
            w(f'    Impl F pv {s0} T n := by')
            if mip: w('  have hp1 : ¬ k.enc = 12#4 := hp')
            pol = 'rfl' if not mip else '(by simp [State.polls, State.csrAdr, u_%02x, hd.enc, hp1])' % x
            w(f'  refine .quietq {Q} rfl {pol} {hq} fun i => ?_')
            call = 'h (d.step false i.datR)' + (' _' if rdq else '') + ' (hd.next _)'
            w(f'  have h := {call}')
            ex2 = ', hp, hp2' if mip else ''
            if mip: w('  have hp2 : ¬ k.enc = 12#4 := hp')
            w(f'  simpa [{SIMP}{extra}{ex2}] using h')
            w('')
            if mip:
                w(f'theorem p_{x:02x}{suf} {{K : Bool → Tree α}} (hd : Dec k d) (hp : k.enc = CSR_MIP)')
                w(f'    (h : ∀ d b0, Dec k d → Impl F false {s1("(meiView b0)")} (K b0) (n + {Q})) :')
                w(f'    Impl F pv {s0} (.poll K) n := by')
                w(f'  refine .pollq {Q} rfl (by simp [State.polls, State.csrAdr, u_{x:02x}, hd.enc, hp]) (by simp [u_{x:02x}, u_01]) {hq} fun i => ?_')
                w(f'  have h := h (d.step false i.datR) i.irq (hd.next _)')
                w(f'  simpa [{SIMP}{extra}, hp] using h')
                w('')
        else:
            w(f'theorem f_{x:02x}{suf} {{r : Req}} {{K : BitVec 32 → Tree α}} (hd : Dec k d){hyp}')
            w(f'    (hr : r = ⟨pc, 0xF, false, 0⟩)')
            w(f'    (h : ∀ d{rdq}, Dec k d → Impl F true {s1(RB)} (.bus r K) (n + {Q})) :')
            w(f'    Impl F false {s0} (.bus r K) n := by')
            w(f'  refine .firstq {Q} rfl rfl hr.symm {hq} fun i hi => ?_')
            call = 'h (d.step false i.datR)' + (' (mem (gpRamAdr (insnRs1 i.datR)))' if rdq else '') + ' (hd.next _)'
            w(f'  have h := {call}')
            w(f'  simpa [{SIMP}{extra}, hi] using h')
            w('')

for x in sorted(rom):
    f = rom[x]
    if f.get('memReq') != 'true' or f.get('insnFetch') == 'true': continue
    st = f.get('writeMem') == 'true'
    sel = f['memSel']; ext = f.get('memExtend', '.zero')
    A, Bv = ('0#32', f'(readDataAlign {sel} {ext} da x)') if not st else ('a', 'b')
    data = f'wd &&& laneMask (wbSel true false {sel} da)' if st else '0'
    w(f'theorem w_{x:02x} {{r : Req}} {{K : BitVec 32 → Tree α}} (hd : Dec k d)')
    w(f"    (hr : r = ⟨da.extractLsb' 2 30, wbSel true false {sel} da, {'true' if st else 'false'}, {data}⟩)")
    w(f'    (h : ∀ x o d, Dec k d → Impl F true ⟨u_{x+1:02x}, {x+2}#8, false, false, {A}, {Bv}, o, pc, mem, rd,')
    w(f'      ⟨mie, mpie, meie, rb, k.enc⟩, d, c, da, wd⟩ (K x) n) :')
    w(f'    Impl F pv ⟨u_{x:02x}, {x+1}#8, false, false, a, b, o, pc, mem, rd, ⟨mie, mpie, meie, rb, pa⟩, d, c, da, wd⟩ (.bus r K) n := by')
    ab = 'a b ' if not st else ''
    w(f'  refine .wait (fun s => ∃ {ab}o pa d, Dec k d ∧ s = ⟨u_{x:02x}, {x+1}#8, false, false, a, b, o, pc, mem, rd,')
    us = '_, _, ' if not st else ''
    w(f'    ⟨mie, mpie, meie, rb, pa⟩, d, c, da, wd⟩) ⟨{us}_, _, _, hd, rfl⟩ ?_ ?_ ?_ ?_')
    pab = 'a, b, ' if not st else ''
    w(f'  · rintro _ ⟨{pab}o, pa, d, hd, rfl⟩; exact ⟨rfl, rfl, hr.symm⟩')
    w(f'  · rintro _ i ⟨{pab}o, pa, d, hd, rfl⟩; rfl')
    w(f'  · rintro _ i ⟨{pab}o, pa, d, hd, rfl⟩ hi')
    aw = '0#32, readDataAlign %s %s da i.datR, ' % (sel, ext) if not st else ''
    w(f'    refine ⟨{aw}a + b, k.enc, d.step false i.datR, hd.next _, ?_⟩')
    w(f'    simp [{SIMP}, rom_{x:02x}, u_{x:02x}, hi]')
    w(f'  · rintro _ i ⟨{pab}o, pa, d, hd, rfl⟩ hi')
    w(f'    have h := h i.datR (a + b) (d.step false i.datR) (hd.next _)')
    w(f'    simpa [{SIMP}, rom_{x+1:02x}, u_{x:02x}, hi] using h')
    w('')
w('end Sentinel')
open('Verif/Proof/Steps.lean','w').write('\n'.join(out)+'\n')
