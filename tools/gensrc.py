import re
txt=open('/repo/src/sentinel/microcode.asm').read().split('\n')
# strip comments but keep line numbers
lines=[re.sub(r'//.*','',l) for l in txt]
macros={}
for n,l in enumerate(lines,1):
    m=re.match(r'#define\s+(\w+)(\((\w+)\))?\s+(.*)$',l)
    if m: macros[m.group(1)]=(m.group(3),m.group(4).strip(),n)
start=[n for n,l in enumerate(lines) if l.startswith('fetch:')][0]
body='\n'.join(lines[start:])
# walk statements
stm=[];cur='';ln=start+1;sl=None
for ch in body:
    if ch=='\n': ln+=1
    if ch==';':
        stm.append((cur,sl,ln)); cur='';sl=None; continue
    if ch=='\\': continue
    if not ch.isspace() and sl is None: sl=ln
    cur+= ' ' if ch=='\n' else ch
assert cur.strip()=='',cur
fieldmap={'target':'target','jmp_type':'jmpType','cond_test':'condTest','invert_test':'invertTest','pc_action':'pcAction','latch_a':'latchA','latch_b':'latchB','a_src':'aSrc','b_src':'bSrc','alu_op':'aluOp','alu_i_mod':'aluIMod','alu_o_mod':'aluOMod','reg_read':'regRead','reg_write':'regWrite','reg_r_sel':'regRSel','reg_w_sel':'regWSel','csr_op':'csrOp','csr_sel':'csrSel','mem_req':'memReq','mem_sel':'memSel','mem_extend':'memExtend','latch_adr':'latchAdr','latch_data':'latchData','write_mem':'writeMem','insn_fetch':'insnFetch','except_ctl':'exceptCtl'}
enumv={'jmp_type':{'cont':'cont','nop':'cont','map':'map','direct':'direct','direct_zero':'directZero'},
'cond_test':{'exception':'exception','cmp_alu_o_zero':'cmpAluOZero','mem_valid':'memValid','true':'true_'},
'pc_action':{'hold':'hold','inc':'inc','load_alu_o':'loadAluO'},
'a_src':{'gp':'gp','imm':'imm','alu_o':'aluO','zero':'zero','four':'four','neg_one':'negOne','thirty_one':'thirtyOne'},
'b_src':{'gp':'gp','pc':'pc','imm':'imm','one':'one','dat_r':'datR','csr_imm':'csrImm','csr':'csr','mcause_latch':'mcauseLatch'},
'alu_op':{x:x for x in 'add sub and or xor sll srl sra'.split()}|{'cmp_ltu':'cmpLtu'},
'alu_i_mod':{'none':'none','inv_msb_a_b':'invMsbAB'},
'alu_o_mod':{'none':'none','inv_lsb_o':'invLsbO','clear_lsb_o':'clearLsbO'},
'reg_r_sel':{'insn_rs1':'rs1','insn_rs2':'rs2'},'reg_w_sel':{'insn_rd':'rd','zero':'zero'},
'csr_op':{'none':'none','read_csr':'readCsr','write_csr':'writeCsr'},'csr_sel':{'insn_csr':'insnCsr','trg_csr':'trgCsr'},
'mem_sel':{x:x for x in 'auto byte hword word'.split()},'mem_extend':{'zero':'zero','sign':'sign'},
'except_ctl':{'none':'none','latch_decoder':'latchDecoder','latch_jal':'latchJal','latch_store_adr':'latchStoreAdr','latch_load_adr':'latchLoadAdr','enter_int':'enterInt','leave_int':'leaveInt'}}
labels=[]
def lean_assign(f,v,param=None):
    if f=='target':
        if param and v==param: return f'.target {param}'
        if v in CONSTS: return f'.target (.num {v})'
        if re.match(r'^(0x)?[0-9A-Fa-f]+$',v) and v[0].isdigit(): return f'.target (.num {v})'
        return f'.target (.lbl .{v})'
    if f in enumv: return f'.{fieldmap[f]} .{enumv[f][v]}'
    return f'.{fieldmap[f]} {"true" if v in("1","true") else "false"}'
CONSTS=[k for k,(p,b,n) in macros.items() if re.match(r'^(0x)?[0-9A-Fa-f]+$',b)]
def items(s):
    return [x.strip() for x in s.split(',')]
def leanlist(s,param=None):
    out=[];cur=[]
    def flush():
        nonlocal cur
        if cur: out.append('['+', '.join(cur)+']'); cur=[]
    for it in items(s):
        m=re.match(r'^(\w+)\s*=>\s*(\w+)$',it)
        if m: cur.append(lean_assign(m.group(1),m.group(2),param)); continue
        flush()
        m=re.match(r'^(\w+)\((\w+)\)$',it)
        if m: out.append(f'{m.group(1)} (.lbl .{m.group(2)})'); continue
        assert it in macros,(it,s)
        out.append(it)
    flush()
    return ' ++ '.join(out)
prog=[]
for s,a,b in stm:
    s=s.strip()
    m=re.match(r'^origin\s+(\w+)$',s)
    if m: prog.append(('origin',m.group(1),a,b)); continue
    while True:
        m=re.match(r'^(\w+)\s*:\s*(.*)$',s)
        if not m: break
        labels.append(m.group(1)); prog.append(('label',m.group(1),a,b)); s=m.group(2)
    prog.append(('insn',leanlist(s),a,b))
o=[]
o.append('''import Verif.Ucode.Fields
/-!
# Microcode source

A line-by-line transliteration of `src/sentinel/microcode.asm` 93-517.  Each `#define` is a Lean
definition of the same name, each statement of the source is one `Stmt` with its source lines.
Comments of the source are not repeated.  `Verif/Ucode/Asm.lean` assembles it.
-/

namespace Sentinel.Ucode

/-- Every label of `microcode.asm`. -/
inductive Label''')
for i in range(0,len(labels),10): o.append('  | '+' | '.join(labels[i:i+10]))
o.append('  deriving DecidableEq, Repr\n')
o.append('''/-- The value of the `target` field: a label, or a number (CSR address in private RAM). -/
inductive Trg | lbl (l : Label) | num (n : Nat)
  deriving DecidableEq, Repr

/-- One `field => value` assignment of a microinstruction (fields: `microcode.asm` 14-91). -/
inductive Assign
  | target (t : Trg) | jmpType (v : JmpType) | condTest (v : CondTest) | invertTest (v : Bool)
  | pcAction (v : PcAction) | latchA (v : Bool) | latchB (v : Bool) | aSrc (v : ASrc)
  | bSrc (v : BSrc) | aluOp (v : OpType) | aluIMod (v : ALUIMod) | aluOMod (v : ALUOMod)
  | regRead (v : Bool) | regWrite (v : Bool) | regRSel (v : RegRSel) | regWSel (v : RegWSel)
  | csrOp (v : CSROp) | csrSel (v : CSRSel) | memReq (v : Bool) | memSel (v : MemSel)
  | memExtend (v : MemExtend) | latchAdr (v : Bool) | latchData (v : Bool) | writeMem (v : Bool)
  | insnFetch (v : Bool) | exceptCtl (v : ExceptCtl)
  deriving Repr

/-- A statement of the source. -/
inductive Stmt | origin (n : Nat) | label (l : Label) | insn (fs : List Assign)
  deriving Repr
''')
# topologically order macros
order=[];done=set()
def visit(k):
    if k in done: return
    done.add(k)
    for it in items(macros[k][1]):
        nm=re.match(r'^(\w+)',it).group(1)
        if nm in macros and '=>' not in it: visit(nm)
        m=re.match(r'^\w+\s*=>\s*(\w+)$',it)
        if m and m.group(1) in macros: visit(m.group(1))
    order.append(k)
for k in macros: visit(k)
for k in order:
    p,b,n=macros[k]
    if k in CONSTS: o.append(f'/-- `microcode.asm` {n}. -/\nabbrev {k} : Nat := {b}'); continue
    if k=='NOP': continue
    par=f' ({p} : Trg)' if p else ''
    o.append(f'/-- `microcode.asm` {n}. -/\ndef {k}{par} : List Assign :=\n  {leanlist(b,p)}')
o.append('')
chunks=[];c0=[]
for x in prog:
    if x[0]=='origin' and len(c0)>8:
        chunks.append(c0); c0=[]
    c0.append(x)
chunks.append(c0)
names=[]
for ci,ch in enumerate(chunks):
  names.append(f'src{ci}')
  o.append(f'/-- `microcode.asm` {ch[0][2]}-{ch[-1][3]}. -/\ndef src{ci} : List Stmt := [')
  for i,(k,v,a,b) in enumerate(ch):
    c=',' if i+1<len(ch) else ' ]'
    if k=='origin': o.append(f'  .origin {v}{c} -- {a}')
    elif k=='label': o.append(f'  .label .{v}{c} -- {a}')
    else: o.append(f'    .insn ({v}){c} -- {a}' + (f'-{b}' if b!=a else ''))
o.append('\n/-- The program, `microcode.asm` 123-517. -/\ndef source : List Stmt :=\n  '+' ++ '.join(names)); o.append('\nend Sentinel.Ucode')
open('/verif/lean/Verif/Ucode/Source.lean','w').write('\n'.join(o)+'\n')
