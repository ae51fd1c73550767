import os,re,subprocess
# --- load the test data of tests/sim/test_top.py
src=open('/repo/tests/sim/test_top.py').read()
conf=open('/repo/tests/sim/conftest.py').read()
ns={}
exec(conf.split('@pytest')[0],ns)
start=src.index('@dataclass\nclass SeqArgs'); end=src.index('@pytest.mark.parametrize("memory,program_state"')
from typing import Union
from dataclasses import dataclass
ns.update(dataclass=dataclass,Union=Union)
exec(src[start:end],ns)
# --- a small assembler for the syntax of bronzebeard
ABI={n:i for i,n in enumerate("zero ra sp gp tp t0 t1 t2 s0 s1 a0 a1 a2 a3 a4 a5 a6 a7 s2 s3 s4 s5 s6 s7 s8 s9 s10 s11 t3 t4 t5 t6".split())}
def reg(x): return int(x[1:]) if re.fullmatch(r'x\d+',x) else ABI[x]
R={'add':(0,0),'sub':(0,0x20),'sll':(1,0),'slt':(2,0),'sltu':(3,0),'xor':(4,0),'srl':(5,0),'sra':(5,0x20),'or':(6,0),'and':(7,0)}
I={'addi':0,'slti':2,'sltiu':3,'xori':4,'ori':6,'andi':7}
SH={'slli':(1,0),'srli':(5,0),'srai':(5,0x20)}
L={'lb':0,'lh':1,'lw':2,'lbu':4,'lhu':5}; S={'sb':0,'sh':1,'sw':2}
B={'beq':0,'bne':1,'blt':4,'bge':5,'bltu':6,'bgeu':7}
C={'csrrw':1,'csrrs':2,'csrrc':3,'csrrwi':5,'csrrsi':6,'csrrci':7}
def assemble(p):
    items=[];labels={};pc=0
    for l in p.split('\n'):
        l=l.split('#')[0].strip()
        if not l: continue
        m=re.match(r'^(\S+):$',l)
        if m: labels[m.group(1)]=pc; continue
        t=l.replace(',',' , ').split(None,1)
        ops=[o.strip() for o in (t[1] if len(t)>1 else '').split(',')]
        items.append((pc,t[0],ops)); pc+=4
    out=[]
    for pc,op,o in items:
        ev=lambda e,rel=False: (lambda v:v)(eval(re.sub(r'[A-Za-z_]\w*',lambda m:str(labels[m.group(0)]) if m.group(0) in labels else m.group(0),e)))
        if op=='nop': w=0x13
        elif op=='fence': w=0x0ff0000f
        elif op=='ecall': w=0x73
        elif op=='dw': w=eval(o[0])
        elif op=='li': w=(ev(o[1])&0xfff)<<20|reg(o[0])<<7|0x13
        elif op in R: f3,f7=R[op]; w=f7<<25|reg(o[2])<<20|reg(o[1])<<15|f3<<12|reg(o[0])<<7|0x33
        elif op in I: w=(ev(o[2])&0xfff)<<20|reg(o[1])<<15|I[op]<<12|reg(o[0])<<7|0x13
        elif op in SH: f3,f7=SH[op]; w=f7<<25|(ev(o[2])&31)<<20|reg(o[1])<<15|f3<<12|reg(o[0])<<7|0x13
        elif op in L: w=(ev(o[2])&0xfff)<<20|reg(o[1])<<15|L[op]<<12|reg(o[0])<<7|0x03
        elif op in S: i=ev(o[2])&0xfff; w=(i>>5)<<25|reg(o[1])<<20|reg(o[0])<<15|S[op]<<12|(i&31)<<7|0x23
        elif op=='jalr': w=(ev(o[2])&0xfff)<<20|reg(o[1])<<15|reg(o[0])<<7|0x67
        elif op=='lui': w=(ev(o[1])&0xfffff)<<12|reg(o[0])<<7|0x37
        elif op=='auipc': w=(ev(o[1])&0xfffff)<<12|reg(o[0])<<7|0x17
        elif op=='jal':
            if len(o)==1: o=['x1']+o
            i=ev(o[1])-pc if o[1] in labels else ev(o[1]); i&=0x1fffff
            w=(i>>20)<<31|((i>>1)&0x3ff)<<21|((i>>11)&1)<<20|((i>>12)&0xff)<<12|reg(o[0])<<7|0x6f
        elif op in B:
            i=(labels[o[2]]-pc)&0x1fff
            w=(i>>12)<<31|((i>>5)&0x3f)<<25|reg(o[1])<<20|reg(o[0])<<15|B[op]<<12|((i>>1)&0xf)<<8|((i>>11)&1)<<7|0x63
        elif op in C:
            s=ev(o[1]) if op.endswith('i') else reg(o[1]); w=(ev(o[2])&0xfff)<<20|s<<15|C[op]<<12|reg(o[0])<<7|0x73
        else: raise Exception(op)
        out.append(w&0xffffffff)
    return out
if __name__=='__main__':
  for name in ['HANDWRITTEN','CSR_R0','CSRW','EXCEPTION']:
    a=ns[name]; ws=assemble(a.program)
    n=min(len(a.regs),len(a.ram),len(a.csrs))
    o=subprocess.run([os.path.join(os.environ.get('CONF','/tmp/conf'),'SeqRun.exe'),str(n)]+[str(w) for w in ws],capture_output=True,text=True).stdout.split('\n')
    bad=0
    for k in range(n):
        v=[int(x) for x in o[k].split()]
        r=a.regs[k]; er=[getattr(r,'R%d'%i) for i in range(32)]+[r.PC]
        c=a.csrs[k]; ec=[c.MSCRATCH,c.MSTATUS,c.MTVEC,c.MEPC,c.MCAUSE,c.MIP,c.MIE]
        if v[:33]!=er: bad+=1; print(name,k,'regs',[(i,x,y) for i,(x,y) in enumerate(zip(v[:33],er)) if x!=y])
        if v[33:40]!=ec: bad+=1; print(name,k,'csrs',v[33:40],ec)
        for adr,d in (a.ram[k] or {}).items():
            if v[40+adr]!=d: bad+=1; print(name,k,'mem',hex(adr),hex(v[40+adr]),hex(d))
    print(name,n,'checks,',bad,'bad')
