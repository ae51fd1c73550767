# tests/sim/test_witness.py on the model: the same (ack, dat_r) in every cycle, the same final state
import re,subprocess,os
src=open('/repo/tests/sim/test_witness.py').read()
p=src[src.index('async def proc'):src.index('expected_regs')]
ack=dat=0; seq=[]
for l in p.split('\n'):
    m=re.search(r'bus\.(ack|dat_r), (0b[01]+)',l)
    if m:
        if m.group(1)=='ack': ack=int(m.group(2),2)
        else: dat=int(m.group(2),2)
    if 'ctx.tick()' in l: seq+=[ack,dat]
o=subprocess.run([os.path.join(os.environ.get('CONF','/tmp/conf'),'WitRun.exe')]+[str(x) for x in seq],capture_output=True,text=True).stdout
v=[int(x) for x in o.split()]
er=[0]*33; er[8]=0x1800; er[32]=8>>2
ec=[0,0x1800,0,0,0,0,0]
print('witness',len(seq)//2,'cycles, registers','ok' if v[:33]==er else ('BAD',[(i,x,y) for i,(x,y) in enumerate(zip(v[:33],er)) if x!=y]),'csrs','ok' if v[33:]==ec else ('BAD',v[33:]))
