# tests/upstream/test_upstream.py on the model: run every binary, compare with the expectation of the repo
import glob,os,re,subprocess
src=open('/repo/tests/upstream/test_upstream.py').read()
names=sorted(os.path.basename(f) for f in glob.glob('/repo/tests/upstream/binaries/*') if os.path.isfile(f) and not f.endswith('.dump'))
xfail=[n for n in names if re.search(r'["\']%s["\'][^\n]*xfail|xfail[^\n]*["\']%s["\']'%(n,n),src)]
o=subprocess.run([os.path.join(os.environ.get('CONF','/tmp/conf'),'Conf.exe')]+names,capture_output=True,text=True).stdout
p=[l.split(':')[0] for l in o.split('\n') if re.search(r'host #\[\(16777216, 1\), \(16777217, 0\)\]',l)]
f=[n for n in names if n not in p]
print(len(names),'binaries; pass:',len(p),'fail:',f)
print('marked xfail in the repo:',xfail or '(see test_upstream.py)')
