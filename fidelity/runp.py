from ext import *
import os,shutil
d='./parser'; shutil.rmtree(d,ignore_errors=True); os.mkdir(d)
C=cases('/repo/tests/catch_parser.cpp'); exp={}
for i,(n,b) in enumerate(C):
    s=source(b); t=trees(b)
    if s is None or not t or 'p.stylesheet()' not in b: continue
    open(f'{d}/{i}.in','wb').write(s.encode('latin1'))
    exp[i]=(n,''.join(v for k,v in t[0] if k=='s').encode('latin1'),errs(b)[0] if errs(b) else '')
os.system('cd /verif/lean && lake env lean --run ./p1.lean ./parser 200')
ok=0
for i,(n,e,er) in exp.items():
    o=open(f'{d}/{i}.out','rb').read(); m=open(f'{d}/{i}.st').read()
    ne=er.count('\n')
    if o==e: ok+=1
    else: print('DIFF',n,m); open(f'{d}/{i}.exp','wb').write(e)
    if m.split()[0]!='ok' or sum(map(int,m.split()[1:]))!=ne: print('ERRS',n,m,repr(er)[:200])
print(ok,len(exp))
