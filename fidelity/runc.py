from ext import *
import os,shutil,sys
TEST=sys.argv[1] if len(sys.argv)>1 else 'compiler'
d='./'+TEST; shutil.rmtree(d,ignore_errors=True); os.mkdir(d)
C=cases(f'/repo/tests/catch_{TEST}.cpp'); exp={}
def strip(t):
    out=[];k=None
    for l in t.split('\n'):
        ind=len(l)-len(l.lstrip(' '))
        if k is not None and ind>=k+2: continue
        k=None
        if l.lstrip().startswith('V:'): k=ind; continue
        l=re.sub(r'( F:\w+)+$','',l)
        if '@preserve -- CSS file parsed by' in l: l='  LOGO'
        out.append(l)
    return '\n'.join(out)
for i,(n,b) in enumerate(C):
    s=source(b); t=trees(b)
    if s is None or not t: continue
    m=re.search(r'c\.compile\((true|false)\)',b)
    if not m: continue
    # tree after compile: last VERIFY_TREES
    p=[x.start() for x in re.finditer(r'VERIFY_TREES',b)]
    if p[-1]<m.start(): continue
    open(f'{d}/{i}.in','wb').write(s.encode('latin1'))
    if m.group(1)=='true': open(f'{d}/{i}.bare','w')
    e=''.join(v if k=='s' else ('  LOGO\n' if 'close_comment' in v else '') for k,v in t[-1])
    exp[i]=(n,strip(e),errs(b))
os.system(f'cd /verif/lean && lake env lean --run ./c2.lean {d} 300 2>&1 | grep -v "warning\|^$\|Hint\|Note\|apply" | head -20')
ok=0
for i,(n,e,er) in exp.items():
    try: o=strip(open(f'{d}/{i}.out','rb').read().decode('latin1')); m=open(f'{d}/{i}.st').read()
    except Exception: print('NOOUT',n); continue
    if o==e: ok+=1
    else:
        print('DIFF',i,n,m); open(f'{d}/{i}.exp','w',encoding='latin1').write(e); open(f'{d}/{i}.got','w',encoding='latin1').write(o)
print(ok,len(exp))
