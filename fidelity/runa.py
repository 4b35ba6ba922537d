
from ext import *
import os,shutil,sys
T=0;O=0
for TEST in sys.argv[1:]:
    d='./'+TEST+'_a'; shutil.rmtree(d,ignore_errors=True); os.mkdir(d)
    C=cases(f'/repo/tests/catch_{TEST}.cpp'); exp={}
    for i,(n,b) in enumerate(C):
        s=source(b)
        if s is None: continue
        m=re.search(r'c\.compile\((true|false)\)',b)
        if not m: continue
        got={}
        for r in re.finditer(r'CATCH_REQUIRE\((?:assembler_out|out)\.str\(\) ==',b):
            try: e=stmt_end(b,r.end())
            except Exception: continue
            L=lits(b[r.end():e])
            x=''
            bad=False
            for k,v in L:
                if k=='s': x+=v
                elif k=='t' and 'close_comment' in v: x+='LOGO\n'
                elif k=='t': bad=True
            pre=b[:r.start()]
            mo=[y.group(1) for y in re.finditer(r'(?:case |a\.output\(n, *)csspp::output_mode_t::(\w+)',pre)]
            if bad or not mo: continue
            k=mo[-1]
            got.setdefault(k,x)
        if not got: continue
        open(f'{d}/{i}.in','wb').write(s.encode('latin1'))
        if m.group(1)=='true': open(f'{d}/{i}.bare','w')
        if 'set_no_logo' in b: open(f'{d}/{i}.nologo','w')
        for k,x in got.items():
            open(f'{d}/{i}.{k}.exp','wb').write(x.encode('latin1')); exp[i,k]=(n,x)
    os.system(f'cd /verif/lean && lake env lean --run ./a2.lean {d} 300 2>&1 | grep -v "warning\|^$\|Hint\|Note\|apply" | head -20')
    ok=0
    for (i,k),(n,e) in exp.items():
        try: o=open(f'{d}/{i}.{k}.out','rb').read().decode('latin1'); m=open(f'{d}/{i}.{k}.st').read()
        except Exception: print('NOOUT',TEST,n,k); continue
        o=re.sub(r'/\* @preserve -- CSS file parsed by [^*]*\*/','LOGO',o)
        if o==e: ok+=1
        else: print('DIFF',TEST,i,k,n,m)
    print(TEST,ok,len(exp)); T+=len(exp); O+=ok
print(O,T)
