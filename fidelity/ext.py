import re,sys,os,json
def lits(s):
    "sequence of C++ string literals and other tokens"
    out=[];i=0
    while i<len(s):
        c=s[i]
        if c=='"':
            j=i+1;r=''
            while s[j]!='"':
                if s[j]=='\\':
                    j+=1;e=s[j]
                    if e=='x':
                        m=re.match(r'[0-9A-Fa-f]+',s[j+1:]);r+=chr(int(m.group(0),16)&255);j+=len(m.group(0))
                    elif e in '01234567':
                        m=re.match(r'[0-7]{1,3}',s[j:]);r+=chr(int(m.group(0),8));j+=len(m.group(0))-1
                    else: r+={'n':'\n','t':'\t','r':'\r','f':'\f','v':'\v'}.get(e,e)
                else:
                    r+=''.join(chr(b) for b in s[j].encode('utf-8'))
                j+=1
            out.append(('s',r));i=j+1
        elif s.startswith('//',i):
            j=s.index('\n',i);i=j
        elif s.startswith('/*',i):
            i=s.index('*/',i)+2
        elif re.match(r'\w',c) :
            m=re.match(r'[\w:\.]+(\([^()]*\))?',s[i:]);out.append(('t',m.group(0)));i+=len(m.group(0))
        else:
            if not c.isspace(): out.append(('p',c))
            i+=1
    return out
def stmt_end(s,i):
    # end of statement ; skipping strings/comments
    while True:
        c=s[i]
        if c=='"':
            i+=1
            while s[i]!='"':
                if s[i]=='\\': i+=1
                i+=1
        elif s.startswith('//',i): i=s.index('\n',i)
        elif c=="'" : 
            i+=1
            while s[i]!="'":
                if s[i]=='\\': i+=1
                i+=1
        elif c==';': return i
        i+=1
def cases(f):
    src=open(f,encoding='utf-8').read()
    starts=[m.start() for m in re.finditer(r'std::stringstream ss\b',src)]
    res=[]
    for a,st in enumerate(starts):
        res.append((f'{a}:{src.count(chr(10),0,st)+1}',src[st:starts[a+1] if a+1<len(starts) else len(src)]))
    return res
def source(blk):
    m=re.search(r'\bss << ',blk)
    if not m: return None
    try: e=stmt_end(blk,m.end())
    except Exception: return None
    L=lits(blk[m.end():e])
    if any(t=='t' for t,_ in L): return None
    return ''.join(v for t,v in L if t=='s')
def trees(blk):
    out=[]
    for m in re.finditer(r'VERIFY_TREES\(out\.str\(\),',blk):
        try: e=stmt_end(blk,m.end())
        except Exception: continue
        L=lits(blk[m.end():e])
        out.append([(t,v) for t,v in L if t in 'st'])
    return out
def errs(blk):
    out=[]
    for m in re.finditer(r'VERIFY_ERRORS\(',blk):
        try: e=stmt_end(blk,m.end())
        except Exception: continue
        L=lits(blk[m.end():e])
        out.append(''.join(v for t,v in L if t=='s'))
    return out
