import re,os,json
man=json.load(open('MANIFEST.json'))
names=set(t.split('.')[-1] for c in man['claims'] for t in c['theorems'])
allex=''
decls={}
for root,_,fs in os.walk('lean/Verif'):
    for f in fs:
        p=os.path.join(root,f)
        s=open(p).read()
        ds=[(m.start(),m.group(1),m.group(2)) for m in re.finditer(r'^(theorem|example|def|lemma|structure|inductive|abbrev|instance)\s*(\S*)',s,re.M)]
        decls[p]=(s,ds)
        for k,(a,kd,n) in enumerate(ds):
            e=ds[k+1][0] if k+1<len(ds) else len(s)
            if kd=='example': allex+=s[a:e]
miss=[]
for p,(s,ds) in decls.items():
    for k,(a,kd,n) in enumerate(ds):
        n=n.split('.')[-1]
        if kd=='theorem' and n in names:
            near=any(d[1]=='example' for d in ds[k+1:k+7]) 
            if near: continue
            if re.search(r'\b'+n+r'\b',allex): continue
            e=ds[k+1][0] if k+1<len(ds) else len(s)
            body=s[a:e]
            # binder hyps
            i=0;depth=0;st=''
            m=re.search(r':=\s*(by|fun|⟨|\n|[A-Za-z])',body)
            st=body[:m.start()] if m else body
            hyps=re.findall(r'\((h\w*|\w*)\s*:\s*([^()]*(?:\([^()]*\)[^()]*)*)\)',st)
            hh=[h for h in hyps if re.search(r'=|≤|<|≠|∈|→|∀|∃|¬|\bok\b|Rep|Inv|Valid|Well',h[1]) and not re.search(r'→\s*(Bool|Nat|Option|List|Outcome)',h[1])]
            arrow='→' in st
            if hh: miss.append((p.replace('lean/Verif/',''),n,[h[0] for h in hh]))
print(len(miss))
for m in miss: print(m)
print('=====')
for p,n,h in miss:
    s,ds=decls['lean/Verif/'+p]
    k=[i for i,d in enumerate(ds) if d[1]=='theorem' and d[2].split('.')[-1]==n][0]
    ex=[i for i,d in enumerate(ds) if d[1]=='example']
    nxt=[i-k for i in ex if i>k][:1]; prv=[k-i for i in ex if i<k][-1:]
    print(p,n,len(ex),'next',nxt,'prev',prv)
