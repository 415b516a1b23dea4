import re
src=open('/repo/strtk.hpp').read()
# function definitions with params t1..tN ; find each signature
lines=src.split('\n')
i=0
out=[]
for m in re.finditer(r'inline\s+(?:bool|void|std::size_t|[\w:]+)\s+(\w+)\s*\(([^{};]*)\)\s*(?:const)?\s*\{',src):
    name,params=m.group(1),m.group(2)
    ns=[int(x) for x in re.findall(r'\b[Tt]\d*&?\s+(?:t|value|v|s)_?(\d+)\b',params)]
    ps=re.findall(r'\b(?:t|v|s|value)(\d+)\b',params)
    if len(ps)<2: continue
    # body
    d=0;j=m.end()-1
    while True:
        c=src[j]
        if c=='{':d+=1
        elif c=='}':
            d-=1
            if d==0:break
        j+=1
    body=src[m.end():j]
    N=len(ps)
    exp=list(map(str,range(1,N+1)))
    ok1 = ps==exp or ps==list(map(str,range(0,N)))
    cm=re.findall(r'strtk_cmpstmt\(\s*(\d+)\)',body)
    allrefs=[]
    for t in re.finditer(r'strtk_\w+\(\s*(\d+)\s*\)|\b(?:t|v|s|value)(\d+)\b',body):
        if '#define' in body[max(0,body.rfind('\n',0,t.start())):t.start()]: continue
        allrefs.append(t.group(1) or t.group(2))
    tc=re.findall(r'token_count\s*=\s*(\d+)',body)
    line=src.count('\n',0,m.start())+1
    flag = '' if ok1 and allrefs==ps and (not tc or tc==[str(N)]) else '  <<<<'
    out.append((line,name,N,tc,flag, allrefs if flag else ''))
for o in out: print(*o)
