import json,re,os,glob
root='/repo'
bad=0
for l in open('/verif/properties.jsonl'):
    q=json.loads(l)
    for a in q['anchors']:
        m=re.match(r'([\w/\.]+\.py)\s*(?::\s*(.*))?$',a)
        if not m: print(q['id'],'odd anchor',a); continue
        p=os.path.join(root,m[1])
        if not os.path.exists(p): print(q['id'],'no file',a); continue
        src=open(p,encoding='latin-1').read()
        for n in re.split(r',\s*',m[2] or ''):
            n=n.strip().split('.')[-1].split(' ')[0].split('(')[0]
            if n and not re.search(r'\b(def|class)\s+%s\b|^\s*%s\s*='%(re.escape(n),re.escape(n)),src,re.M):
                print(q['id'],'name not defined:',n,'|',a); bad+=1
print('anchors bad',bad)
files={}
for p in glob.glob(root+'/channelpack/**/*.py',recursive=True): files.setdefault(os.path.basename(p),[]).append(p)
tot=0
for f in sorted(glob.glob('/verif/lean/Verif/Model/*.lean')):
    s=open(f).read()
    for m in re.finditer(r'((?:\w+/)*\w+\.py):(\d+(?:-\d+)?(?:, (?:and )?\d+(?:-\d+)?)*)(?: `([A-Za-z_0-9\.]+)`)?',s):
        tot+=1
        ps=[p for p in files.get(os.path.basename(m[1]),[]) if p.endswith(m[1])]
        ln=s[:m.start()].count('\n')+1
        if not ps: print(f,ln,'no file',m[0]); continue
        ok=False; why=''
        for p in ps:
            L=open(p,encoding='latin-1').read().split('\n')
            rs=[tuple(map(int,(x.split('-')*2)[:2])) for x in re.findall(r'\d+(?:-\d+)?',m[2])]
            if any(b>len(L) or a>b for a,b in rs): why='range'; continue
            if m[3]:
                n=m[3].split('.')[-1]
                # the name should occur in the lines cited or be the function around them
                txt='\n'.join('\n'.join(L[max(0,a-3):b]) for a,b in rs)
                enc=[re.match(r'\s*(?:def|class)\s+(\w+)',x)[1] for x in reversed(L[:rs[0][0]]) if re.match(r'\s*(?:def|class)\s+\w+',x)][:1]
                if n not in txt and n not in enc: why='name not at lines'; continue
            ok=True
        if not ok: print(os.path.basename(f),ln,why,m[0])
print('citations',tot)
