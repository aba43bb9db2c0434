import json,os,re
for l in open('/verif/properties.jsonl'):
    d=json.loads(l)
    for a in d['anchors']:
        f,_,syms=a.partition(':')
        f=f.strip(); 
        p='/repo/'+f
        if not os.path.exists(p): print(d['id'],'NOFILE',a); continue
        if os.path.isdir(p): continue
        t=open(p,errors='ignore').read()
        for s in re.split(r'[,\s]+',syms.strip()):
            s=s.strip('()').split('.')[-1]
            if s and not re.match(r'^[\d-]+$',s) and s not in t: print(d['id'],'NOSYM',s,a)
